import Mathlib.Tactic.IntervalCases
import Verif.Lemmas.Fr381
import Verif.Model.TestInputs
import Verif.Properties.ClientError
import Verif.Properties.Separators
/-! The crate's tests of whole circuits with the inputs they have in the source, over the field they use (C82). -/
set_option autoImplicit false
set_option linter.unusedSectionVars false
open Polynomial
namespace ZK

section
variable {F : Type} [Field F]

/-- The copies of `copy_plonk`. -/
def copyPlonkNext : Fin 3 × Fin 8 → Fin 3 × Fin 8 := fun x =>
  (((![![(1, 0), (2, 0), (0, 2), (0, 0), (2, 1), (0, 5), (2, 4), (0, 7)],
    ![(1, 1), (0, 3), (1, 3), (1, 2), (2, 3), (1, 6), (1, 5), (1, 7)],
    ![(0, 1), (0, 4), (2, 2), (1, 4), (0, 6), (2, 5), (2, 7), (2, 6)]] : Fin 3 → Fin 8 → Fin 3 × Fin 8) x.1) x.2)

theorem copyPlonkNext_bijective : Function.Bijective copyPlonkNext :=
  Finite.injective_iff_bijective.1 (by decide +kernel)

noncomputable def copyPlonkPerm : Equiv.Perm (Fin 3 × Fin 8) := Equiv.ofBijective copyPlonkNext copyPlonkNext_bijective

theorem copyPlonkPerm_apply (x : Fin 3 × Fin 8) : copyPlonkPerm x = copyPlonkNext x := rfl

theorem copyPlonk_sigmas (d : Domain F) (a b c : List F) (x : Fin 3 × Fin 8) :
    valueAt (copyPlonkCircuit d a b c).sigmas x.1 x.2
      = (copyPlonkCircuit d a b c).info.deltas.getD (copyPlonkPerm x).1 0 * d.omega ^ ((copyPlonkPerm x).2 : Nat) := by
  obtain ⟨k, i⟩ := x
  rw [copyPlonkPerm_apply]
  fin_cases k <;> fin_cases i <;> rfl

theorem copyPlonk_copies (d : Domain F) (r : F) (blindA blindB blindC : List F) (x : Fin 3 × Fin 8) :
    valueAt (copyPlonkAt d r blindA blindB blindC).columns.witness (copyPlonkPerm x).1 (copyPlonkPerm x).2
      = valueAt (copyPlonkAt d r blindA blindB blindC).columns.witness x.1 x.2 := by
  obtain ⟨k, i⟩ := x
  rw [copyPlonkPerm_apply]
  fin_cases k <;> fin_cases i <;> rfl

theorem forall_lt_16 {P : Nat → Prop} (h : P 0 ∧ P 1 ∧ P 2 ∧ P 3 ∧ P 4 ∧ P 5 ∧ P 6 ∧ P 7 ∧ P 8 ∧ P 9 ∧ P 10 ∧ P 11 ∧ P 12 ∧ P 13 ∧ P 14 ∧
    P 15) : ∀ i < 16, P i := by
  intro i hi
  obtain ⟨h0, h1, h2, h3, h4, h5, h6, h7, h8, h9, h10, h11, h12, h13, h14, h15⟩ := h
  interval_cases i <;> assumption

theorem copyPlonkAt_holds {d : Domain F} (h16 : d.size = 16) {x : F} (hx : x ^ 3 + 2 * x + 12 = 0) (blindA blindB blindC : List F) :
    (copyPlonkAt d x blindA blindB blindC).Holds d copyPlonkPerm := by
  refine copyTest_holds ?_ (copyPlonk_sigmas d [] [] []) (copyPlonk_copies d x blindA blindB blindC)
  rw [h16]
  have hrow : ∀ a b c : F, (0 : F) * a * b + 0 * a + 0 * b + 0 * c + 0 + 0 = 0 := fun a b c => by ring
  refine forall_lt_16 ⟨?_, ?_, ?_, ?_, ?_, ?_, ?_, ?_, hrow _ _ _, hrow _ _ _, hrow _ _ _, hrow _ _ _, hrow _ _ _, hrow _ _ _,
    hrow _ _ _, hrow _ _ _⟩
  · show (1 : F) * x * x + 0 * _ + 0 * _ + -1 * (x * x) + 0 + 0 = 0
    ring
  · show (1 : F) * (x * x) * x + 0 * _ + 0 * _ + -1 * (x * (x * x)) + 0 + 0 = 0
    ring
  · show (0 : F) * 999 * 2 + 0 * 999 + -1 * 2 + 0 * 999 + 0 + 2 = 0
    ring
  · show (1 : F) * x * 2 + 0 * _ + 0 * _ + -1 * (2 * x) + 0 + 0 = 0
    ring
  · show (0 : F) * _ * _ + 1 * (x * (x * x)) + 1 * (2 * x) + -1 * (x * (x * x) + 2 * x) + 0 + 0 = 0
    ring
  · show (0 : F) * 999 * 12 + 0 * 999 + -1 * 12 + 0 * 999 + 0 + 12 = 0
    ring
  · show (0 : F) * _ * _ + 1 * (x * (x * x) + 2 * x) + 1 * 12 + -1 * (x * (x * x) + 2 * x + 12) + 0 + 0 = 0
    ring
  · show (0 : F) * 999 * 999 + 0 * 999 + 0 * 999 + -1 * (x * (x * x) + 2 * x + 12) + 0 + 0 = 0
    linear_combination -hx

theorem copyTest_gate {a b c pi qm ql qr qo qc s1 s2 s3 selector deltas : List F} {u : Nat} {d : Domain F} {tau : Equiv.Perm (Fin 3 × Fin u)}
    (h : (copyTest a b c pi qm ql qr qo qc s1 s2 s3 selector deltas u).Holds d tau) {i : Nat} (hi : i < d.size) :
    qm.getD i 0 * a.getD i 0 * b.getD i 0 + ql.getD i 0 * a.getD i 0 + qr.getD i 0 * b.getD i 0 + qo.getD i 0 * c.getD i 0 +
      qc.getD i 0 + pi.getD i 0 = 0 := by
  have h := h.1 _ _ (List.mem_cons_self ..) i hi
  generalize ht : (copyTest a b c pi qm ql qr qo qc s1 s2 s3 selector deltas u).columns = t at h
  have h1 : ∀ (q : VirtualQuery) (x : Label × List F), (t.ofType q.oracleType)[q.index]? = some x → q.rotation = .curr →
    t.cell d.size i q = x.2.getD i 0 := fun q x g1 g2 => t.cell_curr hi q g1 g2
  replace h : t.cell d.size i (Gates.wq 0) * t.cell d.size i (Gates.wq 1) * t.cell d.size i (Gates.fq 0) +
    t.cell d.size i (Gates.wq 0) * t.cell d.size i (Gates.fq 1) + t.cell d.size i (Gates.wq 1) * t.cell d.size i (Gates.fq 2) +
    t.cell d.size i (Gates.wq 2) * t.cell d.size i (Gates.fq 3) + t.cell d.size i (Gates.fq 4) + t.cell d.size i (Gates.iq 0) = 0 := h
  subst ht
  rw [h1 (Gates.wq 0) (_, a) rfl rfl, h1 (Gates.wq 1) (_, b) rfl rfl, h1 (Gates.wq 2) (_, c) rfl rfl, h1 (Gates.fq 0) (_, qm) rfl rfl,
    h1 (Gates.fq 1) (_, ql) rfl rfl, h1 (Gates.fq 2) (_, qr) rfl rfl, h1 (Gates.fq 3) (_, qo) rfl rfl, h1 (Gates.fq 4) (_, qc) rfl rfl,
    h1 (Gates.iq 0) (_, pi) rfl rfl] at h
  linear_combination h

/-- **C82** The circuit of `copy_plonk` says what its comment says: whatever the witness columns are, if the gates and the copies hold then the
first entry of the first column is a root of `x^3 + 2 x + 12`; and for every root there are columns for which they hold. -/
theorem C82_copy_plonk_meaning {d : Domain F} (h16 : d.size = 16) (x : F) :
    (∃ a b c, a.getD 0 0 = x ∧ (copyPlonkCircuit d a b c).Holds d copyPlonkPerm) ↔ x ^ 3 + 2 * x + 12 = 0 := by
  constructor
  · rintro ⟨a, b, c, rfl, h⟩
    have g0 := copyTest_gate h (i := 0) (by rw [h16]; norm_num)
    have g1 := copyTest_gate h (i := 1) (by rw [h16]; norm_num)
    have g2 := copyTest_gate h (i := 2) (by rw [h16]; norm_num)
    have g3 := copyTest_gate h (i := 3) (by rw [h16]; norm_num)
    have g4 := copyTest_gate h (i := 4) (by rw [h16]; norm_num)
    have g5 := copyTest_gate h (i := 5) (by rw [h16]; norm_num)
    have g6 := copyTest_gate h (i := 6) (by rw [h16]; norm_num)
    have g7 := copyTest_gate h (i := 7) (by rw [h16]; norm_num)
    have k : ∀ y : Fin 3 × Fin 8, valueAt (copyPlonkCircuit d a b c).columns.witness (copyPlonkPerm y).1 (copyPlonkPerm y).2
      = valueAt (copyPlonkCircuit d a b c).columns.witness y.1 y.2 := h.copies rfl
    have k1 : b.getD 0 0 = a.getD 0 0 := k (0, 0)
    have k2 : b.getD 1 0 = b.getD 0 0 := k (1, 0)
    have k3 : a.getD 3 0 = b.getD 1 0 := by
      have : a.getD 0 0 = a.getD 3 0 := k (0, 3)
      rw [k2, k1, this]
    have k4 : a.getD 1 0 = c.getD 0 0 := k (2, 0)
    have k5 : b.getD 3 0 = b.getD 2 0 := k (1, 2)
    have k6 : a.getD 4 0 = c.getD 1 0 := k (2, 1)
    have k7 : b.getD 4 0 = c.getD 3 0 := k (2, 3)
    have k8 : a.getD 6 0 = c.getD 4 0 := k (2, 4)
    have k9 : b.getD 6 0 = b.getD 5 0 := k (1, 5)
    have k10 : c.getD 7 0 = c.getD 6 0 := k (2, 6)
    replace g0 : (1 : F) * a.getD 0 0 * b.getD 0 0 + 0 * a.getD 0 0 + 0 * b.getD 0 0 + -1 * c.getD 0 0 + 0 + 0 = 0 := g0
    replace g1 : (1 : F) * a.getD 1 0 * b.getD 1 0 + 0 * a.getD 1 0 + 0 * b.getD 1 0 + -1 * c.getD 1 0 + 0 + 0 = 0 := g1
    replace g2 : (0 : F) * a.getD 2 0 * b.getD 2 0 + 0 * a.getD 2 0 + -1 * b.getD 2 0 + 0 * c.getD 2 0 + 0 + 2 = 0 := g2
    replace g3 : (1 : F) * a.getD 3 0 * b.getD 3 0 + 0 * a.getD 3 0 + 0 * b.getD 3 0 + -1 * c.getD 3 0 + 0 + 0 = 0 := g3
    replace g4 : (0 : F) * a.getD 4 0 * b.getD 4 0 + 1 * a.getD 4 0 + 1 * b.getD 4 0 + -1 * c.getD 4 0 + 0 + 0 = 0 := g4
    replace g5 : (0 : F) * a.getD 5 0 * b.getD 5 0 + 0 * a.getD 5 0 + -1 * b.getD 5 0 + 0 * c.getD 5 0 + 0 + 12 = 0 := g5
    replace g6 : (0 : F) * a.getD 6 0 * b.getD 6 0 + 1 * a.getD 6 0 + 1 * b.getD 6 0 + -1 * c.getD 6 0 + 0 + 0 = 0 := g6
    replace g7 : (0 : F) * a.getD 7 0 * b.getD 7 0 + 0 * a.getD 7 0 + 0 * b.getD 7 0 + -1 * c.getD 7 0 + 0 + 0 = 0 := g7
    have e0 : c.getD 0 0 = a.getD 0 0 * a.getD 0 0 := by rw [k1] at g0; linear_combination -g0
    have e1 : c.getD 1 0 = a.getD 0 0 * a.getD 0 0 * a.getD 0 0 := by rw [k4, k2, k1, e0] at g1; linear_combination -g1
    have e2 : b.getD 2 0 = 2 := by linear_combination -g2
    have e3 : c.getD 3 0 = 2 * a.getD 0 0 := by rw [k3, k2, k1, k5, e2] at g3; linear_combination -g3
    have e4 : c.getD 4 0 = a.getD 0 0 * a.getD 0 0 * a.getD 0 0 + 2 * a.getD 0 0 := by rw [k6, k7, e1, e3] at g4; linear_combination -g4
    have e5 : b.getD 5 0 = 12 := by linear_combination -g5
    have e6 : c.getD 6 0 = a.getD 0 0 * a.getD 0 0 * a.getD 0 0 + 2 * a.getD 0 0 + 12 := by
      rw [k8, k9, e4, e5] at g6; linear_combination -g6
    rw [k10, e6] at g7
    linear_combination -g7
  · intro hx
    exact ⟨_, _, _, rfl, copyPlonkAt_holds h16 hx [] [] []⟩

theorem copyPlonkAt_wellformed (d : Domain F) (x : F) {blindA blindB blindC : List F} (ha : blindA.length = 8) (hb : blindB.length = 8)
    (hc : blindC.length = 8) : (copyPlonkAt d x blindA blindB blindC).Wellformed 16 := by
  refine copyTest_wellformed ?_
  simp [ha, hb, hc]

theorem copyPlonkCircuit_fits (d : Domain F) (a b c : List F) : (copyPlonkCircuit d a b c).Fits 16 := by
  refine copyTest_fits (by norm_num) rfl ?_
  exact forall_lt_16 ⟨rfl, rfl, rfl, rfl, rfl, rfl, rfl, rfl, rfl, rfl, rfl, rfl, rfl, rfl, rfl, rfl⟩

theorem simpleLookup_holds {d : Domain F} (h16 : d.size = 16) {b : List F} (hb : b.length = 16) (restA restC : List F) :
    (simpleLookup b restA restC).Holds d (Equiv.refl _) := by
  refine lookupTest_holds (by rw [h16]; norm_num) ?_ ?_
  · rw [h16]
    match b, hb with
    | [b0, b1, b2, b3, b4, b5, b6, b7, b8, b9, b10, b11, b12, b13, b14, b15], _ =>
    have h1 : ∀ x y : F, 1 * (x * y - x * y) = 0 := fun x y => by ring
    have h0 : ∀ x : F, 0 * x = 0 := zero_mul
    exact forall_lt_16 ⟨h1 1 b0, h1 1 b1, h1 2 b2, h1 3 b3, h1 4 b4, h1 4 b5, h1 999 b6, h1 999 b7, h1 999 b8, h1 999 b9,
      h0 _, h0 _, h0 _, h0 _, h0 _, h0 _⟩
  · intro i hi
    have : i = 0 ∨ i = 1 ∨ i = 2 ∨ i = 3 ∨ i = 4 ∨ i = 5 ∨ i = 6 ∨ i = 7 ∨ i = 8 ∨ i = 9 := by omega
    rcases this with rfl | rfl | rfl | rfl | rfl | rfl | rfl | rfl | rfl | rfl
    · exact ⟨0, by norm_num, rfl⟩
    · exact ⟨0, by norm_num, rfl⟩
    · exact ⟨1, by norm_num, rfl⟩
    · exact ⟨2, by norm_num, rfl⟩
    · exact ⟨3, by norm_num, rfl⟩
    · exact ⟨3, by norm_num, rfl⟩
    all_goals exact ⟨8, by norm_num, rfl⟩

theorem simpleLookup_wellformed {b restA restC : List F} (hb : b.length = 16) (ha : restA.length = 6) (hc : restC.length = 6) :
    (simpleLookup b restA restC).Wellformed 16 := by
  refine lookupTest_wellformed ?_ hb ?_ ?_ ?_ ?_
  · simp [ha]
  · simp [hc, hb]
  all_goals simp

theorem simpleLookup_fits (b restA restC : List F) : (simpleLookup b restA restC).Fits 16 := by
  refine lookupTest_fits (by norm_num) ?_
  intro i hi hi'
  have : i = 10 ∨ i = 11 ∨ i = 12 ∨ i = 13 ∨ i = 14 ∨ i = 15 := by omega
  rcases this with rfl | rfl | rfl | rfl | rfl | rfl <;> rfl

end

section
variable {F : Type} [Field F] [LinearOrder F] [FftParams F] [LawfulFft F] [Fintype F] [MeasurableSpace F] [DiscreteMeasurableSpace F]
variable {G : Type} [AddCommGroup G] [Module F G]
variable {G2 GT : Type} [AddCommGroup G2] [Module F G2] [AddCommGroup GT] [Module F GT] [DecidableEq GT]

/-- **C82** The test program of a whole circuit with KZG keys made by `universal_setup` and `prepare_keys`. -/
theorem C82_kzg (e : G →ₗ[F] G2 →ₗ[F] GT) (env : KzgEnv F G) {maxDegree : Nat} {secret : F} {g gammaG : G} {h : G2} {srs : KzgSrs G G2}
    {ck : KzgKey G} {vk : KzgVk G G2} (hsrs : universalSetup maxDegree secret g gammaG h = .ok srs) (hkeys : prepareKeys srs = .ok (ck, vk))
    {d : Domain F} (hd : d.Ok) (hn : d.size ≤ maxDegree + 1) {t : CircuitTest F} (ht : t.Wellformed d.size) (hfit : t.Fits d.size)
    {m : Nat} (hdeg : GateDegrees d.size (FftParams.adicity F) m t.calls)
    {tau : Equiv.Perm (Fin t.columns.witness.length × Fin t.info.u)} (hholds : t.Holds d tau) (z : env.Z) :
    randomOracle F {H | ¬ t.Succeeds ((kzgScheme e env).hashing H) ck vk d z}
    ≤ ((t.copiedCount * t.info.u + 2 * (lookupCount t.calls * t.rows) + 1 + d.size : Nat) : ENNReal) / (Fintype.card F : ENNReal) := by
  have hf := fromSetup_of_keys hsrs hkeys
  have h3 : 3 ≤ ck.gammaPowers.length := by rw [hf.gammaPowers]; exact le_rfl
  have hpos := hd.size_pos
  refine C82_circuit (S := kzgScheme e env) (C44_homomorphic e env hf.kzgSetup h3) ?_ hd
    (C52_kzg_supports e env hpos (by rw [hf.powers]; simpa using hn) h3) ht hfit hdeg hholds z
  intro p cs hcs
  obtain ⟨c, hc, hcs⟩ := Res.bind_eq_ok.1 hcs
  obtain ⟨-, -, rfl⟩ := (kzgCommitWith_iff ..).1 hc
  exact (Res.ok.inj hcs).symm

end

namespace Fr381

instance : Fintype Fr := ZMod.fintype r
instance : MeasurableSpace Fr := ⊤
instance : DiscreteMeasurableSpace Fr := ⟨fun _ => trivial⟩

theorem card_fr : Fintype.card Fr = r := ZMod.card r

end Fr381

section
variable {G G2 GT : Type} [AddCommGroup G] [Module Fr G] [AddCommGroup G2] [Module Fr G2] [AddCommGroup GT] [Module Fr GT] [DecidableEq GT]

/-- **C82** The test `copy_plonk` over the scalar field of BLS12-381, for any root `x` of `x^3 + 2 x + 12`. Whatever the secret of the setup,
the generators, the blinding rows and the prover's random source are, it fails with probability at most `41 / r`. -/
theorem C82_copy_plonk (e : G →ₗ[Fr] G2 →ₗ[Fr] GT) (env : KzgEnv Fr G) {maxDegree : Nat} {secret : Fr} {g gammaG : G} {h : G2}
    {srs : KzgSrs G G2} {ck : KzgKey G} {vk : KzgVk G G2} (hsrs : universalSetup maxDegree secret g gammaG h = .ok srs)
    (hkeys : prepareKeys srs = .ok (ck, vk)) (hn : 15 ≤ maxDegree) {x : Fr} (hx : x ^ 3 + 2 * x + 12 = 0)
    {blindA blindB blindC : List Fr} (ha : blindA.length = 8) (hb : blindB.length = 8) (hc : blindC.length = 8) (z : env.Z) :
    randomOracle Fr {H | ¬ (copyPlonkAt (Fr381.dom 4) x blindA blindB blindC).Succeeds ((kzgScheme e env).hashing H) ck vk (Fr381.dom 4) z}
      ≤ 41 / (Fr381.r : ENNReal) := by
  have h16 : (Fr381.dom 4).size = 16 := rfl
  have hd : (Fr381.dom 4).Ok := Fr381.dom_ok (by norm_num)
  have h := C82_kzg e env hsrs hkeys hd (by rw [h16]; omega) (t := copyPlonkAt (Fr381.dom 4) x blindA blindB blindC)
    (copyPlonkAt_wellformed _ _ ha hb hc) (copyPlonkCircuit_fits _ _ _ _)
    (copyTest_degrees (by rw [h16]; norm_num) (by rw [h16]; show 4 * 16 ≤ 2 ^ 32; norm_num)) (copyPlonkAt_holds h16 hx _ _ _) z
  rw [Fr381.card_fr] at h
  refine h.trans (le_of_eq ?_)
  norm_cast

/-- **C82** The test `copy_plonk` as it stands in the source, with `x = -2`. -/
theorem C82_copy_plonk_source (e : G →ₗ[Fr] G2 →ₗ[Fr] GT) (env : KzgEnv Fr G) {secret : Fr} {g gammaG : G} {h : G2}
    {srs : KzgSrs G G2} {ck : KzgKey G} {vk : KzgVk G G2} (hsrs : universalSetup 15 secret g gammaG h = .ok srs)
    (hkeys : prepareKeys srs = .ok (ck, vk))
    {blindA blindB blindC : List Fr} (ha : blindA.length = 8) (hb : blindB.length = 8) (hc : blindC.length = 8) (z : env.Z) :
    randomOracle Fr {H | ¬ (copyPlonk (Fr381.dom 4) blindA blindB blindC).Succeeds ((kzgScheme e env).hashing H) ck vk (Fr381.dom 4) z}
      ≤ 41 / (Fr381.r : ENNReal) :=
  C82_copy_plonk e env hsrs hkeys le_rfl (x := -2) (by ring) ha hb hc z

/-- **C82** The test `test_full_circuit_simple_lookup` as it stands in the source, over the scalar field of BLS12-381, fails with
probability at most `37 / r`. -/
theorem C82_simple_lookup (e : G →ₗ[Fr] G2 →ₗ[Fr] GT) (env : KzgEnv Fr G) {maxDegree : Nat} {secret : Fr} {g gammaG : G} {h : G2}
    {srs : KzgSrs G G2} {ck : KzgKey G} {vk : KzgVk G G2} (hsrs : universalSetup maxDegree secret g gammaG h = .ok srs)
    (hkeys : prepareKeys srs = .ok (ck, vk)) (hn : 15 ≤ maxDegree)
    {b restA restC : List Fr} (hb : b.length = 16) (ha : restA.length = 6) (hc : restC.length = 6) (z : env.Z) :
    randomOracle Fr {H | ¬ (simpleLookup b restA restC).Succeeds ((kzgScheme e env).hashing H) ck vk (Fr381.dom 4) z}
      ≤ 37 / (Fr381.r : ENNReal) := by
  have h16 : (Fr381.dom 4).size = 16 := rfl
  have hd : (Fr381.dom 4).Ok := Fr381.dom_ok (by norm_num)
  have h := C82_kzg e env hsrs hkeys hd (by rw [h16]; omega) (t := simpleLookup b restA restC)
    (simpleLookup_wellformed hb ha hc) (simpleLookup_fits _ _ _)
    (lookupTest_degrees (by rw [h16]; norm_num) (by rw [h16]; show 4 * 16 ≤ 2 ^ 32; norm_num)) (simpleLookup_holds h16 hb _ _) z
  rw [Fr381.card_fr] at h
  refine h.trans (le_of_eq ?_)
  norm_cast

/-- **C82** The separators `1`, `7` and `13` of `copy_plonk` give different identities to the cells of the three columns, as C55 asks for. -/
theorem C82_separators : Function.Injective (cellId (Fr381.dom 4) [(1 : Fr), 7, 13] : Fin 3 × Fin 16 → Fr) := by
  have hd : (Fr381.dom 4).Ok := Fr381.dom_ok (by norm_num)
  refine (C55_separators_check hd (by decide) [(1 : Fr), 7, 13]).2 ⟨?_, ?_⟩
  · show (0 : ZMod Fr381.r) ∉ [(1 : ZMod Fr381.r), 7, 13]
    have h7 : (7 : ZMod Fr381.r) ≠ 0 := LawfulFft.gen_ne_zero (F := Fr)
    have h13 : (13 : ZMod Fr381.r) ≠ 0 := by
      intro h
      have h : ((13 : Nat) : ZMod Fr381.r) = 0 := by exact_mod_cast h
      rw [ZMod.natCast_eq_zero_iff] at h
      exact absurd (Nat.le_of_dvd (by norm_num) h) (by decide +kernel)
    simp only [List.mem_cons, List.not_mem_nil, or_false, not_or]
    exact ⟨zero_ne_one, h7.symm, h13.symm⟩
  · show ([(1 : ZMod Fr381.r) ^ 16, 7 ^ 16, 13 ^ 16]).Nodup
    have key : ∀ a b : Nat, a < Fr381.r → b < Fr381.r → a ≠ b → ((a : Nat) : ZMod Fr381.r) ≠ ((b : Nat) : ZMod Fr381.r) := by
      intro a b ha hb hab h
      rw [ZMod.natCast_eq_natCast_iff] at h
      exact hab (Nat.ModEq.eq_of_lt_of_lt h ha hb)
    have k1 := key (1 ^ 16) (7 ^ 16) (by decide +kernel) (by decide +kernel) (by decide +kernel)
    have k2 := key (1 ^ 16) (13 ^ 16) (by decide +kernel) (by decide +kernel) (by decide +kernel)
    have k3 := key (7 ^ 16) (13 ^ 16) (by decide +kernel) (by decide +kernel) (by decide +kernel)
    push_cast at k1 k2 k3
    simp only [List.nodup_cons, List.mem_cons, List.not_mem_nil, or_false, not_or, List.nodup_nil, and_true, not_false_eq_true]
    exact ⟨⟨k1, k2⟩, k3⟩

/-- Both bounds are below `2 ^ (-249)`. -/
theorem C82_negligible : (41 : ENNReal) / (Fr381.r : ENNReal) ≤ 1 / 2 ^ 249 ∧ (37 : ENNReal) / (Fr381.r : ENNReal) ≤ 1 / 2 ^ 249 := by
  have hr : (Fr381.r : ENNReal) ≠ 0 := by
    exact_mod_cast Fr381.prime_r.ne_zero
  have h2 : (2 ^ 249 : ENNReal) ≠ 0 := pow_ne_zero _ (by norm_num)
  have key : ∀ k : Nat, k * 2 ^ 249 ≤ Fr381.r → (k : ENNReal) / (Fr381.r : ENNReal) ≤ 1 / 2 ^ 249 := by
    intro k hk
    rw [ENNReal.div_le_iff hr (ENNReal.natCast_ne_top _), ← ENNReal.mul_div_right_comm, one_mul,
      ENNReal.le_div_iff_mul_le (Or.inl h2) (Or.inl (ENNReal.pow_ne_top (by norm_num)))]
    exact_mod_cast hk
  exact ⟨key 41 (by decide +kernel), key 37 (by decide +kernel)⟩

end
end ZK
