import Verif.Spec.Commitment
import Verif.Spec.Scheme
import Verif.Lemmas.Poly
import Verif.Lemmas.Ideal
import Mathlib.Tactic.Ring
import Mathlib.Tactic.Module
import Mathlib.Tactic.Abel
import Mathlib.Tactic.IntervalCases
import Mathlib.Tactic.NormNum
import Mathlib.Algebra.Field.Rat
/-! Property C44: the commitment wrapper of src/commitment.rs is a homomorphism. -/
set_option autoImplicit false
set_option linter.unusedSectionVars false
namespace ZK
open Polynomial

section
variable {F : Type} [Field F] [DecidableEq F] {G : Type} [AddCommGroup G] [Module F G]

theorem kzgMulti_eq (gs : List G) (ks : List F) :
    kzgMulti gs ks = ∑ i : Fin gs.length, (toPoly ks).coeff i • gs[i] := by
  induction gs generalizing ks with
  | nil => simp [kzgMulti]
  | cons g gs ih =>
    cases ks with
    | nil => simp [kzgMulti]
    | cons k ks =>
      have := ih ks
      simp only [kzgMulti] at this
      simp only [kzgMulti, List.zipWith_cons_cons, List.sum_cons, this]
      refine Eq.trans ?_ (Fin.sum_univ_succ (n := gs.length)
        (fun i => (toPoly (k :: ks)).coeff i • (g :: gs)[i])).symm
      simp [coeff_toPoly]

/-- The result of committing is the commitment of the specification. -/
theorem kzgCommitWith_iff (key : KzgKey G) (p r : List F) (c : G) :
    kzgCommitWith key p r = .ok c ↔
      (toPoly p).natDegree < key.powers.length ∧ (toPoly r).degree < key.gammaPowers.length ∧
        c = kzgCom key (toPoly p) (toPoly r) := by
  have e : kzgMulti key.powers (trim p) + kzgMulti key.gammaPowers (trim r) =
      kzgCom key (toPoly p) (toPoly r) := by
    rw [kzgMulti_eq, kzgMulti_eq, toPoly_trim, toPoly_trim]; rfl
  unfold kzgCommitWith
  rw [pdegree_eq, e]
  have hr : (trim r).length ≤ key.gammaPowers.length ↔ (toPoly r).degree < key.gammaPowers.length := by
    constructor
    · intro h
      rw [← toPoly_trim]
      exact (degree_toPoly_lt _).trans_le (by exact_mod_cast h)
    · exact trim_length_le_of_degree
  by_cases h1 : key.powers.length < (toPoly p).natDegree + 1
  · rw [if_pos h1]; simp; omega
  · rw [if_neg h1]
    by_cases h2 : key.gammaPowers.length < (trim r).length
    · rw [if_pos h2]
      have : ¬ (toPoly r).degree < key.gammaPowers.length := by rw [← hr]; omega
      simp [this]
    · rw [if_neg h2]
      have : (toPoly r).degree < key.gammaPowers.length := by rw [← hr]; omega
      simp only [Res.ok.injEq, this, true_and]
      constructor
      · rintro rfl; exact ⟨by omega, rfl⟩
      · rintro ⟨_, rfl⟩; rfl

omit [DecidableEq F] in
theorem kzgCom_add (key : KzgKey G) (p q r s : F[X]) :
    kzgCom key p r + kzgCom key q s = kzgCom key (p + q) (r + s) := by
  simp only [kzgCom, coeff_add, add_smul, Finset.sum_add_distrib]; abel

omit [DecidableEq F] in
theorem kzgCom_smul (key : KzgKey G) (p r : F[X]) (k : F) :
    k • kzgCom key p r = kzgCom key (C k * p) (C k * r) := by
  simp only [kzgCom, coeff_C_mul, smul_add, Finset.smul_sum, mul_smul]

omit [DecidableEq F] in
@[simp] theorem kzgCom_zero (key : KzgKey G) : kzgCom key (0 : F[X]) 0 = 0 := by simp [kzgCom]

/-- **C44 (add)**: the sum of two commitments is the commitment of the sum of the polynomials with the sum
of the randomness. -/
theorem C44_add (key : KzgKey G) (p q r s : List F) (c c' : G)
    (hc : kzgCommitWith key p r = .ok c) (hc' : kzgCommitWith key q s = .ok c') :
    kzgCommitWith key (dadd p q) (kzgAddRands r s) = .ok (kzgAdd c c') ∧
      kzgAddAssignRand r s = kzgAddRands r s := by
  obtain ⟨h1, h2, rfl⟩ := (kzgCommitWith_iff ..).1 hc
  obtain ⟨h3, h4, rfl⟩ := (kzgCommitWith_iff ..).1 hc'
  refine ⟨(kzgCommitWith_iff ..).2 ⟨?_, ?_, ?_⟩, rfl⟩
  · rw [toPoly_dadd]; exact (natDegree_add_le _ _).trans_lt (max_lt h1 h3)
  · rw [kzgAddRands, toPoly_dadd]; exact (degree_add_le _ _).trans_lt (max_lt h2 h4)
  · rw [kzgAdd, kzgAddRands, toPoly_dadd, toPoly_dadd, kzgCom_add]

/-- **C44 (scale)**: a commitment times a scalar is the commitment of the scaled polynomial with the scaled
randomness. -/
theorem C44_scale (key : KzgKey G) (p r : List F) (k : F) (c : G)
    (hc : kzgCommitWith key p r = .ok c) :
    kzgCommitWith key (dscale k p) (kzgScaleRand r k) = .ok (kzgScale c k) := by
  obtain ⟨h1, h2, rfl⟩ := (kzgCommitWith_iff ..).1 hc
  refine (kzgCommitWith_iff ..).2 ⟨?_, ?_, ?_⟩
  · rw [toPoly_dscale]; exact (natDegree_C_mul_le _ _).trans_lt h1
  · rw [kzgScaleRand, toPoly_dscale, ← smul_eq_C_mul]; exact (degree_smul_le _ _).trans_lt h2
  · rw [kzgScale, kzgScaleRand, toPoly_dscale, toPoly_dscale, kzgCom_smul]

/-- **C44 (negate)**: the negated commitment commits to the negated polynomial with the negated randomness, and is
the inverse for `add`. -/
theorem C44_neg (key : KzgKey G) (p r : List F) (c : G) (hc : kzgCommitWith key p r = .ok c) :
    kzgCommitWith key (dscale (-1) p) (kzgScaleRand r (-1)) = .ok (kzgNeg F c) ∧
      kzgAdd c (kzgNeg F c) = kzgZero := by
  refine ⟨C44_scale key p r (-1) c hc, ?_⟩
  simp [kzgAdd, kzgNeg, kzgZero]

/-- **C44 (msm)**: the multi-scalar multiplication of commitments with scalars commits to the same linear
combination of the polynomials with the same linear combination of the randomness, which the key supports. -/
theorem C44_msm (key : KzgKey G) (hkey : key.powers ≠ []) (ps : List (List F × List F)) (cs : List G) (ks : List F)
    (hcs : List.Forall₂ (fun p c => kzgCommitWith key p.1 p.2 = .ok c) ps cs) :
    kzgCommitWith key ((ps.zip ks).foldl (fun acc pk => dadd acc (dscale pk.2 pk.1.1)) [])
      ((ps.zip ks).foldl (fun acc pk => kzgAddRands acc (kzgScaleRand pk.1.2 pk.2)) []) = .ok (kzgMsm cs ks) := by
  suffices H : ∀ (a b : List F) (c0 : G), kzgCommitWith key a b = .ok c0 →
      kzgCommitWith key ((ps.zip ks).foldl (fun acc pk => dadd acc (dscale pk.2 pk.1.1)) a)
      ((ps.zip ks).foldl (fun acc pk => kzgAddRands acc (kzgScaleRand pk.1.2 pk.2)) b) = .ok (c0 + kzgMsm cs ks) by
    have h0 : kzgCommitWith key ([] : List F) [] = .ok (0 : G) := by
      refine (kzgCommitWith_iff ..).2 ⟨?_, ?_, ?_⟩
      · simpa using List.length_pos_of_ne_nil hkey
      · simpa using WithBot.bot_lt_coe _
      · simp
    simpa using H [] [] 0 h0
  induction hcs generalizing ks with
  | nil => intro a b c0 h; simpa [kzgMsm, kzgMulti] using h
  | @cons p c ps cs hpc _ ih =>
    intro a b c0 h
    cases ks with
    | nil => simpa [kzgMsm, kzgMulti] using h
    | cons k ks =>
      have h1 := (C44_add key _ _ _ _ _ _ h (C44_scale key p.1 p.2 k c hpc)).1
      have := ih ks _ _ _ h1
      simp only [List.zip_cons_cons, List.foldl_cons]
      rw [this]
      simp [kzgAdd, kzgScale, kzgMsm, kzgMulti, add_assoc]

/-- The zero commitment commits to the zero polynomial without randomness; comparisons are exact. -/
theorem C44_zero [DecidableEq G] (key : KzgKey G) (hkey : key.powers ≠ []) (c c' : G) :
    kzgCommitWith key ([] : List F) [] = .ok (kzgZero : G) ∧ (kzgIsZero c = true ↔ c = kzgZero) ∧
      (kzgEq c c' = true ↔ kzgAdd c (kzgNeg F c') = kzgZero) := by
  refine ⟨C44_msm key hkey [] [] [] .nil, by simp [kzgIsZero, kzgZero], ?_⟩
  simp [kzgEq, kzgAdd, kzgNeg, kzgZero, add_neg_eq_zero]

/-! ### The wrapped scheme satisfies the laws assumed elsewhere -/

theorem padd_length (p q : List F) : (padd p q).length = max p.length q.length := by
  induction p generalizing q with
  | nil => simp [padd]
  | cons a p ih => cases q <;> simp [padd, ih]

/-- The remaining external components of a scheme. -/
structure KzgEnv (F G : Type) where
  Z : Type
  next : Z → F × Z
  T : Type
  fsInit : List Nat → T
  fsAbsorb : T → List Nat → T
  fsRand : T → F × T
  encComm : G → List Nat
  encF : F → List Nat

theorem kzgBlinding_length {Z : Type} (next : Z → F × Z) (z : Z) (b : Bool) :
    (if b then kzgBlinding next z else ([], z)).1.length ≤ 3 := by
  cases b <;> simp [kzgBlinding]

variable {G2 GT : Type} [AddCommGroup G2] [Module F G2] [AddCommGroup GT] [Module F GT] [DecidableEq GT]

/-- `SonicKZG10` with the crate's wrapper as an instance of `Scheme`. Hiding bounds are always 1, so
randomness has at most three coefficients. -/
def kzgScheme (e : G →ₗ[F] G2 →ₗ[F] GT) (env : KzgEnv F G) : Scheme F where
  Comm := G
  Rand := {r : List F // r.length ≤ 3}
  Proof := KzgProof F G
  CK := KzgKey G
  VK := KzgVk G G2
  E := KzgErr
  Z := env.Z
  T := env.T
  commit := fun key ps z => do
    let out ← kzgCommit env.next key ps z
    pure (out.1.map (fun c => (c.1, ⟨c.2.take 3, by simp⟩)), out.2)
  commitPlain := fun key p => do
    let c ← kzgCommitWith key p.poly []
    pure [c]
  open_ := fun key p _ x r => kzgOpen key p.poly x r.1
  check := fun vk c x v pf => .ok (kzgCheck e vk c x v pf)
  add := kzgAdd
  scale := kzgScale
  zero := kzgZero
  emptyRand := ⟨[], by simp⟩
  addRand := fun a b => ⟨kzgAddRands a.1 b.1,
    (trim_length_le _).trans (by rw [padd_length]; exact max_le a.2 b.2)⟩
  scaleRand := fun a k => ⟨kzgScaleRand a.1 k,
    (trim_length_le _).trans (by simpa [pscale] using a.2)⟩
  next := env.next
  fsInit := env.fsInit
  fsAbsorb := env.fsAbsorb
  fsRand := env.fsRand
  encComm := env.encComm
  encF := env.encF

theorem kzgCommit_spec {Z : Type} (next : Z → F × Z) (key : KzgKey G) (ps : List (LPoly F)) (z z' : Z)
    (cs : List (G × List F)) (h : kzgCommit next key ps z = .ok (cs, z')) :
    List.Forall₂ (fun (p : LPoly F) c => c.1 = kzgCom key (toPoly p.poly) (toPoly c.2) ∧ c.2.length ≤ 3) ps cs := by
  induction ps generalizing z cs z' with
  | nil => simp only [kzgCommit, Res.ok.injEq, Prod.mk.injEq] at h; rw [← h.1]; exact .nil
  | cons p ps ih =>
    obtain ⟨c, hc, h⟩ := Res.bind_eq_ok.1 h
    obtain ⟨rest, hr, h⟩ := Res.bind_eq_ok.1 h
    have h := Res.ok.inj h
    simp only [Prod.mk.injEq] at h
    rw [← h.1]
    refine .cons ⟨((kzgCommitWith_iff ..).1 hc).2.2, kzgBlinding_length next z p.hide⟩ (ih _ _ _ hr)

theorem eval_div_sub {p w : List F} {x : F} {ε : Type} (h : (pdiv p [-x, 1] : Res ε (List F)) = .ok w) (b : F) :
    (toPoly p).eval b - (toPoly p).eval x = (b - x) * (toPoly w).eval b := by
  obtain ⟨r, h1, h2⟩ := pdiv_spec h
  have hd : toPoly [-x, 1] = X - C x := by simp [add_comm, sub_eq_add_neg]
  rw [hd] at h1 h2
  rw [degree_X_sub_C] at h2
  have hr : r = C (r.coeff 0) := eq_C_of_degree_le_zero (by
    by_cases h0 : r = 0
    · simp [h0]
    · have := (natDegree_lt_iff_degree_lt h0 (n := 1)).2 (by exact_mod_cast h2)
      exact natDegree_eq_zero_iff_degree_le_zero.1 (by omega))
  rw [h1, hr]; simp; ring

theorem natDegree_div_lt {p w : List F} {x : F} {ε : Type} (h : (pdiv p [-x, 1] : Res ε (List F)) = .ok w)
    {n : Nat} (hn : (toPoly p).degree < n) : (toPoly w).degree < n := by
  obtain ⟨r, h1, h2⟩ := pdiv_spec h
  have hd : toPoly [-x, 1] = X - C x := by simp [add_comm, sub_eq_add_neg]
  rw [hd] at h1 h2
  by_cases hw : toPoly w = 0
  · rw [hw]; simpa using WithBot.bot_lt_coe n
  · refine lt_of_le_of_lt ?_ hn
    have hlt : r.degree < (toPoly w * (X - C x)).degree := by
      refine h2.trans_le ?_
      rw [degree_mul]
      have := zero_le_degree_iff.2 hw
      calc (X - C x).degree = 0 + (X - C x).degree := (zero_add _).symm
        _ ≤ _ := add_le_add_left this _
    rw [h1, degree_add_eq_left_of_degree_lt hlt, degree_mul, degree_X_sub_C]
    calc (toPoly w).degree = (toPoly w).degree + 0 := (add_zero _).symm
      _ ≤ _ := add_le_add_right zero_le_one _

omit [DecidableEq F] [AddCommGroup GT] [Module F GT] [DecidableEq GT] in
/-- With a correctly generated key a commitment is the value at the secret. -/
theorem kzgCom_eval {beta : F} {key : KzgKey G} {vk : KzgVk G G2} (hs : KzgSetup beta key vk) (p r : F[X])
    (hp : p.degree < key.powers.length) (hr : r.degree < key.gammaPowers.length) :
    kzgCom key p r = p.eval beta • vk.g + r.eval beta • vk.gammaG := by
  have aux : ∀ (q : F[X]) (n : Nat) (g : G), q.degree < n →
      ∑ i : Fin n, q.coeff i • (beta ^ (i : ℕ) • g) = q.eval beta • g := by
    intro q n g hq
    by_cases h0 : q = 0
    · subst h0; simp
    rw [eval_eq_sum_range' ((natDegree_lt_iff_degree_lt h0).2 hq), Finset.sum_smul, Finset.sum_range]
    exact Finset.sum_congr rfl fun i _ => by rw [mul_smul]
  unfold kzgCom
  rw [← aux p _ vk.g hp, ← aux r _ vk.gammaG hr]
  congr 1
  · exact Finset.sum_congr rfl fun i _ => by rw [← hs.powers i i.2]; rfl
  · exact Finset.sum_congr rfl fun i _ => by rw [← hs.gammaPowers i i.2]; rfl

/-- An honest opening passes the pairing check. -/
theorem kzg_opens (e : G →ₗ[F] G2 →ₗ[F] GT) {beta : F} {key : KzgKey G} {vk : KzgVk G G2}
    (hs : KzgSetup beta key vk) (p r : List F) (x : F) (hr : (toPoly r).degree < key.gammaPowers.length)
    (pf : KzgProof F G) (h : kzgOpen key p x r = .ok pf) :
    kzgCheck e vk (kzgCom key (toPoly p) (toPoly r)) x ((toPoly p).eval x) pf = true := by
  unfold kzgOpen at h
  split at h
  · cases h
  · rename_i hlen
    obtain ⟨wp, hwp, h⟩ := Res.bind_eq_ok.1 h
    obtain ⟨wr, hwr, h⟩ := Res.bind_eq_ok.1 h
    have h := Res.ok.inj h
    subst h
    have hp : (toPoly p).degree < key.powers.length := by
      rw [pdegree_eq] at hlen
      refine degree_le_natDegree.trans_lt ?_
      exact_mod_cast (by omega : (toPoly p).natDegree < key.powers.length)
    have hw : kzgMulti key.powers wp + kzgMulti key.gammaPowers wr = kzgCom key (toPoly wp) (toPoly wr) := by
      rw [kzgMulti_eq, kzgMulti_eq]; rfl
    unfold kzgCheck
    rw [decide_eq_true_iff]
    dsimp only
    rw [hw, kzgCom_eval hs _ _ (natDegree_div_lt hwp hp) (natDegree_div_lt hwr hr), kzgCom_eval hs _ _ hp hr,
      hs.betaH, ← sub_smul]
    have e1 : (toPoly p).eval beta • vk.g + (toPoly r).eval beta • vk.gammaG - (toPoly p).eval x • vk.g -
        peval r x • vk.gammaG = (beta - x) • ((toPoly wp).eval beta • vk.g + (toPoly wr).eval beta • vk.gammaG) := by
      rw [peval_eq_eval, smul_add, smul_smul, smul_smul, ← eval_div_sub hwp, ← eval_div_sub hwr, sub_smul, sub_smul]
      abel
    rw [e1, map_smul, map_smul, LinearMap.smul_apply]

/-- **C44 (laws)**: the KZG scheme with the crate's wrapper satisfies every law of `HomomorphicScheme`, for every
correctly generated key that supports the hiding bound 1 and every bilinear pairing. -/
theorem C44_homomorphic (e : G →ₗ[F] G2 →ₗ[F] GT) (env : KzgEnv F G) {beta : F} {key : KzgKey G}
    {vk : KzgVk G G2} (hs : KzgSetup beta key vk) (h3 : 3 ≤ key.gammaPowers.length) :
    HomomorphicScheme (kzgScheme e env) key vk (fun (p : F[X]) (r : {r : List F // r.length ≤ 3}) => (kzgCom key p (toPoly r.1) : G)) where
  commit := by
    intro ps z cs z' h
    obtain ⟨out, ho, h⟩ := Res.bind_eq_ok.1 h
    have h := Res.ok.inj h
    obtain ⟨h1, _⟩ := Prod.mk.inj h
    have := kzgCommit_spec env.next key ps z out.2 out.1 ho
    subst h1
    refine (List.forall₂_map_right_iff (R := fun (p : LPoly F) (c : (kzgScheme e env).Comm × (kzgScheme e env).Rand) =>
      c.1 = (kzgCom key (toPoly p.poly) (toPoly (Subtype.val c.2 : List F)) : G))).2 (this.imp ?_)
    rintro p c ⟨h1, h2⟩
    refine h1.trans ?_
    exact congrArg (fun l => kzgCom key (toPoly p.poly) (toPoly l)) (List.take_of_length_le h2).symm
  zero := by
    show (0 : G) = kzgCom key 0 (toPoly [])
    simp
  add := by
    intro p q r s
    show kzgCom key p _ + kzgCom key q _ = kzgCom key (p + q) (toPoly (kzgAddRands r.1 s.1))
    rw [kzgCom_add, kzgAddRands, toPoly_dadd]
  scale := by
    intro p r k
    show k • kzgCom key p _ = kzgCom key (C k * p) (toPoly (kzgScaleRand r.1 k))
    rw [kzgCom_smul, kzgScaleRand, toPoly_dscale]
  opens := by
    intro p cs x r pf _ h
    refine congrArg Res.ok ?_
    refine kzg_opens e hs p.poly r.1 x ?_ pf h
    exact (degree_toPoly_lt _).trans_le (by exact_mod_cast r.2.trans h3)

/-- Non-vacuity: the field as a group over itself, secret 3, four powers, hiding bound 1. -/
example : ∃ (key : KzgKey ℚ) (vk : KzgVk ℚ ℚ), KzgSetup (3 : ℚ) key vk ∧ 3 ≤ key.gammaPowers.length ∧
    kzgCommitWith key [(1 : ℚ), 2, 0, 4] [5, 6, 7] = .ok (1 + 2 * 3 + 4 * 27 + 2 * (5 + 6 * 3 + 7 * 9) : ℚ) ∧
    kzgCommitWith key [(1 : ℚ), 2, 0, 4, 1] [5, 6, 7] = .err .tooManyCoefficients := by
  refine ⟨⟨[1, 3, 9, 27], [2, 6, 18]⟩, ⟨1, 2, 1, 3⟩, ⟨?_, ?_, ?_⟩, by simp, by decide +kernel, by decide +kernel⟩
  · intro i h
    have : i < 4 := h
    interval_cases i <;> norm_num
  · intro i h
    have : i < 3 := h
    interval_cases i <;> norm_num
  · norm_num

end
end ZK
