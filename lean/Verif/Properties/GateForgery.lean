import Verif.Properties.MockTest
import Verif.Properties.TestForgery
/-! The verifiers of the crate's tests of single gates accept a proof without content (C94). -/
set_option autoImplicit false
set_option linter.unusedSectionVars false
namespace ZK
open Polynomial MeasureTheory

section
variable {F : Type} [Field F] [LinearOrder F] [FftParams F] [LawfulFft F] {d : Domain F} {t : TestColumns F}
  {gate : VExpr F × List VirtualQuery} {m : Nat}

/-- The verifier's columns of a test of a single gate. -/
noncomputable def TestColumns.verifier (S : Scheme F) (com : F[X] → S.Rand → S.Comm) (d : Domain F) (t : TestColumns F) :
    Oracles (VerifierOracle F S.Comm) (InstanceVerifierOracle F) (VerifierOracle F S.Comm) :=
  ⟨t.witness.map (fun c => VerifierOracle.newWitness c.1 false), t.inst.map (fun c => (⟨c.1, trim (d.ifft c.2), []⟩ : InstanceVerifierOracle F)),
    t.fixed.map (fun c => VerifierOracle.newFixed c.1 (some (com (toPoly (trim (d.ifft c.2))) S.emptyRand)))⟩

/-- What the verifier of a test of a single gate is made of, and that it is ready to read a proof. -/
theorem GateFits.ready {S : Scheme F} (vk : S.VK) {com : F[X] → S.Rand → S.Comm} (hzero : S.zero = com 0 S.emptyRand) (hd : d.Ok)
    (ht : t.Wellformed d.size) (hfits : GateFits d.size (FftParams.adicity F) m (fun ty => (t.ofType ty).length) gate) :
    ∃ vo s key, (GenericVO.init gate).configure (t.verifier S com d) = .ok (vo, s) ∧
      indexer (fun o => o.shouldPermute) vk [vo] [] s.witness s.inst s.fixed d d.vanishing PermutationInfo.empty 0 (S := S) = .ok key ∧
      key.vk = vk ∧ Ready d.size key.index (.newWoBlind S s.fixed [] []) s.witness s.inst [vo] := by
  obtain ⟨hgood, hrange, hdeg⟩ := hfits.goodCircuit hd ht
  have hv : FreshVerifier S com (t.prover d) [] (t.verifier S com d) [] := by
    refine ⟨?_, ?_, ?_, .nil⟩
    · exact List.forall₂_map_left_iff.2 (List.forall₂_map_right_iff.2 (List.forall₂_same.2 fun c _ => ⟨rfl, rfl, rfl⟩))
    · exact List.forall₂_map_left_iff.2 (List.forall₂_map_right_iff.2 (List.forall₂_same.2 fun c _ => ⟨rfl, rfl, rfl⟩))
    · exact List.forall₂_map_left_iff.2 (List.forall₂_map_right_iff.2 (List.forall₂_same.2 fun c _ => ⟨⟨rfl, rfl, rfl⟩, rfl⟩))
  obtain ⟨c, c', key, hc, hc', hvos, hkey, hkey', hvk, -⟩ := C76_both_sides vk hd hgood hrange hdeg hv
  obtain ⟨-, -, hsu⟩ := (C74_set_up hgood.fresh hv [Call.gate gate.1 gate.2]).2 c c' hc hc'
  have hsu := hsu [] testSelector [] (VerifierOracle.newFixed (bytes "q_blind") (some S.zero)) .nil ⟨⟨rfl, rfl, rfl⟩, congrArg some hzero⟩
  obtain ⟨-, -, -, -, -, hle, -, hcols, -, i1, i2, i3, i4, -⟩ := indexer_ok hd hkey
  obtain ⟨hs, hp⟩ := C74_supported hc hgood i3 i1 i4 i2 hle (fun ⟨o, ho, h⟩ => by
    obtain ⟨c, -, rfl⟩ := List.mem_map.1 ho
    cases h)
  have hR := Ready.of_setUp hs hp hsu hdeg.rows.one_lt
  rw [← hvos] at hR
  obtain ⟨vo', s1', g1', rfl⟩ := configureAll_single hc'
  exact ⟨vo', s1', key, g1', hkey', hvk, hR⟩

/-- **C94** Whatever the gate of a test, its public columns and its number of rows are: if the scheme accepts an opening of the zero commitment
to zero, the test's verifier accepts some proof without content with probability at least `1 - (n + 1) / |F|`. -/
theorem C94_gate [Fintype F] [MeasurableSpace F] [DiscreteMeasurableSpace F] {S : Scheme F} {ck : S.CK} {vk : S.VK}
    {com : F[X] → S.Rand → S.Comm} (hzero : S.zero = com 0 S.emptyRand)
    (hplain : ∀ p cs, S.commitPlain ck p = .ok cs → cs = [com (toPoly p.poly) S.emptyRand])
    (hd : d.Ok) (hn : SupportsDegree S ck d.size) (ht : t.Wellformed d.size)
    (hfits : GateFits d.size (FftParams.adicity F) m (fun ty => (t.ofType ty).length) gate) {opening : S.Proof}
    (hopen : ∀ x, S.check vk S.zero x 0 opening = .ok true) :
    randomOracle F {H | ¬ ∃ proof : TPProof (S.hashing H), proof.Blank (S := S.hashing H) opening ∧
        runVerifier (S.hashing H) ck vk d t gate proof = .ok ()}
      ≤ ((d.size + 1 : Nat) : ENNReal) / (Fintype.card F : ENNReal) := by
  obtain ⟨vo, s, key, hc, hkey, rfl, hR⟩ := GateFits.ready vk hzero hd ht hfits
  have hz : toPoly d.vanishing = X ^ d.size - 1 := toPoly_vanishing d hd.size_pos
  have hzd : (toPoly d.vanishing).natDegree = d.size := by rw [hz]; exact natDegree_X_pow_sub_C (r := (1 : F))
  have hz0 : toPoly d.vanishing ≠ 0 := by rw [hz]; exact X_pow_sub_C_ne_zero hd.size_pos 1
  have h := C36_accepted_with_random_oracle hd hR d.vanishing hz0 hopen
  rw [hzd] at h
  refine le_trans (measure_mono fun H hH => ?_) h
  rintro ⟨w, hw⟩
  refine hH ⟨zeroProof (S := S.hashing H) key.index (VerifierPreprocessed.hashing (.newWoBlind S s.fixed [] []) H) s.witness opening w,
    zeroProof_blank (S := S.hashing H) _ _ _ _ w, ?_⟩
  have hk := indexer_hashing hkey H
  refine Res.bind_eq_ok.2 ⟨_, test_fixed (S := S.hashing H) (com := com) ⟨hn.commit, hn.commitPlain, hn.open_⟩ hplain t.fixed,
    Res.bind_eq_ok.2 ⟨(vo, s), ?_, Res.bind_eq_ok.2 ⟨_, ?_, hw⟩⟩⟩
  · show ((GenericVO.init gate).configure (t.verifier S com d)).orPanic = _
    rw [hc]
    rfl
  · exact congrArg Res.orPanic hk

end

section
variable {F : Type} [Field F] [LinearOrder F] [FftParams F] [LawfulFft F] [Fintype F] [MeasurableSpace F] [DiscreteMeasurableSpace F]
  {G : Type} [AddCommGroup G] [Module F G] {G2 GT : Type} [AddCommGroup G2] [Module F G2] [AddCommGroup GT] [Module F GT] [DecidableEq GT]

/-- **C94** The same with KZG keys made by `universal_setup` and `prepare_keys`. -/
theorem C94_kzg (e : G →ₗ[F] G2 →ₗ[F] GT) (env : KzgEnv F G) {maxDegree : Nat} {secret : F} {g gammaG : G} {h : G2} {srs : KzgSrs G G2}
    {ck : KzgKey G} {vk : KzgVk G G2} (hsrs : universalSetup maxDegree secret g gammaG h = .ok srs) (hkeys : prepareKeys srs = .ok (ck, vk))
    {d : Domain F} (hd : d.Ok) (hn : d.size ≤ maxDegree + 1) {t : TestColumns F} (ht : t.Wellformed d.size)
    {gate : VExpr F × List VirtualQuery} {m : Nat}
    (hfits : GateFits d.size (FftParams.adicity F) m (fun ty => (t.ofType ty).length) gate) :
    randomOracle F {H | ¬ ∃ proof : TPProof ((kzgScheme e env).hashing H),
        proof.Blank (S := (kzgScheme e env).hashing H) (⟨0, 0⟩ : KzgProof F G) ∧
        runVerifier ((kzgScheme e env).hashing H) ck vk d t gate proof = .ok ()}
      ≤ ((d.size + 1 : Nat) : ENNReal) / (Fintype.card F : ENNReal) := by
  have hf := fromSetup_of_keys hsrs hkeys
  have h3 : 3 ≤ ck.gammaPowers.length := by rw [hf.gammaPowers]; exact le_rfl
  refine C94_gate (S := kzgScheme e env) (ck := ck) (vk := vk) (opening := (⟨0, 0⟩ : KzgProof F G))
    (com := fun (p : F[X]) (r : {r : List F // r.length ≤ 3}) => (kzgCom ck p (toPoly r.1) : G))
    (C44_homomorphic e env hf.kzgSetup h3).zero ?_ hd
    (C52_kzg_supports e env hd.size_pos (by rw [hf.powers]; simpa using hn) h3) ht hfits (fun x => ?_)
  · intro p cs hcs
    obtain ⟨c, hc, hcs⟩ := Res.bind_eq_ok.1 hcs
    obtain ⟨-, -, rfl⟩ := (kzgCommitWith_iff ..).1 hc
    exact (Res.ok.inj hcs).symm
  · show (Res.ok (kzgCheck e vk kzgZero x 0 ⟨0, 0⟩) : Res KzgErr Bool) = .ok true
    simp [kzgCheck, kzgZero]

/-- **C94** `test_simple_mul` (src/vo/precompiled/mul.rs 73-240) with any public column: the verifier accepts a proof without content of the
statement that this column holds the products of two columns. The two columns the proof commits to are zero. -/
theorem C94_mul (e : G →ₗ[F] G2 →ₗ[F] GT) (env : KzgEnv F G) {maxDegree : Nat} {secret : F} {g gammaG : G} {h : G2} {srs : KzgSrs G G2}
    {ck : KzgKey G} {vk : KzgVk G G2} (hsrs : universalSetup maxDegree secret g gammaG h = .ok srs) (hkeys : prepareKeys srs = .ok (ck, vk))
    {d : Domain F} (hd : d.Ok) (h8 : 8 ≤ d.size) (h4 : 4 * d.size ≤ 2 ^ FftParams.adicity F) (hn : d.size ≤ maxDegree + 1)
    {la lb lc : Label} (hl : la ≠ lb) {a b c : List F} (ha : a.length = d.size) (hb : b.length = d.size) (hc : c.length = d.size) :
    randomOracle F {H | ¬ ∃ proof : TPProof ((kzgScheme e env).hashing H),
        proof.Blank (S := (kzgScheme e env).hashing H) (⟨0, 0⟩ : KzgProof F G) ∧
        runVerifier ((kzgScheme e env).hashing H) ck vk d ⟨[(la, a), (lb, b)], [(lc, c)], []⟩ Gates.mul proof = .ok ()}
      ≤ ((d.size + 1 : Nat) : ENNReal) / (Fintype.card F : ENNReal) := by
  refine C94_kzg e env hsrs hkeys hd hn (m := 2) ?_ ((C77_precompiled h8 _).1 ?_ h4)
  · intro ty
    cases ty
    · simp [TestColumns.ofType, ha, hb, hl]
    · simp only [TestColumns.ofType, List.mem_singleton, forall_eq, hc, List.map_cons, List.map_nil, List.nodup_singleton, and_self]
    · simp [TestColumns.ofType]
  · intro ty
    cases ty <;> simp [TestColumns.ofType, needs]

/-- The columns of a test of `PrecompiledPlonkArith` with all selectors zero and a public column of ones. -/
def falseArith (n : Nat) (a b c : List F) : TestColumns F :=
  ⟨[(bytes "a", a), (bytes "b", b), (bytes "c", c)], [(bytes "pi", List.replicate n 1)],
    [(bytes "qm", List.replicate n 0), (bytes "ql", List.replicate n 0), (bytes "qr", List.replicate n 0), (bytes "qo", List.replicate n 0),
      (bytes "qc", List.replicate n 0)]⟩

/-- **C94** A statement that is false for all witness columns: the gate is `1` in every row, yet the verifier accepts a proof without content. -/
theorem C94_false_gate (e : G →ₗ[F] G2 →ₗ[F] GT) (env : KzgEnv F G) {maxDegree : Nat} {secret : F} {g gammaG : G} {h : G2} {srs : KzgSrs G G2}
    {ck : KzgKey G} {vk : KzgVk G G2} (hsrs : universalSetup maxDegree secret g gammaG h = .ok srs) (hkeys : prepareKeys srs = .ok (ck, vk))
    {d : Domain F} (hd : d.Ok) (h8 : 8 ≤ d.size) (h4 : 4 * d.size ≤ 2 ^ FftParams.adicity F) (hn : d.size ≤ maxDegree + 1)
    {a b c : List F} (ha : a.length = d.size) (hb : b.length = d.size) (hc : c.length = d.size) :
    (∀ i < d.size, (Gates.plonkArith (F := F)).1.denote id ((falseArith d.size a b c).cell d.size i) = 1) ∧
    randomOracle F {H | ¬ ∃ proof : TPProof ((kzgScheme e env).hashing H),
        proof.Blank (S := (kzgScheme e env).hashing H) (⟨0, 0⟩ : KzgProof F G) ∧
        runVerifier ((kzgScheme e env).hashing H) ck vk d (falseArith d.size a b c) Gates.plonkArith proof = .ok ()}
      ≤ ((d.size + 1 : Nat) : ENNReal) / (Fintype.card F : ENNReal) := by
  refine ⟨fun i hi => ?_, C94_kzg e env hsrs hkeys hd hn (m := 3) ?_ ((C77_precompiled h8 _).2.1 ?_ h4)⟩
  · have hcell : ∀ (l : Label) (x : F) (q : VirtualQuery),
        ((falseArith d.size a b c).ofType q.oracleType)[q.index]? = some (l, List.replicate d.size x) → q.rotation.signed = 0 →
        (falseArith d.size a b c).cell d.size i q = x := by
      intro l x q h1 h2
      unfold TestColumns.cell
      have h3 : (((i : ℤ) + q.rotation.signed) % d.size).toNat = i := by
        rw [h2, add_zero, Int.emod_eq_of_lt (by omega) (by omega), Int.toNat_natCast]
      rw [h1, h3]
      simp [List.getD_eq_getElem?_getD, List.getElem?_replicate, hi]
    have e0 := hcell (bytes "qm") 0 (Gates.fq 0) rfl rfl
    have e1 := hcell (bytes "ql") 0 (Gates.fq 1) rfl rfl
    have e2 := hcell (bytes "qr") 0 (Gates.fq 2) rfl rfl
    have e3 := hcell (bytes "qo") 0 (Gates.fq 3) rfl rfl
    have e4 := hcell (bytes "qc") 0 (Gates.fq 4) rfl rfl
    have e5 := hcell (bytes "pi") 1 (Gates.iq 0) rfl rfl
    have hrow : ∀ x : VirtualQuery → F, (Gates.plonkArith (F := F)).1.denote id x = x (Gates.wq 0) * x (Gates.wq 1) * x (Gates.fq 0) +
        x (Gates.wq 0) * x (Gates.fq 1) + x (Gates.wq 1) * x (Gates.fq 2) + x (Gates.wq 2) * x (Gates.fq 3) + x (Gates.fq 4) +
        x (Gates.iq 0) := fun x => rfl
    rw [hrow, e0, e1, e2, e3, e4, e5]
    ring
  · intro ty
    cases ty
    · refine ⟨by simp [falseArith, TestColumns.ofType, ha, hb, hc], show [bytes "a", bytes "b", bytes "c"].Nodup by decide⟩
    · exact ⟨by simp [falseArith, TestColumns.ofType], List.nodup_singleton _⟩
    · exact ⟨by simp [falseArith, TestColumns.ofType],
        show [bytes "qm", bytes "ql", bytes "qr", bytes "qo", bytes "qc"].Nodup by decide⟩
  · intro ty
    cases ty <;> exact le_rfl

end
end ZK
