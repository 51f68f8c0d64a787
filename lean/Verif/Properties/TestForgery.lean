import Verif.Properties.ForgeAll
import Verif.Properties.RealSound
import Verif.Spec.BlankProof
/-! The verifiers of the crate's tests accept a proof without content (C91). -/
set_option autoImplicit false
set_option linter.unusedSectionVars false
namespace ZK
open Polynomial MeasureTheory

section
variable {F : Type} [Field F] [LinearOrder F]

theorem zeroProof_blank {S : Scheme F} (index : Index F) (pre : VerifierPreprocessed S) (ws : List (VerifierOracle F S.Comm)) (pf : S.Proof)
    (w : F) : (zeroProof index pre ws pf w).Blank pf := by
  refine ⟨fun c hc => ?_, fun x hx => ?_, rfl, rfl, rfl⟩
  · simp only [zeroProof, List.mem_append, List.mem_map, List.mem_replicate, List.mem_singleton] at hc
    rcases hc with ((((⟨_, _, h⟩ | h) | h) | h) | h) | h
    · exact h.symm
    · exact h.2
    · exact h.2
    · exact h.2
    · exact h
    · exact h
  · simp only [zeroProof, List.mem_append, List.mem_replicate, List.mem_singleton] at hx
    rcases hx with ((((((h | h) | h) | h) | h) | h) | h) | h
    · exact h.2
    · exact h.2
    · exact h.2
    · exact h.2
    · exact h
    · exact h.2
    · exact h.2
    · exact h.2

variable [FftParams F]

/-- **C91** The verifier's program of a test reads the labels of the witness columns and nothing else of them. -/
theorem C91_witness_not_read (S : Scheme F) (ck : S.CK) (vk : S.VK) (d : Domain F) (t : CircuitTest F) (ws : List (Label × List F))
    (hlab : ws.map (·.1) = t.columns.witness.map (·.1)) (proof : TPProof S) :
    runCircuitVerifier S ck vk d { t with columns := { t.columns with witness := ws } } proof = runCircuitVerifier S ck vk d t proof := by
  have h : ws.map (fun c => (VerifierOracle.newWitness c.1 t.copied : VerifierOracle F S.Comm))
      = t.columns.witness.map (fun c => VerifierOracle.newWitness c.1 t.copied) := by
    have h := congrArg (List.map (fun l => (VerifierOracle.newWitness l t.copied : VerifierOracle F S.Comm))) hlab
    rw [List.map_map, List.map_map] at h
    exact h
  unfold runCircuitVerifier
  simp only [h]

end

section
variable {F : Type} [Field F] [LinearOrder F] [FftParams F] [LawfulFft F] {d : Domain F} {t : CircuitTest F}

/-- What the verifier of a test of a whole circuit is made of, and that it is ready to read a proof. -/
theorem CircuitTest.ready {S : Scheme F} (vk : S.VK) (com : F[X] → S.Rand → S.Comm) (hd : d.Ok) (ht : t.Wellformed d.size)
    (hfit : t.Fits d.size) {m : Nat} (hdeg : GateDegrees d.size (FftParams.adicity F) m t.calls) :
    ∃ c' key, configureAll t.calls (t.verifier S com d) (t.tables.map (CircuitTest.handle S com d)) = .ok c' ∧
      indexer (fun o => o.shouldPermute) vk c'.vos c'.lookups c'.oracles.witness c'.oracles.inst c'.oracles.fixed d d.vanishing t.info t.rows
        (S := S) = .ok key ∧ key.vk = vk ∧
      Ready d.size key.index ⟨c'.oracles.fixed, c'.tables, t.sigmas.map (CircuitTest.handleCurr S com d),
        CircuitTest.handleCurr S com d (bytes "q_blind", t.selector)⟩ c'.oracles.witness c'.oracles.inst c'.vos := by
  have hgate : ∃ e qs, Call.gate e qs ∈ t.calls := by
    obtain ⟨e, qs, h, -⟩ := hdeg.reached
    exact ⟨e, qs, h⟩
  obtain ⟨hgood, hrange, hv, hperm, hblind⟩ := CircuitTest.circuit S com hd ht hfit hgate
  obtain ⟨c, c', key, hc, hc', hvos, hkey, hkey', hvk, -⟩ := C76_both_sides vk hd hgood hrange hdeg hv
  obtain ⟨-, -, hsu⟩ := (C74_set_up hgood.fresh hv t.calls).2 c c' hc hc'
  have hsu := hsu (t.proverSigmas d) (t.proverSelector d) _ _ hperm hblind
  have hC := configureAll_ok hc
  obtain ⟨-, -, -, -, -, hle, -, hcols, -, i1, i2, i3, i4, -⟩ := indexer_ok hd hkey
  obtain ⟨hs, hp⟩ := C74_supported hc hgood i3 i1 i4 i2 hle (fun ⟨o, ho, h⟩ => by
    obtain ⟨o', ho', he⟩ := mem_forall₂' hC.oracles.1.erased ho
    have := hcols (List.length_pos_of_mem (List.mem_filter.2 ⟨ho', (erase_copied he).trans h⟩))
    omega)
  refine ⟨c', key, hc', hkey', hvk, ?_⟩
  rw [hvos]
  exact Ready.of_setUp hs hp hsu hdeg.rows.one_lt

/-- **C91** Whatever a test's circuit, public columns and copies are: if the scheme accepts an opening of the zero commitment to zero, the
test's verifier accepts some proof without content with probability at least `1 - (n + 1) / |F|`, with a random oracle in place of the
Fiat-Shamir generator. -/
theorem C91_circuit [Fintype F] [MeasurableSpace F] [DiscreteMeasurableSpace F] {S : Scheme F} {ck : S.CK} {vk : S.VK}
    {com : F[X] → S.Rand → S.Comm} (hplain : ∀ p cs, S.commitPlain ck p = .ok cs → cs = [com (toPoly p.poly) S.emptyRand])
    (hd : d.Ok) (hn : SupportsDegree S ck d.size) (ht : t.Wellformed d.size) (hfit : t.Fits d.size)
    {m : Nat} (hdeg : GateDegrees d.size (FftParams.adicity F) m t.calls) {opening : S.Proof}
    (hopen : ∀ x, S.check vk S.zero x 0 opening = .ok true) :
    randomOracle F {H | ¬ ∃ proof : TPProof (S.hashing H), proof.Blank (S := S.hashing H) opening ∧
        runCircuitVerifier (S.hashing H) ck vk d t proof = .ok ()}
      ≤ ((d.size + 1 : Nat) : ENNReal) / (Fintype.card F : ENNReal) := by
  obtain ⟨c', key, hc', hkey', rfl, hR⟩ := CircuitTest.ready vk com hd ht hfit hdeg
  have hz : toPoly d.vanishing = X ^ d.size - 1 := toPoly_vanishing d hd.size_pos
  have hzd : (toPoly d.vanishing).natDegree = d.size := by rw [hz]; exact natDegree_X_pow_sub_C (r := (1 : F))
  have hz0 : toPoly d.vanishing ≠ 0 := by rw [hz]; exact X_pow_sub_C_ne_zero hd.size_pos 1
  have h := C36_accepted_with_random_oracle hd hR d.vanishing hz0 hopen
  rw [hzd] at h
  refine le_trans (measure_mono fun H hH => ?_) h
  rintro ⟨w, hw⟩
  refine hH ⟨zeroProof (S := S.hashing H) key.index (VerifierPreprocessed.hashing ⟨c'.oracles.fixed, c'.tables,
    t.sigmas.map (CircuitTest.handleCurr S com d), CircuitTest.handleCurr S com d (bytes "q_blind", t.selector)⟩ H) c'.oracles.witness
    opening w, zeroProof_blank (S := S.hashing H) _ _ _ _ w, ?_⟩
  rw [runCircuitVerifier_eq (S := S.hashing H) (com := com) hplain ⟨hn.commit, hn.commitPlain, hn.open_⟩ hc' (indexer_hashing hkey' H)]
  exact hw

end

section
variable {F : Type} [Field F] [LinearOrder F] [FftParams F] [LawfulFft F] [Fintype F] [MeasurableSpace F] [DiscreteMeasurableSpace F]
  {G : Type} [AddCommGroup G] [Module F G] {G2 GT : Type} [AddCommGroup G2] [Module F G2] [AddCommGroup GT] [Module F GT] [DecidableEq GT]

/-- **C91** With KZG keys made by `universal_setup` and `prepare_keys` the opening is the point zero with the value zero. -/
theorem C91_kzg (e : G →ₗ[F] G2 →ₗ[F] GT) (env : KzgEnv F G) {maxDegree : Nat} {secret : F} {g gammaG : G} {h : G2} {srs : KzgSrs G G2}
    {ck : KzgKey G} {vk : KzgVk G G2} (hsrs : universalSetup maxDegree secret g gammaG h = .ok srs) (hkeys : prepareKeys srs = .ok (ck, vk))
    {d : Domain F} (hd : d.Ok) (hn : d.size ≤ maxDegree + 1) {t : CircuitTest F} (ht : t.Wellformed d.size) (hfit : t.Fits d.size)
    {m : Nat} (hdeg : GateDegrees d.size (FftParams.adicity F) m t.calls) :
    randomOracle F {H | ¬ ∃ proof : TPProof ((kzgScheme e env).hashing H),
        proof.Blank (S := (kzgScheme e env).hashing H) (⟨0, 0⟩ : KzgProof F G) ∧
        runCircuitVerifier ((kzgScheme e env).hashing H) ck vk d t proof = .ok ()}
      ≤ ((d.size + 1 : Nat) : ENNReal) / (Fintype.card F : ENNReal) := by
  have hf := fromSetup_of_keys hsrs hkeys
  have h3 : 3 ≤ ck.gammaPowers.length := by rw [hf.gammaPowers]; exact le_rfl
  have hpos := hd.size_pos
  refine C91_circuit (S := kzgScheme e env) (ck := ck) (vk := vk) (opening := (⟨0, 0⟩ : KzgProof F G)) ?_ hd
    (C52_kzg_supports e env hpos (by rw [hf.powers]; simpa using hn) h3) ht hfit hdeg (fun x => ?_)
    (com := fun (p : F[X]) (r : {r : List F // r.length ≤ 3}) => (kzgCom ck p (toPoly r.1) : G))
  · intro p cs hcs
    obtain ⟨c, hc, hcs⟩ := Res.bind_eq_ok.1 hcs
    obtain ⟨-, -, rfl⟩ := (kzgCommitWith_iff ..).1 hc
    exact (Res.ok.inj hcs).symm
  · show (Res.ok (kzgCheck e vk kzgZero x 0 ⟨0, 0⟩) : Res KzgErr Bool) = .ok true
    simp [kzgCheck, kzgZero]

end

section
variable {G G2 GT : Type} [AddCommGroup G] [Module Fr G] [AddCommGroup G2] [Module Fr G2] [AddCommGroup GT] [Module Fr GT] [DecidableEq GT]

/-- **C91** The test `copy_plonk` over the scalar field of BLS12-381, with any witness columns: the verifier accepts a proof without content
with probability at least `1 - 17 / r`. -/
theorem C91_copy_plonk (e : G →ₗ[Fr] G2 →ₗ[Fr] GT) (env : KzgEnv Fr G) {secret : Fr} {g gammaG : G} {h : G2}
    {srs : KzgSrs G G2} {ck : KzgKey G} {vk : KzgVk G G2} (hsrs : universalSetup 15 secret g gammaG h = .ok srs)
    (hkeys : prepareKeys srs = .ok (ck, vk)) {a b c : List Fr} (ha : a.length = 16) (hb : b.length = 16) (hc : c.length = 16) :
    randomOracle Fr {H | ¬ ∃ proof : TPProof ((kzgScheme e env).hashing H),
        proof.Blank (S := (kzgScheme e env).hashing H) (⟨0, 0⟩ : KzgProof Fr G) ∧
        runCircuitVerifier ((kzgScheme e env).hashing H) ck vk (Fr381.dom 4) (copyPlonkCircuit (Fr381.dom 4) a b c) proof = .ok ()}
      ≤ 17 / (Fr381.r : ENNReal) := by
  have h16 : (Fr381.dom 4).size = 16 := rfl
  have hd : (Fr381.dom 4).Ok := Fr381.dom_ok (by norm_num)
  have h := C91_kzg e env hsrs hkeys hd (by rw [h16]) (t := copyPlonkCircuit (Fr381.dom 4) a b c)
    (by rw [h16]; exact copyTest_wellformed (by simp [ha, hb, hc])) (copyPlonkCircuit_fits _ _ _ _)
    (copyTest_degrees (by rw [h16]; norm_num) (by rw [h16]; show 4 * 16 ≤ 2 ^ 32; norm_num))
  rw [Fr381.card_fr] at h
  refine h.trans (le_of_eq ?_)
  norm_cast

/-- **C91** The test `test_full_circuit_simple_lookup`. -/
theorem C91_simple_lookup (e : G →ₗ[Fr] G2 →ₗ[Fr] GT) (env : KzgEnv Fr G) {secret : Fr} {g gammaG : G} {h : G2}
    {srs : KzgSrs G G2} {ck : KzgKey G} {vk : KzgVk G G2} (hsrs : universalSetup 15 secret g gammaG h = .ok srs)
    (hkeys : prepareKeys srs = .ok (ck, vk)) {b restA restC : List Fr} (hb : b.length = 16) (ha : restA.length = 6) (hc : restC.length = 6) :
    randomOracle Fr {H | ¬ ∃ proof : TPProof ((kzgScheme e env).hashing H),
        proof.Blank (S := (kzgScheme e env).hashing H) (⟨0, 0⟩ : KzgProof Fr G) ∧
        runCircuitVerifier ((kzgScheme e env).hashing H) ck vk (Fr381.dom 4) (simpleLookup b restA restC) proof = .ok ()}
      ≤ 17 / (Fr381.r : ENNReal) := by
  have h16 : (Fr381.dom 4).size = 16 := rfl
  have hd : (Fr381.dom 4).Ok := Fr381.dom_ok (by norm_num)
  have h := C91_kzg e env hsrs hkeys hd (by rw [h16]) (t := simpleLookup b restA restC)
    (simpleLookup_wellformed hb ha hc) (simpleLookup_fits _ _ _)
    (lookupTest_degrees (by rw [h16]; norm_num) (by rw [h16]; show 4 * 16 ≤ 2 ^ 32; norm_num))
  rw [Fr381.card_fr] at h
  refine h.trans (le_of_eq ?_)
  norm_cast

/-- The circuit of `copy_plonk` with all selectors zero and a public column of ones: the gate says `1 = 0` in every row. -/
def falsePlonk (a b c sigma1 sigma2 sigma3 : List Fr) : CircuitTest Fr :=
  copyTest a b c (List.replicate 16 1) (List.replicate 16 0) (List.replicate 16 0) (List.replicate 16 0) (List.replicate 16 0)
    (List.replicate 16 0) sigma1 sigma2 sigma3 (List.replicate 9 0 ++ List.replicate 7 1) [1, 7, 13] 8

/-- **C91** A circuit that no witness columns satisfy, whatever is copied, and whose verifier accepts a proof without content with
probability at least `1 - 17 / r`. -/
theorem C91_unsatisfiable (e : G →ₗ[Fr] G2 →ₗ[Fr] GT) (env : KzgEnv Fr G) {secret : Fr} {g gammaG : G} {h : G2}
    {srs : KzgSrs G G2} {ck : KzgKey G} {vk : KzgVk G G2} (hsrs : universalSetup 15 secret g gammaG h = .ok srs)
    (hkeys : prepareKeys srs = .ok (ck, vk)) {s1 s2 s3 : List Fr} (h1 : s1.length = 16) (h2 : s2.length = 16) (h3 : s3.length = 16) :
    (∀ a b c tau, ¬ (falsePlonk a b c s1 s2 s3).Holds (Fr381.dom 4) tau) ∧
    ∀ a b c : List Fr, a.length = 16 → b.length = 16 → c.length = 16 →
      randomOracle Fr {H | ¬ ∃ proof : TPProof ((kzgScheme e env).hashing H),
        proof.Blank (S := (kzgScheme e env).hashing H) (⟨0, 0⟩ : KzgProof Fr G) ∧
        runCircuitVerifier ((kzgScheme e env).hashing H) ck vk (Fr381.dom 4) (falsePlonk a b c s1 s2 s3) proof = .ok ()}
      ≤ 17 / (Fr381.r : ENNReal) := by
  have h16 : (Fr381.dom 4).size = 16 := rfl
  have hd : (Fr381.dom 4).Ok := Fr381.dom_ok (by norm_num)
  refine ⟨fun a b c tau hh => ?_, fun a b c ha hb hc => ?_⟩
  · have g0 := copyTest_gate hh (i := 0) (by rw [h16]; norm_num)
    replace g0 : (0 : Fr) * a.getD 0 0 * b.getD 0 0 + 0 * a.getD 0 0 + 0 * b.getD 0 0 + 0 * c.getD 0 0 + 0 + 1 = 0 := g0
    refine one_ne_zero (α := Fr) ?_
    linear_combination g0
  · have h := C91_kzg e env hsrs hkeys hd (by rw [h16]) (t := falsePlonk a b c s1 s2 s3)
      (by rw [h16]; exact copyTest_wellformed (by simp [ha, hb, hc, h1, h2, h3]))
      (by
        rw [h16]
        refine copyTest_fits (by norm_num) rfl ?_
        exact forall_lt_16 ⟨rfl, rfl, rfl, rfl, rfl, rfl, rfl, rfl, rfl, rfl, rfl, rfl, rfl, rfl, rfl, rfl⟩)
      (copyTest_degrees (by rw [h16]; norm_num) (by rw [h16]; show 4 * 16 ≤ 2 ^ 32; norm_num))
    rw [Fr381.card_fr] at h
    refine h.trans (le_of_eq ?_)
    norm_cast

end
end ZK
