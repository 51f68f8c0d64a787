import Verif.Properties.AdjustError
import Verif.Properties.TestForgery
import Verif.Spec.Adjusted
/-! The verifiers of the crate's tests accept a prover's proof with two numbers changed, whatever the gates say (C92). -/
set_option autoImplicit false
set_option linter.unusedSectionVars false
namespace ZK
open Polynomial MeasureTheory

section
variable {F : Type} [Field F] [LinearOrder F] [FftParams F] [LawfulFft F] {d : Domain F} {t : CircuitTest F}

omit [LinearOrder F] [FftParams F] [LawfulFft F] in
theorem shiftTwo_same (x1 b : F) (l : List F) : (shiftTwo x1 b l).length = l.length ∧ (shiftTwo x1 b l).drop 2 = l.drop 2 := by
  match l with
  | [] => exact ⟨rfl, rfl⟩
  | [_] => exact ⟨rfl, rfl⟩
  | _ :: _ :: _ => exact ⟨rfl, rfl⟩

/-- **C92** Whatever the gates of a test's circuit say, if it copies columns or has lookups, and its columns satisfy the copies and the
lookups: the test's verifier accepts what the test's prover returns, with two of its numbers changed, with probability at least
`1 - (m * u + 2 * l * u' + 2 * n + 2) / |F|`, with a random oracle in place of the Fiat-Shamir generator. -/
theorem C92_circuit [Fintype F] [MeasurableSpace F] [DiscreteMeasurableSpace F] {S : Scheme F} {ck : S.CK} {vk : S.VK}
    {com : F[X] → S.Rand → S.Comm} (hS : HomomorphicScheme S ck vk com)
    (hplain : ∀ p cs, S.commitPlain ck p = .ok cs → cs = [com (toPoly p.poly) S.emptyRand])
    (hd : d.Ok) (hn : SupportsDegree S ck d.size) (ht : t.Wellformed d.size) (hfit : t.Fits d.size)
    {m : Nat} (hdeg : GateDegrees d.size (FftParams.adicity F) m t.calls) (hparts : t.copiedCount ≠ 0 ∨ lookupCount t.calls ≠ 0)
    {tau : Equiv.Perm (Fin t.columns.witness.length × Fin t.info.u)} (hholds : t.HoldsButGates d tau) (z : S.Z) :
    randomOracle F {H | ¬ t.AcceptsAdjusted (S.hashing H) ck vk d z}
    ≤ ((t.copiedCount * t.info.u + 2 * (lookupCount t.calls * t.rows) + 2 * d.size + 2 : Nat) : ENNReal) / (Fintype.card F : ENNReal) := by
  have hgate : ∃ e qs, Call.gate e qs ∈ t.calls := by
    obtain ⟨e, qs, h, -⟩ := hdeg.reached
    exact ⟨e, qs, h⟩
  obtain ⟨hgood, hrange, hv, hperm, hblind⟩ := CircuitTest.circuit S com hd ht hfit hgate
  obtain ⟨tau', ht1, ht2⟩ := CircuitTest.clientCopies hholds.sigmas hholds.copies
  have hl := CircuitTest.clientLookups hd.size_pos ht hfit hholds.lookups
  obtain ⟨c, c', key, hc, hc', hvos, hkey, hkey', rfl, -⟩ := C76_both_sides vk hd hgood hrange hdeg hv
  have hz : toPoly d.vanishing = X ^ d.size - 1 := toPoly_vanishing d hd.size_pos
  have hzd : (toPoly d.vanishing).natDegree = d.size := by rw [hz]; exact natDegree_X_pow_sub_C (r := (1 : F))
  have hz0 : toPoly d.vanishing ≠ 0 := by rw [hz]; exact X_pow_sub_C_ne_zero hd.size_pos 1
  have h1 : 1 < d.size := hdeg.rows.one_lt
  have hC := configureAll_ok hc
  obtain ⟨-, -, hsu⟩ := (C74_set_up hgood.fresh hv t.calls).2 c c' hc hc'
  have hsu := hsu (t.proverSigmas d) (t.proverSelector d) _ _ hperm hblind
  obtain ⟨-, -, -, -, -, hle, hsz, hmax, hlk4, hu, hdl, hlk, hur, -⟩ := indexer_ok hd hkey
  obtain ⟨hs, hp⟩ := C74_supported hc hgood hlk hu hur hdl hle (fun ⟨o, ho, hp⟩ => by
    obtain ⟨o', ho', he⟩ := mem_forall₂' hC.oracles.1.erased ho
    have := hmax (List.length_pos_of_mem (List.mem_filter.2 ⟨ho', (erase_copied he).trans hp⟩))
    omega)
  obtain ⟨tau2, henc, hcop⟩ := transport_copies (d := d) (sigmas := t.proverSigmas d) (configured_copied hC).length_eq hu.symm hdl.symm
    (configured_copied hC) ht1 ht2
  obtain ⟨-, m2⟩ := C74_meaning hc hgood.fresh hgood.good
  have hcount : ((t.prover d).witness.filter (·.shouldPermute)).length = t.copiedCount := by
    unfold CircuitTest.copiedCount
    by_cases hcp : t.copied = true
    · rw [CircuitTest.filter_copied hcp, if_pos hcp]
      exact List.length_map ..
    · rw [CircuitTest.filter_plain (by simpa using hcp), if_neg hcp]
      rfl
  have hcc : (c.oracles.witness.filter (·.shouldPermute)).length = t.copiedCount := by rw [← (configured_copied hC).length_eq, hcount]
  have hlc : key.index.lookups.length = lookupCount t.calls := by rw [lookupCount_eq, hC.lookups.length_eq, hlk]
  have hlarge : d.size < key.index.ext.size := by
    have h2 : 2 ≤ key.index.perm.maxCols + 1 := by
      rcases hparts with h | h
      · exact hmax (by rw [hcc]; omega)
      · have := hlk4 (fun h0 => h (by rw [← hlc, hlk, h0]; rfl))
        omega
    rw [hsz]
    nlinarith
  have hmain := C92_adjusted_random_oracle (pk := ⟨key, ck⟩) hS hd h1 hn hkey hz0 hlarge hs hp henc hsu hcop
    (by rw [hlk, hur]; exact (m2 _).2 hl) z
  have hprover : circuitProver S key.vk d t = .ok ⟨key, c⟩ := by
    unfold circuitProver
    rw [hc]
    exact Res.bind_eq_ok.2 ⟨_, rfl, Res.bind_eq_ok.2 ⟨_, by rw [hkey]; rfl, rfl⟩⟩
  refine (measure_mono fun H hH => ?_).trans (hmain.trans (le_of_eq ?_))
  · rintro ⟨proof, g1, b, st', -, -, g2⟩
    obtain ⟨x1, hx1⟩ : ∃ x, x = (mpChallenges (S.hashing H) proof.multiopen (verifierChallenges (S.hashing H) proof).2).1 := ⟨_, rfl⟩
    rw [← hx1] at g2
    refine hH ⟨proof, shiftTwo x1 b proof.quotientEvals, Res.bind_eq_ok.2 ⟨_, circuitProver_hashing hprover H, congrArg Res.orPanic g1⟩, (shiftTwo_same _ b _).1,
      (shiftTwo_same _ b _).2, ?_⟩
    rw [runCircuitVerifier_eq (S := S.hashing H) (com := com) hplain ⟨hn.commit, hn.commitPlain, hn.open_⟩ hc' (indexer_hashing hkey' H), hvos]
    exact g2
  · rw [hcc, hu, hlc, hur, hzd]
    congr 2
    ring

end

section
variable {F : Type} [Field F] [LinearOrder F] [FftParams F] [LawfulFft F] [Fintype F] [MeasurableSpace F] [DiscreteMeasurableSpace F]
  {G : Type} [AddCommGroup G] [Module F G] {G2 GT : Type} [AddCommGroup G2] [Module F G2] [AddCommGroup GT] [Module F GT] [DecidableEq GT]

/-- **C92** With KZG keys made by `universal_setup` and `prepare_keys`. -/
theorem C92_kzg (e : G →ₗ[F] G2 →ₗ[F] GT) (env : KzgEnv F G) {maxDegree : Nat} {secret : F} {g gammaG : G} {h : G2} {srs : KzgSrs G G2}
    {ck : KzgKey G} {vk : KzgVk G G2} (hsrs : universalSetup maxDegree secret g gammaG h = .ok srs) (hkeys : prepareKeys srs = .ok (ck, vk))
    {d : Domain F} (hd : d.Ok) (hn : d.size ≤ maxDegree + 1) {t : CircuitTest F} (ht : t.Wellformed d.size) (hfit : t.Fits d.size)
    {m : Nat} (hdeg : GateDegrees d.size (FftParams.adicity F) m t.calls) (hparts : t.copiedCount ≠ 0 ∨ lookupCount t.calls ≠ 0)
    {tau : Equiv.Perm (Fin t.columns.witness.length × Fin t.info.u)} (hholds : t.HoldsButGates d tau) (z : env.Z) :
    randomOracle F {H | ¬ t.AcceptsAdjusted ((kzgScheme e env).hashing H) ck vk d z}
      ≤ ((t.copiedCount * t.info.u + 2 * (lookupCount t.calls * t.rows) + 2 * d.size + 2 : Nat) : ENNReal) / (Fintype.card F : ENNReal) := by
  have hf := fromSetup_of_keys hsrs hkeys
  have h3 : 3 ≤ ck.gammaPowers.length := by rw [hf.gammaPowers]; exact le_rfl
  have hpos := hd.size_pos
  refine C92_circuit (S := kzgScheme e env) (C44_homomorphic e env hf.kzgSetup h3) ?_ hd
    (C52_kzg_supports e env hpos (by rw [hf.powers]; simpa using hn) h3) ht hfit hdeg hparts hholds z
  intro p cs hcs
  obtain ⟨c, hc, hcs⟩ := Res.bind_eq_ok.1 hcs
  obtain ⟨-, -, rfl⟩ := (kzgCommitWith_iff ..).1 hc
  exact (Res.ok.inj hcs).symm

end

section
variable {G G2 GT : Type} [AddCommGroup G] [Module Fr G] [AddCommGroup G2] [Module Fr G2] [AddCommGroup GT] [Module Fr GT] [DecidableEq GT]

/-- **C92** The test `copy_plonk` over the scalar field of BLS12-381, for all columns that satisfy its copies,
also those that do not satisfy its gates: the verifier accepts the prover's proof with two numbers changed with probability at least `1 - 58 / r`. -/
theorem C92_copy_plonk (e : G →ₗ[Fr] G2 →ₗ[Fr] GT) (env : KzgEnv Fr G) {secret : Fr} {g gammaG : G} {h : G2}
    {srs : KzgSrs G G2} {ck : KzgKey G} {vk : KzgVk G G2} (hsrs : universalSetup 15 secret g gammaG h = .ok srs)
    (hkeys : prepareKeys srs = .ok (ck, vk)) {a b c : List Fr} (ha : a.length = 16) (hb : b.length = 16) (hc : c.length = 16)
    (hcop : ∀ x : Fin 3 × Fin 8, ([a, b, c].getD (copyPlonkPerm x).1 []).getD (copyPlonkPerm x).2 0 = ([a, b, c].getD x.1 []).getD x.2 0)
    (z : env.Z) :
    randomOracle Fr {H | ¬ (copyPlonkCircuit (Fr381.dom 4) a b c).AcceptsAdjusted ((kzgScheme e env).hashing H) ck vk (Fr381.dom 4) z}
      ≤ 58 / (Fr381.r : ENNReal) := by
  have h16 : (Fr381.dom 4).size = 16 := rfl
  have hd : (Fr381.dom 4).Ok := Fr381.dom_ok (by norm_num)
  have h := C92_kzg e env hsrs hkeys hd (by rw [h16]) (t := copyPlonkCircuit (Fr381.dom 4) a b c)
    (by rw [h16]; exact copyTest_wellformed (by simp [ha, hb, hc])) (copyPlonkCircuit_fits _ _ _ _)
    (copyTest_degrees (by rw [h16]; norm_num) (by rw [h16]; show 4 * 16 ≤ 2 ^ 32; norm_num)) (Or.inl (show (3 : Nat) ≠ 0 by decide)) (tau := copyPlonkPerm)
    ⟨fun es qs ts h => by (cases List.mem_singleton.1 h), fun _ => copyPlonk_sigmas _ _ _ _, fun _ => hcop⟩ z
  rw [Fr381.card_fr] at h
  refine h.trans (le_of_eq ?_)
  norm_cast

/-- The circuit of `copy_plonk` with its copies, all selectors zero and a public column of ones: the gate says `1 = 0` in every row. -/
def falseCopyPlonk (a b c : List Fr) : CircuitTest Fr :=
  let sigma (k : Nat) : List Fr := ((copyPlonkCircuit (Fr381.dom 4) a b c).sigmas.map (·.2)).getD k []
  falsePlonk a b c (sigma 0) (sigma 1) (sigma 2)

/-- **C92** A circuit that no witness columns satisfy, and whose verifier accepts what its prover returns for columns of zeros, with two
numbers changed, with probability at least `1 - 58 / r`. -/
theorem C92_unsatisfiable (e : G →ₗ[Fr] G2 →ₗ[Fr] GT) (env : KzgEnv Fr G) {secret : Fr} {g gammaG : G} {h : G2}
    {srs : KzgSrs G G2} {ck : KzgKey G} {vk : KzgVk G G2} (hsrs : universalSetup 15 secret g gammaG h = .ok srs)
    (hkeys : prepareKeys srs = .ok (ck, vk)) (z : env.Z) :
    (∀ a b c tau, ¬ (falseCopyPlonk a b c).Holds (Fr381.dom 4) tau) ∧
    randomOracle Fr {H | ¬ (falseCopyPlonk (List.replicate 16 0) (List.replicate 16 0) (List.replicate 16 0)).AcceptsAdjusted
        ((kzgScheme e env).hashing H) ck vk (Fr381.dom 4) z} ≤ 58 / (Fr381.r : ENNReal) := by
  have h16 : (Fr381.dom 4).size = 16 := rfl
  have hd : (Fr381.dom 4).Ok := Fr381.dom_ok (by norm_num)
  refine ⟨fun a b c tau hh => ?_, ?_⟩
  · have g0 := copyTest_gate hh (i := 0) (by rw [h16]; norm_num)
    replace g0 : (0 : Fr) * a.getD 0 0 * b.getD 0 0 + 0 * a.getD 0 0 + 0 * b.getD 0 0 + 0 * c.getD 0 0 + 0 + 1 = 0 := g0
    refine one_ne_zero (α := Fr) ?_
    linear_combination g0
  · have h := C92_kzg e env hsrs hkeys hd (by rw [h16])
      (t := falseCopyPlonk (List.replicate 16 0) (List.replicate 16 0) (List.replicate 16 0))
      (by rw [h16]; exact copyTest_wellformed (by simp [copyPlonkCircuit, copyTest]))
      (by
        rw [h16]
        refine copyTest_fits (by norm_num) rfl ?_
        exact forall_lt_16 ⟨rfl, rfl, rfl, rfl, rfl, rfl, rfl, rfl, rfl, rfl, rfl, rfl, rfl, rfl, rfl, rfl⟩)
      (copyTest_degrees (by rw [h16]; norm_num) (by rw [h16]; show 4 * 16 ≤ 2 ^ 32; norm_num)) (Or.inl (show (3 : Nat) ≠ 0 by decide)) (tau := copyPlonkPerm)
      ⟨fun es qs ts h => by (cases List.mem_singleton.1 h), fun _ => copyPlonk_sigmas (Fr381.dom 4) [] [] [], fun _ => ?_⟩ z
    · rw [Fr381.card_fr] at h
      refine h.trans (le_of_eq ?_)
      norm_cast
    · have hzero : ∀ k i : Nat, valueAt (falseCopyPlonk (List.replicate 16 0) (List.replicate 16 0) (List.replicate 16 0)).columns.witness k i = 0 := by
        intro k i
        have h0 : (List.replicate 16 (0 : Fr)).getD i 0 = 0 := by
          rw [List.getD_eq_getElem?_getD, List.getElem?_replicate]
          split <;> rfl
        match k with
        | 0 => exact h0
        | 1 => exact h0
        | 2 => exact h0
        | k + 3 => rfl
      intro x
      rw [hzero, hzero]

/-- **C92** The circuit of `test_full_circuit_simple_lookup` with any columns `b` and `c` and any selector of the gate, if the first column
can be looked up: the gate is not enforced. -/
theorem C92_simple_lookup (e : G →ₗ[Fr] G2 →ₗ[Fr] GT) (env : KzgEnv Fr G) {secret : Fr} {g gammaG : G} {h : G2}
    {srs : KzgSrs G G2} {ck : KzgKey G} {vk : KzgVk G G2} (hsrs : universalSetup 15 secret g gammaG h = .ok srs)
    (hkeys : prepareKeys srs = .ok (ck, vk)) {a b c q table selector : List Fr} {rows : Nat} (ha : a.length = 16) (hb : b.length = 16)
    (hc : c.length = 16) (hq : q.length = 16) (htab : table.length = 16) (hsel : selector.length = 16) (hrows : 0 < rows ∧ rows < 16)
    (hone : ∀ i < 16, rows ≤ i → selector.getD i 0 = 1) (hlook : ∀ i < rows, ∃ j < rows, a.getD i 0 = table.getD j 0) (z : env.Z) :
    randomOracle Fr {H | ¬ (lookupTest a b c q table selector rows).AcceptsAdjusted ((kzgScheme e env).hashing H) ck vk (Fr381.dom 4) z}
      ≤ ((2 * rows + 34 : Nat) : ENNReal) / (Fr381.r : ENNReal) := by
  have h16 : (Fr381.dom 4).size = 16 := rfl
  have hd : (Fr381.dom 4).Ok := Fr381.dom_ok (by norm_num)
  have h := C92_kzg e env hsrs hkeys hd (by rw [h16]) (t := lookupTest a b c q table selector rows)
    (by rw [h16]; exact lookupTest_wellformed ha hb hc hq htab hsel) (by rw [h16]; exact lookupTest_fits hrows hone)
    (lookupTest_degrees (by rw [h16]; norm_num) (by rw [h16]; show 4 * 16 ≤ 2 ^ 32; norm_num)) (Or.inr (show (1 : Nat) ≠ 0 by decide))
    (tau := Equiv.refl _) ⟨?_, fun h => (by cases h), fun h => (by cases h)⟩ z
  · rw [Fr381.card_fr] at h
    refine h.trans (le_of_eq ?_)
    congr 2
    show 0 * _ + 2 * (1 * rows) + 2 * 16 + 2 = 2 * rows + 34
    omega
  · intro es qs ts h i hi
    simp only [lookupTest, List.mem_cons, List.not_mem_nil, or_false, reduceCtorEq, false_or] at h
    injection h with h1 h2 h3
    subst h1 h2 h3
    have hi : i < rows := hi
    obtain ⟨j, hj, h⟩ := hlook i hi
    refine ⟨j, hj, ?_⟩
    show [TestColumns.cell _ 16 i ⟨0, .curr, .witness⟩] = [table.getD j 0]
    rw [TestColumns.cell_curr _ (hi.trans hrows.2) ⟨0, .curr, .witness⟩ rfl rfl]
    exact congrArg (fun x => [x]) h

end
end ZK
