import Verif.Lemmas.Success
import Verif.Lemmas.Sound
/-!
The honest prover succeeds: for a satisfying witness `prove` returns a proof, whatever randomness is drawn, unless the
transcript answers with one of few challenges.
-/
set_option autoImplicit false
set_option linter.unusedSectionVars false
namespace ZK
open Polynomial

section
variable {F : Type} [Field F]

/-! ### Few challenges make a denominator vanish -/

theorem FewPairs.union {k l : Nat} {A B : Set (F × F)} (hA : FewPairs k A) (hB : FewPairs l B) : FewPairs (k + l) (A ∪ B) := by
  classical
  intro T
  have h1 := hA T
  have h2 := hB T
  rw [Nat.add_mul]
  refine le_trans ?_ (Nat.add_le_add h1 h2)
  refine le_trans (Finset.card_le_card ?_) (Finset.card_union_le _ _)
  intro p hp
  simp only [Finset.mem_filter, Finset.mem_union, Set.mem_union] at hp ⊢
  tauto

theorem FewPairs.subset {k : Nat} {A B : Set (F × F)} (hB : FewPairs k B) (h : A ⊆ B) : FewPairs k A := by
  classical
  intro T
  refine le_trans (Finset.card_le_card ?_) (hB T)
  intro p hp
  simp only [Finset.mem_filter] at hp ⊢
  exact ⟨hp.1, h hp.2⟩

theorem FewPairs.iUnion {ι : Type} [Fintype ι] {k : Nat} {A : ι → Set (F × F)} (hA : ∀ i, FewPairs k (A i)) :
    FewPairs (Fintype.card ι * k) (⋃ i, A i) := by
  classical
  intro T
  have h : (T ×ˢ T).filter (· ∈ ⋃ i, A i) ⊆ Finset.univ.biUnion (fun i => (T ×ˢ T).filter (· ∈ A i)) := by
    intro p hp
    simp only [Finset.mem_filter, Set.mem_iUnion, Finset.mem_biUnion, Finset.mem_univ, true_and] at hp ⊢
    obtain ⟨h1, i, h2⟩ := hp
    exact ⟨i, h1, h2⟩
  refine le_trans (Finset.card_le_card h) ?_
  refine le_trans (Finset.card_biUnion_le) ?_
  refine le_trans (Finset.sum_le_card_nsmul _ _ (k * T.card) (fun i _ => hA i T)) ?_
  simp [Nat.mul_assoc]

/-- Pairs in which the second component is determined by the first. -/
theorem FewPairs.graph {A : Set (F × F)} (h : ∀ x y y', (x, y) ∈ A → (x, y') ∈ A → y = y') : FewPairs 1 A := by
  classical
  intro T
  rw [Nat.one_mul]
  refine Finset.card_le_card_of_injOn Prod.fst ?_ ?_
  · rintro ⟨x, y⟩ hp
    simp only [Finset.coe_filter, Finset.mem_product, Set.mem_setOf_eq] at hp
    exact hp.1.1
  · rintro ⟨x, y⟩ hp ⟨x', y'⟩ hp' hxx
    simp only [Finset.coe_filter, Finset.mem_product, Set.mem_setOf_eq] at hp hp' hxx
    subst hxx
    rw [h x y y' hp.2 hp'.2]

/-- Pairs in which the first component is determined by the second. -/
theorem FewPairs.graph' {A : Set (F × F)} (h : ∀ x x' y, (x, y) ∈ A → (x', y) ∈ A → x = x') : FewPairs 1 A := by
  classical
  intro T
  rw [Nat.one_mul]
  refine Finset.card_le_card_of_injOn Prod.snd ?_ ?_
  · rintro ⟨x, y⟩ hp
    simp only [Finset.coe_filter, Finset.mem_product, Set.mem_setOf_eq] at hp
    exact hp.1.2
  · rintro ⟨x, y⟩ hp ⟨x', y'⟩ hp' hxx
    simp only [Finset.coe_filter, Finset.mem_product, Set.mem_setOf_eq] at hp hp' hxx
    subst hxx
    rw [h x x' y hp.2 hp'.2]

/-- **C52** (few bad challenges) With `m` copied columns, `u` usable rows and `l` lookups, for every `theta` at most
`(m * u + 2 * l * u') * t` of the `t^2` pairs of challenges from a set of `t` elements make a denominator vanish. -/
theorem C52_few_bad_draws (d : Domain F) (index : Index F) (v : ProverView F) (sigmas : List (ProverOracle F)) (theta : F) :
    FewPairs ((v.witness.filter (·.shouldPermute)).length * index.perm.usableRows
        + 2 * (index.lookups.length * index.usableRows))
      {p | ¬ GoodDraw d index v sigmas theta p.1 p.2} := by
  have h1 := FewPairs.iUnion (ι := Fin (v.witness.filter (·.shouldPermute)).length × Fin index.perm.usableRows) (k := 1)
    (A := fun c => {p : F × F | cell (v.witness.filter (·.shouldPermute)) c + p.1 * cell sigmas c + p.2 = 0})
    (fun c => FewPairs.graph (fun x y y' h h' => by
      simp only [Set.mem_setOf_eq] at h h'
      exact add_left_cancel (h.trans h'.symm)))
  have h2 := FewPairs.iUnion (ι := Fin index.lookups.length × Fin index.usableRows) (k := 1)
    (A := fun c => {p : F × F | ∃ es vals, index.lookups[c.1].getExpressions = .ok es ∧
      InputRow d.size v es c.2 vals ∧ compress theta vals + p.1 = 0})
    (fun c => FewPairs.graph' (fun x x' y h h' => by
      obtain ⟨es, vals, e1, e2, e3⟩ := h
      obtain ⟨es', vals', e1', e2', e3'⟩ := h'
      obtain rfl := Res.ok.inj (e1.symm.trans e1')
      rw [e2.unique e2'] at e3
      exact add_left_cancel (e3.trans e3'.symm)))
  have h3 := FewPairs.iUnion (ι := Fin index.lookups.length × Fin index.usableRows) (k := 1)
    (A := fun c => {p : F × F | ∃ ts vals, index.lookups[c.1].getTableQueries = .ok ts ∧
      TableRow v ts c.2 vals ∧ compress theta vals + p.2 = 0})
    (fun c => FewPairs.graph (fun x y y' h h' => by
      obtain ⟨ts, vals, e1, e2, e3⟩ := h
      obtain ⟨ts', vals', e1', e2', e3'⟩ := h'
      obtain rfl := Res.ok.inj (e1.symm.trans e1')
      rw [e2.unique e2'] at e3
      exact add_left_cancel (e3.trans e3'.symm)))
  refine FewPairs.subset ((h1.union (h2.union h3)).mono ?_) ?_
  · simp only [Fintype.card_prod, Fintype.card_fin]
    omega
  · intro p hp
    by_contra hc
    simp only [Set.mem_union, Set.mem_iUnion, not_or, not_exists, Set.mem_setOf_eq, not_and] at hc
    refine hp ⟨fun c => hc.1 c, ?_⟩
    intro l hl es ts e1 e2 i hi vals
    obtain ⟨k, hk, rfl⟩ := List.getElem_of_mem hl
    exact ⟨fun h => hc.2.1 (⟨k, hk⟩, ⟨i, hi⟩) es vals e1 h, fun h => hc.2.2 (⟨k, hk⟩, ⟨i, hi⟩) ts vals e2 h⟩

/-! ### The prover succeeds and the verifier accepts -/

variable [LinearOrder F] [FftParams F] [LawfulFft F]

/-- The prover succeeds and is accepted, given that the lookup constraints hold. -/
theorem prover_succeeds_indexed {W I K : Type} [ConcreteOracle W] [ConcreteOracle I] [ConcreteOracle K]
    {S : Scheme F} {pk : ProverKey S} {com : F[X] → S.Rand → S.Comm} (hS : HomomorphicScheme S pk.ck pk.vk.vk com)
    {d : Domain F} (hd : d.Ok) (h1 : 1 < d.size) (hn : SupportsDegree S pk.ck d.size) {vos : List (GenericVO F)}
    -- the key
    {copyFlag : W → Bool} {vk : S.VK} {lookups : List (GenericLookupVO F)} {ows : List W} {ois : List I} {ofs : List K}
    {zh : List F} {info : PermutationInfo F} {usableRows : Nat}
    (hkey : indexer copyFlag vk vos lookups ows ois ofs d zh info usableRows (S := S) = .ok pk.vk)
    (htrim : zh = trim zh) (hdvd : toPoly zh ∣ X ^ d.size - 1)
    (hproper : toPoly zh = X ^ d.size - 1 ∨ (toPoly zh).natDegree < d.size)
    (hquotient : pk.vk.index.quotientDegree ≠ pk.vk.index.ext.size)
    -- the circuit, the witness and the verifier's oracles
    {ws is fixed table sigmas : List (ProverOracle F)} {qBlind : ProverOracle F}
    (hcopies : (∃ o ∈ ws, o.shouldPermute = true) → d.size < pk.vk.index.perm.maxCols + 2 + (toPoly zh).natDegree)
    (hs : SupportedShape d pk.vk.index ⟨ws, is, fixed, table⟩ sigmas qBlind vos)
    (hlv : LookupsVanish S d pk.vk.index ((⟨ws, is, fixed, table⟩ : ProverView F).extend pk.vk.index.ext)
      (sigmas.map (·.computeExtended pk.vk.index.ext)) (qBlind.computeExtended pk.vk.index.ext))
    (hp : Provable d pk.vk.index ⟨ws, is, fixed, table⟩ sigmas qBlind vos)
    {tau : Equiv.Perm (Fin (ws.filter (·.shouldPermute)).length × Fin pk.vk.index.perm.usableRows)}
    (henc : MadeFrom d pk.vk.index.perm.deltas sigmas tau)
    {vws : List (VerifierOracle F S.Comm)} {vis : List (InstanceVerifierOracle F)} {vpre : VerifierPreprocessed S}
    (hsu : SetUp S com ⟨ws, is, fixed, table⟩ sigmas qBlind vws vis vpre)
    -- the witness satisfies the circuit
    (hg : GatesHold d ⟨ws, is, fixed, table⟩ vos (toPoly zh))
    (hcop : CopiesHold ⟨ws, is, fixed, table⟩ tau)
    (hl : LookupsHold d.size pk.vk.index.usableRows ⟨ws, is, fixed, table⟩ pk.vk.index.lookups) (z : S.Z) :
    ∃ theta beta gamma, FirstMessages S pk ⟨ws, is, fixed, table⟩ d z theta beta gamma ∧
      (GoodDraw d pk.vk.index ⟨ws, is, fixed, table⟩ sigmas theta beta gamma →
        ∃ tr, proveRounds S pk (.new S fixed sigmas table qBlind pk.vk.index) ws is vos d.size z = .ok tr ∧
          tr.chal.theta = theta ∧ tr.chal.beta = beta ∧ tr.chal.gamma = gamma ∧
          (tr.chal.xi ≠ 0 →
            ∃ proof, prove S pk (.new S fixed sigmas table qBlind pk.vk.index) ws is vos d.size z = .ok proof ∧
              (verifierChallenges S proof).1 = tr.chal ∧
              ((∀ k : ℤ, (mpChallenges S proof.multiopen (verifierChallenges S proof).2).2.2.1 ≠ tr.chal.xi * d.omega ^ k) →
                verify S pk.vk vpre proof vws vis vos d.size zh = .ok ()))) := by
  obtain ⟨-, -, -, -, hext, hle, -⟩ := indexer_ok hd hkey
  obtain ⟨theta, beta, gamma, h2, h3⟩ := proveRounds_succeeds hd hext hle h1 hs hp hl henc hcop hn z
  refine ⟨theta, beta, gamma, h2, fun hgood => ?_⟩
  obtain ⟨tr, h4, h5, h6, h7⟩ := h3 hgood
  refine ⟨tr, h4, h5, h6, h7, fun hxi => ?_⟩
  obtain ⟨proof, h8, h9⟩ := prove_succeeds hS hd hext hle h1 hs hp hn h4 hxi
  refine ⟨proof, h8, by rw [h9], fun hx3 => ?_⟩
  refine verify_of_prove_indexed hS hd h1 hkey htrim hdvd hproper hquotient hcopies hs hlv hg hsu h8 ?_
  rw [h9] at hx3 ⊢
  exact hx3

/-- **C52** An honest prover succeeds, and its proof is accepted. For a key made by the indexer, a commitment scheme that
can commit to polynomials with as many coefficients as there are rows, a supported and provable circuit whose gates,
copies and lookups hold, and every state `z` of the random source: the prover draws `theta`, `beta` and `gamma`; unless
they make a denominator vanish it reaches the evaluation challenge; unless this challenge is zero it returns a proof; and
unless the challenge `x3` of the multi-opening is a power of the generator times the evaluation challenge `verify` accepts
this proof. -/
theorem C52_honest_prover_succeeds {W I K : Type} [ConcreteOracle W] [ConcreteOracle I] [ConcreteOracle K]
    {S : Scheme F} {pk : ProverKey S} {com : F[X] → S.Rand → S.Comm} (hS : HomomorphicScheme S pk.ck pk.vk.vk com)
    {d : Domain F} (hd : d.Ok) (h1 : 1 < d.size) (hn : SupportsDegree S pk.ck d.size) {vos : List (GenericVO F)}
    -- the key
    {copyFlag : W → Bool} {vk : S.VK} {lookups : List (GenericLookupVO F)} {ows : List W} {ois : List I} {ofs : List K}
    {zh : List F} {info : PermutationInfo F} {usableRows : Nat}
    (hkey : indexer copyFlag vk vos lookups ows ois ofs d zh info usableRows (S := S) = .ok pk.vk)
    (htrim : zh = trim zh) (hdvd : toPoly zh ∣ X ^ d.size - 1)
    (hproper : toPoly zh = X ^ d.size - 1 ∨ (toPoly zh).natDegree < d.size)
    (hquotient : pk.vk.index.quotientDegree ≠ pk.vk.index.ext.size)
    -- the circuit, the witness and the verifier's oracles
    {ws is fixed table sigmas : List (ProverOracle F)} {qBlind : ProverOracle F}
    (hcopies : (∃ o ∈ ws, o.shouldPermute = true) → d.size < pk.vk.index.perm.maxCols + 2 + (toPoly zh).natDegree)
    (hs : Supported d pk.vk.index ⟨ws, is, fixed, table⟩ sigmas qBlind vos)
    (hp : Provable d pk.vk.index ⟨ws, is, fixed, table⟩ sigmas qBlind vos)
    {tau : Equiv.Perm (Fin (ws.filter (·.shouldPermute)).length × Fin pk.vk.index.perm.usableRows)}
    (henc : MadeFrom d pk.vk.index.perm.deltas sigmas tau)
    {vws : List (VerifierOracle F S.Comm)} {vis : List (InstanceVerifierOracle F)} {vpre : VerifierPreprocessed S}
    (hsu : SetUp S com ⟨ws, is, fixed, table⟩ sigmas qBlind vws vis vpre)
    -- the witness satisfies the circuit
    (hg : GatesHold d ⟨ws, is, fixed, table⟩ vos (toPoly zh))
    (hcop : CopiesHold ⟨ws, is, fixed, table⟩ tau)
    (hl : LookupsHold d.size pk.vk.index.usableRows ⟨ws, is, fixed, table⟩ pk.vk.index.lookups) (z : S.Z) :
    ∃ theta beta gamma, FirstMessages S pk ⟨ws, is, fixed, table⟩ d z theta beta gamma ∧
      (GoodDraw d pk.vk.index ⟨ws, is, fixed, table⟩ sigmas theta beta gamma →
        ∃ tr, proveRounds S pk (.new S fixed sigmas table qBlind pk.vk.index) ws is vos d.size z = .ok tr ∧
          tr.chal.theta = theta ∧ tr.chal.beta = beta ∧ tr.chal.gamma = gamma ∧
          (tr.chal.xi ≠ 0 →
            ∃ proof, prove S pk (.new S fixed sigmas table qBlind pk.vk.index) ws is vos d.size z = .ok proof ∧
              (verifierChallenges S proof).1 = tr.chal ∧
              ((∀ k : ℤ, (mpChallenges S proof.multiopen (verifierChallenges S proof).2).2.2.1 ≠ tr.chal.xi * d.omega ^ k) →
                verify S pk.vk vpre proof vws vis vos d.size zh = .ok ()))) :=
  prover_succeeds_indexed hS hd h1 hn hkey htrim hdvd hproper hquotient hcopies hs (Supported.lookupsVanish hd
    (indexer_ok hd hkey).2.2.2.2.1 (indexer_ok hd hkey).2.2.2.2.2.1 (hs.allHonest _) (hs.extend _)) hp henc hsu hg hcop hl z

end
end ZK
