import Verif.Properties.Outcome
/-! C73: what the prover does with a witness whose copies or lookups do not hold. -/
set_option autoImplicit false
set_option linter.unusedSectionVars false
namespace ZK
open Polynomial

section
variable {F : Type} [Field F]

/-- **C73** (lookups) If a lookup does not hold, at most `u * (K - 1)` values of `theta` make the compressed lookups hold, where `K` is
the largest number of components. In particular there are none if every lookup has one component. -/
theorem C73_wrong_lookups [DecidableEq F] {n u K : Nat} {v : ProverView F} {lookups : List (GenericLookupVO F)}
    (hK : ∀ l ∈ lookups, ∀ es ts, l.getExpressions = .ok es → l.getTableQueries = .ok ts → es.length = ts.length ∧ es.length ≤ K)
    (h : ¬ LookupsHold n u v lookups) :
    ∃ Bt : Finset F, Bt.card ≤ u * (K - 1) ∧ ∀ theta ∉ Bt, ¬ CompressedLookups n u v lookups theta := by
  unfold LookupsHold at h
  push Not at h
  obtain ⟨l, hl, es, ts, hes, hts, i, hi, hno⟩ := h
  obtain ⟨hlen, hle⟩ := hK l hl es ts hes hts
  by_cases hin : ∃ a, InputRow n v es i a
  swap
  · refine ⟨∅, by simp, fun theta _ hc => ?_⟩
    obtain ⟨j, -, a, s, h1, -⟩ := hc l hl es ts hes hts i hi
    exact hin ⟨a, h1⟩
  obtain ⟨a, ha⟩ := hin
  classical
  let T : Nat → List F := fun j => if h : ∃ s, TableRow v ts j s then h.choose else []
  have hT : ∀ {j s}, TableRow v ts j s → T j = s := by
    intro j s h
    have hex : ∃ s, TableRow v ts j s := ⟨s, h⟩
    show (if h : ∃ s, TableRow v ts j s then h.choose else []) = s
    rw [dif_pos hex]
    exact hex.choose_spec.unique h
  have hne : ∀ {j s}, j < u → TableRow v ts j s → toPoly a - toPoly s ≠ 0 := by
    intro j s hj hs h0
    have hal : a.length = es.length := ha.length_eq.symm
    have hsl : s.length = ts.length := hs.length_eq.symm
    have e : a = s := list_eq_of_toPoly (sub_eq_zero.1 h0) (by omega)
    subst e
    refine hno j hj (forall₂_of_getElem? hlen ?_)
    intro k e t hke hkt
    obtain ⟨x, hx, y, h1, h2⟩ := Forall₂.left ha hke
    obtain ⟨x', hx', o, h3, h4⟩ := Forall₂.left hs hkt
    obtain rfl := Option.some.inj (hx.symm.trans hx')
    exact ⟨y, h1, o, h3, by rw [h4, h2]⟩
  refine ⟨(Finset.range u).biUnion (fun j => (toPoly a - toPoly (T j)).roots.toFinset), ?_, ?_⟩
  · refine (Finset.card_biUnion_le_card_mul _ _ (K - 1) ?_).trans (by rw [Finset.card_range])
    intro j hj
    refine ((Multiset.toFinset_card_le _).trans (card_roots' _)).trans ?_
    refine (natDegree_sub_le _ _).trans (max_le ?_ ?_)
    · refine (natDegree_toPoly_le _).trans ?_
      have : a.length = es.length := ha.length_eq.symm
      omega
    · refine (natDegree_toPoly_le _).trans ?_
      by_cases hex : ∃ s, TableRow v ts j s
      · obtain ⟨s, hs⟩ := hex
        rw [hT hs]
        have : s.length = ts.length := hs.length_eq.symm
        omega
      · have : T j = [] := dif_neg hex
        rw [this]
        simp
  · intro theta hth hc
    obtain ⟨j, hj, a', s, h1, h2, h3⟩ := hc l hl es ts hes hts i hi
    obtain rfl := ha.unique h1
    apply hth
    refine Finset.mem_biUnion.2 ⟨j, Finset.mem_range.2 hj, Multiset.mem_toFinset.2 ?_⟩
    rw [hT h2, mem_roots (hne hj h2), IsRoot.def, eval_sub, ← compress_eq_eval, ← compress_eq_eval, h3, sub_self]

/-- The products over the cells of a list of columns are equal for few pairs only, if a copy does not hold. -/
theorem products_few (d : Domain F) (deltas : List F) (ws sigmas : List (ProverOracle F)) {u : Nat}
    (tau : Equiv.Perm (Fin ws.length × Fin u)) (henc : Encodes d deltas sigmas tau) {bad : Fin ws.length × Fin u}
    (hbad : cell ws (tau bad) ≠ cell ws bad) :
    FewPairs (ws.length * u) {p | ∏ c : Fin ws.length × Fin u, (cell ws c + p.1 * cellId d deltas c + p.2) =
      ∏ c : Fin ws.length × Fin u, (cell ws c + p.1 * cell sigmas c + p.2)} := by
  classical
  obtain ⟨hσ, hid⟩ := henc
  set A := linProd (Finset.univ : Finset (Fin ws.length × Fin u)) (cell ws) (cellId d deltas) with hA
  set B := linProd (Finset.univ : Finset (Fin ws.length × Fin u)) (cell ws) (cell sigmas) with hB
  have hcard : (Finset.univ : Finset (Fin ws.length × Fin u)).card = ws.length * u := by
    simp
  have hAB : A - B ≠ 0 := by
    intro h0
    obtain ⟨c, _, h1, h2⟩ := linProd_eq_mem _ _ _ _ _ _ (sub_eq_zero.1 h0) (tau bad) (Finset.mem_univ _)
    rw [hσ] at h2
    have := tau.injective (hid h2)
    subst this
    exact hbad h1.symm
  intro T
  have hmain := card_square_le (A - B) hAB (ws.length * u) (by
    rw [← hcard]
    exact (linProd_total _ _ _).sub (linProd_total _ _ _)) T
  refine le_trans (Finset.card_le_card ?_) hmain
  rintro ⟨beta, gamma⟩ hp
  rw [Finset.mem_filter] at hp ⊢
  refine ⟨hp.1, ?_⟩
  rw [Polynomial.map_sub, eval_sub, hA, hB, linProd_eval, linProd_eval]
  exact sub_eq_zero.2 hp.2

/-- **C73** (copies) If a copy does not hold, at most `m * u * t` of the `t^2` pairs `(beta, gamma)` from a set of `t` elements make the
two products of the permutation argument equal. -/
theorem C73_wrong_copies {d : Domain F} {index : Index F} {v : ProverView F} {sigmas : List (ProverOracle F)}
    {tau : Equiv.Perm (Fin (v.witness.filter (·.shouldPermute)).length × Fin index.perm.usableRows)}
    (henc : Encodes d index.perm.deltas sigmas tau) (h : ¬ CopiesHold v tau) :
    FewPairs ((v.witness.filter (·.shouldPermute)).length * index.perm.usableRows)
      {p | EqualProducts d index v sigmas p.1 p.2} := by
  unfold CopiesHold at h
  push Not at h
  obtain ⟨bad, hbad⟩ := h
  exact products_few d index.perm.deltas _ sigmas tau henc hbad

variable [LinearOrder F] [FftParams F] [LawfulFft F]

/-- **C73** For a witness whose lookups do not hold, `prove` panics for all but few `theta`; for a witness whose copies do not hold,
`prove` panics for all but few pairs `(beta, gamma)`. Nothing is assumed about the gates. -/
theorem C73_wrong_witness_panics {S : Scheme F} {pk : ProverKey S} {d : Domain F} (hd : d.Ok) (hn : SupportsDegree S pk.ck d.size)
    (he : pk.vk.index.ext.Ok) (hle : d.size ≤ pk.vk.index.ext.size) {vos : List (GenericVO F)}
    {ws is fixed table sigmas : List (ProverOracle F)} {qBlind : ProverOracle F}
    (hs : Supported d pk.vk.index ⟨ws, is, fixed, table⟩ sigmas qBlind vos)
    (hp : Provable d pk.vk.index ⟨ws, is, fixed, table⟩ sigmas qBlind vos) {K : Nat}
    (hK : ∀ l ∈ pk.vk.index.lookups, ∀ es, l.getExpressions = .ok es → es.length ≤ K)
    {tau : Equiv.Perm (Fin (ws.filter (·.shouldPermute)).length × Fin pk.vk.index.perm.usableRows)}
    (henc : Encodes d pk.vk.index.perm.deltas sigmas tau) :
    (¬ LookupsHold d.size pk.vk.index.usableRows ⟨ws, is, fixed, table⟩ pk.vk.index.lookups →
      ∃ Bt : Finset F, Bt.card ≤ pk.vk.index.usableRows * (K - 1) ∧
        ∀ z theta, FirstAnswer S pk ⟨ws, is, fixed, table⟩ z theta → theta ∉ Bt →
          prove S pk (.new S fixed sigmas table qBlind pk.vk.index) ws is vos d.size z = .panic) ∧
    (¬ CopiesHold ⟨ws, is, fixed, table⟩ tau →
      ∃ Bp : Set (F × F), FewPairs ((ws.filter (·.shouldPermute)).length * pk.vk.index.perm.usableRows) Bp ∧
        ∀ z theta beta gamma, FirstMessages S pk ⟨ws, is, fixed, table⟩ d z theta beta gamma → (beta, gamma) ∉ Bp →
          prove S pk (.new S fixed sigmas table qBlind pk.vk.index) ws is vos d.size z = .panic) := by
  constructor
  · intro hl
    obtain ⟨Bt, h1, h2⟩ := C73_wrong_lookups (K := K) (fun l hlm es ts g1 g2 => ⟨(hp.lookups l hlm es ts g1 g2).1, hK l hlm es g1⟩) hl
    refine ⟨Bt, h1, fun z theta hth hnot => ?_⟩
    exact Res.bind_eq_panic.2 (.inl (proveRounds_panics_lookup hd he hle hs hp hth (h2 theta hnot)))
  · intro hc
    refine ⟨_, C73_wrong_copies (v := ⟨ws, is, fixed, table⟩) henc hc, fun z theta beta gamma hf hnot => ?_⟩
    exact Res.bind_eq_panic.2 (.inl (proveRounds_panics hd he hle hs hp hn hf (fun h => hnot h.2)))

/-- **C73** The challenge `beta = 0` makes the copies irrelevant: a witness that satisfies the gates and the lookups is accepted
under the same conditions on the other challenges as a witness that satisfies the copies as well (C70). -/
theorem C73_zero_beta {W I K : Type} [ConcreteOracle W] [ConcreteOracle I] [ConcreteOracle K]
    {S : Scheme F} {pk : ProverKey S} {com : F[X] → S.Rand → S.Comm} (hS : HomomorphicScheme S pk.ck pk.vk.vk com)
    {d : Domain F} (hd : d.Ok) (h1 : 1 < d.size) (hn : SupportsDegree S pk.ck d.size) {vos : List (GenericVO F)}
    -- the key
    {copyFlag : W → Bool} {vk : S.VK} {lookups : List (GenericLookupVO F)} {ows : List W} {ois : List I} {ofs : List K}
    {zh : List F} {info : PermutationInfo F} {usableRows : Nat}
    (hkey : indexer copyFlag vk vos lookups ows ois ofs d zh info usableRows (S := S) = .ok pk.vk)
    (htrim : zh = trim zh) (hdvd : toPoly zh ∣ X ^ d.size - 1)
    (hproper : toPoly zh = X ^ d.size - 1 ∨ (toPoly zh).natDegree < d.size)
    (hquotient : pk.vk.index.quotientDegree ≠ pk.vk.index.ext.size)
    -- the circuit, the witness and the verifier's oracles
    {ws is fixed table sigmas : List (ProverOracle F)} {qBlind : ProverOracle F}
    (hcopies : (∃ o ∈ ws, o.shouldPermute = true) → d.size < pk.vk.index.perm.maxCols + 2 + (toPoly zh).natDegree)
    (hs : Supported d pk.vk.index ⟨ws, is, fixed, table⟩ sigmas qBlind vos)
    (hp : Provable d pk.vk.index ⟨ws, is, fixed, table⟩ sigmas qBlind vos)
    {vws : List (VerifierOracle F S.Comm)} {vis : List (InstanceVerifierOracle F)} {vpre : VerifierPreprocessed S}
    (hsu : SetUp S com ⟨ws, is, fixed, table⟩ sigmas qBlind vws vis vpre)
    -- the gates and the lookups hold; nothing is said about the copies
    (hg : GatesHold d ⟨ws, is, fixed, table⟩ vos (toPoly zh))
    (hl : LookupsHold d.size pk.vk.index.usableRows ⟨ws, is, fixed, table⟩ pk.vk.index.lookups)
    -- the sets of rotations at which the columns of a proof are opened
    {R : Finset (List Rotation)}
    (hR : R = openedSets (ws ++ fixed ++ table ++ sigmas ++ [qBlind]) lookups.length
      (grandProducts (ws.filter (·.shouldPermute)).length pk.vk.index.perm.maxCols) info.u) (z : S.Z) (theta gamma alpha xi x1 x2 x3 x4 : F) :
    let cs := [theta, 0, gamma, alpha, xi, x1, x2, x3, x4]
    (∃ proof,
      prove (S.answering cs) (pk.answering _) (.new _ fixed sigmas table qBlind pk.vk.index) ws is vos d.size z = .ok proof ∧
      verify (S.answering cs) (pk.vk.answering _) (vpre.answering _) proof vws vis vos d.size zh = .ok ()) ↔
    GoodDraw d pk.vk.index ⟨ws, is, fixed, table⟩ sigmas theta 0 gamma ∧
      ¬ (xi = 0 ∧ ∃ rs ∈ R, 2 ≤ rs.length) ∧ ¬ ∃ rs ∈ R, ∃ r ∈ rs, x3 = xi * d.omega ^ r.signed := by
  intro cs
  refine (C73_interactive hS hd h1 hn hkey htrim hdvd hproper hquotient hcopies hs hp hsu hg hR z theta 0 gamma alpha xi x1 x2 x3
    x4).trans ⟨fun h => h.2.2, fun h => ⟨hl.compressed theta, by simp [EqualProducts], h⟩⟩

end
end ZK
