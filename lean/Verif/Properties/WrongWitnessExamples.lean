import Verif.Properties.WrongWitness
import Verif.Properties.OutcomeExamples
import Verif.Properties.SoundnessExamples
/-! C73: the toy circuit with a witness that violates a copy, and with one that violates a lookup. -/
set_option autoImplicit false
set_option linter.unusedSectionVars false
namespace ZK
open Polynomial
namespace Toy

theorem provableOf {k : VerifierKey S} (hk : key = .ok k) (a b c : List F97) :
    Provable dom k.index (viewOf a b c) sigma qBlind vos := by
  have hs := dom_size
  obtain ⟨-, -, -, -, -, -, -, -, -, hu, hdl, hl, hu', -⟩ := indexer_ok dom_Ok hk
  constructor
  · simp [vos]
  · rw [hu, hs]; decide
  · intro _
    have h1 : ((viewOf a b c).witness.filter (·.shouldPermute)).length = 2 := rfl
    rw [hdl, maxCols hk, h1]
    decide +kernel
  · exact (provable hk).lookups
  · rw [hs]
    intro o ho
    simp only [viewOf, wit, inst, fixed, table, sigma, qBlind, List.cons_append, List.nil_append, List.mem_cons,
      List.not_mem_nil, or_false] at ho
    rcases ho with rfl | rfl | rfl | rfl | rfl | rfl | rfl | rfl | rfl <;> simp only [column] <;> decide +kernel

/-- The sigmas swap `a[0]` and `b[1]`, whose values differ in `viewRows`. -/
theorem copiedRows (u : Nat) (hu : u = 2) : ∃ tau : Equiv.Perm (Fin (viewRows.witness.filter (·.shouldPermute)).length × Fin u),
    Encodes dom info.deltas sigma tau ∧ ¬ CopiesHold viewRows tau := by
  subst hu
  refine ⟨Equiv.swap (⟨0, by decide +kernel⟩, 0) (⟨1, by decide +kernel⟩, 1), ?_⟩
  unfold Encodes MadeFrom CopiesHold
  decide +kernel

/-- The lookup holds in `viewRows`. -/
theorem lookedUpRows {k : VerifierKey S} (hk : key = .ok k) : LookupsHold dom.size k.index.usableRows viewRows k.index.lookups := by
  obtain ⟨-, -, -, -, -, -, -, -, -, hu, hdl, hl, hu', -⟩ := indexer_ok dom_Ok hk
  intro l hll es ts he ht i hi
  rw [hl] at hll
  obtain rfl := List.mem_singleton.1 hll
  obtain ⟨⟩ := Res.ok.inj he
  obtain ⟨⟩ := Res.ok.inj ht
  rw [hu'] at hi ⊢
  have hr : ∀ i < 2, ∀ q ∈ (Expr.oracle qC : Expr F97).queries,
      ReadsCell dom.size viewRows i q (if i = 0 then 56 else 26) := by
    rw [dom_size]
    intro i hi q hq
    obtain rfl := List.mem_singleton.1 hq
    refine ⟨by decide, column .witness [3] [56, 26, 9, 2] [.curr] false, findOracle_eq_some.1 rfl, i, ?_, ?_⟩
    · interval_cases i <;> rfl
    · interval_cases i <;> rfl
  refine ⟨1 - i, by omega, List.Forall₂.cons ⟨fun _ => if i = 0 then 56 else 26, hr i hi, 
    column .fixed [6] [26, 56, 0, 0] [.curr] false, findOracle_eq_some.1 rfl, ?_⟩ .nil⟩
  interval_cases i <;> rfl

/-- The first cell of the column that is looked up is 16 in `viewBad`, which is not in the table. -/
theorem notLookedUp {k : VerifierKey S} (hk : key = .ok k) : ¬ LookupsHold dom.size k.index.usableRows viewBad k.index.lookups := by
  obtain ⟨-, -, -, -, -, -, -, -, -, hu, hdl, hl, hu', -⟩ := indexer_ok dom_Ok hk
  intro h
  rw [hl, hu', dom_size] at h
  obtain ⟨j, hj, h1⟩ := h lookup List.mem_cons_self [.oracle qC] [qT] rfl rfl 0 (by norm_num)
  obtain ⟨⟨y, h2, o, h3, h4⟩, -⟩ := List.forall₂_cons.1 h1
  obtain ⟨-, o', h5, i, h6, h7⟩ := h2 qC List.mem_cons_self
  rw [← findOracle_eq_some] at h3 h5
  have e3 : findOracle viewBad.table qT.label = some (column .fixed [6] [26, 56, 0, 0] [.curr] false) := rfl
  have e5 : findOracle (viewBad.oracles qC.oracleType) qC.label = some (column .witness [3] [16, 26, 9, 2] [.curr] false) := rfl
  rw [e3] at h3
  rw [e5] at h5
  obtain rfl := Option.some.inj h3
  obtain rfl := Option.some.inj h5
  have hi : i = 0 := by
    have : (i : ℤ) = 0 := h6
    omega
  subst hi
  have hy : (16 : F97) = y qC := Option.some.inj h7
  have h8 : [(26 : F97), 56, 0, 0][j]? = some (y qC) := h4
  rw [← hy] at h8
  have : j = 0 ∨ j = 1 := by omega
  rcases this with rfl | rfl <;> exact absurd h8 (by decide)

/-- The hypotheses of C73 are met by the toy circuit for both witnesses. The lookup has a single column, hence no `theta` is
exceptional. -/
theorem wrong_witness : ∃ k, key = .ok k ∧ (∀ cs : List F97,
      prove (S.answering cs) ((⟨k, ()⟩ : ProverKey S).answering cs) (.new _ fixed sigma table qBlind k.index) viewBad.witness inst vos dom.size ()
        = .panic) ∧
    ∃ Bp : Set (F97 × F97), FewPairs 4 Bp ∧ ∀ theta beta gamma, ∀ cs : List F97,  (beta, gamma) ∉ Bp →
      prove (S.answering (theta :: beta :: gamma :: cs)) ((⟨k, ()⟩ : ProverKey S).answering _) (.new _ fixed sigma table qBlind k.index)
        viewRows.witness inst vos dom.size () = .panic := by
  obtain ⟨k, -, hk, -⟩ := honest
  obtain ⟨-, -, -, -, hext, hle, -, -, -, hu, hdl, hl, hu', -⟩ := indexer_ok dom_Ok hk
  obtain ⟨tau, he, -⟩ := copied k.index.perm.usableRows hu
  obtain ⟨tau', he', hc'⟩ := copiedRows k.index.perm.usableRows hu
  have hK : ∀ l ∈ k.index.lookups, ∀ es, l.getExpressions = .ok es → es.length ≤ 1 := by
    intro l hll es hes
    rw [hl] at hll
    obtain rfl := List.mem_singleton.1 hll
    obtain ⟨⟩ := Res.ok.inj hes
    exact le_rfl
  have hn : ∀ cs, SupportsDegree (S.answering cs) () dom.size := fun cs =>
    ⟨(supports _).commit, (supports _).commitPlain, (supports _).open_⟩
  refine ⟨k, hk, fun cs => ?_, ?_⟩
  · obtain ⟨Bt, h1, h2⟩ := (C73_wrong_witness_panics (S := S.answering cs) (pk := (⟨k, ()⟩ : ProverKey S).answering cs)
      dom_Ok (hn cs) hext hle (ws := viewBad.witness) (is := inst) (fixed := fixed) (table := table)
      (supportedOf hk rfl rfl rfl) (provableOf hk _ _ _) hK (by rw [← hdl] at he; exact he)).1 (notLookedUp hk)
    obtain ⟨theta, h3⟩ := firstAnswer_exists (S := S.answering cs) (pk := (⟨k, ()⟩ : ProverKey S).answering cs) 
      (ws := viewBad.witness) (is := inst) (fixed := fixed) (table := table) (supportedOf hk rfl rfl rfl).toSupportedShape (hn cs) ()
    refine h2 () theta h3 ?_
    have : Bt = ∅ := Finset.card_eq_zero.1 (by simpa using h1)
    simp [this]
  · have hf := C73_wrong_copies (v := viewRows) (index := k.index) (by rw [← hdl] at he'; exact he') hc'
    refine ⟨_, by rw [hu] at hf; exact hf, fun theta beta gamma cs hnot => ?_⟩
    obtain ⟨theta', h3⟩ := firstAnswer_exists (S := S.answering (theta :: beta :: gamma :: cs)) (pk := (⟨k, ()⟩ : ProverKey S).answering _)
      (ws := viewRows.witness) (is := inst) (fixed := fixed) (table := table) (supportedOf hk rfl rfl rfl).toSupportedShape (hn _) ()
    obtain ⟨beta', gamma', h4, -⟩ := proveRounds_succeeds_at dom_Ok hext hle (by rw [dom_size]; norm_num) (supportedOf hk rfl rfl rfl).toSupportedShape
      (provableOf hk _ _ _) (hn _) h3 ((lookedUpRows hk).compressed theta')
    refine Res.bind_eq_panic.2 (.inl (proveRounds_panics dom_Ok hext hle (supportedOf hk rfl rfl rfl).toSupportedShape (provableOf hk _ _ _) (hn _) h4
      (fun h => hnot ?_)))
    obtain ⟨wc, z1, ls, z2, lc, z3, -, -, -, -, e2, e3⟩ := h4
    obtain rfl : beta' = beta := e2
    obtain rfl : gamma' = gamma := e3
    exact h.2

/-- How a run with given columns and challenges ends. -/
def outcomeFor (v : ProverView F97) (cs : List F97) : Option End :=
  match key with
  | .ok k => some (match prove (S.answering cs) ((⟨k, ()⟩ : ProverKey S).answering cs) (.new _ fixed sigma table qBlind k.index) v.witness inst
        vos 4 () with
    | .panic => .proverPanic
    | .err (.multiproof (.piop (.repeatedRotation _))) => .repeatedRotation
    | .err _ => .otherError
    | .ok proof => match verify (S.answering cs) (k.answering cs) (vpre.answering cs) proof (witness.map blank) vinst vos 4 dom.vanishing with
      | .panic => .verifierPanic
      | .err _ => .rejected
      | .ok _ => .accepted)
  | _ => none

/-- The prover panics for the violated copy, unless `beta` is zero: then the products are equal and the proof is accepted. For the
violated lookup it panics in both cases. -/
theorem wrong_outcomes : outcomeFor viewRows [2, 10, 3, 4, 5, 6, 7, 8, 9] = some .proverPanic ∧
    outcomeFor viewRows [2, 0, 3, 4, 5, 6, 7, 8, 9] = some .accepted ∧
    outcomeFor viewBad [2, 10, 3, 4, 5, 6, 7, 8, 9] = some .proverPanic ∧
    outcomeFor viewBad [2, 0, 3, 4, 5, 6, 7, 8, 9] = some .proverPanic := by
  decide +kernel

end Toy
end ZK
