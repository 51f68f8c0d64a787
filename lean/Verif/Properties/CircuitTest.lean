import Verif.Spec.CircuitTest
import Verif.Properties.GateTest
/-! C78: the crate's tests of whole circuits succeed for all inputs. -/
set_option autoImplicit false
set_option linter.unusedSectionVars false
namespace ZK
open Polynomial

section
variable {F : Type} [Field F] [LinearOrder F] [FftParams F]

/-- The number of usable rows is copied into the key and has no other influence on the indexer. -/
theorem indexer_rows {S : Scheme F} {W I X : Type} [ConcreteOracle W] [ConcreteOracle I] [ConcreteOracle X] (copyFlag : W → Bool)
    (vk : S.VK) (vos : List (GenericVO F)) (lookups : List (GenericLookupVO F)) (ws : List W) (is : List I) (fs : List X) (d : Domain F)
    (zh : List F) (info : PermutationInfo F) (r r' : Nat) {key : VerifierKey S}
    (h : indexer copyFlag vk vos lookups ws is fs d zh info r (S := S) = .ok key) :
    indexer copyFlag vk vos lookups ws is fs d zh info r' (S := S) = .ok { key with index := { key.index with usableRows := r' } } := by
  unfold indexer at h ⊢
  obtain ⟨qd, h1, h⟩ := Res.bind_eq_ok.1 h
  obtain ⟨ext0, h2, h⟩ := Res.bind_eq_ok.1 h
  refine Res.bind_eq_ok.2 ⟨qd, h1, Res.bind_eq_ok.2 ⟨ext0, h2, ?_⟩⟩
  split at h
  · cases h
  · next hlt =>
    rw [if_neg hlt]
    obtain ⟨perm, h3, h⟩ := Res.bind_eq_ok.1 h
    obtain ⟨ext, h4, h⟩ := Res.bind_eq_ok.1 h
    obtain ⟨inv, h5, h⟩ := Res.bind_eq_ok.1 h
    obtain rfl := Res.ok.inj h
    exact Res.bind_eq_ok.2 ⟨perm, h3, Res.bind_eq_ok.2 ⟨ext, h4, Res.bind_eq_ok.2 ⟨inv, h5, rfl⟩⟩⟩

/-- **C78** The verifier does not read the number of usable rows of the lookups. -/
theorem C78_verifier_ignores_rows (S : Scheme F) (key : VerifierKey S) (r : Nat) (pre : VerifierPreprocessed S) (proof : TPProof S)
    (ws : List (VerifierOracle F S.Comm)) (is : List (InstanceVerifierOracle F)) (vos : List (GenericVO F)) (n : Nat) (zh : List F) :
    verify S { key with index := { key.index with usableRows := r } } pre proof ws is vos n zh = verify S key pre proof ws is vos n zh := rfl

theorem perm_transport {m m' u : Nat} (h : m = m') (tau : Equiv.Perm (Fin m × Fin u)) :
    ∃ tau' : Equiv.Perm (Fin m' × Fin u), ∀ P : Nat → Nat → Nat → Nat → Prop, (∀ c : Fin m × Fin u, P c.1 c.2 (tau c).1 (tau c).2) →
      ∀ c : Fin m' × Fin u, P c.1 c.2 (tau' c).1 (tau' c).2 := by
  subst h
  exact ⟨tau, fun _ h => h⟩

variable {d : Domain F} {t : CircuitTest F}

theorem CircuitTest.colVal_witness (k i : Nat) : colVal (t.prover d).witness k i = valueAt t.columns.witness k i := by
  unfold colVal valueAt CircuitTest.prover
  rw [List.map_map]
  rfl

theorem CircuitTest.colVal_sigmas (k i : Nat) : colVal (t.proverSigmas d) k i = valueAt t.sigmas k i := by
  unfold colVal valueAt CircuitTest.proverSigmas
  rw [List.map_map]
  rfl

theorem CircuitTest.filter_copied (h : t.copied = true) : (t.prover d).witness.filter (·.shouldPermute) = (t.prover d).witness := by
  rw [List.filter_eq_self]
  intro o ho
  obtain ⟨c, -, rfl⟩ := List.mem_map.1 ho
  exact h

theorem CircuitTest.filter_plain (h : t.copied = false) : (t.prover d).witness.filter (·.shouldPermute) = [] := by
  rw [List.filter_eq_nil_iff]
  intro o ho
  obtain ⟨c, -, rfl⟩ := List.mem_map.1 ho
  show ¬ t.copied = true
  rw [h]; exact Bool.false_ne_true

theorem CircuitTest.copied_of (h : ∃ o ∈ (t.prover d).witness, o.shouldPermute = true) : t.copied = true := by
  obtain ⟨o, ho, h⟩ := h
  obtain ⟨c, -, rfl⟩ := List.mem_map.1 ho
  exact h

theorem CircuitTest.count (ty : OracleType) : (t.prover d).count ty = (t.columns.ofType ty).length := by
  cases ty <;> exact List.length_map ..

theorem CircuitTest.reads {i : Nat} {q : VirtualQuery} {y : F} (h : VReads d.size (t.prover d) i q y) : y = t.columns.cell d.size i q := by
  obtain ⟨o, ho, j, hj, hy⟩ := h
  have key : ∃ c, (t.columns.ofType q.oracleType)[q.index]? = some c ∧ o.evals = c.2 := by
    revert ho
    cases q.oracleType <;> intro ho <;> simp only [CircuitTest.prover, Oracles.ofType, List.getElem?_map, Option.map_eq_some_iff] at ho <;>
      obtain ⟨c, hc, rfl⟩ := ho <;> exact ⟨c, hc, rfl⟩
  obtain ⟨c, hc, he⟩ := key
  unfold TestColumns.cell
  rw [hc, ← hj, Int.toNat_natCast]
  rw [he] at hy
  simp only [List.getD_eq_getElem?_getD, hy, Option.getD_some]

/-- A query of an existing column reads the cell. -/
theorem CircuitTest.reads_cell (hd : 0 < d.size) (ht : t.Wellformed d.size) {i : Nat} {q : VirtualQuery}
    (hq : q.index < (t.columns.ofType q.oracleType).length) : VReads d.size (t.prover d) i q (t.columns.cell d.size i q) := by
  obtain ⟨o, ho, he⟩ : ∃ o, ((t.prover d).ofType q.oracleType)[q.index]? = some o ∧
      o.evals = ((t.columns.ofType q.oracleType)[q.index]).2 := by
    revert hq
    cases q.oracleType <;> intro hq <;> simp only [CircuitTest.prover, Oracles.ofType, TestColumns.ofType, List.getElem?_map] <;>
      exact ⟨_, congrArg (Option.map _) (List.getElem?_eq_getElem hq), rfl⟩
  have hlen : ((t.columns.ofType q.oracleType)[q.index]).2.length = d.size := (ht.1 q.oracleType).1 _ (List.getElem_mem hq)
  have hn : (0 : ℤ) < d.size := by exact_mod_cast hd
  have h0 := Int.emod_nonneg ((i : ℤ) + q.rotation.signed) hn.ne'
  have h1 := Int.emod_lt_of_pos ((i : ℤ) + q.rotation.signed) hn
  refine ⟨o, ho, (((i : ℤ) + q.rotation.signed) % d.size).toNat, Int.toNat_of_nonneg h0, ?_⟩
  have hj : (((i : ℤ) + q.rotation.signed) % d.size).toNat < ((t.columns.ofType q.oracleType)[q.index]).2.length := by
    rw [hlen]; omega
  rw [he, List.getElem?_eq_getElem hj]
  unfold TestColumns.cell
  rw [List.getElem?_eq_getElem hq]
  exact congrArg some (List.getD_eq_getElem _ _ hj).symm

theorem valueAt_eq {cols : List (Label × List F)} {k i : Nat} {c : Label × List F} {x : F} (hc : cols[k]? = some c) (hx : c.2[i]? = some x) :
    valueAt cols k i = x := by
  unfold valueAt
  rw [List.getD_eq_getElem?_getD (l := cols.map Prod.snd), List.getElem?_map, hc]
  show c.2.getD i 0 = x
  rw [List.getD_eq_getElem?_getD, hx]
  rfl

variable [LawfulFft F]

theorem CircuitTest.fresh (hd : d.Ok) (ht : t.Wellformed d.size) : FreshColumns d d.size (t.prover d) (t.proverTables d) := by
  have hl := fun ty => (ht.1 ty).2
  constructor
  · intro o ho
    simp only [CircuitTest.prover, CircuitTest.proverTables, List.mem_append, List.mem_map] at ho
    rcases ho with ((⟨c, hc, rfl⟩ | ⟨c, hc, rfl⟩) | ⟨c, hc, rfl⟩) | ⟨c, hc, rfl⟩
    · exact ⟨interpolated_isColumn hd ((ht.1 .witness).1 c hc) rfl rfl, rfl⟩
    · exact ⟨interpolated_isColumn hd ((ht.1 .instance_).1 c hc) rfl rfl, rfl⟩
    · exact ⟨interpolated_isColumn hd ((ht.1 .fixed).1 c hc) rfl rfl, rfl⟩
    · exact ⟨interpolated_isColumn hd (ht.2.1 c (List.mem_append_left _ hc)) rfl rfl, rfl⟩
  · refine ⟨⟨?_, ?_, ?_⟩, ?_⟩
    · have := hl .witness
      simp only [CircuitTest.prover, List.map_map]
      exact this
    · have := hl .instance_
      simp only [CircuitTest.prover, List.map_map]
      exact this
    · have := hl .fixed
      simp only [CircuitTest.prover, List.map_map]
      exact this
    · have := ht.2.2.1
      simp only [CircuitTest.proverTables, List.map_map]
      exact this

theorem CircuitTest.goodCircuit (hd : d.Ok) (ht : t.Wellformed d.size) (hfit : t.Fits d.size)
    (hgate : ∃ e qs, Call.gate e qs ∈ t.calls) :
    GoodCircuit d d.size (t.prover d) (t.proverTables d) t.calls (t.proverSigmas d) (t.proverSelector d) t.info t.rows := by
  have hsel := interpolated_isColumn (o := t.proverSelector d) hd ht.2.2.2 rfl rfl
  have hrow : ∀ i < d.size, (t.proverSelector d).evals[i]? = some (t.selector.getD i 0) := by
    intro i hi
    have hi' : i < t.selector.length := by rw [ht.2.2.2]; exact hi
    show t.selector[i]? = _
    rw [List.getElem?_eq_getElem hi', List.getD_eq_getElem _ _ hi']
  have hlen : t.copied = true → ((t.prover d).witness.filter (·.shouldPermute)).length = t.columns.witness.length := by
    intro h
    rw [CircuitTest.filter_copied h]
    exact List.length_map ..
  refine ⟨CircuitTest.fresh hd ht, hfit.good, hgate, ?_, ?_, ⟨hsel.2, .inr rfl⟩, ?_, ?_, hfit.usable, ?_⟩
  · intro i o ho h
    have hcop := CircuitTest.copied_of ⟨o, List.mem_of_getElem? ho, h⟩
    refine hfit.copied hcop i ?_
    have := (List.getElem?_eq_some_iff.1 ho).1
    rwa [show (t.prover d).witness.length = t.columns.witness.length from List.length_map ..] at this
  · intro o ho
    obtain ⟨c, hc, rfl⟩ := List.mem_map.1 ho
    exact ⟨interpolated_isColumn hd (ht.2.1 c (List.mem_append_right _ hc)) rfl rfl, rfl⟩
  · intro h
    have hcop := CircuitTest.copied_of h
    rw [hlen hcop]
    exact ⟨(List.length_map ..).trans (hfit.shape hcop).1, (hfit.shape hcop).2⟩
  · intro h
    refine ⟨⟨hsel.1, rfl⟩, fun i hi => ?_⟩
    rw [hrow i hi, hfit.marks (CircuitTest.copied_of h) i hi]
    rfl
  · intro h
    obtain ⟨h1, h2, h3, h4⟩ := hfit.lookups h
    exact ⟨h1, h2, hsel.1, h3, fun i hi hr => by rw [hrow i hi, h4 i hi hr]⟩

/-- The values the denominators are made of are those of the test. -/
theorem CircuitTest.goodDraw (hd : d.Ok) (ht : t.Wellformed d.size) (hfit : t.Fits d.size)
    {c : Configured F (ProverOracle F) (ProverOracle F) (ProverOracle F) (ProverOracle F)} (hc : Configures t.calls (t.prover d) (t.proverTables d) c)
    {index : Index F} (hl : index.lookups = c.lookups) (hu : index.perm.usableRows = t.info.u) (hr : index.usableRows = t.rows)
    {theta beta gamma : F} (h : t.NoZeros d.size theta beta gamma) :
    GoodDraw d index ⟨c.oracles.witness, c.oracles.inst, c.oracles.fixed, c.tables⟩ (t.proverSigmas d) theta beta gamma := by
  have hf := CircuitTest.fresh hd ht
  constructor
  · rintro ⟨⟨k, hk⟩, ⟨i, hi⟩⟩
    rw [hu] at hi
    have he := configured_copied hc
    have hev : (c.oracles.witness.filter (·.shouldPermute)).map (·.evals) =
        ((t.prover d).witness.filter (·.shouldPermute)).map (·.evals) := by
      clear hk
      generalize c.oracles.witness.filter (·.shouldPermute) = l at he
      generalize (t.prover d).witness.filter (·.shouldPermute) = l' at he
      induction he with
      | nil => rfl
      | cons h _ ih => rw [List.map_cons, List.map_cons, ih, erase_evals h]
    have hk' := hk
    dsimp only at hk'
    rw [← he.length_eq] at hk'
    have hcop : t.copied = true := by
      by_contra hn
      rw [CircuitTest.filter_plain (by simpa using hn)] at hk'
      exact absurd hk' (Nat.not_lt_zero _)
    rw [CircuitTest.filter_copied hcop, show (t.prover d).witness.length = t.columns.witness.length from List.length_map ..] at hk'
    have := h.copies hcop k hk' i hi
    rw [← CircuitTest.colVal_witness (d := d), ← CircuitTest.colVal_sigmas (d := d)] at this
    rw [CircuitTest.filter_copied hcop] at hev
    show colVal (c.oracles.witness.filter (·.shouldPermute)) k i + beta * colVal (t.proverSigmas d) k i + gamma ≠ 0
    unfold colVal at this ⊢
    rw [hev]
    exact this
  · intro l hlm es' ts' hes' hts' i hi vals
    rw [hl] at hlm
    rw [hr] at hi
    obtain ⟨⟨es, qs, tqs⟩, hcall0, es'', h0, rfl⟩ := mem_forall₂ hc.lookups hlm
    obtain rfl := Res.ok.inj hes'
    obtain rfl := Res.ok.inj hts'
    have hcall := mem_lookups.1 hcall0
    obtain ⟨n1, n2⟩ := h.lookups es qs tqs hcall i hi
    have h1 : List.Forall₂ (fun v e => v.toExpr (t.prover d).witness (t.prover d).inst (t.prover d).fixed = .ok e) es es'' := h0
    clear h0
    constructor
    · intro hin
      have : vals = es.map (fun e => e.denote id (t.columns.cell d.size i)) := by
        unfold InputRow at hin
        clear n1 n2 hcall hcall0 hlm hes' hts'
        induction h1 generalizing vals with
        | nil => cases hin; rfl
        | cons g _ ih =>
          cases hin with
          | cons h2 h3 =>
            obtain ⟨y, h4, rfl⟩ := h2
            obtain ⟨h5, h6⟩ := expr_to_virtual hc hf g h4
            rw [List.map_cons, ih _ h3, h6, VExpr.denote_congr id _ fun q hq => CircuitTest.reads (h5 q hq)]
      rw [this]; exact n1
    · intro hin
      have hnd : (c.tables.map ConcreteOracle.label).Nodup := by rw [hc.tables.label]; exact hf.labels.2
      have h3 := labelled_forall₂ (tqs := tqs) hc (fun q hq => by
        have := ((hfit.range _ hcall).2.2 q hq).2
        rwa [show (t.proverTables d).length = t.tables.length from List.length_map ..])
      have : vals = tqs.map (fun q => valueAt t.tables q.index i) := by
        unfold TableRow at hin
        dsimp only at hin
        generalize labelled (t.proverTables d) tqs = ls at h3 hin
        clear n1 n2 hcall hcall0 hlm hes' hts' h1
        induction h3 generalizing vals with
        | nil => cases hin; rfl
        | cons g _ ih =>
          cases hin with
          | cons h4 h5 =>
            obtain ⟨o, g1, rfl⟩ := g
            obtain ⟨p, h6, h7⟩ := h4
            obtain ⟨o', g2, g3, -⟩ := hc.tables.2 _ o g1
            have hl' : ConcreteOracle.label o' = o.label := erase_label g3
            have h6' : Resolves c.tables (ConcreteOracle.label o') p := by rw [hl']; exact h6
            obtain rfl := resolves_unique hnd g2 h6'
            rw [erase_evals g3] at h7
            unfold CircuitTest.proverTables at g1
            rw [List.getElem?_map, Option.map_eq_some_iff] at g1
            obtain ⟨col, g4, rfl⟩ := g1
            rw [List.map_cons, ih _ h5, valueAt_eq g4 h7]
      rw [this]; exact n2

/-- The verifier's handle of a fixed column. -/
noncomputable def CircuitTest.handle (S : Scheme F) (com : F[X] → S.Rand → S.Comm) (d : Domain F) (c : Label × List F) : VerifierOracle F S.Comm :=
  VerifierOracle.newFixed c.1 (some (com (toPoly (trim (d.ifft c.2))) S.emptyRand))

/-- The verifier's oracles. -/
noncomputable def CircuitTest.verifier (S : Scheme F) (com : F[X] → S.Rand → S.Comm) (d : Domain F) (t : CircuitTest F) :
    Oracles (VerifierOracle F S.Comm) (InstanceVerifierOracle F) (VerifierOracle F S.Comm) :=
  ⟨t.columns.witness.map (fun c => VerifierOracle.newWitness c.1 t.copied),
    t.columns.inst.map (fun c => (⟨c.1, trim (d.ifft c.2), []⟩ : InstanceVerifierOracle F)), t.columns.fixed.map (CircuitTest.handle S com d)⟩

/-- The verifier's sigmas and its blinding selector. -/
noncomputable def CircuitTest.handleCurr (S : Scheme F) (com : F[X] → S.Rand → S.Comm) (d : Domain F) (c : Label × List F) : VerifierOracle F S.Comm :=
  { CircuitTest.handle S com d c with rotations := [.curr] }

/-- The circuit of a test, and the verifier's side of it, are as C75 and C76 want them. -/
theorem CircuitTest.circuit (S : Scheme F) (com : F[X] → S.Rand → S.Comm)
    (hd : d.Ok) (ht : t.Wellformed d.size) (hfit : t.Fits d.size) (hgate : ∃ e qs, Call.gate e qs ∈ t.calls) :
    GoodCircuit d d.size (t.prover d) (t.proverTables d) t.calls (t.proverSigmas d) (t.proverSelector d) t.info t.rows ∧
    InRange (t.prover d).count (t.proverTables d).length t.calls ∧
    FreshVerifier S com (t.prover d) (t.proverTables d) (t.verifier S com d) (t.tables.map (CircuitTest.handle S com d)) ∧
    List.Forall₂ (fun o p => SameConfig o p ∧ p.commitment = some (com (toPoly o.poly) S.emptyRand)) (t.proverSigmas d)
      (t.sigmas.map (CircuitTest.handleCurr S com d)) ∧
    (SameConfig (t.proverSelector d) (CircuitTest.handleCurr S com d (bytes "q_blind", t.selector)) ∧
      (CircuitTest.handleCurr S com d (bytes "q_blind", t.selector)).commitment = some (com (toPoly (t.proverSelector d).poly) S.emptyRand)) := by
  have hgood := CircuitTest.goodCircuit hd ht hfit hgate
  have hrange : InRange (t.prover d).count (t.proverTables d).length t.calls := by
    intro call hcall
    obtain ⟨h1, h2, h3⟩ := hfit.range call hcall
    exact ⟨fun q hq => by rw [CircuitTest.count]; exact h1 q hq, fun e he q hq => by rw [CircuitTest.count]; exact h2 e he q hq,
      fun q hq => ⟨(h3 q hq).1, by rw [show (t.proverTables d).length = t.tables.length from List.length_map ..]; exact (h3 q hq).2⟩⟩
  have hsame : ∀ (l : List (Label × List F)), List.Forall₂ (fun (o : ProverOracle F) (p : VerifierOracle F S.Comm) =>
      SameConfig o p ∧ p.commitment = some (com (toPoly o.poly) S.emptyRand))
      (l.map (fun c => ProverOracle.newFixed c.1 (trim (d.ifft c.2)) c.2)) (l.map (CircuitTest.handle S com d)) := fun l =>
    List.forall₂_map_left_iff.2 (List.forall₂_map_right_iff.2 (List.forall₂_same.2 fun c _ => ⟨⟨rfl, rfl, rfl⟩, rfl⟩))
  refine ⟨hgood, hrange, (by
      refine ⟨?_, ?_, hsame _, hsame _⟩
      · exact List.forall₂_map_left_iff.2 (List.forall₂_map_right_iff.2 (List.forall₂_same.2 fun c _ => ⟨rfl, rfl, rfl⟩))
      · exact List.forall₂_map_left_iff.2 (List.forall₂_map_right_iff.2 (List.forall₂_same.2 fun c _ => ⟨rfl, rfl, rfl⟩))),
    (by
      exact List.forall₂_map_left_iff.2 (List.forall₂_map_right_iff.2 (List.forall₂_same.2 fun c _ => ⟨⟨rfl, rfl, rfl⟩, rfl⟩))),
    ⟨⟨rfl, rfl, rfl⟩, rfl⟩⟩

/-- The copies of a test, for the columns the prover makes. -/
theorem CircuitTest.clientCopies {tau : Equiv.Perm (Fin t.columns.witness.length × Fin t.info.u)}
    (hsig : t.copied = true → ∀ c, valueAt t.sigmas c.1 c.2 = t.info.deltas.getD (tau c).1 0 * d.omega ^ ((tau c).2 : Nat))
    (hcopies : t.copied = true → ∀ c, valueAt t.columns.witness (tau c).1 (tau c).2 = valueAt t.columns.witness c.1 c.2) :
    ∃ tau' : Equiv.Perm (Fin ((t.prover d).witness.filter (·.shouldPermute)).length × Fin t.info.u),
      MadeFrom d t.info.deltas (t.proverSigmas d) tau' ∧
      ∀ x, cell ((t.prover d).witness.filter (·.shouldPermute)) (tau' x) = cell ((t.prover d).witness.filter (·.shouldPermute)) x := by
  by_cases hcop : t.copied = true
  · have hlen : t.columns.witness.length = ((t.prover d).witness.filter (·.shouldPermute)).length := by
      rw [CircuitTest.filter_copied hcop]
      exact (List.length_map ..).symm
    obtain ⟨tau', h⟩ := perm_transport hlen tau
    refine ⟨tau', h (fun k i k' i' => colVal (t.proverSigmas d) k i = t.info.deltas.getD k' 0 * d.omega ^ i') fun c => ?_,
      h (fun k i k' i' => colVal ((t.prover d).witness.filter (·.shouldPermute)) k' i' =
        colVal ((t.prover d).witness.filter (·.shouldPermute)) k i) fun c => ?_⟩
    · rw [CircuitTest.colVal_sigmas]
      exact hsig hcop c
    · rw [CircuitTest.filter_copied hcop, CircuitTest.colVal_witness, CircuitTest.colVal_witness]
      exact hcopies hcop c
  · have hempty : ∀ x : Fin ((t.prover d).witness.filter (·.shouldPermute)).length × Fin t.info.u, False := by
      rintro ⟨⟨i, hi⟩, -⟩
      rw [CircuitTest.filter_plain (by simpa using hcop)] at hi
      exact Nat.not_lt_zero _ hi
    exact ⟨Equiv.refl _, fun x => (hempty x).elim, fun x => (hempty x).elim⟩

/-- The lookups of a test, for the columns the prover makes. -/
theorem CircuitTest.clientLookups (hpos : 0 < d.size) (ht : t.Wellformed d.size) (hfit : t.Fits d.size)
    (hlookups : ∀ es qs ts, Call.lookup es qs ts ∈ t.calls → ∀ i < t.rows, ∃ j < t.rows,
      es.map (fun e => e.denote id (t.columns.cell d.size i)) = ts.map (fun q => valueAt t.tables q.index j)) :
    LookupCallsHold d.size t.rows (t.prover d) (t.proverTables d) t.calls := by
  intro es qs ts hcall i hi
  obtain ⟨j, hj, heq⟩ := hlookups es qs ts hcall i hi
  obtain ⟨-, r2, r3⟩ := hfit.range _ hcall
  refine ⟨j, hj, ?_⟩
  have hjn : j < d.size := hj.trans (hfit.lookups ⟨es, qs, ts, hcall⟩).2.1
  have hlen : es.length = ts.length := by simpa using congrArg List.length heq
  rw [List.forall₂_iff_get]
  refine ⟨hlen, fun k hk hk' => ?_⟩
  have hx := congrArg (fun l => l[k]?) heq
  simp only [List.getElem?_map, List.getElem?_eq_getElem hk, List.getElem?_eq_getElem hk', Option.map_some, Option.some.injEq] at hx
  refine ⟨t.columns.cell d.size i, fun q hq => CircuitTest.reads_cell hpos ht (r2 _ (List.getElem_mem hk) q hq), ?_⟩
  have hti : (ts[k]).index < t.tables.length := (r3 _ (List.getElem_mem hk')).2
  refine ⟨ProverOracle.newFixed (t.tables[(ts[k]).index]).1 (trim (d.ifft (t.tables[(ts[k]).index]).2)) (t.tables[(ts[k]).index]).2,
    ?_, ?_⟩
  · show (t.proverTables d)[(ts[k]).index]? = _
    unfold CircuitTest.proverTables
    rw [List.getElem?_map, List.getElem?_eq_getElem hti]
    rfl
  · show (t.tables[(ts[k]).index]).2[j]? = some ((es[k]).denote id (t.columns.cell d.size i))
    have hlt : j < (t.tables[(ts[k]).index]).2.length := by
      rw [ht.2.1 _ (List.mem_append_left _ (List.getElem_mem hti))]; exact hjn
    rw [hx, List.getElem?_eq_getElem hlt, valueAt_eq (List.getElem?_eq_getElem hti) (List.getElem?_eq_getElem hlt)]

/-- A test whose values satisfy its circuit meets the hypotheses of C76. -/
theorem CircuitTest.client (S : Scheme F) (com : F[X] → S.Rand → S.Comm)
    (hd : d.Ok) (ht : t.Wellformed d.size) (hfit : t.Fits d.size)
    {m : Nat} (hdeg : GateDegrees d.size (FftParams.adicity F) m t.calls)
    {tau : Equiv.Perm (Fin t.columns.witness.length × Fin t.info.u)} (hholds : t.Holds d tau) :
    GoodCircuit d d.size (t.prover d) (t.proverTables d) t.calls (t.proverSigmas d) (t.proverSelector d) t.info t.rows ∧
    InRange (t.prover d).count (t.proverTables d).length t.calls ∧
    FreshVerifier S com (t.prover d) (t.proverTables d) (t.verifier S com d) (t.tables.map (CircuitTest.handle S com d)) ∧
    List.Forall₂ (fun o p => SameConfig o p ∧ p.commitment = some (com (toPoly o.poly) S.emptyRand)) (t.proverSigmas d)
      (t.sigmas.map (CircuitTest.handleCurr S com d)) ∧
    (SameConfig (t.proverSelector d) (CircuitTest.handleCurr S com d (bytes "q_blind", t.selector)) ∧
      (CircuitTest.handleCurr S com d (bytes "q_blind", t.selector)).commitment = some (com (toPoly (t.proverSelector d).poly) S.emptyRand)) ∧
    GateCallsHold d (t.prover d) t.calls (X ^ d.size - 1) ∧
    LookupCallsHold d.size t.rows (t.prover d) (t.proverTables d) t.calls ∧
    ∃ tau' : Equiv.Perm (Fin ((t.prover d).witness.filter (·.shouldPermute)).length × Fin t.info.u),
      MadeFrom d t.info.deltas (t.proverSigmas d) tau' ∧
      ∀ x, cell ((t.prover d).witness.filter (·.shouldPermute)) (tau' x) = cell ((t.prover d).witness.filter (·.shouldPermute)) x := by
  have hpos : 0 < d.size := hd.size_pos
  have hgate : ∃ e qs, Call.gate e qs ∈ t.calls := by
    obtain ⟨e, qs, h, -⟩ := hdeg.reached
    exact ⟨e, qs, h⟩
  obtain ⟨tau', ht1, ht2⟩ := CircuitTest.clientCopies hholds.sigmas hholds.copies
  obtain ⟨h1, h2, h3, h4, h5⟩ := CircuitTest.circuit S com hd ht hfit hgate
  refine ⟨h1, h2, h3, h4, h5,
    (by
      intro e qs hcall i hi _ y hy
      rw [VExpr.denote_congr id _ fun q hq => CircuitTest.reads (hy q hq)]
      exact hholds.gates e qs hcall i hi),
    CircuitTest.clientLookups hpos ht hfit hholds.lookups,
    tau', ht1, ht2⟩

/-- What the verifier runs, once both sides hold the same key. -/
theorem runCircuitVerifier_eq {S : Scheme F} {ck : S.CK} {vk : S.VK} {com : F[X] → S.Rand → S.Comm}
    (hplain : ∀ p cs, S.commitPlain ck p = .ok cs → cs = [com (toPoly p.poly) S.emptyRand]) (hn : SupportsDegree S ck d.size)
    {c' : Configured F (VerifierOracle F S.Comm) (InstanceVerifierOracle F) (VerifierOracle F S.Comm) (VerifierOracle F S.Comm)}
    {key : VerifierKey S} (hc' : configureAll t.calls (t.verifier S com d) (t.tables.map (CircuitTest.handle S com d)) = .ok c')
    (hkey' : indexer (fun o => o.shouldPermute) vk c'.vos c'.lookups c'.oracles.witness c'.oracles.inst c'.oracles.fixed d d.vanishing t.info
      t.rows (S := S) = .ok key) (proof : TPProof S) :
    runCircuitVerifier S ck vk d t proof = verify S key ⟨c'.oracles.fixed, c'.tables, t.sigmas.map (CircuitTest.handleCurr S com d),
      CircuitTest.handleCurr S com d (bytes "q_blind", t.selector)⟩ proof c'.oracles.witness c'.oracles.inst c'.vos d.size d.vanishing := by
  have hb := test_fixed (S := S) (d := d) hn hplain [(bytes "q_blind", t.selector)]
  have hb : fixedHandle S ck d (bytes "q_blind", t.selector) = .ok (CircuitTest.handle S com d (bytes "q_blind", t.selector)) := by
    simp only [Res.mapM, List.map_cons, List.map_nil] at hb
    cases hx : fixedHandle S ck d (bytes "q_blind", t.selector) with
    | ok x => rw [hx] at hb; exact congrArg Res.ok (List.cons.inj (Res.ok.inj hb)).1
    | err x => rw [hx] at hb; cases hb
    | panic => rw [hx] at hb; cases hb
  have h1 : Res.mapM (fixedHandle S ck d) t.columns.fixed = .ok (t.columns.fixed.map (CircuitTest.handle S com d)) := test_fixed hn hplain _
  have h2 : Res.mapM (fixedHandle S ck d) t.tables = .ok (t.tables.map (CircuitTest.handle S com d)) := test_fixed hn hplain _
  have h3 : Res.mapM (fixedHandle S ck d) t.sigmas = .ok (t.sigmas.map (CircuitTest.handle S com d)) := test_fixed hn hplain _
  have h4 := indexer_rows _ _ _ _ _ _ _ _ _ _ _ t.rows' hkey'
  unfold runCircuitVerifier
  rw [h1, h2, h3, hb]
  simp only [Res.bind_ok]
  rw [show (⟨t.columns.witness.map (fun c => VerifierOracle.newWitness c.1 t.copied),
    t.columns.inst.map (fun c => (⟨c.1, trim (d.ifft c.2), []⟩ : InstanceVerifierOracle F)), t.columns.fixed.map (CircuitTest.handle S com d)⟩ :
    Oracles (VerifierOracle F S.Comm) (InstanceVerifierOracle F) (VerifierOracle F S.Comm)) = t.verifier S com d from rfl, hc']
  show ((indexer _ _ _ _ _ _ _ _ _ _ _).orPanic >>= _) = _
  rw [h4, List.map_map]
  rfl

/-- **C78** The test program of a whole circuit, for all columns, calls, copies and lookups. If the values satisfy the circuit, then
`configure` and the indexer succeed, and the challenges `theta`, `beta` and `gamma` are drawn. If they make no denominator of a grand product
zero, then the prover reaches the evaluation challenge; it returns a proof unless this challenge is zero; and the verifier, which has its own
oracles and makes its own key with any number of usable rows, accepts it unless `x3` meets an opening point. -/
theorem C78_circuit {S : Scheme F} {ck : S.CK} {vk : S.VK} {com : F[X] → S.Rand → S.Comm} (hS : HomomorphicScheme S ck vk com)
    (hplain : ∀ p cs, S.commitPlain ck p = .ok cs → cs = [com (toPoly p.poly) S.emptyRand])
    (hd : d.Ok) (hn : SupportsDegree S ck d.size) (ht : t.Wellformed d.size) (hfit : t.Fits d.size)
    {m : Nat} (hdeg : GateDegrees d.size (FftParams.adicity F) m t.calls)
    {tau : Equiv.Perm (Fin t.columns.witness.length × Fin t.info.u)} (hholds : t.Holds d tau) (z : S.Z) :
    ∃ p, circuitProver S vk d t = .ok p ∧ ∃ theta beta gamma,
      FirstMessages S ⟨p.key, ck⟩ ⟨p.made.oracles.witness, p.made.oracles.inst, p.made.oracles.fixed, p.made.tables⟩ d z theta beta gamma ∧
      (t.NoZeros d.size theta beta gamma → ∃ tr, runCircuitRounds S ck vk d t z = .ok tr ∧
        tr.chal.theta = theta ∧ tr.chal.beta = beta ∧ tr.chal.gamma = gamma ∧
        (tr.chal.xi ≠ 0 → ∃ proof, runCircuitProver S ck vk d t z = .ok proof ∧ (verifierChallenges S proof).1 = tr.chal ∧
          ((∀ k : ℤ, (mpChallenges S proof.multiopen (verifierChallenges S proof).2).2.2.1 ≠ tr.chal.xi * d.omega ^ k) →
            runCircuitVerifier S ck vk d t proof = .ok ()))) := by
  obtain ⟨hgood, hrange, hv, hperm, hblind, hg, hl, tau', ht1, ht2⟩ := CircuitTest.client S com hd ht hfit hdeg hholds
  obtain ⟨c, c', key, hc, hc', -, hkey, hkey', h⟩ := C76_client hS hd hn hgood hrange hdeg ht1 hv hperm hblind hg hl ht2
  have hprover : circuitProver S vk d t = .ok ⟨key, c⟩ := by
    unfold circuitProver
    rw [hc]
    exact Res.bind_eq_ok.2 ⟨_, rfl, Res.bind_eq_ok.2 ⟨_, by rw [hkey]; rfl, rfl⟩⟩
  obtain ⟨-, -, -, -, -, -, -, -, -, i1, -, i2, i3, -⟩ := indexer_ok hd hkey
  obtain ⟨theta, beta, gamma, h1, h2⟩ := h z
  refine ⟨⟨key, c⟩, hprover, theta, beta, gamma, h1, fun hz => ?_⟩
  obtain ⟨tr, h3, h4, h5, h6, h7⟩ := h2 (CircuitTest.goodDraw hd ht hfit (configureAll_ok hc) i2 i1 i3 hz)
  refine ⟨tr, Res.bind_eq_ok.2 ⟨_, hprover, h3⟩, h4, h5, h6, fun hxi => ?_⟩
  obtain ⟨proof, h8, h9, h10⟩ := h7 hxi
  refine ⟨proof, Res.bind_eq_ok.2 ⟨_, hprover, ?_⟩, h9, fun hx3 => ?_⟩
  · show (prove _ _ _ _ _ _ _ _).orPanic = _
    rw [h8]
    rfl
  · rw [runCircuitVerifier_eq hplain hn hc' hkey']
    exact h10 hx3

end

section
variable {F : Type} [Field F] [LinearOrder F] [FftParams F] [LawfulFft F] {G : Type} [AddCommGroup G] [Module F G]
variable {G2 GT : Type} [AddCommGroup G2] [Module F G2] [AddCommGroup GT] [Module F GT] [DecidableEq GT]

/-- **C78** The test program of a whole circuit with KZG keys made by `universal_setup` and `prepare_keys` for the degree `n - 1` (as in the
tests) or more. -/
theorem C78_kzg (e : G →ₗ[F] G2 →ₗ[F] GT) (env : KzgEnv F G) {maxDegree : Nat} {secret : F} {g gammaG : G} {h : G2} {srs : KzgSrs G G2}
    {ck : KzgKey G} {vk : KzgVk G G2} (hsrs : universalSetup maxDegree secret g gammaG h = .ok srs) (hkeys : prepareKeys srs = .ok (ck, vk))
    {d : Domain F} (hd : d.Ok) (hn : d.size ≤ maxDegree + 1) {t : CircuitTest F} (ht : t.Wellformed d.size) (hfit : t.Fits d.size)
    {m : Nat} (hdeg : GateDegrees d.size (FftParams.adicity F) m t.calls)
    {tau : Equiv.Perm (Fin t.columns.witness.length × Fin t.info.u)} (hholds : t.Holds d tau) (z : env.Z) :
    ∃ p, circuitProver (kzgScheme e env) vk d t = .ok p ∧ ∃ theta beta gamma,
      FirstMessages (kzgScheme e env) ⟨p.key, ck⟩ ⟨p.made.oracles.witness, p.made.oracles.inst, p.made.oracles.fixed, p.made.tables⟩ d z
        theta beta gamma ∧
      (t.NoZeros d.size theta beta gamma → ∃ tr, runCircuitRounds (kzgScheme e env) ck vk d t z = .ok tr ∧
        tr.chal.theta = theta ∧ tr.chal.beta = beta ∧ tr.chal.gamma = gamma ∧
        (tr.chal.xi ≠ 0 → ∃ proof, runCircuitProver (kzgScheme e env) ck vk d t z = .ok proof ∧
          (verifierChallenges (kzgScheme e env) proof).1 = tr.chal ∧
          ((∀ k : ℤ, (mpChallenges (kzgScheme e env) proof.multiopen (verifierChallenges _ proof).2).2.2.1 ≠ tr.chal.xi * d.omega ^ k) →
            runCircuitVerifier (kzgScheme e env) ck vk d t proof = .ok ()))) := by
  have hf := fromSetup_of_keys hsrs hkeys
  have h3 : 3 ≤ ck.gammaPowers.length := by rw [hf.gammaPowers]; exact le_rfl
  have hpos := hd.size_pos
  refine C78_circuit (C44_homomorphic e env hf.kzgSetup h3) ?_ hd (C52_kzg_supports e env hpos (by rw [hf.powers]; simpa using hn) h3) ht hfit hdeg
    hholds z
  intro p cs hcs
  obtain ⟨c, hc, hcs⟩ := Res.bind_eq_ok.1 hcs
  obtain ⟨-, -, rfl⟩ := (kzgCommitWith_iff ..).1 hc
  exact (Res.ok.inj hcs).symm

end

section
variable {F : Type} [Field F]

/-- A query at the current row reads the row. -/
theorem TestColumns.cell_curr (t : TestColumns F) {n i : Nat} (hi : i < n) (q : VirtualQuery) {c : Label × List F}
    (h1 : (t.ofType q.oracleType)[q.index]? = some c) (h2 : q.rotation = .curr) : t.cell n i q = c.2.getD i 0 := by
  unfold TestColumns.cell
  have : (((i : ℤ) + q.rotation.signed) % n).toNat = i := by
    rw [h2, show Rotation.curr.signed = 0 from rfl, add_zero, Int.emod_eq_of_lt (by omega) (by omega), Int.toNat_natCast]
  rw [h1, this]

/-- Calls that read the current row only, and whose looked-up expressions are affine. -/
theorem goodCalls_curr {n : Nat} (hn : 0 < n) {calls : List (Call F)} (hlisted : ∀ c ∈ calls, ∀ e ∈ c.exprs, ∀ q ∈ e.queries, q ∈ c.queries)
    (hq : ∀ c ∈ calls, ∀ q ∈ c.queries ++ c.tables, q.rotation = .curr)
    (hl : ∀ es qs ts, Call.lookup es qs ts ∈ calls → es.length = ts.length ∧ ∀ e ∈ es, e.totalDegree ≤ 1) : GoodCalls n calls := by
  refine ⟨hlisted, ?_, ?_, ?_⟩
  · intro c hc q hqc
    rw [hq c hc q hqc]
    exact hn
  · intro c hc c' hc' q hqc q' hqc' _
    rw [hq c hc q hqc, hq c' hc' q' hqc']
  · intro es qs ts h
    refine ⟨(hl es qs ts h).1, fun q hqt => ?_, fun q hqs _ => ?_, (hl es qs ts h).2⟩
    · rw [hq _ h q (List.mem_append_right _ hqt)]; rfl
    · rw [hq _ h q (List.mem_append_left _ hqs)]; rfl

theorem lookupTest_wellformed {a b c q table selector : List F} {rows n : Nat} (ha : a.length = n) (hb : b.length = n) (hc : c.length = n)
    (hq : q.length = n) (htab : table.length = n) (hsel : selector.length = n) :
    (lookupTest a b c q table selector rows).Wellformed n := by
  refine ⟨fun ty => ?_, ?_, List.nodup_singleton _, hsel⟩
  · cases ty
    · refine ⟨?_, show [bytes "a", bytes "b", bytes "c"].Nodup by decide⟩
      simp [lookupTest, TestColumns.ofType, ha, hb, hc]
    · exact ⟨fun c hc => (by cases hc), List.nodup_nil⟩
    · refine ⟨?_, List.nodup_singleton _⟩
      simp [lookupTest, TestColumns.ofType, hq]
  · simp [lookupTest, htab]

theorem lookupTest_fits {a b c q table selector : List F} {rows n : Nat} (hrows : 0 < rows ∧ rows < n)
    (hsel : ∀ i < n, rows ≤ i → selector.getD i 0 = 1) : (lookupTest a b c q table selector rows).Fits n := by
  refine ⟨goodCalls_curr (by omega) ?_ ?_ ?_, ?_, ?_, ?_, ?_, ?_, ?_⟩
  · intro call hcall e he x hx
    simp only [lookupTest, List.mem_cons, List.not_mem_nil, or_false] at hcall
    rcases hcall with rfl | rfl
    · obtain rfl := List.mem_singleton.1 he
      revert x
      show ∀ x ∈ [(⟨0, .curr, .fixed⟩ : VirtualQuery), ⟨0, .curr, .witness⟩, ⟨1, .curr, .witness⟩, ⟨2, .curr, .witness⟩], x ∈
        [(⟨0, .curr, .witness⟩ : VirtualQuery), ⟨1, .curr, .witness⟩, ⟨2, .curr, .witness⟩, ⟨0, .curr, .fixed⟩]
      decide
    · obtain rfl := List.mem_singleton.1 he
      exact hx
  · intro call hcall
    simp only [lookupTest, List.mem_cons, List.not_mem_nil, or_false] at hcall
    rcases hcall with rfl | rfl
    · show ∀ x ∈ [(⟨0, .curr, .witness⟩ : VirtualQuery), ⟨1, .curr, .witness⟩, ⟨2, .curr, .witness⟩, ⟨0, .curr, .fixed⟩], x.rotation = .curr
      decide
    · show ∀ x ∈ [(⟨0, .curr, .witness⟩ : VirtualQuery), ⟨0, .curr, .fixed⟩], x.rotation = .curr
      decide
  · intro es qs ts h
    simp only [lookupTest, List.mem_cons, List.not_mem_nil, or_false, reduceCtorEq, false_or] at h
    injection h with h1 h2 h3
    subst h1 h2 h3
    refine ⟨rfl, fun e he => ?_⟩
    obtain rfl := List.mem_singleton.1 he
    exact le_rfl
  · have hw : ∀ x ∈ [(⟨0, .curr, .witness⟩ : VirtualQuery), ⟨1, .curr, .witness⟩, ⟨2, .curr, .witness⟩, ⟨0, .curr, .fixed⟩],
        x.index < ((lookupTest a b c q table selector rows).columns.ofType x.oracleType).length := by
      intro x hx
      simp only [List.mem_cons, List.not_mem_nil, or_false] at hx
      rcases hx with rfl | rfl | rfl | rfl <;> simp [lookupTest, TestColumns.ofType]
    intro call hcall
    simp only [lookupTest, List.mem_cons, List.not_mem_nil, or_false] at hcall
    rcases hcall with rfl | rfl
    · refine ⟨hw, fun e he x hx => ?_, fun x hx => by cases hx⟩
      obtain rfl := List.mem_singleton.1 he
      refine hw x ?_
      revert x
      show ∀ x ∈ [(⟨0, .curr, .fixed⟩ : VirtualQuery), ⟨0, .curr, .witness⟩, ⟨1, .curr, .witness⟩, ⟨2, .curr, .witness⟩], x ∈
        [(⟨0, .curr, .witness⟩ : VirtualQuery), ⟨1, .curr, .witness⟩, ⟨2, .curr, .witness⟩, ⟨0, .curr, .fixed⟩]
      decide
    · refine ⟨fun x hx => ?_, fun e he x hx => ?_, fun x hx => ?_⟩
      · exact hw x (List.mem_of_mem_take (i := 1) hx)
      · obtain rfl := List.mem_singleton.1 he
        exact hw x (List.mem_of_mem_take (i := 1) hx)
      · obtain rfl := List.mem_singleton.1 hx
        exact ⟨rfl, Nat.one_pos⟩
  · intro h; cases h
  · intro h; cases h
  · intro h; cases h
  · show 0 < n; omega
  · intro _
    refine ⟨hrows.1, hrows.2, .inr rfl, fun i hi hr => ?_⟩
    show selector.getD i 0 = if i = 0 then 0 else 1
    have hr : rows ≤ i := hr
    rw [hsel i hi hr, if_neg (by omega)]

theorem lookupTest_degrees {a b c q table selector : List F} {rows n adicity : Nat} (h8 : 8 ≤ n) (h4 : 4 * n ≤ 2 ^ adicity) :
    GateDegrees n adicity 3 (lookupTest a b c q table selector rows).calls := by
  refine ⟨?_, ⟨_, _, List.mem_cons_self, rfl⟩, by norm_num, degreeFits_of_eight (by norm_num) (by omega) h8, h4⟩
  intro e qs h
  simp only [lookupTest, List.mem_cons, List.not_mem_nil, or_false, reduceCtorEq] at h
  injection h with h1 h2
  subst h1
  exact le_rfl

theorem lookupTest_holds {a b c q table selector : List F} {rows : Nat} {d : Domain F} (hrows : rows < d.size)
    (hgate : ∀ i < d.size, q.getD i 0 * (a.getD i 0 * b.getD i 0 - c.getD i 0) = 0)
    (hlook : ∀ i < rows, ∃ j < rows, a.getD i 0 = table.getD j 0) :
    (lookupTest a b c q table selector rows).Holds d (Equiv.refl _) := by
  refine ⟨?_, ?_, fun h => (by cases h), fun h => (by cases h)⟩
  · intro e qs h i hi
    simp only [lookupTest, List.mem_cons, List.not_mem_nil, or_false, reduceCtorEq] at h
    injection h with h1 h2
    subst h1
    have := hgate i hi
    show TestColumns.cell _ d.size i ⟨0, .curr, .fixed⟩ * (TestColumns.cell _ d.size i ⟨0, .curr, .witness⟩ *
      TestColumns.cell _ d.size i ⟨1, .curr, .witness⟩ + -TestColumns.cell _ d.size i ⟨2, .curr, .witness⟩) = 0
    rw [TestColumns.cell_curr _ hi ⟨0, .curr, .fixed⟩ rfl rfl, TestColumns.cell_curr _ hi ⟨0, .curr, .witness⟩ rfl rfl,
      TestColumns.cell_curr _ hi ⟨1, .curr, .witness⟩ rfl rfl, TestColumns.cell_curr _ hi ⟨2, .curr, .witness⟩ rfl rfl, ← sub_eq_add_neg]
    exact this
  · intro es qs ts h i hi
    simp only [lookupTest, List.mem_cons, List.not_mem_nil, or_false, reduceCtorEq, false_or] at h
    injection h with h1 h2 h3
    subst h1 h2 h3
    have hi : i < rows := hi
    obtain ⟨j, hj, h⟩ := hlook i hi
    refine ⟨j, hj, ?_⟩
    show [TestColumns.cell _ d.size i ⟨0, .curr, .witness⟩] = [table.getD j 0]
    rw [TestColumns.cell_curr _ (hi.trans hrows) ⟨0, .curr, .witness⟩ rfl rfl]
    exact congrArg (fun x => [x]) h

theorem lookupTest_noZeros {a b c q table selector : List F} {rows n : Nat} (hrows : rows < n) {theta beta gamma : F}
    (h : ∀ i < rows, a.getD i 0 + beta ≠ 0 ∧ table.getD i 0 + gamma ≠ 0) :
    (lookupTest a b c q table selector rows).NoZeros n theta beta gamma := by
  refine ⟨fun h => (by cases h), ?_⟩
  intro es qs ts hc i hi
  simp only [lookupTest, List.mem_cons, List.not_mem_nil, or_false, reduceCtorEq, false_or] at hc
  injection hc with h1 h2 h3
  subst h1 h2 h3
  have hi : i < rows := hi
  obtain ⟨g1, g2⟩ := h i hi
  constructor
  · show TestColumns.cell _ n i ⟨0, .curr, .witness⟩ + theta * 0 + beta ≠ 0
    rw [mul_zero, add_zero, TestColumns.cell_curr _ (hi.trans hrows) ⟨0, .curr, .witness⟩ rfl rfl]
    exact g1
  · show table.getD i 0 + theta * 0 + gamma ≠ 0
    rw [mul_zero, add_zero]
    exact g2

theorem copyTest_wellformed {a b c pi qm ql qr qo qc s1 s2 s3 selector deltas : List F} {u n : Nat}
    (hlen : ∀ l ∈ [a, b, c, pi, qm, ql, qr, qo, qc, s1, s2, s3, selector], l.length = n) :
    (copyTest a b c pi qm ql qr qo qc s1 s2 s3 selector deltas u).Wellformed n := by
  refine ⟨fun ty => ?_, ?_, List.nodup_nil, hlen selector (by simp)⟩
  · cases ty
    · refine ⟨?_, show [bytes "a", bytes "b", bytes "c"].Nodup by decide⟩
      simp only [copyTest, TestColumns.ofType, List.forall_mem_cons]
      exact ⟨hlen _ (by simp), hlen _ (by simp), hlen _ (by simp), fun c hc => by cases hc⟩
    · refine ⟨?_, List.nodup_singleton _⟩
      simp only [copyTest, TestColumns.ofType, List.forall_mem_cons]
      exact ⟨hlen _ (by simp), fun c hc => by cases hc⟩
    · refine ⟨?_, show [bytes "qm", bytes "ql", bytes "qr", bytes "qo", bytes "qc"].Nodup by decide⟩
      simp only [copyTest, TestColumns.ofType, List.forall_mem_cons]
      exact ⟨hlen _ (by simp), hlen _ (by simp), hlen _ (by simp), hlen _ (by simp), hlen _ (by simp), fun c hc => by cases hc⟩
  · simp only [copyTest, List.nil_append, List.forall_mem_cons]
    exact ⟨hlen _ (by simp), hlen _ (by simp), hlen _ (by simp), fun c hc => by cases hc⟩

/-- The queries of `PrecompiledPlonkArith`. -/
theorem plonkArith_queries {x : VirtualQuery} (hx : x ∈ (Gates.plonkArith (F := F)).2) :
    x.rotation = .curr ∧ x.index < needs 3 1 5 x.oracleType := by
  revert x
  show ∀ x ∈ [Gates.fq 0, Gates.fq 1, Gates.fq 2, Gates.fq 3, Gates.fq 4, Gates.iq 0, Gates.wq 0, Gates.wq 1, Gates.wq 2],
    x.rotation = .curr ∧ x.index < needs 3 1 5 x.oracleType
  decide

theorem copyTest_fits {a b c pi qm ql qr qo qc s1 s2 s3 selector deltas : List F} {u n : Nat} (hu : u < n) (hdel : deltas.length = 3)
    (hsel : ∀ i < n, selector.getD i 0 = if i ≤ u then 0 else 1) :
    (copyTest a b c pi qm ql qr qo qc s1 s2 s3 selector deltas u).Fits n := by
  have hcalls : ∀ {call}, call ∈ (copyTest a b c pi qm ql qr qo qc s1 s2 s3 selector deltas u).calls →
      call = .gate Gates.plonkArith.1 Gates.plonkArith.2 := fun h => List.mem_singleton.1 h
  have hlisted := fun q => (Gates.all_queries (F := F) Gates.plonkArith (by simp [Gates.all]) q).1
  have hcols : ∀ ty, needs 3 1 5 ty ≤
      ((copyTest a b c pi qm ql qr qo qc s1 s2 s3 selector deltas u).columns.ofType ty).length := by
    intro ty; cases ty <;> exact le_rfl
  refine ⟨goodCalls_curr (by omega) ?_ ?_ ?_, ?_, ?_, fun _ => ⟨rfl, hdel⟩, fun _ => hsel, hu, ?_⟩
  · intro call hcall e he q hq
    obtain rfl := hcalls hcall
    obtain rfl := List.mem_singleton.1 he
    exact hlisted q hq
  · intro call hcall q hq
    obtain rfl := hcalls hcall
    exact (plonkArith_queries (F := F) (by simpa [Call.queries, Call.tables] using hq)).1
  · intro es qs ts h
    cases hcalls h
  · intro call hcall
    obtain rfl := hcalls hcall
    refine ⟨fun q hq => (plonkArith_queries (F := F) hq).2.trans_le (hcols _), fun e he q hq => ?_, fun q hq => by cases hq⟩
    obtain rfl := List.mem_singleton.1 he
    exact (plonkArith_queries (F := F) (hlisted q hq)).2.trans_le (hcols _)
  · intro _ i hi
    refine ⟨_, List.mem_singleton.2 rfl, .curr, rfl, ?_⟩
    have hi : i < 3 := hi
    have : ∀ i < 3, (⟨i, .curr, .witness⟩ : VirtualQuery) ∈ [Gates.fq 0, Gates.fq 1, Gates.fq 2, Gates.fq 3, Gates.fq 4, Gates.iq 0, Gates.wq 0,
      Gates.wq 1, Gates.wq 2] := by decide
    exact this i hi
  · rintro ⟨es, qs, ts, h⟩
    cases hcalls h

theorem copyTest_degrees {a b c pi qm ql qr qo qc s1 s2 s3 selector deltas : List F} {u n adicity : Nat} (h8 : 8 ≤ n)
    (h4 : 4 * n ≤ 2 ^ adicity) : GateDegrees n adicity 3 (copyTest a b c pi qm ql qr qo qc s1 s2 s3 selector deltas u).calls := by
  refine ⟨?_, ⟨_, _, List.mem_cons_self, rfl⟩, by norm_num, degreeFits_of_eight (by norm_num) (by omega) h8, h4⟩
  intro e qs h
  cases List.mem_singleton.1 h
  exact le_rfl

theorem copyTest_holds {a b c pi qm ql qr qo qc s1 s2 s3 selector deltas : List F} {u : Nat} {d : Domain F}
    {tau : Equiv.Perm (Fin 3 × Fin u)}
    (hgate : ∀ i < d.size, qm.getD i 0 * a.getD i 0 * b.getD i 0 + ql.getD i 0 * a.getD i 0 + qr.getD i 0 * b.getD i 0 +
      qo.getD i 0 * c.getD i 0 + qc.getD i 0 + pi.getD i 0 = 0)
    (hsig : ∀ x, ([s1, s2, s3].getD x.1 []).getD x.2 0 = deltas.getD (tau x).1 0 * d.omega ^ ((tau x).2 : Nat))
    (hcop : ∀ x, ([a, b, c].getD (tau x).1 []).getD (tau x).2 0 = ([a, b, c].getD x.1 []).getD x.2 0) :
    (copyTest a b c pi qm ql qr qo qc s1 s2 s3 selector deltas u).Holds d tau := by
  refine ⟨?_, ?_, fun _ => hsig, fun _ => hcop⟩
  · intro e qs h i hi
    cases List.mem_singleton.1 h
    generalize ht : (copyTest a b c pi qm ql qr qo qc s1 s2 s3 selector deltas u).columns = t
    have h1 : ∀ (q : VirtualQuery) (x : Label × List F), (t.ofType q.oracleType)[q.index]? = some x → q.rotation = .curr →
      t.cell d.size i q = x.2.getD i 0 := fun q x g1 g2 => t.cell_curr hi q g1 g2
    show t.cell d.size i (Gates.wq 0) * t.cell d.size i (Gates.wq 1) * t.cell d.size i (Gates.fq 0) +
      t.cell d.size i (Gates.wq 0) * t.cell d.size i (Gates.fq 1) + t.cell d.size i (Gates.wq 1) * t.cell d.size i (Gates.fq 2) +
      t.cell d.size i (Gates.wq 2) * t.cell d.size i (Gates.fq 3) + t.cell d.size i (Gates.fq 4) + t.cell d.size i (Gates.iq 0) = 0
    subst ht
    rw [h1 (Gates.wq 0) (_, a) rfl rfl, h1 (Gates.wq 1) (_, b) rfl rfl, h1 (Gates.wq 2) (_, c) rfl rfl, h1 (Gates.fq 0) (_, qm) rfl rfl,
      h1 (Gates.fq 1) (_, ql) rfl rfl, h1 (Gates.fq 2) (_, qr) rfl rfl, h1 (Gates.fq 3) (_, qo) rfl rfl, h1 (Gates.fq 4) (_, qc) rfl rfl,
      h1 (Gates.iq 0) (_, pi) rfl rfl]
    have := hgate i hi
    linear_combination this
  · intro es qs ts h
    cases List.mem_singleton.1 h

end

section
variable {F : Type} [Field F] [LinearOrder F] [FftParams F] [LawfulFft F] {G : Type} [AddCommGroup G] [Module F G]
variable {G2 GT : Type} [AddCommGroup G2] [Module F G2] [AddCommGroup GT] [Module F GT] [DecidableEq GT]

/-- **C78** `test_full_circuit_simple_lookup` (src/tests/with_lookup.rs 83-479) for all inputs: columns `a`, `b`, `c` and a selector `q` with
`q (a b - c) = 0` on every row, a table, and a number of usable rows such that the usable rows of `a` are usable rows of the table; the
blinding selector is one on the other rows. For every secret of the setup and all randomness, the verifier accepts the proof unless a
challenge makes one of the `a + beta` and `t + gamma` zero, the evaluation challenge is zero or `x3` meets an opening point. -/
theorem C78_lookup (e : G →ₗ[F] G2 →ₗ[F] GT) (env : KzgEnv F G) {maxDegree : Nat} {secret : F} {g gammaG : G} {h : G2} {srs : KzgSrs G G2}
    {ck : KzgKey G} {vk : KzgVk G G2} (hsrs : universalSetup maxDegree secret g gammaG h = .ok srs) (hkeys : prepareKeys srs = .ok (ck, vk))
    {d : Domain F} (hd : d.Ok) (h8 : 8 ≤ d.size) (h4 : 4 * d.size ≤ 2 ^ FftParams.adicity F) (hn : d.size ≤ maxDegree + 1)
    {a b c q table selector : List F} (hlen : ∀ l ∈ [a, b, c, q, table, selector], l.length = d.size)
    {rows : Nat} (hrows : 0 < rows ∧ rows < d.size) (hsel : ∀ i < d.size, rows ≤ i → selector.getD i 0 = 1)
    (hgate : ∀ i < d.size, q.getD i 0 * (a.getD i 0 * b.getD i 0 - c.getD i 0) = 0)
    (hlook : ∀ i < rows, ∃ j < rows, a.getD i 0 = table.getD j 0) (z : env.Z) :
    let t := lookupTest a b c q table selector rows
    ∃ p, circuitProver (kzgScheme e env) vk d t = .ok p ∧ ∃ theta beta gamma,
      FirstMessages (kzgScheme e env) ⟨p.key, ck⟩ ⟨p.made.oracles.witness, p.made.oracles.inst, p.made.oracles.fixed, p.made.tables⟩ d z
        theta beta gamma ∧
      ((∀ i < rows, a.getD i 0 + beta ≠ 0 ∧ table.getD i 0 + gamma ≠ 0) →
        ∃ tr, runCircuitRounds (kzgScheme e env) ck vk d t z = .ok tr ∧ tr.chal.theta = theta ∧ tr.chal.beta = beta ∧ tr.chal.gamma = gamma ∧
        (tr.chal.xi ≠ 0 → ∃ proof, runCircuitProver (kzgScheme e env) ck vk d t z = .ok proof ∧
          (verifierChallenges (kzgScheme e env) proof).1 = tr.chal ∧
          ((∀ k : ℤ, (mpChallenges (kzgScheme e env) proof.multiopen (verifierChallenges _ proof).2).2.2.1 ≠ tr.chal.xi * d.omega ^ k) →
            runCircuitVerifier (kzgScheme e env) ck vk d t proof = .ok ()))) := by
  intro t
  obtain ⟨p, hp, theta, beta, gamma, h1, h2⟩ := C78_kzg e env hsrs hkeys hd hn (t := t)
    (lookupTest_wellformed (hlen _ (by simp)) (hlen _ (by simp)) (hlen _ (by simp)) (hlen _ (by simp)) (hlen _ (by simp)) (hlen _ (by simp)))
    (lookupTest_fits hrows hsel) (lookupTest_degrees h8 h4) (lookupTest_holds hrows.2 hgate hlook) z
  exact ⟨p, hp, theta, beta, gamma, h1, fun hz => h2 (lookupTest_noZeros hrows.2 hz)⟩

/-- **C78** `copy_plonk` (src/tests/with_copy.rs 732-1362) for all inputs: columns that satisfy the gate `PrecompiledPlonkArith` on every row,
any permutation of the cells in the first `u` rows of the three witness columns that leaves the values as they are, and its sigmas. For every
secret of the setup and all randomness, the verifier accepts the proof unless a challenge makes one of the `w + beta * sigma + gamma` zero,
the evaluation challenge is zero or `x3` meets an opening point. -/
theorem C78_copy (e : G →ₗ[F] G2 →ₗ[F] GT) (env : KzgEnv F G) {maxDegree : Nat} {secret : F} {g gammaG : G} {h : G2} {srs : KzgSrs G G2}
    {ck : KzgKey G} {vk : KzgVk G G2} (hsrs : universalSetup maxDegree secret g gammaG h = .ok srs) (hkeys : prepareKeys srs = .ok (ck, vk))
    {d : Domain F} (hd : d.Ok) (h8 : 8 ≤ d.size) (h4 : 4 * d.size ≤ 2 ^ FftParams.adicity F) (hn : d.size ≤ maxDegree + 1)
    {a b c pi qm ql qr qo qc s1 s2 s3 selector deltas : List F}
    (hlen : ∀ l ∈ [a, b, c, pi, qm, ql, qr, qo, qc, s1, s2, s3, selector], l.length = d.size) {u : Nat} (hu : u < d.size)
    (hdel : deltas.length = 3) (hsel : ∀ i < d.size, selector.getD i 0 = if i ≤ u then 0 else 1)
    (hgate : ∀ i < d.size, qm.getD i 0 * a.getD i 0 * b.getD i 0 + ql.getD i 0 * a.getD i 0 + qr.getD i 0 * b.getD i 0 +
      qo.getD i 0 * c.getD i 0 + qc.getD i 0 + pi.getD i 0 = 0)
    {tau : Equiv.Perm (Fin 3 × Fin u)}
    (hsig : ∀ x, ([s1, s2, s3].getD x.1 []).getD x.2 0 = deltas.getD (tau x).1 0 * d.omega ^ ((tau x).2 : Nat))
    (hcop : ∀ x, ([a, b, c].getD (tau x).1 []).getD (tau x).2 0 = ([a, b, c].getD x.1 []).getD x.2 0) (z : env.Z) :
    let t := copyTest a b c pi qm ql qr qo qc s1 s2 s3 selector deltas u
    ∃ p, circuitProver (kzgScheme e env) vk d t = .ok p ∧ ∃ theta beta gamma,
      FirstMessages (kzgScheme e env) ⟨p.key, ck⟩ ⟨p.made.oracles.witness, p.made.oracles.inst, p.made.oracles.fixed, p.made.tables⟩ d z
        theta beta gamma ∧
      ((∀ k < 3, ∀ i < u, ([a, b, c].getD k []).getD i 0 + beta * ([s1, s2, s3].getD k []).getD i 0 + gamma ≠ 0) →
        ∃ tr, runCircuitRounds (kzgScheme e env) ck vk d t z = .ok tr ∧ tr.chal.theta = theta ∧ tr.chal.beta = beta ∧ tr.chal.gamma = gamma ∧
        (tr.chal.xi ≠ 0 → ∃ proof, runCircuitProver (kzgScheme e env) ck vk d t z = .ok proof ∧
          (verifierChallenges (kzgScheme e env) proof).1 = tr.chal ∧
          ((∀ k : ℤ, (mpChallenges (kzgScheme e env) proof.multiopen (verifierChallenges _ proof).2).2.2.1 ≠ tr.chal.xi * d.omega ^ k) →
            runCircuitVerifier (kzgScheme e env) ck vk d t proof = .ok ()))) := by
  intro t
  obtain ⟨p, hp, theta, beta, gamma, h1, h2⟩ := C78_kzg e env hsrs hkeys hd hn (t := t) (copyTest_wellformed hlen)
    (copyTest_fits hu hdel hsel) (copyTest_degrees h8 h4) (copyTest_holds hgate hsig hcop) z
  refine ⟨p, hp, theta, beta, gamma, h1, fun hz => h2 ⟨fun _ => hz, fun es qs ts hc => ?_⟩⟩
  cases List.mem_singleton.1 hc

end
end ZK
