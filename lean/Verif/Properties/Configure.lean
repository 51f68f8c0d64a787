import Verif.Lemmas.Configure
import Verif.Properties.Success
import Verif.Properties.Gates
/-! C74: from columns and calls of `configure` to an accepted proof. -/
set_option autoImplicit false
set_option linter.unusedSectionVars false
namespace ZK
open Polynomial

section
variable {F W I X Y W' I' X' Y' : Type} [OracleData W] [OracleData I] [OracleData X] [OracleData Y]
  [OracleData W'] [OracleData I'] [OracleData X'] [OracleData Y']

/-- **C74** A sequence of calls succeeds exactly when all indices are in range and all tables are fixed columns. -/
theorem C74_configure_succeeds (calls : List (Call F)) (s : Oracles W I X) (ts : List Y) :
    (∃ c, configureAll calls s ts = .ok c) ↔ ∀ call ∈ calls,
      (∀ q ∈ call.queries, q.index < s.count q.oracleType) ∧ (∀ e ∈ call.exprs, ∀ q ∈ e.queries, q.index < s.count q.oracleType) ∧
      ∀ t ∈ call.tables, t.oracleType = .fixed ∧ t.index < ts.length :=
  configureAll_ok_iff

/-- **C74** The gates and lookups that result from the calls depend on the labels of the oracles only. A prover and a verifier that
make the same calls hold the same gates and lookups. -/
theorem C74_same_gates {calls : List (Call F)} {s : Oracles W I X} {ts : List Y} {s' : Oracles W' I' X'} {ts' : List Y'}
    (hl : s.SameLabels s') (ht : ts'.map ConcreteOracle.label = ts.map ConcreteOracle.label) :
    ((∃ c, configureAll calls s ts = .ok c) ↔ ∃ c, configureAll calls s' ts' = .ok c) ∧
    ∀ c c', configureAll calls s ts = .ok c → configureAll calls s' ts' = .ok c' → c'.vos = c.vos ∧ c'.lookups = c.lookups := by
  have hlt : ts'.length = ts.length := by simpa using congrArg List.length ht
  have hcount : ∀ ty, s'.count ty = s.count ty := by
    intro ty
    cases ty
    · show s'.witness.length = s.witness.length
      simpa using congrArg List.length hl.1
    · show s'.inst.length = s.inst.length
      simpa using congrArg List.length hl.2.1
    · show s'.fixed.length = s.fixed.length
      simpa using congrArg List.length hl.2.2
  have hlab : ∀ tqs, labelled ts' tqs = labelled ts tqs := by
    intro tqs
    unfold labelled
    congr 1
    funext q
    have h1 : (ts'[q.index]?).map ConcreteOracle.label = (ts[q.index]?).map ConcreteOracle.label := by
      rw [← List.getElem?_map, ← List.getElem?_map, ht]
    have := congrArg (Option.map (fun l => (⟨l, q.rotation, .fixed⟩ : OracleQuery))) h1
    simpa [Option.map_map, Function.comp_def] using this
  constructor
  · rw [configureAll_ok_iff, configureAll_ok_iff]
    unfold Call.InRange
    simp only [hcount, hlt]
  · intro c c' h h'
    have hc := configureAll_ok h
    have hc' := configureAll_ok h'
    constructor
    · have := hc.vos
      have h2 := hc'.vos
      refine List.ext_get (by rw [← this.length_eq, ← h2.length_eq]) fun k hk1 hk2 => ?_
      have hk : k < (calls.filterMap Call.isGate?).length := by rw [h2.length_eq]; exact hk1
      obtain ⟨e, g1, g2⟩ := this.get hk hk2
      obtain ⟨e', g3, g4⟩ := h2.get hk hk1
      rw [VExpr.toExpr_congr hl] at g3
      rw [g1] at g3
      obtain rfl := Res.ok.inj g3
      exact g4.trans g2.symm
    · have := hc.lookups
      have h2 := hc'.lookups
      refine List.ext_get (by rw [← this.length_eq, ← h2.length_eq]) fun k hk1 hk2 => ?_
      have hk : k < (calls.filterMap Call.isLookup?).length := by rw [h2.length_eq]; exact hk1
      obtain ⟨es, g1, g2⟩ := this.get hk hk2
      obtain ⟨es', g3, g4⟩ := h2.get hk hk1
      obtain rfl : es = es' := by
        refine List.ext_get (by rw [← g1.length_eq, ← g3.length_eq]) fun j hj1 hj2 => ?_
        have hj : j < ((calls.filterMap Call.isLookup?).get ⟨k, hk⟩).1.length := by rw [g1.length_eq]; exact hj1
        have a1 := g1.get hj hj1
        have a2 := g3.get hj hj2
        rw [VExpr.toExpr_congr hl] at a2
        exact Res.ok.inj (a1.symm.trans a2)
      rw [g4, g2, hlab]

end

section
variable {F : Type} [Field F] {s : Oracles (ProverOracle F) (ProverOracle F) (ProverOracle F)} {ts : List (ProverOracle F)}
  {calls : List (Call F)} {c : Configured F (ProverOracle F) (ProverOracle F) (ProverOracle F) (ProverOracle F)} {d : Domain F} {D : Nat}
  {sigmas : List (ProverOracle F)} {qBlind : ProverOracle F} {info : PermutationInfo F} {usableRows : Nat}

/-- **C74** The gates and lookups of the configured circuit, which find their columns by label, hold exactly when those of the
client hold, which find theirs by index. -/
theorem C74_meaning (hc : configureAll calls s ts = .ok c) (hf : FreshColumns d D s ts) (hg : GoodCalls d.size calls) :
    (∀ zh : F[X], GatesHold d ⟨c.oracles.witness, c.oracles.inst, c.oracles.fixed, c.tables⟩ c.vos zh ↔ GateCallsHold d s calls zh) ∧
    ∀ u, LookupsHold d.size u ⟨c.oracles.witness, c.oracles.inst, c.oracles.fixed, c.tables⟩ c.lookups ↔ LookupCallsHold d.size u s ts calls :=
  ⟨fun zh => gatesHold_iff (configureAll_ok hc) hf hg zh,
    fun u => lookupsHold_iff (configureAll_ok hc) (configureAll_ok_iff.1 ⟨c, hc⟩) hf hg u⟩

/-- The conditions of `Supported`, `Provable` and `Enforced` for a circuit made with `configure`. -/
theorem circuit_parts (hc : configureAll calls s ts = .ok c) (hg : GoodCircuit d D s ts calls sigmas qBlind info usableRows)
    {index : Index F} (hl : index.lookups = c.lookups) (hu : index.perm.usableRows = info.u) (hu' : index.usableRows = usableRows)
    (hdl : index.perm.deltas = info.deltas) (hle : d.size ≤ index.ext.size)
    (hcols : (∃ o ∈ s.witness, o.shouldPermute = true) → 0 < index.perm.maxCols) :
    (∀ o ∈ c.view.witness ++ c.view.inst ++ c.view.fixed ++ c.view.table ++ sigmas, Interpolates d o ∧ o.poly.length ≤ D) ∧
    ((∀ o ∈ c.view.witness ++ c.view.inst ++ c.view.fixed ++ c.view.table ++ sigmas, IsColumn d o) → qBlind.poly.length ≤ d.size →
      Supported d index c.view sigmas qBlind c.vos) ∧
    (∀ vo ∈ c.vos, ∃ e, vo.getExpression = .ok e ∧ ∀ q ∈ e.queries, Answerable d.size c.view q) ∧
    (∀ o ∈ c.view.witness, o.shouldPermute = true → OpenedUnrotated o) ∧
    (∀ l ∈ index.lookups, ∃ es ts, l.getExpressions = .ok es ∧ l.getTableQueries = .ok ts ∧
      (∀ e ∈ es, (∀ q ∈ e.queries, Answerable d.size c.view q ∧ (q.oracleType ≠ .witness → q.rotation.degree = 0)) ∧
        ∃ k, e.degree (fun _ => .ok (d.size - 1)) = .ok k ∧ k < index.ext.size) ∧
      ∀ t ∈ ts, t.oracleType = .fixed ∧ ∃ o, Resolves c.view.table t.label o ∧ OpenedUnrotated o) ∧
    (((∃ o ∈ c.view.witness, o.shouldPermute = true) → ∃ o ∈ s.witness, o.shouldPermute = true) ∧
      (index.lookups ≠ [] → ∃ es qs ts, Call.lookup es qs ts ∈ calls)) ∧
    Provable d index c.view sigmas qBlind c.vos := by
  have hC := configureAll_ok hc
  have hR := configureAll_ok_iff.1 ⟨c, hc⟩
  have hcop : (∃ o ∈ c.oracles.witness, o.shouldPermute = true) → ∃ o ∈ s.witness, o.shouldPermute = true := by
    rintro ⟨o, ho, h⟩
    obtain ⟨o', ho', he⟩ := mem_forall₂ hC.oracles.1.erased ho
    exact ⟨o', ho', (erase_copied he).symm.trans h⟩
  have hlk : index.lookups ≠ [] → ∃ es qs ts, Call.lookup es qs ts ∈ calls := by
    intro h
    rw [hl] at h
    obtain ⟨l, hl⟩ := List.exists_mem_of_ne_nil _ h
    obtain ⟨⟨es, qs, ts⟩, h1, -⟩ := mem_forall₂ hC.lookups hl
    exact ⟨es, qs, ts, mem_lookups.1 h1⟩
  have hlen : (c.oracles.witness.filter (·.shouldPermute)).length = (s.witness.filter (·.shouldPermute)).length :=
    (configured_copied hC).length_eq.symm
  have hrot : ∀ o ∈ c.oracles.witness ++ c.oracles.fixed ++ c.tables, ∀ r ∈ o.rotations,
      ∃ call ∈ calls, ∃ q ∈ call.queries ++ call.tables, q.rotation = r := by
    have hsub : ∀ ty, ∀ o ∈ c.oracles.ofType ty, ∀ r ∈ o.rotations, ∃ call ∈ calls, ∃ q ∈ call.queries ++ call.tables, q.rotation = r := by
      intro ty o ho r hr
      obtain ⟨i, hi⟩ := List.mem_iff_getElem?.1 ho
      obtain ⟨-, -, -, h3⟩ := ((hC.oracles.ofType ty).fresh fun o ho => (hg.fresh.ofType ty o ho).2).2 i o hi
      obtain ⟨call, hcall, hq⟩ := List.mem_flatMap.1 ((h3 r).1 hr)
      exact ⟨call, hcall, _, List.mem_append_left _ hq, rfl⟩
    intro o ho r hr
    rcases List.mem_append.1 ho with ho | ho
    · rcases List.mem_append.1 ho with ho | ho
      · exact hsub .witness o ho r hr
      · exact hsub .fixed o ho r hr
    · obtain ⟨i, hi⟩ := List.mem_iff_getElem?.1 ho
      obtain ⟨-, -, -, h3⟩ := (hC.tables.fresh fun o ho => (hg.fresh.columns o (List.mem_append_right _ ho)).2).2 i o hi
      obtain ⟨call, hcall, hq⟩ := List.mem_flatMap.1 ((h3 r).1 hr)
      exact ⟨call, hcall, _, List.mem_append_right _ hq, rfl⟩
  have hsorted : ∀ o ∈ c.oracles.witness ++ c.oracles.fixed ++ c.tables, o.rotations.Pairwise (· < ·) := by
    have hnil : ∀ o : ProverOracle F, o.rotations = [] → (ConcreteOracle.rotations o).Pairwise (· < ·) := by
      intro o ho
      have : ConcreteOracle.rotations o = [] := ho
      rw [this]
      exact List.Pairwise.nil
    have hs := hC.sorted ⟨fun o ho => hnil o (hg.fresh.ofType .witness o ho).2, fun o ho => hnil o (hg.fresh.ofType .instance_ o ho).2,
      fun o ho => hnil o (hg.fresh.ofType .fixed o ho).2⟩
    have ht := hC.sortedTables fun o ho => hnil o (hg.fresh.columns o (List.mem_append_right _ ho)).2
    intro o ho
    rcases List.mem_append.1 ho with ho | ho
    · rcases List.mem_append.1 ho with ho | ho
      · exact hs.1 o ho
      · exact hs.2.2 o ho
    · exact ht o ho
  have hans : ∀ call ∈ calls, ∀ e ∈ call.exprs, ∀ e', e.toExpr s.witness s.inst s.fixed = .ok e' → ∀ q ∈ e'.queries,
      Answerable d.size c.view q ∧ ∃ q' ∈ call.queries, q'.rotation = q.rotation ∧ q'.oracleType = q.oracleType := by
    intro call hcall e he e' he' q hq
    obtain ⟨-, h2⟩ := VExpr.toExpr_denote (R := F) id (fun _ => 0) s e e' he'
    obtain ⟨q', hq', l, hl, rfl⟩ := (h2 q).1 hq
    have hlist := hg.good.listed call hcall e he q' hq'
    refine ⟨⟨hg.good.small call hcall q' (List.mem_append_left _ hlist), ?_⟩, q', hlist, rfl, rfl⟩
    rw [Oracles.labelAt_ofType] at hl
    obtain ⟨o, ho, rfl⟩ := Option.map_eq_some_iff.1 hl
    have hreg := hC.oracles.ofType q'.oracleType
    obtain ⟨o', h3, h4, h5⟩ := hreg.2 _ _ ho
    have hnd : ((c.oracles.ofType q'.oracleType).map ConcreteOracle.label).Nodup := by rw [hreg.label]; exact hg.fresh.labels.1.ofType _
    refine ⟨o', ?_, fun _ => (h5 _).2 (.inr (List.mem_flatMap.2 ⟨call, hcall, hlist⟩))⟩
    rw [oracles_view]
    have := resolves_of_nodup hnd h3
    rwa [show ConcreteOracle.label o' = o.label from erase_label h4] at this
  have hcolumns : ∀ o ∈ c.view.witness ++ c.view.inst ++ c.view.fixed ++ c.view.table ++ sigmas, Interpolates d o ∧ o.poly.length ≤ D := by
      intro o ho
      have hty : ∀ ty, o ∈ c.oracles.ofType ty → Interpolates d o ∧ o.poly.length ≤ D := by
        intro ty ho
        obtain ⟨o', ho', he⟩ := mem_forall₂ (hC.oracles.ofType ty).erased ho
        exact erase_isColumn he (hg.fresh.ofType ty o' ho').1
      rcases List.mem_append.1 ho with ho | ho
      · rcases List.mem_append.1 ho with ho | ho
        · rcases List.mem_append.1 ho with ho | ho
          · rcases List.mem_append.1 ho with ho | ho
            · exact hty .witness ho
            · exact hty .instance_ ho
          · exact hty .fixed ho
        · obtain ⟨o', ho', he⟩ := mem_forall₂ hC.tables.erased ho
          exact erase_isColumn he (hg.fresh.columns o' (List.mem_append_right _ ho')).1
      · exact (hg.sigmaColumns o ho).1
  have hgates : ∀ vo ∈ c.vos, ∃ e, vo.getExpression = .ok e ∧ ∀ q ∈ e.queries, Answerable d.size c.view q := by
      intro vo hvo
      obtain ⟨⟨e, qs⟩, h1, e', h2, rfl⟩ := mem_forall₂ hC.vos hvo
      exact ⟨e', rfl, fun q hq => (hans _ (mem_gates.1 h1) e (List.mem_singleton.2 rfl) e' h2 q hq).1⟩
  have hopened : ∀ o ∈ c.view.witness, o.shouldPermute = true → OpenedUnrotated o := by
      intro o ho hp
      obtain ⟨i, hi⟩ := List.mem_iff_getElem?.1 ho
      obtain ⟨o', h1, h2, h3⟩ := (hC.oracles.1.fresh fun o ho => (hg.fresh.ofType .witness o ho).2).2 i o hi
      obtain ⟨call, hcall, r, hr, hq⟩ := hg.copied i o' h1 ((erase_copied h2).symm.trans hp)
      exact ⟨r, (h3 r).2 (List.mem_flatMap.2 ⟨call, hcall, hq⟩), hr⟩
  have hlookups : ∀ l ∈ index.lookups, ∃ es ts, l.getExpressions = .ok es ∧ l.getTableQueries = .ok ts ∧
      (∀ e ∈ es, (∀ q ∈ e.queries, Answerable d.size c.view q ∧ (q.oracleType ≠ .witness → q.rotation.degree = 0)) ∧
        ∃ k, e.degree (fun _ => .ok (d.size - 1)) = .ok k ∧ k < index.ext.size) ∧
      ∀ t ∈ ts, t.oracleType = .fixed ∧ ∃ o, Resolves c.view.table t.label o ∧ OpenedUnrotated o := by
      intro l hl'
      rw [hl] at hl'
      obtain ⟨⟨es, qs, tqs⟩, h1, es', h2, rfl⟩ := mem_forall₂ hC.lookups hl'
      have hcall := mem_lookups.1 h1
      obtain ⟨g1, g2, g3, g4⟩ := hg.good.lookups es qs tqs hcall
      refine ⟨es', labelled ts tqs, rfl, rfl, ?_, ?_⟩
      · intro e' he'
        obtain ⟨e, he, h3⟩ := mem_forall₂ h2 he'
        refine ⟨fun q hq => ?_, ?_⟩
        · obtain ⟨k1, q', k2, k3, k4⟩ := hans _ hcall e he e' h3 q hq
          refine ⟨k1, fun hne => ?_⟩
          rw [← k3]
          exact g3 q' k2 (by rw [k4]; exact hne)
        · obtain ⟨k, k1, k2⟩ := VExpr.toExpr_degree s.witness s.inst s.fixed (d.size - 1) e e' h3
          refine ⟨k, k1, ?_⟩
          have : e.totalDegree * (d.size - 1) ≤ 1 * (d.size - 1) := Nat.mul_le_mul_right _ (g4 e he)
          have hpos : 0 < d.size := Nat.lt_of_le_of_lt (Nat.zero_le _) hg.usable
          omega
      · intro q hq
        obtain ⟨t, ht, o, ho, rfl⟩ := mem_forall₂ (labelled_forall₂ hC fun t ht => ((hR _ hcall).2.2 t ht).2) hq
        obtain ⟨o', h3, h4, h5⟩ := hC.tables.2 _ _ ho
        have hnd : (c.tables.map ConcreteOracle.label).Nodup := by rw [hC.tables.label]; exact hg.fresh.labels.2
        have hres := resolves_of_nodup hnd h3
        rw [show ConcreteOracle.label o' = o.label from erase_label h4] at hres
        have hty : t = ⟨t.index, t.rotation, .fixed⟩ := by
          have := ((hR _ hcall).2.2 t ht).1
          cases t
          cases this
          rfl
        refine ⟨rfl, o', hres, t.rotation, (h5 _).2 (.inr (List.mem_flatMap.2 ⟨_, hcall, ?_⟩)), g2 t ht⟩
        rw [← hty]
        exact ht
  have hblinding : ((∃ o ∈ c.view.witness, o.shouldPermute = true) → ∃ o ∈ s.witness, o.shouldPermute = true) ∧
      (index.lookups ≠ [] → ∃ es qs ts, Call.lookup es qs ts ∈ calls) := ⟨hcop, hlk⟩
  have hselectors : ∀ o ∈ sigmas ++ [qBlind], o.rotations = [] ∨ o.rotations = [.curr] := by
    intro o ho
    rcases List.mem_append.1 ho with ho | ho
    · exact .inr (hg.sigmaColumns o ho).2
    · obtain rfl := List.mem_singleton.1 ho
      exact hg.selector.2
  refine ⟨hcolumns, fun hcol hsel => ⟨⟨hcol, hsel, ?_, ?_, ?_, hgates, hopened, hlookups, fun h => ?_, fun h => ?_⟩, ?_⟩, hgates, hopened, hlookups, hblinding, ?_⟩
  · refine ⟨?_, ?_, ?_⟩
    · have := hC.oracles.1.label
      exact (congrArg List.Nodup this).mpr hg.fresh.labels.1.1
    · have := hC.oracles.2.2.label
      exact (congrArg List.Nodup this).mpr hg.fresh.labels.1.2.2
    · have := hC.tables.label
      exact (congrArg List.Nodup this).mpr hg.fresh.labels.2
  · intro o ho r hr
    obtain ⟨call, hcall, q, hq, rfl⟩ := hrot o ho r hr
    exact hg.good.small call hcall q hq
  · intro o ho r hr
    rcases hselectors o ho with h | h
    · rw [h] at hr
      exact absurd hr List.not_mem_nil
    · rw [h, List.mem_singleton] at hr
      subst hr
      rfl
  · rw [hu]
    exact ⟨(hg.blinding (hcop h)).1.1, (hg.blinding (hcop h)).2⟩
  · rw [hu']
    exact (hg.lookedUp (hlk h)).2.1
  · intro h
    rw [hu, hu']
    exact hg.lookedUp (hlk h)
  · refine ⟨?_, ?_, ?_, ?_, ?_⟩
    · obtain ⟨e, qs, h⟩ := hg.gate
      obtain ⟨vo, hvo, -⟩ := mem_forall₂' hC.vos (mem_gates.2 h)
      exact List.ne_nil_of_mem hvo
    · rw [hu]; exact hg.usable
    · intro h
      obtain ⟨h1, h2⟩ := hg.shape (hcop h)
      refine ⟨h1.trans hlen.symm, ?_, hcols (hcop h)⟩
      rw [hdl]
      exact h2.trans hlen.symm
    · intro l hl' es0 ts0 h3 h4
      rw [hl] at hl'
      obtain ⟨⟨es, qs, tqs⟩, h1, es', h2, rfl⟩ := mem_forall₂ hC.lookups hl'
      obtain rfl := Res.ok.inj h3
      obtain rfl := Res.ok.inj h4
      have hcall := mem_lookups.1 h1
      obtain ⟨g1, g2, g3, g4⟩ := hg.good.lookups es qs tqs hcall
      have hll := (labelled_forall₂ hC fun t ht => ((hR _ hcall).2.2 t ht).2).length_eq
      refine ⟨h2.length_eq.symm.trans (g1.trans hll), fun e' he' => ?_⟩
      obtain ⟨e, he, h5⟩ := mem_forall₂ h2 he'
      obtain ⟨k, k1, k2⟩ := VExpr.toExpr_degree s.witness s.inst s.fixed 1 e e' h5
      exact ⟨k, by have := g4 e he; omega, k1⟩
    · intro o ho
      rw [List.append_assoc] at ho
      rcases List.mem_append.1 ho with ho | ho
      · refine List.Pairwise.imp_of_mem ?_ (hsorted o ho)
        intro r r' hr hr' hlt heq
        obtain ⟨call, hcall, q, hq, rfl⟩ := hrot o ho r hr
        obtain ⟨call', hcall', q', hq', rfl⟩ := hrot o ho r' hr'
        have := hg.good.distinct call hcall call' hcall' q hq q' hq' heq
        rw [this] at hlt
        exact lt_irrefl _ hlt
      · rcases hselectors o ho with h | h
        · rw [h]; exact List.Pairwise.nil
        · rw [h]; exact List.pairwise_singleton _ _

/-- **C74** A circuit made with `configure` is one that completeness is stated for. -/
theorem C74_supported (hc : configureAll calls s ts = .ok c) (hg : GoodCircuit d d.size s ts calls sigmas qBlind info usableRows)
    {index : Index F} (hl : index.lookups = c.lookups) (hu : index.perm.usableRows = info.u) (hu' : index.usableRows = usableRows)
    (hdl : index.perm.deltas = info.deltas) (hle : d.size ≤ index.ext.size)
    (hcols : (∃ o ∈ s.witness, o.shouldPermute = true) → 0 < index.perm.maxCols) :
    Supported d index ⟨c.oracles.witness, c.oracles.inst, c.oracles.fixed, c.tables⟩ sigmas qBlind c.vos ∧
    Provable d index ⟨c.oracles.witness, c.oracles.inst, c.oracles.fixed, c.tables⟩ sigmas qBlind c.vos := by
  obtain ⟨h1, h2, -, -, -, -, h3⟩ := circuit_parts hc hg hl hu hu' hdl hle hcols
  exact ⟨h2 h1 hg.selector.1, h3⟩

/-- A permutation of the copied cells of the client is one of those of the configured circuit. -/
theorem transport_copies {m u m' u' : Nat} (hm : m = m') (hu : u = u') {deltas deltas' : List F} (hd : deltas = deltas')
    {cols cols' : List (ProverOracle F)} (hcols : List.Forall₂ (fun o o' => OracleData.erase o' = OracleData.erase o) cols cols')
    {tau : Equiv.Perm (Fin m × Fin u)} (henc : MadeFrom d deltas sigmas tau) (hcop : ∀ x, cell cols (tau x) = cell cols x) :
    ∃ tau' : Equiv.Perm (Fin m' × Fin u'), MadeFrom d deltas' sigmas tau' ∧ ∀ x, cell cols' (tau' x) = cell cols' x := by
  subst hm hu hd
  have h : cols'.map (·.evals) = cols.map (·.evals) := by
    clear hcop
    induction hcols with
    | nil => rfl
    | cons h _ ih => rw [List.map_cons, List.map_cons, erase_evals h, ih]
  refine ⟨tau, henc, fun x => ?_⟩
  have hv : ∀ k r, colVal cols' k r = colVal cols k r := by
    intro k r
    unfold colVal
    rw [h]
  have := hcop x
  unfold cell at this ⊢
  rw [hv, hv]
  exact this

/-- **C74** The prover and the verifier make the same calls, the prover on its columns, the verifier on its handles. Then both
succeed or both fail, and afterwards the verifier is set up for the prover's circuit. -/
theorem C74_set_up {S : Scheme F} {com : F[X] → S.Rand → S.Comm} (hf : FreshColumns d D s ts)
    {s' : Oracles (VerifierOracle F S.Comm) (InstanceVerifierOracle F) (VerifierOracle F S.Comm)} {ts' : List (VerifierOracle F S.Comm)}
    (hv : FreshVerifier S com s ts s' ts') (calls : List (Call F)) :
    ((∃ c, configureAll calls s ts = .ok c) ↔ ∃ c', configureAll calls s' ts' = .ok c') ∧
    ∀ c c', configureAll calls s ts = .ok c → configureAll calls s' ts' = .ok c' →
      c'.vos = c.vos ∧ c'.lookups = c.lookups ∧
      ∀ (sigmas : List (ProverOracle F)) (qBlind : ProverOracle F) (perm : List (VerifierOracle F S.Comm)) (vBlind : VerifierOracle F S.Comm),
        List.Forall₂ (fun o p => SameConfig o p ∧ p.commitment = some (com (toPoly o.poly) S.emptyRand)) sigmas perm →
        SameConfig qBlind vBlind ∧ vBlind.commitment = some (com (toPoly qBlind.poly) S.emptyRand) →
        SetUp S com ⟨c.oracles.witness, c.oracles.inst, c.oracles.fixed, c.tables⟩ sigmas qBlind c'.oracles.witness c'.oracles.inst
          ⟨c'.oracles.fixed, c'.tables, perm, vBlind⟩ := by
  have hlab : ∀ {os : List (ProverOracle F)} {ps : List (VerifierOracle F S.Comm)} {P : ProverOracle F → VerifierOracle F S.Comm → Prop},
      List.Forall₂ P os ps → (∀ o p, P o p → SameConfig o p) → ps.map ConcreteOracle.label = os.map ConcreteOracle.label := by
    intro os ps P h hP
    induction h with
    | nil => rfl
    | cons h _ ih => rw [List.map_cons, List.map_cons, ih]; exact congrArg (· :: _) (hP _ _ h).1
  have hil : s'.inst.map ConcreteOracle.label = s.inst.map ConcreteOracle.label := by
    have := hv.inst
    generalize s.inst = os at this
    generalize s'.inst = ps at this
    induction this with
    | nil => rfl
    | cons h _ ih => rw [List.map_cons, List.map_cons, ih]; exact congrArg (· :: _) h.1
  obtain ⟨h1, h2⟩ := C74_same_gates (calls := calls) (s := s) (ts := ts) (s' := s') (ts' := ts')
    ⟨hlab hv.witness fun _ _ h => h, hil, hlab hv.fixed fun _ _ h => h.1⟩ (hlab hv.table fun _ _ h => h.1)
  refine ⟨h1, fun c c' hc hc' => ⟨(h2 c c' hc hc').1, (h2 c c' hc hc').2, fun sigmas qBlind perm vBlind hperm hblind => ?_⟩⟩
  have hC := configureAll_ok hc
  have hC' := configureAll_ok hc'
  have hnil : ∀ {os : List (ProverOracle F)}, (∀ o ∈ os, o.rotations = []) → ∀ o ∈ os, (ConcreteOracle.rotations o).Pairwise (· < ·) := by
    intro os h o ho
    have : ConcreteOracle.rotations o = [] := h o ho
    rw [this]
    exact List.Pairwise.nil
  have hnil' : ∀ {os : List (ProverOracle F)} {ps : List (VerifierOracle F S.Comm)} {P : ProverOracle F → VerifierOracle F S.Comm → Prop},
      List.Forall₂ P os ps → (∀ o p, P o p → SameConfig o p) → (∀ o ∈ os, o.rotations = []) →
      ∀ p ∈ ps, (ConcreteOracle.rotations p).Pairwise (· < ·) := by
    intro os ps P h hP hos p hp
    obtain ⟨o, ho, hop⟩ := mem_forall₂ h hp
    have : ConcreteOracle.rotations p = [] := (hP _ _ hop).2.1.trans (hos o ho)
    rw [this]
    exact List.Pairwise.nil
  have hw : ∀ o ∈ s.witness, o.rotations = [] := fun o ho => (hf.ofType .witness o ho).2
  have hx : ∀ o ∈ s.fixed, o.rotations = [] := fun o ho => (hf.ofType .fixed o ho).2
  have ht : ∀ o ∈ ts, o.rotations = [] := fun o ho => (hf.columns o (List.mem_append_right _ ho)).2
  have hi : ∀ o ∈ s.inst, o.rotations = [] := fun o ho => (hf.ofType .instance_ o ho).2
  have hi' : ∀ p ∈ s'.inst, (ConcreteOracle.rotations p).Pairwise (· < ·) := by
    intro p hp
    obtain ⟨o, ho, hop⟩ := mem_forall₂ hv.inst hp
    have : ConcreteOracle.rotations p = [] := hop.2.1
    rw [this]
    exact List.Pairwise.nil
  have hS := hC.sorted ⟨hnil hw, hnil hi, hnil hx⟩
  have hS' := hC'.sorted ⟨hnil' hv.witness (fun _ _ h => h) hw, hi', hnil' hv.fixed (fun _ _ h => h.1) hx⟩
  have hT := hC.sortedTables (hnil ht)
  have hT' := hC'.sortedTables (hnil' hv.table (fun _ _ h => h.1) ht)
  have hcom : ∀ (o : ProverOracle F) (p : VerifierOracle F S.Comm) (o' : ProverOracle F) (p' : VerifierOracle F S.Comm),
      OracleData.erase o' = OracleData.erase o → OracleData.erase p' = OracleData.erase p →
      p.commitment = some (com (toPoly o.poly) S.emptyRand) → p'.commitment = some (com (toPoly o'.poly) S.emptyRand) := by
    intro o p o' p' h1 h2 h3
    have h4 := congrArg VerifierOracle.commitment h2
    have h4 : p'.commitment = p.commitment := h4
    rw [h4, h3, erase_poly h1]
  refine ⟨?_, ?_, ?_, ?_, hperm, hblind⟩
  · exact (sameConfig_after (P := fun _ _ => True) (fun _ _ _ _ _ _ _ => trivial) hC.oracles.1 hC'.oracles.1
      (hv.witness.imp fun _ _ h => ⟨h, trivial⟩) hS.1 hS'.1).imp fun _ _ h => h.1
  · refine (hC.oracles.2.1.pair hC'.oracles.2.1 hv.inst hS.2.1 hS'.2.1).imp ?_
    rintro o' p' ⟨o, p, h1, h2, h3, -⟩
    have e2 := congrArg InstanceVerifierOracle.label h3
    have e4 := congrArg InstanceVerifierOracle.poly h3
    have e2 : p'.label = p.label := e2
    have e4 : p'.poly = p.poly := e4
    exact ⟨by rw [e2, h1.1, erase_label h2], by rw [e4, h1.2.2, erase_poly h2]⟩
  · exact sameConfig_after hcom hC.oracles.2.2 hC'.oracles.2.2 hv.fixed hS.2.2 hS'.2.2
  · exact sameConfig_after hcom hC.tables hC'.tables hv.table hT hT'

variable [LinearOrder F] [FftParams F] [LawfulFft F]

/-- **C74** From columns and calls of `configure` to an accepted proof. A client has columns, tables, gates and lookups that name
columns by index, and a permutation of the copied cells. The prover makes the calls on its columns, the verifier makes the same
calls on its handles, and the indexer makes the key from the configured gates and lookups. If the gates, the lookups and the copies
hold on the columns the client started from, then the prover returns a proof which the verifier accepts, unless the challenges make a
denominator vanish or hit the evaluation points. -/
theorem C74_end_to_end {W I K : Type} [ConcreteOracle W] [ConcreteOracle I] [ConcreteOracle K]
    {S : Scheme F} {pk : ProverKey S} {com : F[X] → S.Rand → S.Comm} (hS : HomomorphicScheme S pk.ck pk.vk.vk com)
    (hd : d.Ok) (h1 : 1 < d.size) (hn : SupportsDegree S pk.ck d.size)
    -- the circuit
    (hgood : GoodCircuit d d.size s ts calls sigmas qBlind info usableRows)
    {tau : Equiv.Perm (Fin (s.witness.filter (·.shouldPermute)).length × Fin info.u)} (henc : MadeFrom d info.deltas sigmas tau)
    (hc : configureAll calls s ts = .ok c)
    -- the verifier's side
    {s' : Oracles (VerifierOracle F S.Comm) (InstanceVerifierOracle F) (VerifierOracle F S.Comm)} {ts' : List (VerifierOracle F S.Comm)}
    (hv : FreshVerifier S com s ts s' ts') {perm : List (VerifierOracle F S.Comm)} {vBlind : VerifierOracle F S.Comm}
    (hperm : List.Forall₂ (fun o p => SameConfig o p ∧ p.commitment = some (com (toPoly o.poly) S.emptyRand)) sigmas perm)
    (hblind : SameConfig qBlind vBlind ∧ vBlind.commitment = some (com (toPoly qBlind.poly) S.emptyRand))
    -- the key
    {copyFlag : W → Bool} {vk : S.VK} {ows : List W} {ois : List I} {ofs : List K} {zh : List F}
    (hows : (∃ o ∈ s.witness, o.shouldPermute = true) → ∃ o ∈ ows, copyFlag o = true)
    (hkey : indexer copyFlag vk c.vos c.lookups ows ois ofs d zh info usableRows (S := S) = .ok pk.vk)
    (htrim : zh = trim zh) (hdvd : toPoly zh ∣ X ^ d.size - 1)
    (hproper : toPoly zh = X ^ d.size - 1 ∨ (toPoly zh).natDegree < d.size)
    (hquotient : pk.vk.index.quotientDegree ≠ pk.vk.index.ext.size)
    (hcopies : (∃ o ∈ s.witness, o.shouldPermute = true) → d.size < pk.vk.index.perm.maxCols + 2 + (toPoly zh).natDegree)
    -- the columns satisfy the circuit
    (hg : GateCallsHold d s calls (toPoly zh)) (hl : LookupCallsHold d.size usableRows s ts calls)
    (hcop : ∀ x, cell (s.witness.filter (·.shouldPermute)) (tau x) = cell (s.witness.filter (·.shouldPermute)) x) (z : S.Z) :
    ∃ c', configureAll calls s' ts' = .ok c' ∧ ∃ theta beta gamma,
      FirstMessages S pk ⟨c.oracles.witness, c.oracles.inst, c.oracles.fixed, c.tables⟩ d z theta beta gamma ∧
      (GoodDraw d pk.vk.index ⟨c.oracles.witness, c.oracles.inst, c.oracles.fixed, c.tables⟩ sigmas theta beta gamma →
        ∃ tr, proveRounds S pk (.new S c.oracles.fixed sigmas c.tables qBlind pk.vk.index) c.oracles.witness c.oracles.inst c.vos d.size z =
            .ok tr ∧ tr.chal.theta = theta ∧ tr.chal.beta = beta ∧ tr.chal.gamma = gamma ∧
          (tr.chal.xi ≠ 0 →
            ∃ proof, prove S pk (.new S c.oracles.fixed sigmas c.tables qBlind pk.vk.index) c.oracles.witness c.oracles.inst c.vos d.size z =
                .ok proof ∧ (verifierChallenges S proof).1 = tr.chal ∧
              ((∀ k : ℤ, (mpChallenges S proof.multiopen (verifierChallenges S proof).2).2.2.1 ≠ tr.chal.xi * d.omega ^ k) →
                verify S pk.vk ⟨c'.oracles.fixed, c'.tables, perm, vBlind⟩ proof c'.oracles.witness c'.oracles.inst c'.vos d.size zh =
                  .ok ()))) := by
  obtain ⟨hboth, hset⟩ := C74_set_up hgood.fresh hv calls
  obtain ⟨c', hc'⟩ := hboth.1 ⟨c, hc⟩
  obtain ⟨hvos, -, hsu⟩ := hset c c' hc hc'
  obtain ⟨-, -, -, -, -, hle, -, hmax, -, hu, hdl, hlk, hur, -⟩ := indexer_ok hd hkey
  have hC := configureAll_ok hc
  obtain ⟨hs, hp⟩ := C74_supported hc hgood hlk hu hur hdl hle (fun h => by
    obtain ⟨o, ho, hf⟩ := hows h
    have := hmax (List.length_pos_of_mem (List.mem_filter.2 ⟨ho, hf⟩))
    omega)
  obtain ⟨tau', henc', hcop'⟩ := transport_copies (d := d) (sigmas := sigmas) (configured_copied hC).length_eq hu.symm hdl.symm
    (configured_copied hC) henc hcop
  obtain ⟨m1, m2⟩ := C74_meaning hc hgood.fresh hgood.good
  refine ⟨c', hc', ?_⟩
  rw [hvos]
  refine C52_honest_prover_succeeds hS hd h1 hn hkey htrim hdvd hproper hquotient ?_ hs hp henc' (hsu sigmas qBlind perm vBlind hperm hblind)
    ((m1 _).2 hg) hcop' ?_ z
  · rintro ⟨o, ho, h⟩
    obtain ⟨o', ho', he⟩ := mem_forall₂ hC.oracles.1.erased ho
    exact hcopies ⟨o', ho', (erase_copied he).symm.trans h⟩
  · rw [hlk, hur]
    exact (m2 _).2 hl

end
end ZK
