import Verif.Spec.Configure
import Verif.Properties.Expression
/-! Sequences of calls of `configure`. -/
set_option autoImplicit false
set_option linter.unusedSectionVars false
namespace ZK

section
variable {F W I X Y : Type} [OracleData W] [OracleData I] [OracleData X] [OracleData Y]

def Call.isGate? : Call F → Option (VExpr F × List VirtualQuery)
  | .gate e qs => some (e, qs)
  | .lookup _ _ _ => none

def Call.isLookup? : Call F → Option (List (VExpr F) × List VirtualQuery × List VirtualQuery)
  | .gate _ _ => none
  | .lookup es qs ts => some (es, qs, ts)

theorem mem_gates {calls : List (Call F)} {e : VExpr F} {qs : List VirtualQuery} :
    (e, qs) ∈ calls.filterMap Call.isGate? ↔ Call.gate e qs ∈ calls := by
  rw [List.mem_filterMap]
  constructor
  · rintro ⟨c, hc, h⟩
    cases c with
    | gate e' qs' => obtain ⟨rfl, rfl⟩ := Prod.mk.inj (Option.some.inj h); exact hc
    | lookup => simp [Call.isGate?] at h
  · exact fun h => ⟨_, h, rfl⟩

theorem mem_lookups {calls : List (Call F)} {es : List (VExpr F)} {qs ts : List VirtualQuery} :
    (es, qs, ts) ∈ calls.filterMap Call.isLookup? ↔ Call.lookup es qs ts ∈ calls := by
  rw [List.mem_filterMap]
  constructor
  · rintro ⟨c, hc, h⟩
    cases c with
    | gate => simp [Call.isLookup?] at h
    | lookup es' qs' ts' =>
      have h := Option.some.inj h
      simp only [Prod.mk.injEq] at h
      obtain ⟨rfl, rfl, rfl⟩ := h
      exact hc
  · exact fun h => ⟨_, h, rfl⟩

/-- The table queries with their labels. -/
def labelled (ts : List Y) (tqs : List VirtualQuery) : List OracleQuery :=
  tqs.filterMap (fun q => (ts[q.index]?).map (fun o => ⟨ConcreteOracle.label o, q.rotation, .fixed⟩))

theorem tableLoop_sorted (tqs : List VirtualQuery) : ∀ (acc : List OracleQuery) (ts : List Y),
    (∀ o ∈ ts, (ConcreteOracle.rotations o).Pairwise (· < ·)) →
    ∀ o ∈ (tableLoop tqs acc ts).2, (ConcreteOracle.rotations o).Pairwise (· < ·) := by
  induction tqs with
  | nil => intro acc ts h; exact h
  | cons q tqs ih =>
    intro acc ts h
    unfold tableLoop
    split
    · exact h
    · exact h
    · cases hr : registerAt ts q.index q.rotation with
      | ok ts' =>
        have h' := registerAt_sorted hr h
        dsimp only
        cases ts'[q.index]? with
        | some o => exact ih _ _ h'
        | none => exact h'
      | err _ => exact h
      | panic => exact h

theorem lookup_configured {es : List (VExpr F)} {qs tqs : List VirtualQuery} {s : Oracles W I X} {ts : List Y}
    (h : ((GenericLookupVO.init (es, qs, tqs)).configure s ts).result = .ok ()) :
    (∃ es', List.Forall₂ (fun v e => v.toExpr s.witness s.inst s.fixed = .ok e) es es' ∧
      ((GenericLookupVO.init (es, qs, tqs)).configure s ts).vo = ⟨es, qs, tqs, some (labelled ts tqs), some es'⟩) ∧
    Oracles.Registered qs s ((GenericLookupVO.init (es, qs, tqs)).configure s ts).oracles ∧
    Registered .fixed tqs ts ((GenericLookupVO.init (es, qs, tqs)).configure s ts).tables ∧
    (s.Sorted → ((GenericLookupVO.init (es, qs, tqs)).configure s ts).oracles.Sorted) ∧
    ((∀ o ∈ ts, (ConcreteOracle.rotations o).Pairwise (· < ·)) →
      ∀ o ∈ ((GenericLookupVO.init (es, qs, tqs)).configure s ts).tables, (ConcreteOracle.rotations o).Pairwise (· < ·)) := by
  obtain ⟨-, h2, -⟩ := C08_lookup_configure (GenericLookupVO.init (es, qs, tqs)) s ts
  obtain ⟨h3, h4, h5, es', h6, h7⟩ := h2 h
  have hform : ∃ s' ts' a b, Res.foldM Oracles.register s qs = .ok s' ∧ ts' = (tableLoop tqs [] ts).2 ∧
      (GenericLookupVO.init (es, qs, tqs)).configure s ts = ⟨.ok (), ⟨es, qs, tqs, some a, some b⟩, s', ts'⟩ := by
    revert h
    unfold GenericLookupVO.configure GenericLookupVO.init
    dsimp only
    cases Res.foldM Oracles.register s qs with
    | ok s' =>
      dsimp only
      rcases tableLoop tqs [] ts with ⟨r, ts'⟩
      cases r with
      | ok tq =>
        dsimp only
        cases Res.mapM (fun v : VExpr F => v.toExpr s'.witness s'.inst s'.fixed) es with
        | ok b => exact fun _ => ⟨s', ts', tq, b, rfl, rfl, rfl⟩
        | err _ => intro h; cases h
        | panic => intro h; cases h
      | err _ => intro h; cases h
      | panic => intro h; cases h
    | err _ => intro h; cases h
    | panic => intro h; cases h
  obtain ⟨s', ts', a, b, f1, f2, f3⟩ := hform
  rw [f3] at h3 h4 h5 h6 ⊢
  obtain rfl : a = labelled ts tqs := Res.ok.inj h5
  obtain rfl : b = es' := Res.ok.inj h6
  refine ⟨⟨b, h7, rfl⟩, h3, h4, fun hs => Oracles.registerAll_sorted hs f1, fun hs => ?_⟩
  subst f2
  exact tableLoop_sorted _ _ _ hs

/-- What a client holds after a sequence of calls. -/
structure Configures (calls : List (Call F)) (s : Oracles W I X) (ts : List Y) (c : Configured F W I X Y) : Prop where
  oracles : Oracles.Registered (calls.flatMap Call.queries) s c.oracles
  tables : Registered .fixed (calls.flatMap Call.tables) ts c.tables
  vos : List.Forall₂ (fun g vo => ∃ e', g.1.toExpr s.witness s.inst s.fixed = .ok e' ∧ vo = ⟨g.1, g.2, some e'⟩)
    (calls.filterMap Call.isGate?) c.vos
  lookups : List.Forall₂ (fun l vo => ∃ es', List.Forall₂ (fun v e => v.toExpr s.witness s.inst s.fixed = .ok e) l.1 es' ∧
    vo = ⟨l.1, l.2.1, l.2.2, some (labelled ts l.2.2), some es'⟩) (calls.filterMap Call.isLookup?) c.lookups
  sorted : s.Sorted → c.oracles.Sorted
  sortedTables : (∀ o ∈ ts, (ConcreteOracle.rotations o).Pairwise (· < ·)) →
    ∀ o ∈ c.tables, (ConcreteOracle.rotations o).Pairwise (· < ·)

theorem Oracles.Registered.trans {qs qs' : List VirtualQuery} {s s' s'' : Oracles W I X} (h : Oracles.Registered qs s s')
    (h' : Oracles.Registered qs' s' s'') : Oracles.Registered (qs ++ qs') s s'' :=
  ⟨h.1.trans h'.1, h.2.1.trans h'.2.1, h.2.2.trans h'.2.2⟩

theorem labelled_congr {ts ts' : List Y} (h : ts'.map ConcreteOracle.label = ts.map ConcreteOracle.label) (tqs : List VirtualQuery) :
    labelled ts' tqs = labelled ts tqs := by
  unfold labelled
  congr 1
  funext q
  have h1 : (ts'[q.index]?).map ConcreteOracle.label = (ts[q.index]?).map ConcreteOracle.label := by
    rw [← List.getElem?_map, ← List.getElem?_map, h]
  have := congrArg (Option.map (fun l => (⟨l, q.rotation, .fixed⟩ : OracleQuery))) h1
  simpa [Option.map_map, Function.comp_def] using this

theorem configureAll_ok {calls : List (Call F)} : ∀ {s : Oracles W I X} {ts : List Y} {c : Configured F W I X Y},
    configureAll calls s ts = .ok c → Configures calls s ts c := by
  induction calls with
  | nil =>
    intro s ts c h
    obtain rfl := Res.ok.inj h
    exact ⟨⟨.refl _ _, .refl _ _, .refl _ _⟩, .refl _ _, .nil, .nil, id, id⟩
  | cons call calls ih =>
    intro s ts c h
    cases call with
    | gate e qs =>
      unfold configureAll at h
      rcases GenericVO.configure_spec (GenericVO.init (e, qs)) s with ⟨e', s', h1, h2, h3, h4, h5⟩ | ⟨h1, -⟩
      swap
      · rw [h1] at h; cases h
      rw [h1] at h
      obtain ⟨c', h6, rfl⟩ := Res.map1_eq_ok.1 h
      have hc := ih h6
      refine ⟨h4.trans hc.oracles, hc.tables, .cons ⟨e', h3, rfl⟩ ?_, ?_, fun hs => hc.sorted (Oracles.registerAll_sorted hs h2),
        hc.sortedTables⟩
      · refine hc.vos.imp ?_
        rintro g vo ⟨e'', h7, h8⟩
        exact ⟨e'', by rw [← VExpr.toExpr_congr h4.sameLabels]; exact h7, h8⟩
      · refine hc.lookups.imp ?_
        rintro g vo ⟨es', h7, h8⟩
        exact ⟨es', h7.imp fun v e'' h => by rw [← VExpr.toExpr_congr h4.sameLabels]; exact h, h8⟩
    | lookup es qs tqs =>
      unfold configureAll at h
      dsimp only at h
      cases hr : ((GenericLookupVO.init (es, qs, tqs)).configure s ts).result with
      | err _ => rw [hr] at h; cases h
      | panic => rw [hr] at h; cases h
      | ok u =>
        rw [hr] at h
        obtain ⟨c', h6, rfl⟩ := Res.map1_eq_ok.1 h
        have hc := ih h6
        obtain ⟨⟨es', g1, g2⟩, g3, g4, g5, g6⟩ := lookup_configured hr
        refine ⟨g3.trans hc.oracles, g4.trans hc.tables, ?_, .cons ⟨es', g1, g2⟩ ?_, fun hs => hc.sorted (g5 hs),
          fun hs => hc.sortedTables (g6 hs)⟩
        · refine hc.vos.imp ?_
          rintro g vo ⟨e'', h7, h8⟩
          exact ⟨e'', by rw [← VExpr.toExpr_congr g3.sameLabels]; exact h7, h8⟩
        · refine hc.lookups.imp ?_
          rintro g vo ⟨es'', h7, h8⟩
          refine ⟨es'', h7.imp fun v e'' h => by rw [← VExpr.toExpr_congr g3.sameLabels]; exact h, ?_⟩
          rw [h8, labelled_congr g4.label]

/-- All indices of a call are in range and its tables are fixed columns. -/
def Call.InRange (s : Oracles W I X) (ts : List Y) (call : Call F) : Prop :=
  (∀ q ∈ call.queries, q.index < s.count q.oracleType) ∧ (∀ e ∈ call.exprs, ∀ q ∈ e.queries, q.index < s.count q.oracleType) ∧
    ∀ t ∈ call.tables, t.oracleType = .fixed ∧ t.index < ts.length

theorem inRange_congr {s s' : Oracles W I X} {ts ts' : List Y} (h : ∀ ty, s'.count ty = s.count ty) (ht : ts'.length = ts.length)
    (call : Call F) : call.InRange s' ts' ↔ call.InRange s ts := by
  unfold Call.InRange
  simp only [h, ht]

theorem configureAll_ok_iff {calls : List (Call F)} : ∀ {s : Oracles W I X} {ts : List Y},
    (∃ c, configureAll calls s ts = .ok c) ↔ ∀ call ∈ calls, call.InRange s ts := by
  induction calls with
  | nil => intro s ts; simp [configureAll]
  | cons call calls ih =>
    intro s ts
    rw [List.forall_mem_cons]
    cases call with
    | gate e qs =>
      unfold configureAll
      rcases GenericVO.configure_spec (GenericVO.init (e, qs)) s with ⟨e', s', h1, h2, h3, h4, h5⟩ | ⟨h1, q, hq, hle⟩
      · rw [h1]
        have h6 : (∃ c, (configureAll calls s' ts).map1 (fun c => { c with vos := { (GenericVO.init (e, qs)) with expr := some e' } :: c.vos })
            = .ok c) ↔ ∃ c, configureAll calls s' ts = .ok c := by
          constructor
          · rintro ⟨c, hc⟩
            obtain ⟨c', h, -⟩ := Res.map1_eq_ok.1 hc
            exact ⟨c', h⟩
          · rintro ⟨c, hc⟩
            exact ⟨_, Res.map1_eq_ok.2 ⟨c, hc, rfl⟩⟩
        rw [h6, ih]
        simp only [inRange_congr (ts := ts) (ts' := ts) h4.count rfl]
        refine ⟨fun h => ⟨⟨fun q hq => h5 q (List.mem_append_left _ hq), ?_, by simp [Call.tables]⟩, h⟩, fun h => h.2⟩
        intro e1 he1 q hq
        obtain rfl := List.mem_singleton.1 he1
        exact h5 q (List.mem_append_right _ hq)
      · rw [h1]
        refine ⟨fun ⟨c, h⟩ => (by cases h), fun h => ?_⟩
        obtain ⟨⟨g1, g2, -⟩, -⟩ := h
        rcases List.mem_append.1 hq with hq | hq
        · have := g1 q hq; omega
        · have := g2 e List.mem_cons_self q hq; omega
    | lookup es qs tqs =>
      unfold configureAll
      dsimp only
      obtain ⟨h1, -⟩ := C08_lookup_configure (GenericLookupVO.init (es, qs, tqs)) s ts
      have h1' : ((GenericLookupVO.init (es, qs, tqs)).configure s ts).result = .ok () ↔ (Call.lookup es qs tqs).InRange s ts :=
        h1.trans ⟨fun h => ⟨h.1, h.2.2, h.2.1⟩, fun h => ⟨h.1, h.2.2, h.2.1⟩⟩
      cases hr : ((GenericLookupVO.init (es, qs, tqs)).configure s ts).result with
      | err _ =>
        refine ⟨fun ⟨c, h⟩ => (by cases h), fun h => ?_⟩
        have := h1'.2 h.1
        rw [hr] at this; cases this
      | panic =>
        refine ⟨fun ⟨c, h⟩ => (by cases h), fun h => ?_⟩
        have := h1'.2 h.1
        rw [hr] at this; cases this
      | ok u =>
        obtain ⟨-, g3, g4, -, -⟩ := lookup_configured hr
        have h6 : (∃ c, (configureAll calls ((GenericLookupVO.init (es, qs, tqs)).configure s ts).oracles
            ((GenericLookupVO.init (es, qs, tqs)).configure s ts).tables).map1
            (fun c => { c with lookups := ((GenericLookupVO.init (es, qs, tqs)).configure s ts).vo :: c.lookups }) = .ok c) ↔
            ∃ c, configureAll calls ((GenericLookupVO.init (es, qs, tqs)).configure s ts).oracles
            ((GenericLookupVO.init (es, qs, tqs)).configure s ts).tables = .ok c := by
          constructor
          · rintro ⟨c, hc⟩
            obtain ⟨c', h, -⟩ := Res.map1_eq_ok.1 hc
            exact ⟨c', h⟩
          · rintro ⟨c, hc⟩
            exact ⟨_, Res.map1_eq_ok.2 ⟨c, hc, rfl⟩⟩
        rw [h6, ih]
        simp only [inRange_congr (s := s) (ts := ts) g3.count g4.1]
        exact ⟨fun h => ⟨h1'.1 hr, h⟩, fun h => h.2⟩

end
section
variable {O O' : Type} [OracleData O] [OracleData O']

theorem Registered.pair {ty : OracleType} {qs : List VirtualQuery} {os os' : List O} {ps ps' : List O'} {R : O → O' → Prop}
    (h : Registered ty qs os os') (h' : Registered ty qs ps ps') (hR : List.Forall₂ R os ps)
    (s1 : ∀ o ∈ os', (ConcreteOracle.rotations o).Pairwise (· < ·)) (s2 : ∀ o ∈ ps', (ConcreteOracle.rotations o).Pairwise (· < ·)) :
    List.Forall₂ (fun o' p' => ∃ o p, R o p ∧ OracleData.erase o' = OracleData.erase o ∧ OracleData.erase p' = OracleData.erase p ∧
      (ConcreteOracle.rotations o = ConcreteOracle.rotations p → ConcreteOracle.rotations o' = ConcreteOracle.rotations p')) os' ps' := by
  have hlen := hR.length_eq
  rw [List.forall₂_iff_get]
  refine ⟨by rw [h.1, h'.1, hlen], fun i h1 h2 => ?_⟩
  have hi : i < os.length := by rw [← h.1]; exact h1
  have hi' : i < ps.length := by rw [← hlen]; exact hi
  obtain ⟨o', e1, e2, e3⟩ := h.2 i os[i] (List.getElem?_eq_getElem hi)
  obtain ⟨p', f1, f2, f3⟩ := h'.2 i ps[i] (List.getElem?_eq_getElem hi')
  have g1 : os'.get ⟨i, h1⟩ = o' := by
    rw [List.getElem?_eq_getElem h1] at e1; exact Option.some.inj e1
  have g2 : ps'.get ⟨i, h2⟩ = p' := by
    rw [List.getElem?_eq_getElem h2] at f1; exact Option.some.inj f1
  rw [g1, g2]
  refine ⟨os[i], ps[i], hR.get hi hi', e2, f2, fun hr => ?_⟩
  refine sorted_ext (s1 _ (List.mem_of_getElem? e1)) (s2 _ (List.mem_of_getElem? f1)) fun r => ?_
  rw [e3, f3, hr]

end

section
variable {F : Type} [Field F]

theorem sameConfig_after {C : Type} {ty : OracleType} {qs : List VirtualQuery} {os os' : List (ProverOracle F)}
    {ps ps' : List (VerifierOracle F C)} {P : ProverOracle F → VerifierOracle F C → Prop}
    (hP : ∀ o p o' p', OracleData.erase o' = OracleData.erase o → OracleData.erase p' = OracleData.erase p → P o p → P o' p')
    (h : Registered ty qs os os') (h' : Registered ty qs ps ps') (hR : List.Forall₂ (fun o p => SameConfig o p ∧ P o p) os ps)
    (s1 : ∀ o ∈ os', (ConcreteOracle.rotations o).Pairwise (· < ·)) (s2 : ∀ o ∈ ps', (ConcreteOracle.rotations o).Pairwise (· < ·)) :
    List.Forall₂ (fun o p => SameConfig o p ∧ P o p) os' ps' := by
  refine (h.pair h' hR s1 s2).imp ?_
  rintro o' p' ⟨o, p, ⟨h1, h2⟩, h3, h4, h5⟩
  refine ⟨⟨?_, (h5 h1.2.1.symm).symm, ?_⟩, hP _ _ _ _ h3 h4 h2⟩
  · have e1 := congrArg ProverOracle.label h3
    have e2 := congrArg VerifierOracle.label h4
    exact e2.trans (h1.1.trans e1.symm)
  · have e1 := congrArg ProverOracle.shouldPermute h3
    have e2 := congrArg VerifierOracle.shouldPermute h4
    exact e2.trans (h1.2.2.trans e1.symm)

/-- Registering changes nothing but the rotations. -/
theorem Registered.erased {O : Type} [OracleData O] {ty : OracleType} {qs : List VirtualQuery} {os os' : List O} (h : Registered ty qs os os') :
    List.Forall₂ (fun o o' => OracleData.erase o' = OracleData.erase o) os os' := by
  rw [List.forall₂_iff_get]
  refine ⟨h.1.symm, fun i h1 h1' => ?_⟩
  obtain ⟨o, e1, e2, -⟩ := h.2 i (os.get ⟨i, h1⟩) (List.getElem?_eq_getElem h1)
  rw [List.getElem?_eq_getElem h1'] at e1
  obtain rfl := Option.some.inj e1
  exact e2

/-- A registered column is the column it was, with the registered rotations. -/
theorem Registered.fresh {ty : OracleType} {qs : List VirtualQuery} {os os' : List (ProverOracle F)} (h : Registered ty qs os os')
    (hf : ∀ o ∈ os, o.rotations = []) : List.Forall₂ (fun o o' => OracleData.erase o' = OracleData.erase o) os os' ∧
    ∀ (i : Nat) (o' : ProverOracle F), os'[i]? = some o' → ∃ o, os[i]? = some o ∧ OracleData.erase o' = OracleData.erase o ∧
      ∀ r, r ∈ o'.rotations ↔ (⟨i, r, ty⟩ : VirtualQuery) ∈ qs := by
  have h2 : ∀ (i : Nat) (o' : ProverOracle F), os'[i]? = some o' → ∃ o, os[i]? = some o ∧ OracleData.erase o' = OracleData.erase o ∧
      ∀ r, r ∈ o'.rotations ↔ (⟨i, r, ty⟩ : VirtualQuery) ∈ qs := by
    intro i o' ho'
    have hi : i < os.length := by
      rw [← h.1]; exact (List.getElem?_eq_some_iff.1 ho').1
    obtain ⟨o'', e1, e2, e3⟩ := h.2 i os[i] (List.getElem?_eq_getElem hi)
    obtain rfl := Option.some.inj (ho'.symm.trans e1)
    refine ⟨os[i], List.getElem?_eq_getElem hi, e2, fun r => ?_⟩
    refine (e3 r).trans ?_
    have : ConcreteOracle.rotations os[i] = [] := hf _ (List.getElem_mem hi)
    rw [this]
    simp
  refine ⟨?_, h2⟩
  rw [List.forall₂_iff_get]
  refine ⟨h.1.symm, fun i h1 h1' => ?_⟩
  obtain ⟨o, e1, e2, -⟩ := h2 i (os'.get ⟨i, h1'⟩) (List.getElem?_eq_getElem h1')
  rw [List.getElem?_eq_getElem h1] at e1
  obtain rfl := Option.some.inj e1
  exact e2

theorem erase_label {o o' : ProverOracle F} (h : OracleData.erase o' = OracleData.erase o) : o'.label = o.label := by
  have h1 := congrArg ProverOracle.label h
  exact h1

theorem erase_evals {o o' : ProverOracle F} (h : OracleData.erase o' = OracleData.erase o) : o'.evals = o.evals := by
  have h1 := congrArg ProverOracle.evals h
  exact h1

theorem erase_copied {o o' : ProverOracle F} (h : OracleData.erase o' = OracleData.erase o) : o'.shouldPermute = o.shouldPermute := by
  have h1 := congrArg ProverOracle.shouldPermute h
  exact h1

theorem erase_poly {o o' : ProverOracle F} (h : OracleData.erase o' = OracleData.erase o) : o'.poly = o.poly := by
  have h1 := congrArg ProverOracle.poly h
  exact h1

theorem erase_isColumn {d : Domain F} {D : Nat} {o o' : ProverOracle F} (h : OracleData.erase o' = OracleData.erase o)
    (ho : Interpolates d o ∧ o.poly.length ≤ D) : Interpolates d o' ∧ o'.poly.length ≤ D := by
  refine ⟨?_, by rw [erase_poly h]; exact ho.2⟩
  have := ho.1
  unfold Interpolates at this ⊢
  rw [erase_evals h, erase_poly h]
  exact this

theorem resolves_of_nodup {O : Type} [ConcreteOracle O] {os : List O} (h : (os.map ConcreteOracle.label).Nodup) {i : Nat} {o : O}
    (ho : os[i]? = some o) : Resolves os (ConcreteOracle.label o) o := by
  refine ⟨i, ho, rfl, fun j o' hij ho' he => ?_⟩
  have h1 : (os.map ConcreteOracle.label)[i]? = some (ConcreteOracle.label o) := by rw [List.getElem?_map, ho]; rfl
  have h2 : (os.map ConcreteOracle.label)[j]? = some (ConcreteOracle.label o) := by rw [List.getElem?_map, ho', ← he]; rfl
  have := (List.getElem?_inj (List.getElem?_eq_some_iff.1 h1).1 h).1 (h1.trans h2.symm)
  omega

theorem resolves_unique {O : Type} [ConcreteOracle O] {os : List O} (h : (os.map ConcreteOracle.label).Nodup) {i : Nat} {o o' : O}
    (ho : os[i]? = some o) (hr : Resolves os (ConcreteOracle.label o) o') : o' = o := by
  obtain ⟨j, h1, h2, h3⟩ := hr
  have g1 : (os.map ConcreteOracle.label)[i]? = some (ConcreteOracle.label o) := by rw [List.getElem?_map, ho]; rfl
  have g2 : (os.map ConcreteOracle.label)[j]? = some (ConcreteOracle.label o) := by rw [List.getElem?_map, h1, ← h2]; rfl
  have := (List.getElem?_inj (List.getElem?_eq_some_iff.1 g1).1 h).1 (g1.trans g2.symm)
  subst this
  exact Option.some.inj (h1.symm.trans ho)

/-- The degree of the configured expression. -/
theorem VExpr.toExpr_degree {W I X : Type} [ConcreteOracle W] [ConcreteOracle I] [ConcreteOracle X] (ws : List W) (is : List I)
    (fs : List X) (m : Nat) (e : VExpr F) : ∀ e', e.toExpr ws is fs = .ok e' →
    ∃ k, e'.degree (fun _ => .ok m) = .ok k ∧ k ≤ e.totalDegree * m := by
  induction e with
  | const a => intro e' h; obtain rfl := Res.ok.inj h; exact ⟨0, rfl, Nat.zero_le _⟩
  | oracle q =>
    intro e' h
    obtain ⟨x, -, rfl⟩ := Res.map1_eq_ok.1 h
    exact ⟨m, rfl, by simp [VExpr.totalDegree]⟩
  | neg a ih =>
    intro e' h
    obtain ⟨x, hx, rfl⟩ := Res.map1_eq_ok.1 h
    exact ih x hx
  | scaled a c ih =>
    intro e' h
    obtain ⟨x, hx, rfl⟩ := Res.map1_eq_ok.1 h
    exact ih x hx
  | sum a b iha ihb =>
    intro e' h
    unfold VExpr.toExpr at h
    cases ha : a.toExpr ws is fs with
    | ok x =>
      rw [ha] at h
      obtain ⟨y, hy, rfl⟩ := Res.map1_eq_ok.1 h
      obtain ⟨k, h1, h2⟩ := iha x ha
      obtain ⟨k', h3, h4⟩ := ihb y hy
      refine ⟨max k k', by simp only [Expr.degree, h1, h3, Res.map1], ?_⟩
      simp only [VExpr.totalDegree]
      exact max_le (h2.trans (Nat.mul_le_mul_right _ (le_max_left _ _))) (h4.trans (Nat.mul_le_mul_right _ (le_max_right _ _)))
    | err _ => simp [ha] at h
    | panic => simp [ha] at h
  | prod a b iha ihb =>
    intro e' h
    unfold VExpr.toExpr at h
    cases ha : a.toExpr ws is fs with
    | ok x =>
      rw [ha] at h
      obtain ⟨y, hy, rfl⟩ := Res.map1_eq_ok.1 h
      obtain ⟨k, h1, h2⟩ := iha x ha
      obtain ⟨k', h3, h4⟩ := ihb y hy
      refine ⟨k + k', by simp only [Expr.degree, h1, h3, Res.map1], ?_⟩
      simp only [VExpr.totalDegree, Nat.add_mul]
      omega
    | err _ => simp [ha] at h
    | panic => simp [ha] at h

end

section
variable {F : Type} [Field F]

/-- The columns and tables of a configured circuit. -/
def Configured.view (c : Configured F (ProverOracle F) (ProverOracle F) (ProverOracle F) (ProverOracle F)) : ProverView F :=
  ⟨c.oracles.witness, c.oracles.inst, c.oracles.fixed, c.tables⟩

variable {s : Oracles (ProverOracle F) (ProverOracle F) (ProverOracle F)} {ts : List (ProverOracle F)} {calls : List (Call F)}
  {c : Configured F (ProverOracle F) (ProverOracle F) (ProverOracle F) (ProverOracle F)} {d : Domain F} {D : Nat}

theorem Oracles.Registered.ofType {qs : List VirtualQuery} {s' : Oracles (ProverOracle F) (ProverOracle F) (ProverOracle F)}
    (h : Oracles.Registered qs s s') (ty : OracleType) : ZK.Registered ty qs (s.ofType ty) (s'.ofType ty) := by
  cases ty
  · exact h.1
  · exact h.2.1
  · exact h.2.2

theorem Oracles.labelAt_ofType (s : Oracles (ProverOracle F) (ProverOracle F) (ProverOracle F)) (ty : OracleType) (i : Nat) :
    s.labelAt ty i = ((s.ofType ty)[i]?).map (·.label) := by
  cases ty <;> rfl

theorem Oracles.DistinctLabels.ofType (h : s.DistinctLabels) (ty : OracleType) : ((s.ofType ty).map ConcreteOracle.label).Nodup := by
  cases ty
  · exact h.1
  · exact h.2.1
  · exact h.2.2

theorem FreshColumns.ofType (h : FreshColumns d D s ts) (ty : OracleType) : ∀ o ∈ s.ofType ty, (Interpolates d o ∧ o.poly.length ≤ D) ∧ o.rotations = [] := by
  intro o ho
  refine h.columns o ?_
  simp only [List.mem_append]
  cases ty
  · exact .inl (.inl (.inl ho))
  · exact .inl (.inl (.inr ho))
  · exact .inl (.inr ho)

theorem labelAt_inj (h : s.DistinctLabels) {ty : OracleType} {i j : Nat} {l : Label} (h1 : s.labelAt ty i = some l)
    (h2 : s.labelAt ty j = some l) : i = j := by
  rw [Oracles.labelAt_ofType, ← List.getElem?_map] at h1 h2
  exact (List.getElem?_inj (List.getElem?_eq_some_iff.1 h1).1 (h.ofType ty)).1 (h1.trans h2.symm)

theorem oracles_view (c : Configured F (ProverOracle F) (ProverOracle F) (ProverOracle F) (ProverOracle F)) (ty : OracleType) :
    c.view.oracles ty = c.oracles.ofType ty := by
  cases ty <;> rfl

theorem reads_iff (hc : Configures calls s ts c) (hf : FreshColumns d D s ts) {ty : OracleType} {i : Nat} {l : Label}
    (hl : s.labelAt ty i = some l) (n row : Nat) (r : Rotation) (y : F) :
    ReadsCell n c.view row ⟨l, r, ty⟩ y ↔ r.degree < n ∧ VReads n s row ⟨i, r, ty⟩ y := by
  have hreg := (hc.oracles.ofType ty)
  have hnd : ((c.oracles.ofType ty).map ConcreteOracle.label).Nodup := by rw [hreg.label]; exact hf.labels.1.ofType ty
  rw [Oracles.labelAt_ofType] at hl
  obtain ⟨o, ho, rfl⟩ := Option.map_eq_some_iff.1 hl
  obtain ⟨o', h1, h2, -⟩ := hreg.2 i o ho
  have hl' : o'.label = o.label := erase_label h2
  have he' : o'.evals = o.evals := erase_evals h2
  unfold ReadsCell VReads
  rw [oracles_view]
  refine and_congr Iff.rfl ⟨?_, ?_⟩
  · rintro ⟨p, hp, j, hj1, hj2⟩
    have hp' : Resolves (c.oracles.ofType ty) (ConcreteOracle.label o') p := by
      have : ConcreteOracle.label o' = o.label := hl'
      rw [this]; exact hp
    obtain rfl := resolves_unique hnd h1 hp'
    exact ⟨o, ho, j, hj1, by rw [← he']; exact hj2⟩
  · rintro ⟨p, hp, j, hj1, hj2⟩
    obtain rfl := Option.some.inj (hp.symm.trans ho)
    refine ⟨o', ?_, j, hj1, by rw [he']; exact hj2⟩
    have := resolves_of_nodup hnd h1
    have h3 : ConcreteOracle.label o' = p.label := hl'
    rwa [h3] at this

open Classical in
/-- Values of labelled queries as values of virtual ones. -/
noncomputable def toVirtual (s : Oracles (ProverOracle F) (ProverOracle F) (ProverOracle F)) (y : OracleQuery → F) (q : VirtualQuery) : F :=
  match s.labelAt q.oracleType q.index with
  | some l => y ⟨l, q.rotation, q.oracleType⟩
  | none => 0

open Classical in
/-- Values of virtual queries as values of labelled ones. -/
noncomputable def ofVirtual (s : Oracles (ProverOracle F) (ProverOracle F) (ProverOracle F)) (y : VirtualQuery → F) (q : OracleQuery) : F :=
  if h : ∃ i, s.labelAt q.oracleType i = some q.label then y ⟨h.choose, q.rotation, q.oracleType⟩ else 0

theorem ofVirtual_eq (h : s.DistinctLabels) (y : VirtualQuery → F) {q : VirtualQuery} {l : Label}
    (hl : s.labelAt q.oracleType q.index = some l) : ofVirtual s y ⟨l, q.rotation, q.oracleType⟩ = y q := by
  have hex : ∃ i, s.labelAt q.oracleType i = some l := ⟨_, hl⟩
  unfold ofVirtual
  rw [dif_pos hex, labelAt_inj h hex.choose_spec hl]

theorem toVirtual_eq (y : OracleQuery → F) {q : VirtualQuery} {l : Label}
    (hl : s.labelAt q.oracleType q.index = some l) : toVirtual s y q = y ⟨l, q.rotation, q.oracleType⟩ := by
  unfold toVirtual
  rw [hl]

theorem labelAt_of_query {e : VExpr F} {e' : Expr F} (h : e.toExpr s.witness s.inst s.fixed = .ok e') {q : VirtualQuery} (hq : q ∈ e.queries) :
    ∃ l, s.labelAt q.oracleType q.index = some l := by
  rcases VExpr.toExpr_spec s.witness s.inst s.fixed e with ⟨e'', -, h1⟩ | ⟨h1, -⟩
  swap
  · rw [h1] at h; cases h
  have := h1 q hq
  rw [Oracles.labelAt_ofType]
  have hi : q.index < (s.ofType q.oracleType).length := by
    revert this; cases q.oracleType <;> exact id
  exact ⟨_, by rw [List.getElem?_eq_getElem hi]; rfl⟩

theorem expr_to_virtual (hc : Configures calls s ts c) (hf : FreshColumns d D s ts) {e : VExpr F} {e' : Expr F}
    (h : e.toExpr s.witness s.inst s.fixed = .ok e') {n row : Nat} {y : OracleQuery → F}
    (hy : ∀ q ∈ e'.queries, ReadsCell n c.view row q (y q)) :
    (∀ q ∈ e.queries, VReads n s row q (toVirtual s y q)) ∧ e'.denote id y = e.denote id (toVirtual s y) := by
  obtain ⟨h1, h2⟩ := VExpr.toExpr_denote (R := F) id y s e e' h
  refine ⟨fun q hq => ?_, h1 _ fun q hq l hl => (toVirtual_eq y hl).symm⟩
  obtain ⟨l, hl⟩ := labelAt_of_query h hq
  rw [toVirtual_eq y hl]
  exact ((reads_iff hc hf hl n row q.rotation _).1 (hy _ ((h2 _).2 ⟨q, hq, l, hl, rfl⟩))).2

theorem expr_of_virtual (hc : Configures calls s ts c) (hf : FreshColumns d D s ts) {e : VExpr F} {e' : Expr F}
    (h : e.toExpr s.witness s.inst s.fixed = .ok e') {n row : Nat} {y : VirtualQuery → F}
    (hy : ∀ q ∈ e.queries, q.rotation.degree < n ∧ VReads n s row q (y q)) :
    (∀ q ∈ e'.queries, ReadsCell n c.view row q (ofVirtual s y q)) ∧ e'.denote id (ofVirtual s y) = e.denote id y := by
  obtain ⟨h1, h2⟩ := VExpr.toExpr_denote (R := F) id (ofVirtual s y) s e e' h
  refine ⟨fun q hq => ?_, h1 _ fun q hq l hl => ofVirtual_eq hf.labels.1 y hl⟩
  obtain ⟨q', hq', l, hl, rfl⟩ := (h2 q).1 hq
  rw [ofVirtual_eq hf.labels.1 y hl]
  exact (reads_iff hc hf hl n row q'.rotation _).2 (hy q' hq')

theorem mem_forall₂ {α β : Type} {R : α → β → Prop} {l : List α} {l' : List β} (h : List.Forall₂ R l l') {b : β} (hb : b ∈ l') :
    ∃ a ∈ l, R a b := by
  obtain ⟨i, hi, rfl⟩ := List.getElem_of_mem hb
  have hi' : i < l.length := by rw [h.length_eq]; exact hi
  exact ⟨l[i], List.getElem_mem hi', h.get hi' hi⟩

theorem mem_forall₂' {α β : Type} {R : α → β → Prop} {l : List α} {l' : List β} (h : List.Forall₂ R l l') {a : α} (ha : a ∈ l) :
    ∃ b ∈ l', R a b := by
  obtain ⟨i, hi, rfl⟩ := List.getElem_of_mem ha
  have hi' : i < l'.length := by rw [← h.length_eq]; exact hi
  exact ⟨l'[i], List.getElem_mem hi', h.get hi hi'⟩

/-- The gates of the configured circuit mean what the client wrote. -/
theorem gatesHold_iff (hc : Configures calls s ts c) (hf : FreshColumns d D s ts) (hg : GoodCalls d.size calls) (zh : Polynomial F) :
    GatesHold d c.view c.vos zh ↔ GateCallsHold d s calls zh := by
  constructor
  · intro h e qs hcall i hi hz y hy
    obtain ⟨vo, hvo, e', h1, rfl⟩ := mem_forall₂' hc.vos (mem_gates.2 hcall)
    obtain ⟨h2, h3⟩ := expr_of_virtual (n := d.size) (row := i) (y := y) hc hf h1 (fun q hq => ⟨hg.small _ hcall q (List.mem_append_left _
      (hg.listed _ hcall e List.mem_cons_self q hq)), hy q hq⟩)
    rw [← h3]
    exact h _ hvo e' rfl i hi hz _ h2
  · intro h vo hvo e' he' i hi hz y hy
    obtain ⟨⟨e, qs⟩, hcall, e'', h1, rfl⟩ := mem_forall₂ hc.vos hvo
    obtain rfl := Res.ok.inj he'
    obtain ⟨h2, h3⟩ := expr_to_virtual hc hf h1 hy
    rw [h3]
    exact h e qs (mem_gates.1 hcall) i hi hz _ h2

/-- The configured table queries find the table columns. -/
theorem labelled_forall₂ (hc : Configures calls s ts c) {tqs : List VirtualQuery} (h : ∀ t ∈ tqs, t.index < ts.length) :
    List.Forall₂ (fun (t : VirtualQuery) (q : OracleQuery) => ∃ o, ts[t.index]? = some o ∧ q = ⟨o.label, t.rotation, .fixed⟩) tqs
      (labelled ts tqs) := by
  induction tqs with
  | nil => exact .nil
  | cons t tqs ih =>
    have hi := h t List.mem_cons_self
    have : labelled ts (t :: tqs) = ⟨(ts[t.index]).label, t.rotation, .fixed⟩ :: labelled ts tqs := by
      unfold labelled
      rw [List.filterMap_cons, List.getElem?_eq_getElem hi]
      rfl
    rw [this]
    exact .cons ⟨_, List.getElem?_eq_getElem hi, rfl⟩ (ih fun t' ht' => h t' (List.mem_cons_of_mem _ ht'))

/-- The lookups of the configured circuit mean what the client wrote. -/
theorem lookupsHold_iff (hc : Configures calls s ts c) (hr : ∀ call ∈ calls, call.InRange s ts) (hf : FreshColumns d D s ts)
    (hg : GoodCalls d.size calls) (u : Nat) :
    LookupsHold d.size u c.view c.lookups ↔ LookupCallsHold d.size u s ts calls := by
  have hnd : (c.tables.map ConcreteOracle.label).Nodup := by rw [hc.tables.label]; exact hf.labels.2
  -- the cells of a table column
  have htab : ∀ (i : Nat) (o : ProverOracle F), ts[i]? = some o → ∀ (j : Nat) (x : F),
      (∃ p, Resolves c.view.table o.label p ∧ p.evals[j]? = some x) ↔ o.evals[j]? = some x := by
    intro i o ho j x
    obtain ⟨o', h1, h2, -⟩ := hc.tables.2 i o ho
    have hl' : ConcreteOracle.label o' = o.label := erase_label h2
    have he' : o'.evals = o.evals := erase_evals h2
    constructor
    · rintro ⟨p, hp, hx⟩
      rw [← hl'] at hp
      obtain rfl := resolves_unique hnd h1 hp
      rw [← he']; exact hx
    · intro hx
      refine ⟨o', ?_, by rw [he']; exact hx⟩
      rw [← hl']
      exact resolves_of_nodup hnd h1
  constructor
  · intro h es qs tqs hcall i hi
    obtain ⟨vo, hvo, es', h1, rfl⟩ := mem_forall₂' hc.lookups (mem_lookups.2 hcall)
    obtain ⟨j, hj, h2⟩ := h _ hvo es' _ rfl rfl i hi
    refine ⟨j, hj, ?_⟩
    have h3 := labelled_forall₂ (tqs := tqs) hc (fun t ht => ((hr _ hcall).2.2 t ht).2)
    have h1 : List.Forall₂ (fun v e => v.toExpr s.witness s.inst s.fixed = .ok e) es es' := h1
    rw [List.forall₂_iff_get] at h1 h2 h3 ⊢
    refine ⟨by rw [h1.1, h2.1]; exact h3.1.symm, fun k hk hk' => ?_⟩
    have hk1 : k < es'.length := by rw [← h1.1]; exact hk
    have hk2 : k < (labelled ts tqs).length := by rw [← h3.1]; exact hk'
    obtain ⟨y, g1, o, g2, g3⟩ := h2.2 k hk1 hk2
    obtain ⟨o', g4, g5⟩ := h3.2 k hk' hk2
    replace g2 : Resolves c.view.table ((labelled ts tqs).get ⟨k, hk2⟩).label o := g2
    rw [g5] at g2
    obtain ⟨g6, g7⟩ := expr_to_virtual hc hf (h1.2 k hk hk1) g1
    rw [g7] at g3
    exact ⟨_, g6, o', g4, (htab _ _ g4 j _).1 ⟨o, g2, g3⟩⟩
  · intro h vo hvo es' tq hes' htq i hi
    obtain ⟨⟨es, qs, tqs⟩, hcall, es'', h1, rfl⟩ := mem_forall₂ hc.lookups hvo
    obtain rfl := Res.ok.inj hes'
    obtain rfl := Res.ok.inj htq
    have hcall := mem_lookups.1 hcall
    obtain ⟨j, hj, h2⟩ := h es qs tqs hcall i hi
    refine ⟨j, hj, ?_⟩
    have h3 := labelled_forall₂ (tqs := tqs) hc (fun t ht => ((hr _ hcall).2.2 t ht).2)
    have h1 : List.Forall₂ (fun v e => v.toExpr s.witness s.inst s.fixed = .ok e) es es'' := h1
    show List.Forall₂ _ es'' (labelled ts tqs)
    rw [List.forall₂_iff_get] at h1 h2 h3 ⊢
    refine ⟨by rw [← h1.1, h2.1]; exact h3.1, fun k hk1 hk2 => ?_⟩
    have hk : k < es.length := by rw [h1.1]; exact hk1
    have hk' : k < tqs.length := by rw [h3.1]; exact hk2
    obtain ⟨y, g1, o, g2, g3⟩ := h2.2 k hk hk'
    obtain ⟨o', g4, g5⟩ := h3.2 k hk' hk2
    obtain rfl := Option.some.inj (g2.symm.trans g4)
    obtain ⟨g6, g7⟩ := expr_of_virtual (n := d.size) (row := i) (y := y) hc hf (h1.2 k hk hk1) (fun q hq =>
      ⟨hg.small _ hcall q (List.mem_append_left _ (hg.listed _ hcall _ (List.get_mem _ _) q hq)), g1 q hq⟩)
    refine ⟨_, g6, ?_⟩
    rw [g7, g5]
    exact (htab _ _ g4 j _).2 g3

theorem VExpr.denote_congr {F R : Type} [CommRing R] (c : F → R) {v w : VirtualQuery → R} (e : VExpr F)
    (h : ∀ q ∈ e.queries, v q = w q) : e.denote c v = e.denote c w := by
  induction e with
  | const => rfl
  | oracle q => exact h q (List.mem_singleton.2 rfl)
  | neg a ih => exact congrArg _ (ih h)
  | sum a b iha ihb =>
    simp only [VExpr.denote, iha fun q hq => h q (List.mem_append_left _ hq), ihb fun q hq => h q (List.mem_append_right _ hq)]
  | prod a b iha ihb =>
    simp only [VExpr.denote, iha fun q hq => h q (List.mem_append_left _ hq), ihb fun q hq => h q (List.mem_append_right _ hq)]
  | scaled a x ih =>
    have := ih h
    simp only [VExpr.denote, this]

theorem filter_forall₂ {α β : Type} {R : α → β → Prop} {p : α → Bool} {p' : β → Bool} (hp : ∀ a b, R a b → p' b = p a) {l : List α}
    {l' : List β} (h : List.Forall₂ R l l') : List.Forall₂ R (l.filter p) (l'.filter p') := by
  induction h with
  | nil => exact .nil
  | @cons a b l l' hab _ ih =>
    rw [List.filter_cons, List.filter_cons, hp a b hab]
    split
    · exact .cons hab ih
    · exact ih

/-- Configuring leaves the copied columns as they are. -/
theorem configured_copied (hc : Configures calls s ts c) :
    List.Forall₂ (fun o o' => OracleData.erase o' = OracleData.erase o) (s.witness.filter (·.shouldPermute))
      (c.oracles.witness.filter (·.shouldPermute)) :=
  filter_forall₂ (fun _ _ h => erase_copied h) hc.oracles.1.erased

end

end ZK
