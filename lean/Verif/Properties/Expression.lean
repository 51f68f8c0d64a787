import Verif.Lemmas.Expression
import Verif.Lemmas.F97
/-! C04-C08: expressions, degrees, configuration of virtual oracles and lookups. -/
set_option autoImplicit false
namespace ZK
open Polynomial

section
variable {F : Type} [Field F]

/-- C04. For every expression and every assignment `P` of polynomials to queries: evaluating the
expression over polynomials and then at `x` is evaluating it over the values at `x`; the fallible
evaluation used by prover and verifier returns that same value when the oracles answer with those
values, and fails when one of the queried oracles does not answer; and the operators build expressions
with the corresponding meaning. -/
theorem C04_expression_compositional (e : Expr F) (P : OracleQuery → F[X]) (x : F) :
    (e.evaluate C P (fun a => -a) (fun a b => a + b) (fun a b => a * b) (fun a k => a * C k)).eval x
      = e.evaluate id (fun q => (P q).eval x) (fun a => -a) (fun a b => a + b) (fun a b => a * b)
          (fun a k => a * k) ∧
    (∀ f : OracleQuery → Res PiopErr F, (∀ q ∈ e.queries, f q = .ok ((P q).eval x)) →
      e.evalR f = .ok ((e.denote C P).eval x)) ∧
    (∀ f : OracleQuery → Res PiopErr F, (∃ y, e.evalR f = .ok y) ↔ ∀ q ∈ e.queries, ∃ y, f q = .ok y) ∧
    (∀ a b : Expr F, (a + b).denote C P = a.denote C P + b.denote C P ∧
      (a - b).denote C P = a.denote C P - b.denote C P ∧
      (a * b).denote C P = a.denote C P * b.denote C P ∧
      (-a).denote C P = -a.denote C P ∧
      ∀ k : F, (Expr.scaled a k).denote C P = a.denote C P * C k) := by
  refine ⟨?_, ?_, ?_, ?_⟩
  · rw [Expr.evaluate_eq_denote C P e, Expr.eval_denote]
    exact (Expr.evaluate_eq_denote (R := F) id _ e).symm
  · intro f hf
    rw [Expr.evalR_ok hf, Expr.eval_denote]
  · intro f
    constructor
    · rintro ⟨y, hy⟩
      exact Expr.evalR_queries_ok hy
    · intro h
      classical
      refine ⟨_, Expr.evalR_ok (v := fun q => if hq : ∃ y, f q = .ok y then hq.choose else 0) ?_⟩
      intro q hq
      have := h q hq
      simp only [this, dif_pos]
      exact this.choose_spec
  · intro a b
    refine ⟨rfl, ?_, rfl, rfl, fun _ => rfl⟩
    show a.denote C P + -b.denote C P = _
    ring

/-- A product of a rotated query with a sum, evaluated at 3 with `a = X^2 + 1`, `b = 5X`. -/
example :
    let a : OracleQuery := ⟨bytes "a", .curr, .witness⟩
    let b : OracleQuery := ⟨bytes "b", .next, .fixed⟩
    ((Expr.oracle a * (Expr.oracle b + .const 2) - .scaled (.oracle a) 7 : Expr F97).evalR
      (fun q => if q = a then .ok (peval [1, 0, 1] 3) else if q = b then .ok (peval [0, 5] 3)
        else .err (.missingWitnessOracle q.label))) = .ok (10 * 17 - 70) := by
  decide +kernel

/-! ### C05 -/

/-- C05. If the reported degree is `d`, substituting polynomials of at most the reported degree of each
oracle gives a polynomial of degree at most `d`. Reporting succeeds exactly when the degree of every
queried oracle is known; for the indexer's degree function that means every queried label exists. -/
theorem C05_degree_bound (e : Expr F) :
    (∀ (f : OracleQuery → Res PiopErr Nat) (P : OracleQuery → F[X]),
      (∀ q ∈ e.queries, ∀ k, f q = .ok k → (P q).natDegree ≤ k) →
      ∀ d, e.degree f = .ok d →
        (e.evaluate C P (fun a => -a) (fun a b => a + b) (fun a b => a * b)
          (fun a k => a * C k)).natDegree ≤ d) ∧
    (∀ f : OracleQuery → Res PiopErr Nat,
      (∃ d, e.degree f = .ok d) ↔ ∀ q ∈ e.queries, ∃ k, f q = .ok k) ∧
    (∀ (W I X : Type) [ConcreteOracle W] [ConcreteOracle I] [ConcreteOracle X] (ws : List W) (is : List I)
      (fs : List X) (n : Nat), 0 < n →
      ((∃ d, e.degree (degreeOf ws is fs n) = .ok d) ↔ ∀ q ∈ e.queries,
        match q.oracleType with
        | .witness => q.label ∈ ws.map ConcreteOracle.label
        | .instance_ => q.label ∈ is.map ConcreteOracle.label
        | .fixed => q.label ∈ fs.map ConcreteOracle.label)) := by
  refine ⟨?_, fun f => Expr.degree_ok_iff f e, ?_⟩
  · intro f P h d hd
    rw [Expr.evaluate_eq_denote]
    exact Expr.natDegree_denote_le f P e h d hd
  · intro W I X _ _ _ ws is fs n hn
    rw [Expr.degree_ok_iff]
    have hn0 : n ≠ 0 := by omega
    have key : ∀ {O : Type} [ConcreteOracle O] (os : List O) (l : Label) (er : PiopErr),
        (∃ k, withOracle os l er (fun _ => oracleDegree n) = .ok k) ↔
          l ∈ os.map ConcreteOracle.label := by
      intro O _ os l er
      unfold withOracle findOracle
      cases h : lastIndexOf (os.map ConcreteOracle.label) l with
      | none => simpa using (lastIndexOf_eq_none.1 h)
      | some i =>
        obtain ⟨h1, _⟩ := lastIndexOf_eq_some.1 h
        have h2 : l ∈ os.map ConcreteOracle.label := List.mem_of_getElem? h1
        have h3 : i < os.length := by simpa using getElem?_some_lt h1
        simp only [List.getElem?_eq_getElem h3, oracleDegree, hn0, if_false, Res.ok.injEq,
          exists_eq', h2]
    apply forall₂_congr
    intro q _
    unfold degreeOf
    cases q.oracleType <;> exact key _ _ _

/-- The degree of `a * a * b + c` over 8 rows is `3 * 7`. -/
example :
    let q (s : String) : Expr F97 := .oracle ⟨bytes s, .curr, .witness⟩
    (q "a" * q "a" * q "b" + q "c").degree
      (degreeOf (F97.dom 3 |> fun _ => [ProverOracle.newWitness (bytes "a") ([] : List F97) [] false,
        .newWitness (bytes "b") [] [] false, .newWitness (bytes "c") [] [] false])
        ([] : List (ProverOracle F97)) ([] : List (ProverOracle F97)) 8) = .ok 21 := by
  decide +kernel

/-! ### C06 -/

section
variable {W I X : Type} [OracleData W] [OracleData I] [OracleData X]

theorem withOracle_of_nodup {O : Type} [ConcreteOracle O] {os : List O}
    (hn : (os.map ConcreteOracle.label).Nodup) {i : Nat} {o : O} (ho : os[i]? = some o) (er : PiopErr)
    {α : Type} (g : O → Res PiopErr α) : withOracle os (ConcreteOracle.label o) er g = g o := by
  unfold withOracle findOracle
  rw [lastIndexOf_of_nodup hn (i := i) (by rw [List.getElem?_map, ho]; rfl)]
  simp [ho]

/-- C06. Before `configure` there is no expression. After it, the expression is the virtual expression
with each query (type, index, rotation) read at the oracle stored at that index of the list of that
type: its value, with oracles found by label in any lists `t` carrying the labels of the configured ones
(whatever else they contain by then), is the value of the virtual expression with queries answered by
index. The way oracles answer (`gw`, `gi`, `gx`) and the errors for unknown labels are arbitrary. -/
theorem C06_configured_expression (cfg : VExpr F × List VirtualQuery) (s s' : Oracles W I X)
    (vo' : GenericVO F) (h : (GenericVO.init cfg).configure s = .ok (vo', s')) :
    (GenericVO.init cfg).getExpression = .err .uninitializedExpr ∧
    ∃ e, vo'.getExpression = .ok e ∧
      ∀ (W' I' X' : Type) [ConcreteOracle W'] [ConcreteOracle I'] [ConcreteOracle X']
        (t : Oracles W' I' X') (gw : W' → Rotation → Res PiopErr F) (gi : I' → Rotation → Res PiopErr F)
        (gx : X' → Rotation → Res PiopErr F) (ew ei ex : Label → PiopErr) (v : VirtualQuery → F),
        s.SameLabels t → t.DistinctLabels →
        (∀ q ∈ cfg.1.queries, t.answerAt gw gi gx q = .ok (v q)) →
        e.evalR (fun q => match q.oracleType with
          | .witness => withOracle t.witness q.label (ew q.label) (fun o => gw o q.rotation)
          | .instance_ => withOracle t.inst q.label (ei q.label) (fun o => gi o q.rotation)
          | .fixed => withOracle t.fixed q.label (ex q.label) (fun o => gx o q.rotation)) =
        .ok (cfg.1.denote id v) := by
  refine ⟨rfl, ?_⟩
  rcases GenericVO.configure_spec (GenericVO.init cfg) s with ⟨e, s1, h1, _, h2, _, h3⟩ | ⟨h1, _⟩
  swap
  · rw [h1] at h; simp at h
  rw [h1] at h
  simp only [Res.ok.injEq, Prod.mk.injEq] at h
  obtain ⟨rfl, rfl⟩ := h
  refine ⟨e, rfl, ?_⟩
  intro W' I' X' _ _ _ t gw gi gx ew ei ex v hl hn hv
  have h2' : cfg.1.toExpr t.witness t.inst t.fixed = .ok e := by
    rw [VExpr.toExpr_congr hl]; exact h2
  -- the value of an oracle query that occurs
  have hval : ∀ q ∈ cfg.1.queries, ∀ l, t.labelAt q.oracleType q.index = some l →
      (match q.oracleType with
        | .witness => withOracle t.witness l (ew l) (fun o => gw o q.rotation)
        | .instance_ => withOracle t.inst l (ei l) (fun o => gi o q.rotation)
        | .fixed => withOracle t.fixed l (ex l) (fun o => gx o q.rotation)) = .ok (v q) := by
    intro q hq l hql
    have hans := hv q hq
    obtain ⟨i, r, ty⟩ := q
    cases ty
    · simp only [Oracles.labelAt, Option.map_eq_some_iff, Oracles.answerAt] at hql hans ⊢
      obtain ⟨o, ho, rfl⟩ := hql
      rw [ho] at hans
      rw [withOracle_of_nodup hn.1 ho]; exact hans
    · simp only [Oracles.labelAt, Option.map_eq_some_iff, Oracles.answerAt] at hql hans ⊢
      obtain ⟨o, ho, rfl⟩ := hql
      rw [ho] at hans
      rw [withOracle_of_nodup hn.2.1 ho]; exact hans
    · simp only [Oracles.labelAt, Option.map_eq_some_iff, Oracles.answerAt] at hql hans ⊢
      obtain ⟨o, ho, rfl⟩ := hql
      rw [ho] at hans
      rw [withOracle_of_nodup hn.2.2 ho]; exact hans
  set f : OracleQuery → Res PiopErr F := fun q => match q.oracleType with
          | .witness => withOracle t.witness q.label (ew q.label) (fun o => gw o q.rotation)
          | .instance_ => withOracle t.inst q.label (ei q.label) (fun o => gi o q.rotation)
          | .fixed => withOracle t.fixed q.label (ex q.label) (fun o => gx o q.rotation) with hf
  have hval' : ∀ q ∈ cfg.1.queries, ∀ l, t.labelAt q.oracleType q.index = some l →
      f ⟨l, q.rotation, q.oracleType⟩ = .ok (v q) := hval
  let val : OracleQuery → F := fun q => match f q with
    | .ok x => x
    | _ => 0
  obtain ⟨hd, hqs⟩ := VExpr.toExpr_denote (R := F) id val t cfg.1 e h2'
  rw [Expr.evalR_ok (v := val)]
  · rw [hd v]
    intro q hq l hql
    simp only [val, hval' q hq l hql]
  · intro oq hoq
    obtain ⟨q, hq, l, hql, rfl⟩ := (hqs oq).1 hoq
    simp only [val, hval' q hq l hql]

/-- The hypothesis is met by the prover's and the verifier's own closures: they have the form of the
theorem. -/
example (v : ProverView F) (i : Nat) : v.atRow i = (fun q => match q.oracleType with
    | .witness => withOracle v.witness q.label (.missingWitnessOracle q.label)
        (fun o => o.queryAtOmega i q.rotation)
    | .instance_ => withOracle v.inst q.label (.missingInstanceOracle q.label)
        (fun o => o.queryAtOmega i q.rotation)
    | .fixed => withOracle v.fixed q.label (.missingFixedOracle q.label)
        (fun o => o.queryAtOmega i q.rotation)) := rfl

/-- Rotated query of the second witness, times a fixed column: configured, then evaluated at row 1. -/
example :
    let o (k : OracleType) (s : String) (l : List F97) : ProverOracle F97 :=
      ⟨k, bytes s, [], l, none, [], false⟩
    let s : Oracles (ProverOracle F97) (ProverOracle F97) (ProverOracle F97) :=
      ⟨[o .witness "a" [1, 2, 3, 4], o .witness "b" [5, 6, 7, 8]], [], [o .fixed "q" [1, 10, 1, 1]]⟩
    let vq : VirtualQuery := ⟨1, .next, .witness⟩
    let vf : VirtualQuery := ⟨0, .curr, .fixed⟩
    (match (GenericVO.init ((.prod (.oracle vq) (.oracle vf) : VExpr F97), [vq, vf])).configure s with
      | .ok (vo, s') => (vo.getExpression.isOk, (s'.witness.map (·.rotations)),
          match vo.getExpression with
          | .ok e => e.evalR (ProverView.atRow ⟨s'.witness, s'.inst, s'.fixed, []⟩ 1)
          | _ => .panic)
      | _ => (false, [], .panic)) = (true, [[], [.next]], .ok 70) := by
  decide +kernel

/-! ### C07 -/

theorem Oracles.register_congr {qs qs' : List VirtualQuery} {s s1 : Oracles W I X} (hs : s.Sorted)
    (hq : ∀ q, q ∈ qs ↔ q ∈ qs') (h : Res.foldM Oracles.register s qs = .ok s1) :
    Res.foldM Oracles.register s qs' = .ok s1 := by
  rcases Oracles.registerAll_spec qs s with ⟨s2, h1, h2, h3⟩ | ⟨h1, _⟩
  swap
  · rw [h1] at h; simp at h
  rw [h1] at h
  simp only [Res.ok.injEq] at h
  subst h
  rcases Oracles.registerAll_spec qs' s with ⟨s3, h4, h5, h6⟩ | ⟨_, q, hq', hle⟩
  · rw [h4, h5.unique h2 (fun q => (hq q).symm) (Oracles.registerAll_sorted hs h4)
      (Oracles.registerAll_sorted hs h1)]
  · have := h3 q ((hq q).2 hq'); omega

omit [Field F] in
/-- C07. `configure` panics exactly when an index (of the query list or of the expression) is out of
range. Otherwise every oracle gets exactly the rotations listed for it, nothing else changes, sets of
rotations stay sets; the result does not depend on order or repetitions in the query list; configuring
again changes nothing; and configuring two virtual oracles in either order gives the same oracles and
the same expressions. -/
theorem C07_configure_registers (vo : GenericVO F) (s : Oracles W I X) (hs : s.Sorted) :
    (vo.configure s = .panic ↔ ∃ q ∈ vo.vqueries ++ vo.vexpr.queries, s.count q.oracleType ≤ q.index) ∧
    (∀ er, vo.configure s ≠ .err er) ∧
    ∀ vo' s', vo.configure s = .ok (vo', s') →
      Oracles.Registered vo.vqueries s s' ∧ s'.Sorted ∧
      (vo'.vexpr = vo.vexpr ∧ vo'.vqueries = vo.vqueries) ∧
      vo'.configure s' = .ok (vo', s') ∧
      (∀ qs, (∀ q, q ∈ qs ↔ q ∈ vo.vqueries) →
        ∃ vo'', GenericVO.configure { vo with vqueries := qs } s = .ok (vo'', s') ∧
          vo''.getExpression = vo'.getExpression) ∧
      (∀ (wo wo' : GenericVO F) s'', GenericVO.configure wo s' = .ok (wo', s'') →
        ∃ t, GenericVO.configure wo s = .ok (wo', t) ∧ GenericVO.configure vo t = .ok (vo', s'')) := by
  rcases GenericVO.configure_spec vo s with ⟨e, s1, h1, hf, he, hr, hb⟩ | ⟨h1, h2⟩
  swap
  · refine ⟨⟨fun _ => h2, fun _ => h1⟩, ?_, ?_⟩
    · intro er; rw [h1]; simp
    · intro vo' s' h; rw [h1] at h; simp at h
  refine ⟨⟨?_, ?_⟩, ?_, ?_⟩
  · rw [h1]; simp
  · rintro ⟨q, hq, hle⟩
    have := hb q hq; omega
  · intro er; rw [h1]; simp
  intro vo' s' h
  rw [h1] at h
  simp only [Res.ok.injEq, Prod.mk.injEq] at h
  obtain ⟨rfl, rfl⟩ := h
  have hs1 := Oracles.registerAll_sorted hs hf
  refine ⟨hr, hs1, ⟨rfl, rfl⟩, ?_, ?_, ?_⟩
  · rcases GenericVO.configure_spec ({ vo with expr := some e }) s1 with
      ⟨e2, s2, h3, hf2, he2, hr2, _⟩ | ⟨_, q, hq, hle⟩
    · have he2' : vo.vexpr.toExpr s1.witness s1.inst s1.fixed = .ok e2 := he2
      rw [VExpr.toExpr_congr hr.sameLabels, he] at he2'
      simp only [Res.ok.injEq] at he2'
      subst he2'
      have hd : Res.foldM Oracles.register s (vo.vqueries ++ vo.vqueries) = .ok s2 := by
        rw [Res.foldM_append, hf, Res.bind_ok]; exact hf2
      have := Oracles.register_congr hs (qs' := vo.vqueries) (by simp) hd
      rw [hf] at this
      simp only [Res.ok.injEq] at this
      subst this
      exact h3
    · have := hb q hq
      rw [hr.count] at hle; omega
  · intro qs hqs
    rcases GenericVO.configure_spec ({ vo with vqueries := qs }) s with
      ⟨e2, s2, h3, hf2, he2, _, _⟩ | ⟨_, q, hq, hle⟩
    · have he2' : vo.vexpr.toExpr s.witness s.inst s.fixed = .ok e2 := he2
      rw [he] at he2'
      simp only [Res.ok.injEq] at he2'
      subst he2'
      have := Oracles.register_congr hs (qs' := qs) (fun q => (hqs q).symm) hf
      have hf2' : Res.foldM Oracles.register s qs = .ok s2 := hf2
      rw [hf2'] at this
      simp only [Res.ok.injEq] at this
      subst this
      exact ⟨_, h3, rfl⟩
    · have : q.index < s.count q.oracleType := by
        apply hb q
        rcases List.mem_append.1 hq with hq | hq
        · exact List.mem_append.2 (Or.inl ((hqs q).1 hq))
        · exact List.mem_append.2 (Or.inr hq)
      omega
  · intro wo wo' s'' hw
    rcases GenericVO.configure_spec wo s1 with ⟨e2, s2, h3, hf2, he2, hr2, hb2⟩ | ⟨h3, _⟩
    swap
    · rw [h3] at hw; simp at hw
    rw [h3] at hw
    simp only [Res.ok.injEq, Prod.mk.injEq] at hw
    obtain ⟨rfl, rfl⟩ := hw
    rw [VExpr.toExpr_congr hr.sameLabels] at he2
    rcases GenericVO.configure_spec wo s with ⟨e3, t, h4, hf4, he4, hr4, _⟩ | ⟨_, q, hq, hle⟩
    swap
    · have := hb2 q hq
      rw [hr.count] at this; omega
    rw [he2] at he4
    simp only [Res.ok.injEq] at he4
    subst he4
    refine ⟨t, h4, ?_⟩
    rcases GenericVO.configure_spec vo t with ⟨e5, u, h5, hf5, he5, hr5, _⟩ | ⟨_, q, hq, hle⟩
    swap
    · have := hb q hq
      rw [hr4.count] at hle; omega
    rw [VExpr.toExpr_congr hr4.sameLabels, he] at he5
    simp only [Res.ok.injEq] at he5
    subst he5
    rw [h5]
    have hd1 : Res.foldM Oracles.register s (vo.vqueries ++ wo.vqueries) = .ok s2 := by
      rw [Res.foldM_append, hf, Res.bind_ok, hf2]
    have hd2 : Res.foldM Oracles.register s (wo.vqueries ++ vo.vqueries) = .ok u := by
      rw [Res.foldM_append, hf4, Res.bind_ok, hf5]
    have := Oracles.register_congr hs (qs' := wo.vqueries ++ vo.vqueries)
      (by intro q; simp [or_comm]) hd1
    rw [hd2] at this
    simp only [Res.ok.injEq] at this
    rw [this]

/-- Freshly constructed oracles have no rotations, so they are sorted; the query list below mentions one
oracle twice and another not at all. -/
example :
    let o (s : String) : ProverOracle F97 := ⟨.witness, bytes s, [1, 2], [3], none, [], false⟩
    let s : Oracles (ProverOracle F97) (ProverOracle F97) (ProverOracle F97) := ⟨[o "a", o "b"], [], []⟩
    s.Sorted ∧ (GenericVO.configure ⟨(.const 1 : VExpr F97),
      [⟨1, .next, .witness⟩, ⟨1, .prev, .witness⟩, ⟨1, .next, .witness⟩], none⟩ s).isOk = true := by
  refine ⟨⟨?_, ?_, ?_⟩, by decide +kernel⟩ <;> simp [ConcreteOracle.rotations]

/-- Order between `next` and `prev` does not matter in the set; an index out of range panics. -/
example :
    let o (s : String) : ProverOracle F97 := ⟨.witness, bytes s, [1, 2], [3], none, [], false⟩
    let s : Oracles (ProverOracle F97) (ProverOracle F97) (ProverOracle F97) := ⟨[o "a", o "b"], [], []⟩
    (match GenericVO.configure ⟨(.const 1 : VExpr F97), [⟨2, .next, .witness⟩], none⟩ s with
      | .panic => true | _ => false) = true := by
  decide +kernel

/-! ### C08 -/

/-- Outcome of the loop over table queries. -/
theorem tableLoop_spec {Y : Type} [OracleData Y] (qs : List VirtualQuery) (acc : List OracleQuery)
    (ts : List Y) :
    ((∀ q ∈ qs, q.oracleType = .fixed ∧ q.index < ts.length) ∧
      ∃ ts', tableLoop qs acc ts = (.ok (acc ++ qs.filterMap (fun q => (ts[q.index]?).map
        (fun o => ⟨ConcreteOracle.label o, q.rotation, .fixed⟩))), ts') ∧ Registered .fixed qs ts ts') ∨
    (∃ pre q post, qs = pre ++ q :: post ∧ (∀ p ∈ pre, p.oracleType = .fixed ∧ p.index < ts.length) ∧
      ((q.oracleType = .witness ∧ (tableLoop qs acc ts).1 =
          .err (.witnessTableNotAllowed (bytes "VirtualQuery index: " ++ natBytes q.index))) ∨
       (q.oracleType = .instance_ ∧ (tableLoop qs acc ts).1 =
          .err (.instanceTableNotAllowed (bytes "VirtualQuery index: " ++ natBytes q.index))) ∨
       (q.oracleType = .fixed ∧ ts.length ≤ q.index ∧ (tableLoop qs acc ts).1 = .panic))) := by
  induction qs generalizing acc ts with
  | nil => exact Or.inl ⟨by simp, ts, by simp [tableLoop], Registered.refl _ _⟩
  | cons q qs ih =>
    obtain ⟨i, r, ty⟩ := q
    cases ty with
    | witness =>
      exact Or.inr ⟨[], ⟨i, r, .witness⟩, qs, rfl, by simp, Or.inl ⟨rfl, rfl⟩⟩
    | instance_ =>
      exact Or.inr ⟨[], ⟨i, r, .instance_⟩, qs, rfl, by simp, Or.inr (Or.inl ⟨rfl, rfl⟩)⟩
    | fixed =>
      by_cases hi : i < ts.length
      · have hra : registerAt ts i r = .ok (ts.modify i (fun o => ConcreteOracle.register o r)) := by
          simp [registerAt, hi]
        obtain ⟨_, hreg⟩ := registerAt_registered (ty := .fixed) hra
        set t1 := ts.modify i (fun o => ConcreteOracle.register o r) with ht1
        have hlen : t1.length = ts.length := hreg.1
        have hlab : ∀ j : Nat, (t1[j]?).map (ConcreteOracle.label) = (ts[j]?).map ConcreteOracle.label := by
          intro j
          rw [← List.getElem?_map, ← List.getElem?_map, hreg.label]
        have hi1 : i < t1.length := by omega
        have hstep : tableLoop (⟨i, r, .fixed⟩ :: qs) acc ts =
            tableLoop qs (acc ++ [⟨ConcreteOracle.label t1[i], r, .fixed⟩]) t1 := by
          simp only [tableLoop, hra]
          rw [List.getElem?_eq_getElem hi1]
        have hl1 : ConcreteOracle.label t1[i] = ConcreteOracle.label ts[i] := by
          have := hlab i
          rw [List.getElem?_eq_getElem hi1, List.getElem?_eq_getElem hi] at this
          simpa using this
        have hfm : ∀ q : VirtualQuery, (t1[q.index]?).map
              (fun o => (⟨ConcreteOracle.label o, q.rotation, .fixed⟩ : OracleQuery)) =
            (ts[q.index]?).map (fun o => ⟨ConcreteOracle.label o, q.rotation, .fixed⟩) := by
          intro q
          have := congrArg (Option.map (fun l => (⟨l, q.rotation, .fixed⟩ : OracleQuery))) (hlab q.index)
          simpa [Option.map_map, Function.comp_def] using this
        rcases ih (acc ++ [⟨ConcreteOracle.label t1[i], r, .fixed⟩]) t1 with
          ⟨h1, ts', h2, h3⟩ | ⟨pre, q, post, h1, h2, h3⟩
        · left
          refine ⟨?_, ts', ?_, (hreg.trans h3).congr (by simp)⟩
          · intro p hp
            rcases List.mem_cons.1 hp with rfl | hp
            · exact ⟨rfl, hi⟩
            · rw [← hlen]; exact h1 p hp
          · rw [hstep, h2]
            simp only [hfm, hl1, List.filterMap_cons, List.getElem?_eq_getElem hi, Option.map_some,
              List.append_assoc, List.singleton_append]
        · right
          refine ⟨⟨i, r, .fixed⟩ :: pre, q, post, by rw [h1]; rfl, ?_, ?_⟩
          · intro p hp
            rcases List.mem_cons.1 hp with rfl | hp
            · exact ⟨rfl, hi⟩
            · rw [← hlen]; exact h2 p hp
          · rw [hstep, ← hlen]; exact h3
      · refine Or.inr ⟨[], ⟨i, r, .fixed⟩, qs, rfl, by simp, Or.inr (Or.inr ⟨rfl, not_lt.1 hi, ?_⟩)⟩
        simp [tableLoop, registerAt, hi]

omit [Field F] in
/-- C08. Configuring a lookup succeeds exactly when all indices are in range and every table query is of
type fixed; then the table queries carry the labels of the table oracles at the listed indices, which got
exactly those rotations. It returns an error exactly when, all expression queries being registrable,
the first table query that is not a fixed query in range is a witness or instance query; the error names
that query. Otherwise it panics. Whenever it does not succeed the lookup is left as it was, so for one
fresh from `init` neither expressions nor table queries can be obtained. -/
theorem C08_lookup_configure {Y : Type} [OracleData Y] (vo : GenericLookupVO F) (s : Oracles W I X)
    (ts : List Y) :
    ((vo.configure s ts).result = .ok () ↔
      (∀ q ∈ vo.vqueries, q.index < s.count q.oracleType) ∧
      (∀ q ∈ vo.vtables, q.oracleType = .fixed ∧ q.index < ts.length) ∧
      (∀ e ∈ vo.vexprs, ∀ q ∈ e.queries, q.index < s.count q.oracleType)) ∧
    ((vo.configure s ts).result = .ok () →
      Oracles.Registered vo.vqueries s (vo.configure s ts).oracles ∧
      Registered .fixed vo.vtables ts (vo.configure s ts).tables ∧
      (vo.configure s ts).vo.getTableQueries = .ok (vo.vtables.filterMap (fun q => (ts[q.index]?).map
        (fun o => ⟨ConcreteOracle.label o, q.rotation, .fixed⟩))) ∧
      ∃ es, (vo.configure s ts).vo.getExpressions = .ok es ∧
        List.Forall₂ (fun v e => v.toExpr s.witness s.inst s.fixed = .ok e) vo.vexprs es) ∧
    (∀ er, (vo.configure s ts).result = .err er ↔
      (∀ q ∈ vo.vqueries, q.index < s.count q.oracleType) ∧
      ∃ pre q post, vo.vtables = pre ++ q :: post ∧
        (∀ p ∈ pre, p.oracleType = .fixed ∧ p.index < ts.length) ∧
        ((q.oracleType = .witness ∧
            er = .witnessTableNotAllowed (bytes "VirtualQuery index: " ++ natBytes q.index)) ∨
         (q.oracleType = .instance_ ∧
            er = .instanceTableNotAllowed (bytes "VirtualQuery index: " ++ natBytes q.index)))) ∧
    ((vo.configure s ts).result ≠ .ok () → (vo.configure s ts).vo = vo) ∧
    (∀ cfg, vo = GenericLookupVO.init cfg → (vo.configure s ts).result ≠ .ok () →
      (vo.configure s ts).vo.getExpressions = .err .uninitializedLookupExpr ∧
      (vo.configure s ts).vo.getTableQueries = .err .uninitializedLookupTableQuery) := by
  -- first non-fixed query is unique
  have huniq : ∀ (pre pre' : List VirtualQuery) (q q' : VirtualQuery) (post post' : List VirtualQuery),
      pre ++ q :: post = pre' ++ q' :: post' →
      (∀ p ∈ pre, p.oracleType = .fixed ∧ p.index < ts.length) →
      (∀ p ∈ pre', p.oracleType = .fixed ∧ p.index < ts.length) →
      ¬(q.oracleType = .fixed ∧ q.index < ts.length) →
      ¬(q'.oracleType = .fixed ∧ q'.index < ts.length) → q = q' := by
    intro pre
    induction pre with
    | nil =>
      intro pre' q q' post post' he _ hp' hq _
      cases pre' with
      | nil => simpa using (List.cons.inj he).1
      | cons a pre' =>
        have : q = a := (List.cons.inj he).1
        exact absurd (hp' a (by simp)) (this ▸ hq)
    | cons a pre ih =>
      intro pre' q q' post post' he hp hp' hq hq'
      cases pre' with
      | nil =>
        have : a = q' := (List.cons.inj he).1
        exact absurd (hp a (by simp)) (this ▸ hq')
      | cons b pre' =>
        exact ih pre' q q' post post' (List.cons.inj he).2 (fun p h => hp p (by simp [h]))
          (fun p h => hp' p (by simp [h])) hq hq'
  have hfinal : ((vo.configure s ts).result ≠ .ok () → (vo.configure s ts).vo = vo) →
      (∀ cfg, vo = GenericLookupVO.init cfg → (vo.configure s ts).result ≠ .ok () →
      (vo.configure s ts).vo.getExpressions = .err .uninitializedLookupExpr ∧
      (vo.configure s ts).vo.getTableQueries = .err .uninitializedLookupTableQuery) := by
    intro h cfg hc hr
    rw [h hr, hc]
    exact ⟨rfl, rfl⟩
  suffices hmain : _ ∧ _ ∧ _ ∧ _ from
    ⟨hmain.1, hmain.2.1, hmain.2.2.1, hmain.2.2.2, hfinal hmain.2.2.2⟩
  rcases Oracles.registerAll_spec vo.vqueries s with ⟨s', h1, h2, h3⟩ | ⟨h1, q, hq, hle⟩
  swap
  · have hc : vo.configure s ts = ⟨.panic, vo, s, ts⟩ := by simp only [GenericLookupVO.configure, h1]
    rw [hc]
    refine ⟨⟨by simp, fun h => ?_⟩, by simp, fun er => ⟨by simp, fun h => ?_⟩, fun _ => rfl⟩
    · have := h.1 q hq; omega
    · have := h.1 q hq; omega
  rcases tableLoop_spec vo.vtables [] ts with ⟨ht1, ts', ht2, ht3⟩ | ⟨pre, q, post, hsplit, hpre, hq⟩
  · have hnoerr : ∀ er, ¬ (∃ pre q post, vo.vtables = pre ++ q :: post ∧
        (∀ p ∈ pre, p.oracleType = .fixed ∧ p.index < ts.length) ∧
        ((q.oracleType = .witness ∧
            er = PiopErr.witnessTableNotAllowed (bytes "VirtualQuery index: " ++ natBytes q.index)) ∨
         (q.oracleType = .instance_ ∧
            er = .instanceTableNotAllowed (bytes "VirtualQuery index: " ++ natBytes q.index)))) := by
      rintro er ⟨pre, q, post, he, _, hq⟩
      have := (ht1 q (by rw [he]; simp)).1
      rcases hq with ⟨hq, _⟩ | ⟨hq, _⟩ <;> rw [hq] at this <;> simp at this
    have hmap : (∃ es, Res.mapM (fun v : VExpr F => v.toExpr s'.witness s'.inst s'.fixed) vo.vexprs = .ok es ∧
        List.Forall₂ (fun v e => v.toExpr s.witness s.inst s.fixed = .ok e) vo.vexprs es ∧
        (∀ e ∈ vo.vexprs, ∀ q ∈ e.queries, q.index < s.count q.oracleType)) ∨
        (Res.mapM (fun v : VExpr F => v.toExpr s'.witness s'.inst s'.fixed) vo.vexprs = .panic ∧
        ∃ e ∈ vo.vexprs, ∃ q ∈ e.queries, s.count q.oracleType ≤ q.index) := by
      have hfun : (fun v : VExpr F => v.toExpr s'.witness s'.inst s'.fixed) =
          (fun v => v.toExpr s.witness s.inst s.fixed) := by
        funext v; exact VExpr.toExpr_congr h2.sameLabels v
      rw [hfun]
      generalize vo.vexprs = l
      induction l with
      | nil => exact Or.inl ⟨[], rfl, .nil, by simp⟩
      | cons v l ih =>
        rw [Res.mapM_cons]
        rcases VExpr.toExpr_spec s.witness s.inst s.fixed v with ⟨e, he, heq⟩ | ⟨he, q, hq, hle⟩
        · rcases ih with ⟨es, h4, h5, h6⟩ | ⟨h4, e', he', q, hq, hle⟩
          · refine Or.inl ⟨e :: es, by rw [he, Res.bind_ok, h4]; rfl, .cons he h5, ?_⟩
            intro e' he' q hq
            rcases List.mem_cons.1 he' with rfl | he'
            · exact heq q hq
            · exact h6 e' he' q hq
          · exact Or.inr ⟨by rw [he, Res.bind_ok, h4]; rfl, e', by simp [he'], q, hq, hle⟩
        · exact Or.inr ⟨by rw [he]; rfl, v, by simp, q, hq, hle⟩
    rcases hmap with ⟨es, hm1, hm2, hm3⟩ | ⟨hm1, e, he, q, hq, hle⟩
    · have hc : vo.configure s ts = ⟨.ok (), { vo with
          tables := some ([] ++ vo.vtables.filterMap (fun q => (ts[q.index]?).map
            (fun o => ⟨ConcreteOracle.label o, q.rotation, .fixed⟩))), exprs := some es }, s', ts'⟩ := by
        simp only [GenericLookupVO.configure, h1, ht2, hm1]
      rw [hc]
      refine ⟨⟨fun _ => ⟨h3, ht1, hm3⟩, fun _ => rfl⟩,
        fun _ => ⟨h2, ht3, by simp [GenericLookupVO.getTableQueries], es, rfl, hm2⟩,
        fun er => ⟨by simp, fun h => absurd h.2 (hnoerr er)⟩, by simp⟩
    · have hc : vo.configure s ts = ⟨.panic, vo, s', ts'⟩ := by
        simp only [GenericLookupVO.configure, h1, ht2, hm1]
      rw [hc]
      refine ⟨⟨by simp, fun h => ?_⟩, by simp, fun er => ⟨by simp, fun h => absurd h.2 (hnoerr er)⟩,
        fun _ => rfl⟩
      have := h.2.2 e he q hq; omega
  · have hbad : ¬(q.oracleType = .fixed ∧ q.index < ts.length) := by
      rintro ⟨h, h'⟩
      rcases hq with ⟨hq, _⟩ | ⟨hq, _⟩ | ⟨_, hq, _⟩
      · rw [hq] at h; simp at h
      · rw [hq] at h; simp at h
      · omega
    have hnotok : ¬ (∀ q ∈ vo.vtables, q.oracleType = .fixed ∧ q.index < ts.length) := by
      intro h
      exact hbad (h q (by rw [hsplit]; simp))
    obtain ⟨r, ts', htl⟩ : ∃ r ts', tableLoop vo.vtables [] ts = (r, ts') := ⟨_, _, rfl⟩
    rw [htl] at hq
    rcases hq with ⟨hqt, hr⟩ | ⟨hqt, hr⟩ | ⟨hqt, hqi, hr⟩
    · simp only at hr
      subst hr
      have hc : vo.configure s ts = ⟨.err (.witnessTableNotAllowed
          (bytes "VirtualQuery index: " ++ natBytes q.index)), vo, s', ts'⟩ := by
        simp only [GenericLookupVO.configure, h1, htl]
      rw [hc]
      refine ⟨⟨by simp, fun h => absurd h.2.1 hnotok⟩, by simp, fun er => ⟨fun h => ?_, fun h => ?_⟩,
        fun _ => rfl⟩
      · simp only [Res.err.injEq] at h
        exact ⟨h3, pre, q, post, hsplit, hpre, Or.inl ⟨hqt, h.symm⟩⟩
      · obtain ⟨_, pre', q', post', hs', hp', hq'⟩ := h
        have : q = q' := huniq pre pre' q q' post post' (hsplit ▸ hs') hpre hp' hbad (by
          rcases hq' with ⟨hq', _⟩ | ⟨hq', _⟩ <;> rw [hq'] <;> simp)
        subst this
        rcases hq' with ⟨_, rfl⟩ | ⟨hq', _⟩
        · rfl
        · rw [hqt] at hq'; simp at hq'
    · simp only at hr
      subst hr
      have hc : vo.configure s ts = ⟨.err (.instanceTableNotAllowed
          (bytes "VirtualQuery index: " ++ natBytes q.index)), vo, s', ts'⟩ := by
        simp only [GenericLookupVO.configure, h1, htl]
      rw [hc]
      refine ⟨⟨by simp, fun h => absurd h.2.1 hnotok⟩, by simp, fun er => ⟨fun h => ?_, fun h => ?_⟩,
        fun _ => rfl⟩
      · simp only [Res.err.injEq] at h
        exact ⟨h3, pre, q, post, hsplit, hpre, Or.inr ⟨hqt, h.symm⟩⟩
      · obtain ⟨_, pre', q', post', hs', hp', hq'⟩ := h
        have : q = q' := huniq pre pre' q q' post post' (hsplit ▸ hs') hpre hp' hbad (by
          rcases hq' with ⟨hq', _⟩ | ⟨hq', _⟩ <;> rw [hq'] <;> simp)
        subst this
        rcases hq' with ⟨hq', _⟩ | ⟨_, rfl⟩
        · rw [hqt] at hq'; simp at hq'
        · rfl
    · simp only at hr
      subst hr
      have hc : vo.configure s ts = ⟨.panic, vo, s', ts'⟩ := by
        simp only [GenericLookupVO.configure, h1, htl]
      rw [hc]
      refine ⟨⟨by simp, fun h => absurd h.2.1 hnotok⟩, by simp, fun er => ⟨by simp, fun h => ?_⟩,
        fun _ => rfl⟩
      obtain ⟨_, pre', q', post', hs', hp', hq'⟩ := h
      have : q = q' := huniq pre pre' q q' post post' (hsplit ▸ hs') hpre hp' hbad (by
          rcases hq' with ⟨hq', _⟩ | ⟨hq', _⟩ <;> rw [hq'] <;> simp)
      subst this
      rcases hq' with ⟨hq', _⟩ | ⟨hq', _⟩ <;> rw [hqt] at hq' <;> simp at hq'

/-- One accepted configuration, one rejected at its second table query. -/
example :
    let o (k : OracleType) (s : String) : ProverOracle F97 := ⟨k, bytes s, [], [], none, [], false⟩
    let s : Oracles (ProverOracle F97) (ProverOracle F97) (ProverOracle F97) :=
      ⟨[o .witness "a"], [], []⟩
    let q : VirtualQuery := ⟨0, .curr, .witness⟩
    let vo (t : List VirtualQuery) : GenericLookupVO F97 := .init ([.oracle q], [q], t)
    let run (t : List VirtualQuery) := (vo t).configure s [o .fixed "t"]
    (run [⟨0, .curr, .fixed⟩]).result = .ok () ∧
    (run [⟨0, .curr, .fixed⟩]).vo.getTableQueries = .ok [⟨bytes "t", .curr, .fixed⟩] ∧
    (run [⟨0, .curr, .fixed⟩, ⟨7, .curr, .instance_⟩]).result =
      .err (.instanceTableNotAllowed (bytes "VirtualQuery index: 7")) := by
  decide +kernel

end
end
end ZK
