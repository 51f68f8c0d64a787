import Verif.Model.Oracle
/-!
Expressions and virtual oracles (src/vo).
-/
set_option autoImplicit false
namespace ZK

/-- src/vo/expression.rs 6-14. -/
inductive Expr (F : Type) where
  | const (c : F)
  | oracle (q : OracleQuery)
  | neg (a : Expr F)
  | sum (a b : Expr F)
  | prod (a b : Expr F)
  | scaled (a : Expr F) (c : F)
  deriving DecidableEq, Repr

namespace Expr
variable {F : Type}

/-- `Expression::degree`, src/vo/expression.rs 17-34. -/
def degree (oracleFn : OracleQuery → Res PiopErr Nat) : Expr F → Res PiopErr Nat
  | const _ => .ok 0
  | oracle q => oracleFn q
  | neg a => a.degree oracleFn
  | sum a b =>
    match a.degree oracleFn with
    | .ok x => (b.degree oracleFn).map1 (fun y => max x y)
    | .err e => .err e
    | .panic => .panic
  | prod a b =>
    match a.degree oracleFn with
    | .ok x => (b.degree oracleFn).map1 (fun y => x + y)
    | .err e => .err e
    | .panic => .panic
  | scaled a _ => a.degree oracleFn

/-- `Expression::evaluate`, src/vo/expression.rs 40-113, for any result type. -/
def evaluate {T : Type} (constFn : F → T) (oracleFn : OracleQuery → T) (negFn : T → T)
    (sumFn prodFn : T → T → T) (scaledFn : T → F → T) : Expr F → T
  | const c => constFn c
  | oracle q => oracleFn q
  | neg a => negFn (a.evaluate constFn oracleFn negFn sumFn prodFn scaledFn)
  | sum a b => sumFn (a.evaluate constFn oracleFn negFn sumFn prodFn scaledFn)
      (b.evaluate constFn oracleFn negFn sumFn prodFn scaledFn)
  | prod a b => prodFn (a.evaluate constFn oracleFn negFn sumFn prodFn scaledFn)
      (b.evaluate constFn oracleFn negFn sumFn prodFn scaledFn)
  | scaled a c => scaledFn (a.evaluate constFn oracleFn negFn sumFn prodFn scaledFn) c

/-- `Neg`, `Add`, `Sub`, `Mul`, `Mul<F>` of expressions, src/vo/expression.rs 116-149. -/
instance : Neg (Expr F) := ⟨neg⟩
instance : Add (Expr F) := ⟨sum⟩
instance : Sub (Expr F) := ⟨fun a b => sum a (neg b)⟩
instance : Mul (Expr F) := ⟨prod⟩

/-- `evaluate` with the closures every caller of the crate uses for fallible oracle lookups
(src/piop/prover.rs 320-363, src/lookup/mod.rs 113-163, 435-475, src/mock_prover.rs 122-154,
src/turbo_plonk.rs 1140-1184): constants are `Ok`, the arithmetic is lifted to `Result`. -/
def evalR [Field F] (oracleFn : OracleQuery → Res PiopErr F) : Expr F → Res PiopErr F :=
  evaluate (fun c => .ok c) oracleFn (fun x => x.map1 (fun a => -a))
    (fun x y => Res.lift2 (fun a b => a + b) x y) (fun x y => Res.lift2 (fun a b => a * b) x y)
    (fun x c => x.map1 (fun a => a * c))

end Expr

/-- src/vo/query.rs 5-10. -/
structure VirtualQuery where
  index : Nat
  rotation : Rotation
  oracleType : OracleType
  deriving DecidableEq, Repr

/-- src/vo/virtual_expression.rs 9-17. -/
inductive VExpr (F : Type) where
  | const (c : F)
  | oracle (q : VirtualQuery)
  | neg (a : VExpr F)
  | sum (a b : VExpr F)
  | prod (a b : VExpr F)
  | scaled (a : VExpr F) (c : F)
  deriving DecidableEq, Repr

namespace VExpr
variable {F : Type}

/-- src/vo/virtual_expression.rs 97-130. -/
instance : Neg (VExpr F) := ⟨neg⟩
instance : Add (VExpr F) := ⟨sum⟩
instance : Sub (VExpr F) := ⟨fun a b => sum a (neg b)⟩
instance : Mul (VExpr F) := ⟨prod⟩

/-- The oracle query a virtual query resolves to (src/vo/virtual_expression.rs 28-49, also
src/vo/generic_vo.rs 37-64): the label of the oracle at that index; indexing panics out of range. -/
def resolve {W I X : Type} [ConcreteOracle W] [ConcreteOracle I] [ConcreteOracle X]
    (ws : List W) (is : List I) (fs : List X) (q : VirtualQuery) : Res PiopErr OracleQuery :=
  match q.oracleType with
  | .witness => (Res.idx ws q.index).map1 (fun o => ⟨ConcreteOracle.label o, q.rotation, .witness⟩)
  | .instance_ => (Res.idx is q.index).map1 (fun o => ⟨ConcreteOracle.label o, q.rotation, .instance_⟩)
  | .fixed => (Res.idx fs q.index).map1 (fun o => ⟨ConcreteOracle.label o, q.rotation, .fixed⟩)

/-- `VirtualExpression::to_expression`, src/vo/virtual_expression.rs 20-94. -/
def toExpr {W I X : Type} [ConcreteOracle W] [ConcreteOracle I] [ConcreteOracle X]
    (ws : List W) (is : List I) (fs : List X) : VExpr F → Res PiopErr (Expr F)
  | const c => .ok (.const c)
  | oracle q => (resolve ws is fs q).map1 .oracle
  | neg a => (a.toExpr ws is fs).map1 .neg
  | sum a b =>
    match a.toExpr ws is fs with
    | .ok x => (b.toExpr ws is fs).map1 (fun y => .sum x y)
    | .err e => .err e
    | .panic => .panic
  | prod a b =>
    match a.toExpr ws is fs with
    | .ok x => (b.toExpr ws is fs).map1 (fun y => .prod x y)
    | .err e => .err e
    | .panic => .panic
  | scaled a c => (a.toExpr ws is fs).map1 (fun x => .scaled x c)

end VExpr

/-- `oracles[i].register_rotation(r)`: panics when `i` is out of range. -/
def registerAt {O : Type} [ConcreteOracle O] (os : List O) (i : Nat) (r : Rotation) :
    Res PiopErr (List O) :=
  if i < os.length then .ok (os.modify i (fun o => ConcreteOracle.register o r)) else .panic

/-- The oracle lists `configure` mutates. -/
structure Oracles (W I X : Type) where
  witness : List W
  inst : List I
  fixed : List X

section
variable {F W I X Y : Type} [ConcreteOracle W] [ConcreteOracle I] [ConcreteOracle X] [ConcreteOracle Y]

/-- Registration of one virtual query (src/vo/generic_vo.rs 37-64, src/vo/generic_lookup_vo.rs 45-60). -/
def Oracles.register (s : Oracles W I X) (q : VirtualQuery) : Res PiopErr (Oracles W I X) :=
  match q.oracleType with
  | .witness => (registerAt s.witness q.index q.rotation).map1 (fun w => { s with witness := w })
  | .instance_ => (registerAt s.inst q.index q.rotation).map1 (fun w => { s with inst := w })
  | .fixed => (registerAt s.fixed q.index q.rotation).map1 (fun w => { s with fixed := w })

/-- src/vo/generic_vo.rs 11-17 (`queries` is never read and is omitted). -/
structure GenericVO (F : Type) where
  vexpr : VExpr F
  vqueries : List VirtualQuery
  expr : Option (Expr F)
  deriving DecidableEq, Repr

/-- `GenericVO::init`, src/vo/generic_vo.rs 20-27. -/
def GenericVO.init (cfg : VExpr F × List VirtualQuery) : GenericVO F := ⟨cfg.1, cfg.2, none⟩

/-- `GenericVO::configure`, src/vo/generic_vo.rs 29-76. It returns `()` in Rust, so the outcome here is
`ok` or `panic`. -/
def GenericVO.configure (vo : GenericVO F) (s : Oracles W I X) :
    Res PiopErr (GenericVO F × Oracles W I X) :=
  match Res.foldM Oracles.register s vo.vqueries with
  | .ok s' =>
    (vo.vexpr.toExpr s'.witness s'.inst s'.fixed).map1 (fun e => ({ vo with expr := some e }, s'))
  | .err e => .err e
  | .panic => .panic

/-- `GenericVO::get_expression`, src/vo/generic_vo.rs 79-86. -/
def GenericVO.getExpression (vo : GenericVO F) : Res VOErr (Expr F) :=
  match vo.expr with
  | some e => .ok e
  | none => .err .uninitializedExpr

/-- src/vo/generic_lookup_vo.rs 12-19. -/
structure GenericLookupVO (F : Type) where
  vexprs : List (VExpr F)
  vqueries : List VirtualQuery
  vtables : List VirtualQuery
  tables : Option (List OracleQuery)
  exprs : Option (List (Expr F))
  deriving DecidableEq, Repr

/-- `GenericLookupVO::init`, src/vo/generic_lookup_vo.rs 22-36. -/
def GenericLookupVO.init (cfg : List (VExpr F) × List VirtualQuery × List VirtualQuery) :
    GenericLookupVO F := ⟨cfg.1, cfg.2.1, cfg.2.2, none, none⟩

/-- The loop over the table queries, src/vo/generic_lookup_vo.rs 62-86, with the table oracles as they
are when the loop ends. The error payload is `format!("VirtualQuery index: {}", index)` in Rust. -/
def tableLoop : List VirtualQuery → List OracleQuery → List Y → Res PiopErr (List OracleQuery) × List Y
  | [], acc, ts => (.ok acc, ts)
  | q :: qs, acc, ts =>
    match q.oracleType with
    | .witness =>
      (.err (.witnessTableNotAllowed (bytes "VirtualQuery index: " ++ natBytes q.index)), ts)
    | .instance_ =>
      (.err (.instanceTableNotAllowed (bytes "VirtualQuery index: " ++ natBytes q.index)), ts)
    | .fixed =>
      match registerAt ts q.index q.rotation with
      | .ok ts' =>
        match ts'[q.index]? with
        | some o => tableLoop qs (acc ++ [⟨ConcreteOracle.label o, q.rotation, .fixed⟩]) ts'
        | none => (.panic, ts')
      | .err e => (.err e, ts)
      | .panic => (.panic, ts)

/-- Outcome of `GenericLookupVO::configure` together with everything it mutates (after a panic the state
is of no interest). -/
structure LookupConfigured (F W I X Y : Type) where
  result : Res PiopErr Unit
  vo : GenericLookupVO F
  oracles : Oracles W I X
  tables : List Y

/-- `GenericLookupVO::configure`, src/vo/generic_lookup_vo.rs 38-105. On `Err` the registrations already
made are kept, the fields of the lookup are not assigned. -/
def GenericLookupVO.configure (vo : GenericLookupVO F) (s : Oracles W I X) (ts : List Y) :
    LookupConfigured F W I X Y :=
  match Res.foldM Oracles.register s vo.vqueries with
  | .ok s' =>
    match tableLoop vo.vtables [] ts with
    | (.ok tqs, ts') =>
      match Res.mapM (fun v => v.toExpr s'.witness s'.inst s'.fixed) vo.vexprs with
      | .ok es => ⟨.ok (), { vo with tables := some tqs, exprs := some es }, s', ts'⟩
      | .err e => ⟨.err e, vo, s', ts'⟩
      | .panic => ⟨.panic, vo, s', ts'⟩
    | (.err e, ts') => ⟨.err e, vo, s', ts'⟩
    | (.panic, ts') => ⟨.panic, vo, s', ts'⟩
  | .err e => ⟨.err e, vo, s, ts⟩
  | .panic => ⟨.panic, vo, s, ts⟩

/-- src/vo/generic_lookup_vo.rs 109-114. -/
def GenericLookupVO.getExpressions (vo : GenericLookupVO F) : Res VOErr (List (Expr F)) :=
  match vo.exprs with
  | some e => .ok e
  | none => .err .uninitializedLookupExpr

/-- src/vo/generic_lookup_vo.rs 116-121. -/
def GenericLookupVO.getTableQueries (vo : GenericLookupVO F) : Res VOErr (List OracleQuery) :=
  match vo.tables with
  | some e => .ok e
  | none => .err .uninitializedLookupTableQuery

end
end ZK
