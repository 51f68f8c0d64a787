import Mathlib.Data.Nat.Log
import Verif.Spec.Expression
/-! What the indexer is expected to compute. -/
set_option autoImplicit false
namespace ZK

/-- Degree of an expression when every oracle has degree `k`. -/
def Expr.formalDegree {F : Type} (k : Nat) : Expr F → Nat
  | .const _ => 0
  | .oracle _ => k
  | .neg a => a.formalDegree k
  | .sum a b => max (a.formalDegree k) (b.formalDegree k)
  | .prod a b => a.formalDegree k + b.formalDegree k
  | .scaled a _ => a.formalDegree k

/-- The labels of the three kinds of oracles. -/
structure Labels where
  witness : List Label
  inst : List Label
  fixed : List Label

/-- Does the query name an existing oracle? -/
def Labels.knows (L : Labels) (q : OracleQuery) : Bool :=
  match q.oracleType with
  | .witness => decide (q.label ∈ L.witness)
  | .instance_ => decide (q.label ∈ L.inst)
  | .fixed => decide (q.label ∈ L.fixed)

/-- The error for an unknown label. -/
def missingOracle (q : OracleQuery) : PiopErr :=
  match q.oracleType with
  | .witness => .missingWitnessOracle q.label
  | .instance_ => .missingInstanceOracle q.label
  | .fixed => .missingFixedOracle q.label

/-- What is wrong with a gate, if anything: it is not configured, or it queries an unknown oracle (the
first one is reported). -/
def gateError {F E : Type} (L : Labels) (vo : GenericVO F) : Option (Err E) :=
  match vo.expr with
  | none => some (.vo .uninitializedExpr)
  | some e => (e.queries.find? (fun q => !L.knows q)).map (fun q => .iop (missingOracle q))

/-- Largest degree of a configured gate over columns of `n` rows. -/
def maxGateDegree {F : Type} (n : Nat) (vos : List (GenericVO F)) : Nat :=
  (vos.map (fun vo => match vo.expr with
    | some e => e.formalDegree (n - 1)
    | none => 0)).foldr max 0

/-- Labels of lists of oracles. -/
def Labels.of {W I X : Type} [ConcreteOracle W] [ConcreteOracle I] [ConcreteOracle X] (ws : List W)
    (is : List I) (fs : List X) : Labels :=
  ⟨ws.map ConcreteOracle.label, is.map ConcreteOracle.label, fs.map ConcreteOracle.label⟩

/-- Ratio between the extended and the original domain the indexer should choose for quotient degree
`k`: the smallest domain with at least `k` points, at least twice the rows with copy constraints and at
least four times with lookups. -/
def scalingFactor (n k numCopied numLookups : Nat) : Nat :=
  max (2 ^ Nat.clog 2 k / n) (max (if 0 < numCopied then 2 else 0) (if numLookups ≠ 0 then 4 else 0))

end ZK
