import Verif.Spec.Configure
import Verif.Spec.Success
import Verif.Model.GateTest
/-!
What a client has to know about the gates so that the indexer makes a key for them (specification of C76).
-/
set_option autoImplicit false
set_option linter.unusedSectionVars false
namespace ZK

section
variable {F : Type}

/-- A degree `m` for `n` rows: `n` does not divide `m`, and the quotient, of degree `m (n - 1) - n`, needs more than half of the `n` points.
Every `m` from two on and every `n` from eight on with `m < n` will do, and so will three, five, six and seven for four rows. -/
def DegreeFits (n m : Nat) : Prop := ¬ n ∣ m ∧ n < 2 * (m * (n - 1) - n)

/-- The largest degree of a gate is `m`; it is at least two and fits the number `n` of rows; and the field has a domain of `4 * n` and of
`m * n` points. -/
structure GateDegrees (n adicity m : Nat) (calls : List (Call F)) : Prop where
  bound : ∀ e qs, Call.gate e qs ∈ calls → e.totalDegree ≤ m
  reached : ∃ e qs, Call.gate e qs ∈ calls ∧ e.totalDegree = m
  two : 2 ≤ m
  rows : DegreeFits n m
  field : max 4 m * n ≤ 2 ^ adicity

/-- Every index of a call belongs to a column, and every index of a table query to a table. -/
def InRange (columns : OracleType → Nat) (tables : Nat) (calls : List (Call F)) : Prop :=
  ∀ call ∈ calls, (∀ q ∈ call.queries, q.index < columns q.oracleType) ∧
    (∀ e ∈ call.exprs, ∀ q ∈ e.queries, q.index < columns q.oracleType) ∧
    ∀ t ∈ call.tables, t.oracleType = .fixed ∧ t.index < tables

/-- The columns of a test of one type. -/
def TestColumns.ofType (t : TestColumns F) : OracleType → List (Label × List F)
  | .witness => t.witness
  | .instance_ => t.inst
  | .fixed => t.fixed

/-- The cell a query reads in row `i` of `n` rows: the column with this index, `rotation` rows away. -/
def TestColumns.cell [Field F] (t : TestColumns F) (n i : Nat) (q : VirtualQuery) : F :=
  match (t.ofType q.oracleType)[q.index]? with
  | some c => c.2.getD (((i : ℤ) + q.rotation.signed) % n).toNat 0
  | none => 0

/-- Columns of `n` values with different labels. -/
def TestColumns.Wellformed (t : TestColumns F) (n : Nat) : Prop :=
  ∀ ty, (∀ c ∈ t.ofType ty, c.2.length = n) ∧ ((t.ofType ty).map Prod.fst).Nodup

/-- A gate of degree `m` for `n` rows: every query is listed and names a column; rotations move by less than `n` rows, and different
rotations lead to different rows; the degree is at least two and fits the number of rows; and the field has a domain of `4 * n` and of
`m * n` points. -/
structure GateFits (n adicity m : Nat) (columns : OracleType → Nat) (gate : VExpr F × List VirtualQuery) : Prop where
  listed : ∀ q ∈ gate.1.queries, q ∈ gate.2
  range : ∀ q ∈ gate.2, q.index < columns q.oracleType
  small : ∀ q ∈ gate.2, q.rotation.degree < n
  distinct : ∀ q ∈ gate.2, ∀ q' ∈ gate.2, q.rotation.signed ≡ q'.rotation.signed [ZMOD n] → q.rotation = q'.rotation
  degree : gate.1.totalDegree = m
  two : 2 ≤ m
  rows : DegreeFits n m
  field : max 4 m * n ≤ 2 ^ adicity

end
end ZK
