import Verif.Spec.Soundness
import Verif.Spec.Expression
/-!
A client that makes a circuit with calls of `configure`, and what the circuit means in terms of the columns the client started from
(specification of C74).
-/
set_option autoImplicit false
set_option linter.unusedSectionVars false
namespace ZK
open Polynomial

/-- A gate or a lookup, as handed to `GenericVO::init` and `GenericLookupVO::init` (src/vo/generic_vo.rs 20-27,
src/vo/generic_lookup_vo.rs 22-36), and then configured. -/
inductive Call (F : Type)
  | gate (e : VExpr F) (qs : List VirtualQuery)
  | lookup (es : List (VExpr F)) (qs ts : List VirtualQuery)

section
variable {F : Type}

/-- The expressions of a call. -/
def Call.exprs : Call F → List (VExpr F)
  | .gate e _ => [e]
  | .lookup es _ _ => es

/-- The queries a call registers with the columns. -/
def Call.queries : Call F → List VirtualQuery
  | .gate _ qs => qs
  | .lookup _ qs _ => qs

/-- The queries a call registers with the tables. -/
def Call.tables : Call F → List VirtualQuery
  | .gate _ _ => []
  | .lookup _ _ ts => ts

/-- What the client holds after all calls. -/
structure Configured (F W I X Y : Type) where
  vos : List (GenericVO F)
  lookups : List (GenericLookupVO F)
  oracles : Oracles W I X
  tables : List Y

variable {W I X Y : Type} [ConcreteOracle W] [ConcreteOracle I] [ConcreteOracle X] [ConcreteOracle Y]

/-- The calls one after the other, as in src/tests/with_lookup.rs 266-285 and 419-438. -/
def configureAll : List (Call F) → Oracles W I X → List Y → Res PiopErr (Configured F W I X Y)
  | [], s, ts => .ok ⟨[], [], s, ts⟩
  | .gate e qs :: cs, s, ts =>
    match (GenericVO.init (e, qs)).configure s with
    | .ok (vo, s') => (configureAll cs s' ts).map1 (fun c => { c with vos := vo :: c.vos })
    | .err er => .err er
    | .panic => .panic
  | .lookup es qs tqs :: cs, s, ts =>
    let r := (GenericLookupVO.init (es, qs, tqs)).configure s ts
    match r.result with
    | .ok _ => (configureAll cs r.oracles r.tables).map1 (fun c => { c with lookups := r.vo :: c.lookups })
    | .err er => .err er
    | .panic => .panic

/-- The degree of a virtual expression in its queries. -/
def VExpr.totalDegree : VExpr F → Nat
  | .const _ => 0
  | .oracle _ => 1
  | .neg a => a.totalDegree
  | .sum a b => max a.totalDegree b.totalDegree
  | .prod a b => a.totalDegree + b.totalDegree
  | .scaled a _ => a.totalDegree

/-- The conditions on the calls for a domain of `n` rows: every query of an expression is listed; rotations move by less than
`n` rows, and different rotations lead to different rows; looked-up expressions are affine and rotate witness columns only; a
lookup has a table column for every expression, which is not rotated. -/
structure GoodCalls (n : Nat) (calls : List (Call F)) : Prop where
  listed : ∀ c ∈ calls, ∀ e ∈ c.exprs, ∀ q ∈ e.queries, q ∈ c.queries
  small : ∀ c ∈ calls, ∀ q ∈ c.queries ++ c.tables, q.rotation.degree < n
  distinct : ∀ c ∈ calls, ∀ c' ∈ calls, ∀ q ∈ c.queries ++ c.tables, ∀ q' ∈ c'.queries ++ c'.tables,
    q.rotation.signed ≡ q'.rotation.signed [ZMOD n] → q.rotation = q'.rotation
  lookups : ∀ es qs ts, Call.lookup es qs ts ∈ calls → es.length = ts.length ∧ (∀ t ∈ ts, t.rotation.degree = 0) ∧
    (∀ q ∈ qs, q.oracleType ≠ .witness → q.rotation.degree = 0) ∧ ∀ e ∈ es, e.totalDegree ≤ 1

/-- The columns of a type. -/
def Oracles.ofType {O : Type} (s : Oracles O O O) : OracleType → List O
  | .witness => s.witness
  | .instance_ => s.inst
  | .fixed => s.fixed

/-- The cell a virtual query reads in row `i`: the column with this index, `rotation` rows away. -/
def VReads (n : Nat) (s : Oracles (ProverOracle F) (ProverOracle F) (ProverOracle F)) (i : Nat) (q : VirtualQuery) (y : F) : Prop :=
  ∃ o, (s.ofType q.oracleType)[q.index]? = some o ∧ ∃ j : Nat, (j : ℤ) = ((i : ℤ) + q.rotation.signed) % n ∧ o.evals[j]? = some y

variable [Field F]

/-- Every gate is zero on the rows where `zh` vanishes. -/
def GateCallsHold (d : Domain F) (s : Oracles (ProverOracle F) (ProverOracle F) (ProverOracle F)) (calls : List (Call F)) (zh : F[X]) :
    Prop :=
  ∀ e qs, Call.gate e qs ∈ calls → ∀ i < d.size, zh.eval (d.omega ^ i) = 0 → ∀ y : VirtualQuery → F,
    (∀ q ∈ e.queries, VReads d.size s i q (y q)) → e.denote id y = 0

/-- For every lookup and each of the first `u` rows, the values of the expressions are a row of the table among its first `u`. -/
def LookupCallsHold (n u : Nat) (s : Oracles (ProverOracle F) (ProverOracle F) (ProverOracle F)) (tables : List (ProverOracle F))
    (calls : List (Call F)) : Prop :=
  ∀ es qs ts, Call.lookup es qs ts ∈ calls → ∀ i < u, ∃ j < u, List.Forall₂ (fun (e : VExpr F) (t : VirtualQuery) =>
    ∃ y : VirtualQuery → F, (∀ q ∈ e.queries, VReads n s i q (y q)) ∧
      ∃ o, tables[t.index]? = some o ∧ o.evals[j]? = some (e.denote id y)) es ts

/-- Columns as a client makes them: they interpolate their values with at most `D` coefficients, have not been asked for any
rotation, and have different labels. -/
structure FreshColumns (d : Domain F) (D : Nat) (s : Oracles (ProverOracle F) (ProverOracle F) (ProverOracle F)) (tables : List (ProverOracle F)) :
    Prop where
  columns : ∀ o ∈ s.witness ++ s.inst ++ s.fixed ++ tables, (Interpolates d o ∧ o.poly.length ≤ D) ∧ o.rotations = []
  labels : s.DistinctLabels ∧ (tables.map (·.label)).Nodup

/-- The blinding selector is a column, opened at the current row, and marks exactly the rows after row `u`. -/
def MarksRows (d : Domain F) (u : Nat) (qBlind : ProverOracle F) : Prop :=
  (Interpolates d qBlind ∧ qBlind.rotations = [.curr]) ∧ ∀ i < d.size, qBlind.evals[i]? = some (blinding u i)

/-- A circuit as a client describes it: columns, tables, calls of `configure`, sigmas, the blinding selector, the description
of the copies and the number of usable rows. There is a gate; every copied column is queried at the current row; sigmas
are opened at the current row; there is a sigma and a separator for every copied column; if something is copied, the
blinding selector is opened at the current row and marks the rows after the last usable one; if something is looked up, it fits the
usable rows of the lookups (otherwise only the number of its coefficients matters). -/
structure GoodCircuit (d : Domain F) (D : Nat) (s : Oracles (ProverOracle F) (ProverOracle F) (ProverOracle F)) (tables : List (ProverOracle F))
    (calls : List (Call F)) (sigmas : List (ProverOracle F)) (qBlind : ProverOracle F) (info : PermutationInfo F) (usableRows : Nat) :
    Prop where
  fresh : FreshColumns d D s tables
  good : GoodCalls d.size calls
  gate : ∃ e qs, Call.gate e qs ∈ calls
  copied : ∀ (i : Nat) (o : ProverOracle F), s.witness[i]? = some o → o.shouldPermute = true →
    ∃ call ∈ calls, ∃ r : Rotation, r.degree = 0 ∧ (⟨i, r, .witness⟩ : VirtualQuery) ∈ call.queries
  sigmaColumns : ∀ o ∈ sigmas, (Interpolates d o ∧ o.poly.length ≤ D) ∧ o.rotations = [.curr]
  selector : qBlind.poly.length ≤ D ∧ (qBlind.rotations = [] ∨ qBlind.rotations = [.curr])
  shape : (∃ o ∈ s.witness, o.shouldPermute = true) → sigmas.length = (s.witness.filter (·.shouldPermute)).length ∧
    info.deltas.length = (s.witness.filter (·.shouldPermute)).length
  blinding : (∃ o ∈ s.witness, o.shouldPermute = true) → MarksRows d info.u qBlind
  usable : info.u < d.size
  lookedUp : (∃ es qs ts, Call.lookup es qs ts ∈ calls) → LookupRows d info.u usableRows qBlind

/-- The oracles a verifier starts from: the labels and copy flags of the prover's columns, no rotations, and for the public
columns their polynomials. For preprocessed columns it has the commitments. -/
structure FreshVerifier (S : Scheme F) (com : F[X] → S.Rand → S.Comm) (s : Oracles (ProverOracle F) (ProverOracle F) (ProverOracle F))
    (tables : List (ProverOracle F)) (s' : Oracles (VerifierOracle F S.Comm) (InstanceVerifierOracle F) (VerifierOracle F S.Comm))
    (tables' : List (VerifierOracle F S.Comm)) : Prop where
  witness : List.Forall₂ SameConfig s.witness s'.witness
  inst : List.Forall₂ (fun o p => p.label = o.label ∧ p.rotations = [] ∧ p.poly = o.poly) s.inst s'.inst
  fixed : List.Forall₂ (fun o p => SameConfig o p ∧ p.commitment = some (com (toPoly o.poly) S.emptyRand)) s.fixed s'.fixed
  table : List.Forall₂ (fun o p => SameConfig o p ∧ p.commitment = some (com (toPoly o.poly) S.emptyRand)) tables tables'

end
end ZK
