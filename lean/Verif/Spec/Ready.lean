import Verif.Spec.System
import Verif.Spec.Verifier
import Verif.Spec.Expression
/-! When the verifier is ready to read proofs, and which proofs have the right shape (specification of C65). -/
set_option autoImplicit false
namespace ZK

section
variable {F : Type} [Field F]

/-- The verifier can answer a query of an expression: it knows the column, the rotation moves by less than `n` rows and,
unless the column is public, it is registered with the column. -/
def Known {C : Type} (n : Nat) (ws : List (VerifierOracle F C)) (is : List (InstanceVerifierOracle F))
    (fixed : List (VerifierOracle F C)) (q : OracleQuery) : Prop :=
  q.rotation.degree < n ∧
    (q.oracleType = .witness → ∃ o, Resolves ws q.label o ∧ q.rotation ∈ o.rotations) ∧
    (q.oracleType = .fixed → ∃ o, Resolves fixed q.label o ∧ q.rotation ∈ o.rotations) ∧
    (q.oracleType = .instance_ → ∃ o, Resolves is q.label o)

/-- The verifier's oracles and key belong to one circuit with `n` rows. Nothing is said about polynomials or commitments. -/
structure Ready {S : Scheme F} (n : Nat) (index : Index F) (pre : VerifierPreprocessed S)
    (ws : List (VerifierOracle F S.Comm)) (is : List (InstanceVerifierOracle F)) (vos : List (GenericVO F)) : Prop where
  /-- there is a next row -/
  rows : 1 < n
  /-- there is a gate -/
  nonempty : vos ≠ []
  /-- gates are configured and their queries can be answered -/
  gates : ∀ vo ∈ vos, ∃ e, vo.getExpression = .ok e ∧ ∀ q ∈ e.queries, Known n ws is pre.fixed q
  /-- labels are distinct in each list -/
  labels : (ws.map (·.label)).Nodup ∧ (pre.fixed.map (·.label)).Nodup ∧ (pre.table.map (·.label)).Nodup
  /-- registered rotations move by less than `n` rows -/
  rotations : ∀ o ∈ ws ++ pre.fixed ++ pre.table ++ pre.perm ++ [pre.qBlind], ∀ r ∈ o.rotations, r.degree < n
  /-- different rotations registered with a column lead to different rows -/
  distinct : ∀ o ∈ ws ++ pre.fixed ++ pre.table ++ pre.perm ++ [pre.qBlind],
    o.rotations.Pairwise (fun r r' => ¬ r.signed ≡ r'.signed [ZMOD n])
  /-- copied columns are opened at the challenge -/
  copied : ∀ o ∈ ws, o.shouldPermute = true → ∃ r ∈ o.rotations, r.degree = 0
  /-- the last usable row exists -/
  usable : index.perm.usableRows < n
  /-- there are as many sigmas and separators as copied columns, and a grand product can take a column -/
  shape : (∃ o ∈ ws, o.shouldPermute = true) → pre.perm.length = (ws.filter (·.shouldPermute)).length ∧
    index.perm.deltas.length = (ws.filter (·.shouldPermute)).length ∧ 0 < index.perm.maxCols
  /-- lookups are configured, have as many expressions as table columns, their queries can be answered, only witness
  columns are rotated, and the table columns are opened at the challenge -/
  lookups : ∀ l ∈ index.lookups, ∃ es ts, l.getExpressions = .ok es ∧ l.getTableQueries = .ok ts ∧ es.length = ts.length ∧
    (∀ e ∈ es, ∀ q ∈ e.queries, Known n ws is pre.fixed q ∧ (q.oracleType ≠ .witness → q.rotation.degree = 0)) ∧
    ∀ t ∈ ts, t.oracleType = .fixed ∧ ∃ o, Resolves pre.table t.label o ∧ ∃ r ∈ o.rotations, r.degree = 0

/-- The lists of a proof have the lengths the verifier reads: with `L` lookups, `c` copied columns and at most `k` of them
in a grand product, there are `m = ceil(c / k)` grand products; each list of columns has one evaluation per label and rotation, and
every grand product but the last is also opened at the last usable row, which is a new point if this row is not 0 or 1.
There may be any number of parts of the quotient. -/
structure WellShaped {S : Scheme F} (index : Index F) (pre : VerifierPreprocessed S) (ws : List (VerifierOracle F S.Comm))
    (proof : TPProof S) : Prop where
  witnessEvals : proof.witnessEvals.length = expectedEvals ws
  fixedEvals : proof.fixedEvals.length = expectedEvals pre.fixed
  tableEvals : proof.tableEvals.length = expectedEvals pre.table
  permEvals : proof.permEvals.length = pre.perm.length
  lookupCommitments : proof.lookupCommitments.length = 2 * index.lookups.length
  lookupEvals : proof.lookupEvals.length = 3 * index.lookups.length
  lookupZCommitments : proof.lookupZCommitments.length = index.lookups.length
  lookupZEvals : proof.lookupZEvals.length = 2 * index.lookups.length
  zCommitments : if (ws.filter (·.shouldPermute)).length = 0 then proof.zCommitments.length = 0 else
    (proof.zCommitments.length - 1) * index.perm.maxCols < (ws.filter (·.shouldPermute)).length ∧
      (ws.filter (·.shouldPermute)).length ≤ proof.zCommitments.length * index.perm.maxCols
  zEvals : proof.zEvals.length =
    if index.perm.usableRows < 2 then 2 * proof.zCommitments.length else 3 * proof.zCommitments.length - 1
  quotientEvals : proof.quotientCommitments.length ≤ proof.quotientEvals.length

end
end ZK
