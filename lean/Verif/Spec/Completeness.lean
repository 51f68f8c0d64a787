import Verif.Spec.Quotient
import Verif.Spec.Scheme
/-!
Vocabulary for the end-to-end completeness statement: which circuits are supported, what it means that a witness
satisfies the gates, and that the verifier has been set up for the same circuit.
-/
set_option autoImplicit false
set_option linter.unusedSectionVars false
namespace ZK
open Polynomial

section
variable {F : Type} [Field F]

/-- All columns with their values on the coset. -/
def ProverView.extend [FftParams F] (v : ProverView F) (ext : Domain F) : ProverView F :=
  ⟨v.witness.map (·.computeExtended ext), v.inst.map (·.computeExtended ext), v.fixed.map (·.computeExtended ext),
    v.table.map (·.computeExtended ext)⟩

/-- A column: the stored values are those of the polynomial on the `n` rows, and the polynomial has at most `n`
coefficients. -/
def IsColumn (d : Domain F) (o : ProverOracle F) : Prop := Interpolates d o ∧ o.poly.length ≤ d.size

/-- The oracle is to be opened at the evaluation challenge itself. -/
def OpenedUnrotated (o : ProverOracle F) : Prop := ∃ r ∈ o.rotations, r.degree = 0

/-- A query of an expression finds its column, moves by less than `n` rows and, unless it queries a public column, has
been registered with the column. -/
def Answerable (n : Nat) (v : ProverView F) (q : OracleQuery) : Prop :=
  q.rotation.degree < n ∧ ∃ o, Resolves (v.oracles q.oracleType) q.label o ∧
    (q.oracleType ≠ .instance_ → q.rotation ∈ o.rotations)

/-- The rows of a lookup, with `u` usable rows of the permutation argument and `usableRows` of the lookups: some row is usable and some
is not, the blinding selector is a column and marks the rows from `usableRows` on, except `u`; and row `u` is the first one that is
not usable, or, as in src/tests/with_lookup.rs 283 with `PermutationInfo::dummy`, the first of all. -/
def LookupRows (d : Domain F) (u usableRows : Nat) (qBlind : ProverOracle F) : Prop :=
  0 < usableRows ∧ usableRows < d.size ∧ Interpolates d qBlind ∧ (u = usableRows ∨ u = 0) ∧
    ∀ i < d.size, usableRows ≤ i → qBlind.evals[i]? = some (if i = u then 0 else 1)

/-- The fragment of circuits the prover is described for. -/
structure SupportedShape (d : Domain F) (index : Index F) (v : ProverView F) (sigmas : List (ProverOracle F))
    (qBlind : ProverOracle F) (vos : List (GenericVO F)) : Prop where
  /-- the columns are columns -/
  columns : ∀ o ∈ v.witness ++ v.inst ++ v.fixed ++ v.table ++ sigmas, IsColumn d o
  /-- the polynomial of the blinding selector is small enough -/
  selector : qBlind.poly.length ≤ d.size
  /-- labels are distinct in each list -/
  labels : (v.witness.map (·.label)).Nodup ∧ (v.fixed.map (·.label)).Nodup ∧ (v.table.map (·.label)).Nodup
  /-- registered rotations move by less than `n` rows -/
  rotations : ∀ o ∈ v.witness ++ v.fixed ++ v.table, ∀ r ∈ o.rotations, r.degree < d.size
  /-- the verifier gets one evaluation of every sigma and of the blinding selector: at the challenge itself -/
  unrotated : ∀ o ∈ sigmas ++ [qBlind], ∀ r ∈ o.rotations, r.degree = 0
  /-- gates are configured and their queries can be answered -/
  gates : ∀ vo ∈ vos, ∃ e, vo.getExpression = .ok e ∧ ∀ q ∈ e.queries, Answerable d.size v q
  /-- copied columns are opened at the challenge -/
  copied : ∀ o ∈ v.witness, o.shouldPermute = true → OpenedUnrotated o
  /-- lookups are configured, their queries can be answered, only witness columns are rotated, and the degree of
  every looked-up expression is below the size of the extended domain -/
  lookups : ∀ l ∈ index.lookups, ∃ es ts, l.getExpressions = .ok es ∧ l.getTableQueries = .ok ts ∧
    (∀ e ∈ es, (∀ q ∈ e.queries, Answerable d.size v q ∧ (q.oracleType ≠ .witness → q.rotation.degree = 0)) ∧
      ∃ k, e.degree (fun _ => .ok (d.size - 1)) = .ok k ∧ k < index.ext.size) ∧
    ∀ t ∈ ts, t.oracleType = .fixed ∧ ∃ o, Resolves v.table t.label o ∧ OpenedUnrotated o
  /-- if something is copied, the blinding selector is a column and marks exactly the rows after the last usable row -/
  blinding : (∃ o ∈ v.witness, o.shouldPermute = true) → Interpolates d qBlind ∧ ∀ i < d.size,
    qBlind.evals[i]? = some (blinding index.perm.usableRows i)
  /-- if something is looked up, some row is not usable -/
  unusable : index.lookups ≠ [] → index.usableRows < d.size

/-- The fragment of circuits completeness is stated for. -/
structure Supported (d : Domain F) (index : Index F) (v : ProverView F) (sigmas : List (ProverOracle F))
    (qBlind : ProverOracle F) (vos : List (GenericVO F)) : Prop extends SupportedShape d index v sigmas qBlind vos where
  /-- if something is looked up, the selectors fit the usable rows -/
  usable : index.lookups ≠ [] → LookupRows d index.perm.usableRows index.usableRows qBlind

instance (d : Domain F) (index : Index F) (v : ProverView F) (sigmas : List (ProverOracle F)) (qBlind : ProverOracle F)
    (vos : List (GenericVO F)) : CoeOut (Supported d index v sigmas qBlind vos) (SupportedShape d index v sigmas qBlind vos) :=
  ⟨Supported.toSupportedShape⟩

/-- The witness satisfies the gates on the rows where the polynomial `zh` vanishes: reading the cells the queries point
at, the value of the expression is zero. -/
def GatesHold (d : Domain F) (v : ProverView F) (vos : List (GenericVO F)) (zh : F[X]) : Prop :=
  ∀ vo ∈ vos, ∀ e, vo.getExpression = .ok e → ∀ i < d.size, zh.eval (d.omega ^ i) = 0 → ∀ y : OracleQuery → F,
    (∀ q ∈ e.queries, ReadsCell d.size v i q (y q)) → e.denote id y = 0

/-- A verifier oracle configured like a prover's: same label, rotations and copy flag. Evaluations may have been
registered before. -/
def SameConfig {C : Type} (o : ProverOracle F) (v : VerifierOracle F C) : Prop :=
  v.label = o.label ∧ v.rotations = o.rotations ∧ v.shouldPermute = o.shouldPermute

/-- The verifier has been set up for the circuit: its oracles are configured like the prover's, it holds the
commitments of the preprocessed columns (made without randomness) and it knows the public columns. -/
structure SetUp (S : Scheme F) (com : F[X] → S.Rand → S.Comm) (v : ProverView F) (sigmas : List (ProverOracle F))
    (qBlind : ProverOracle F) (ws : List (VerifierOracle F S.Comm)) (is : List (InstanceVerifierOracle F))
    (pre : VerifierPreprocessed S) : Prop where
  witness : List.Forall₂ SameConfig v.witness ws
  inst : List.Forall₂ (fun o p => p.label = o.label ∧ p.poly = o.poly) v.inst is
  fixed : List.Forall₂ (fun o p => SameConfig o p ∧ p.commitment = some (com (toPoly o.poly) S.emptyRand)) v.fixed pre.fixed
  table : List.Forall₂ (fun o p => SameConfig o p ∧ p.commitment = some (com (toPoly o.poly) S.emptyRand)) v.table pre.table
  perm : List.Forall₂ (fun o p => SameConfig o p ∧ p.commitment = some (com (toPoly o.poly) S.emptyRand)) sigmas pre.perm
  qBlind : SameConfig qBlind pre.qBlind ∧ pre.qBlind.commitment = some (com (toPoly qBlind.poly) S.emptyRand)

end
end ZK
