import Mathlib.Logic.Equiv.Defs
import Mathlib.Algebra.Polynomial.Degree.Defs
import Verif.Spec.Completeness
/-!
Vocabulary for the end-to-end soundness statement: verification with given challenges, what a satisfied circuit is,
and what a prover that knows the polynomials behind its commitments can send.
-/
set_option autoImplicit false
set_option linter.unusedSectionVars false
namespace ZK
open Polynomial

section
variable {F : Type} [Field F]

/-- `verify` with the challenges given instead of drawn from the transcript. -/
def verifyAt (S : Scheme F) [LinearOrder F] [FftParams F] (vk : VerifierKey S) (pre : VerifierPreprocessed S)
    (proof : TPProof S) (ws : List (VerifierOracle F S.Comm)) (is : List (InstanceVerifierOracle F))
    (vos : List (GenericVO F)) (domainSize : Nat) (vanishing : List F) (ch : Challenges F) (x1 x2 x3 x4 : F) :
    Res (Err S.E) Unit := do
  let st ← verifyRegister S vk pre proof ws is domainSize ch
  let q ← quotientCheckValue S vk st is vos domainSize vanishing ch
  if q ≠ 0 then .err .quotientNotZero
  else do
    let domain ← Res.unwrap (Domain.new (F := F) domainSize)
    (mpVerifyWith S vk.vk proof.multiopen st.oracles ch.xi domain x1 x2 x3 x4).mapErr Err.multiproof

/-- The sigma columns are made from the permutation `tau` of the cells of the copied columns on the usable rows. -/
def MadeFrom {m u : Nat} (d : Domain F) (deltas : List F) (sigmas : List (ProverOracle F))
    (tau : Equiv.Perm (Fin m × Fin u)) : Prop :=
  ∀ c, cell sigmas c = cellId d deltas (tau c)

/-- The sigma columns encode the permutation `tau` of the cells of the copied columns on the usable rows, and different
cells have different identities. -/
def Encodes {m u : Nat} (d : Domain F) (deltas : List F) (sigmas : List (ProverOracle F))
    (tau : Equiv.Perm (Fin m × Fin u)) : Prop :=
  MadeFrom d deltas sigmas tau ∧ Function.Injective (cellId d deltas : Fin m × Fin u → F)

/-- Cells that are permuted into each other have equal values. -/
def CopiesHold {m u : Nat} (v : ProverView F) (tau : Equiv.Perm (Fin m × Fin u)) : Prop :=
  ∀ c, cell (v.witness.filter (·.shouldPermute)) (tau c) = cell (v.witness.filter (·.shouldPermute)) c

/-- For every lookup and every usable row, the values of the looked-up expressions in this row are, in order, the cells
of the table columns in some usable row. -/
def LookupsHold (n u : Nat) (v : ProverView F) (lookups : List (GenericLookupVO F)) : Prop :=
  ∀ l ∈ lookups, ∀ es ts, l.getExpressions = .ok es → l.getTableQueries = .ok ts → ∀ i < u, ∃ j < u,
    List.Forall₂ (fun (e : Expr F) (t : OracleQuery) => ∃ y : OracleQuery → F,
      (∀ q ∈ e.queries, ReadsCell n v i q (y q)) ∧
      ∃ o, Resolves v.table t.label o ∧ o.evals[j]? = some (e.denote id y)) es ts

/-- The fragment of circuits soundness is stated for. Compared with `Supported`, the polynomials may have up to `D`
coefficients, as many as the commitment scheme allows, labels may coincide and nothing is assumed about the extended domain. -/
structure Enforced (d : Domain F) (D : Nat) (index : Index F) (v : ProverView F) (sigmas : List (ProverOracle F))
    (qBlind : ProverOracle F) (vos : List (GenericVO F)) (zh : F[X]) : Prop where
  /-- the stored values are those of the polynomials, which have at most `D` coefficients -/
  columns : ∀ o ∈ v.witness ++ v.inst ++ v.fixed ++ v.table ++ sigmas, Interpolates d o ∧ o.poly.length ≤ D
  /-- the polynomial of the blinding selector has at most `D` coefficients -/
  selector : qBlind.poly.length ≤ D
  /-- sigmas are opened at the challenge -/
  unrotated : ∀ o ∈ sigmas, OpenedUnrotated o
  /-- gates are configured and their queries can be answered -/
  gates : ∀ vo ∈ vos, ∃ e, vo.getExpression = .ok e ∧ ∀ q ∈ e.queries, Answerable d.size v q
  /-- copied columns are opened at the challenge -/
  copied : ∀ o ∈ v.witness, o.shouldPermute = true → OpenedUnrotated o
  /-- there are as many sigmas and cosets as copied columns -/
  shape : (∃ o ∈ v.witness, o.shouldPermute = true) →
    sigmas.length = (v.witness.filter (·.shouldPermute)).length ∧
    index.perm.deltas.length = (v.witness.filter (·.shouldPermute)).length
  /-- lookups are configured, their queries can be answered and only witness columns are rotated -/
  lookups : ∀ l ∈ index.lookups, ∃ es ts, l.getExpressions = .ok es ∧ l.getTableQueries = .ok ts ∧
    es.length = ts.length ∧
    (∀ e ∈ es, ∀ q ∈ e.queries, Answerable d.size v q ∧ (q.oracleType ≠ .witness → q.rotation.degree = 0)) ∧
    ∀ t ∈ ts, t.oracleType = .fixed ∧ ∃ o, Resolves v.table t.label o ∧ OpenedUnrotated o
  /-- the last usable row exists -/
  usable : index.perm.usableRows < d.size
  /-- if something is copied or looked up, the blinding selector is a column, is opened at the challenge and marks exactly the
  rows after the last usable row, and the polynomial of the key vanishes on the others -/
  blinding : (∃ o ∈ v.witness, o.shouldPermute = true) ∨ index.lookups ≠ [] → (Interpolates d qBlind ∧ OpenedUnrotated qBlind) ∧
    (∀ i < d.size, qBlind.evals[i]? = some (blinding index.perm.usableRows i)) ∧
    ∀ i ≤ index.perm.usableRows, zh.eval (d.omega ^ i) = 0

/-- Bounds for the degrees of the expressions of a circuit over polynomials with at most `D` coefficients: gates have
degree at most `B`, looked-up expressions less than `N` and at most `K` components. The same bound `B` covers the
constraints of the two arguments. -/
structure DegreeBounds (d : Domain F) (D N B K : Nat) (index : Index F) (vos : List (GenericVO F)) : Prop where
  rows : d.size ≤ N
  coefficients : D ≤ N
  gates : ∀ vo ∈ vos, ∀ e, vo.getExpression = .ok e → ∃ k ≤ B, e.degree (fun _ => .ok (D - 1)) = .ok k
  lookups : ∀ l ∈ index.lookups, ∀ es, l.getExpressions = .ok es → es.length ≤ K ∧
    ∀ e ∈ es, ∃ k < N, e.degree (fun _ => .ok (D - 1)) = .ok k
  permutation : (index.perm.maxCols + 2) * (N - 1) ≤ B
  lookup : 4 * (N - 1) ≤ B

/-- The list of commitments is made from the list of polynomials, with some randomness. -/
def CommitsTo {S : Scheme F} (com : F[X] → S.Rand → S.Comm) (ps : List F[X]) (cs : List S.Comm) : Prop :=
  List.Forall₂ (fun p c => ∃ r, c = com p r) ps cs

/-- The commitments of the proof are made from these polynomials: the witness columns, the permuted columns of the
lookups, the grand products of the permutation argument and of the lookups, and the parts of the quotient. Nothing is
said about the evaluations in the proof. -/
structure MadeOf {S : Scheme F} (com : F[X] → S.Rand → S.Comm) (witness : List F[X]) (lookups zs lookupZs quotient : List F[X])
    (proof : TPProof S) : Prop where
  witness : CommitsTo com witness proof.witnessCommitments
  lookups : CommitsTo com lookups proof.lookupCommitments
  zs : CommitsTo com zs proof.zCommitments
  lookupZs : CommitsTo com lookupZs proof.lookupZCommitments
  quotient : CommitsTo com quotient proof.quotientCommitments

/-- The claimed evaluations of an oracle are those of the polynomial behind its commitment. -/
def TrueClaims [LinearOrder F] {S : Scheme F} (com : F[X] → S.Rand → S.Comm) (d : Domain F) (xi : F) (w : VerifierOracle F S.Comm) : Prop :=
  ∀ p r, w.commitment = some (com p r) → ∀ ro ∈ w.rotations,
    w.query (xi * d.omega ^ ro.signed) = .ok (p.eval (xi * d.omega ^ ro.signed))

open Classical in
/-- At most `k` of every `t` pairs in a row: of the `t^2` pairs from a finite set of `t` elements at most `k * t` belong
to the set. -/
def FewPairs (k : Nat) (bad : Set (F × F)) : Prop :=
  ∀ T : Finset F, ((T ×ˢ T).filter (· ∈ bad)).card ≤ k * T.card

end
end ZK
