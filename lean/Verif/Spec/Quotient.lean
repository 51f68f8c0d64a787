import Mathlib.LinearAlgebra.Lagrange
import Verif.Spec.Constraints
import Verif.Spec.Lookup
import Verif.Spec.Expression
import Verif.Model.TurboPlonk
/-!
The constraint system of a whole circuit, written over polynomials: what the quotient is a quotient of.
The specification part (`CircuitPolys`, `aggregate`, `CircuitPolys.numerator`) uses the transcribed code only
for the parameters of the permutation argument and for cutting a list into chunks.
-/
set_option autoImplicit false
set_option linter.unusedSectionVars false
namespace ZK
open Polynomial

/-- The constraints of a circuit added up with powers of `alpha`. With `G` gates and `m` grand products:
gate `i` has the weight `alpha^i`, the permutation constraint `j` the weight `alpha^(G + j)` and the
constraint `j` of lookup `k` the weight `alpha^(G + 2 m + 5 k + j)`.
There are `2 m + 1` permutation constraints: the last of them and the first constraint of the first lookup
have the same weight. -/
def aggregate {R : Type} [CommRing R] (alpha : R) (gates perm : List R) (m : Nat) (lookups : List (List R)) : R :=
  (gates.zipIdx.map (fun g => alpha ^ g.2 * g.1)).sum
  + (perm.zipIdx.map (fun c => alpha ^ (gates.length + c.2) * c.1)).sum
  + (lookups.zipIdx.map (fun l =>
      (l.1.zipIdx.map (fun c => alpha ^ (gates.length + 2 * m + 5 * l.2 + c.2) * c.1)).sum)).sum

section
variable {F : Type} [Field F]

/-- The polynomials a run of the protocol is about: the gate expressions with their queries replaced by
polynomials, the copied witness columns, the sigma columns, the grand products of the permutation argument,
the lookups with their grand products, and the selector of the blinding rows. -/
structure CircuitPolys (F : Type) [Field F] where
  gates : List F[X]
  ws : List F[X]
  sigmas : List F[X]
  zs : List F[X]
  lookups : List (LookupPolys F × F[X])
  qBlind : F[X]

/-- The polynomial of degree below `n` that is one on row `i` and zero on the other rows. -/
noncomputable def rowPoly (d : Domain F) (i : Nat) : F[X] :=
  Lagrange.basis (Finset.range d.size) (fun k => d.omega ^ k) i

/-- The columns of the permutation argument with their identity polynomials `delta * X`, in chunks. -/
noncomputable def CircuitPolys.columns (c : CircuitPolys F) (p : PermutationArgument F) :
    List (List (PermCol F[X])) :=
  (chunks p.maxCols (List.zip (List.zip c.ws c.sigmas) p.deltas)).map
    (List.map (fun t => ⟨t.1.1, t.1.2, C t.2 * X⟩))

/-- The constraint polynomials of the permutation argument; none when no column is copied. -/
noncomputable def CircuitPolys.permutation (c : CircuitPolys F) (d : Domain F) (p : PermutationArgument F)
    (beta gamma : F) : List F[X] :=
  if c.ws = [] then [] else
    permConstraints (C beta) (C gamma) (rowPoly d 0) (rowPoly d p.usableRows) c.qBlind
      (fun j => c.zs.getD j 0) (fun j => shifted d (c.zs.getD j 0) .next)
      (fun j => shifted d (c.zs.getD j 0) ⟨p.usableRows, .plus⟩) (c.columns p)

/-- The constraint polynomials of one lookup, with the last usable row `u`. -/
noncomputable def lookupPolys (d : Domain F) (u : Nat) (qBlind : F[X]) (beta gamma : F)
    (l : LookupPolys F × F[X]) : List F[X] :=
  lookupConstraints (C beta) (C gamma) (rowPoly d 0) (rowPoly d u) qBlind
    ⟨l.1.a, l.1.s, l.1.aPrime, shifted d l.1.aPrime .prev, l.1.sPrime, l.2, shifted d l.2 .next⟩

/-- The aggregated constraint polynomial. -/
noncomputable def CircuitPolys.numerator (c : CircuitPolys F) (d : Domain F) (p : PermutationArgument F)
    (alpha beta gamma : F) : F[X] :=
  aggregate (C alpha) c.gates (c.permutation d p beta gamma) c.zs.length
    (c.lookups.map (lookupPolys d p.usableRows c.qBlind beta gamma))

/-- The number of different weights: powers of alpha from `alpha^0` on. -/
def CircuitPolys.weights (c : CircuitPolys F) : Nat :=
  c.gates.length + (if c.lookups = [] then (if c.ws = [] then 0 else 2 * c.zs.length + 1)
    else 2 * c.zs.length + 5 * c.lookups.length)

/-- `sum_i X^(n i) q_i`. -/
noncomputable def recombine (n : Nat) (qs : List F[X]) : F[X] :=
  (qs.zipIdx.map (fun q => X ^ (n * q.2) * q.1)).sum

/-! ### Which polynomials the prover's and the verifier's oracles stand for -/

/-- The prover's oracles are honest and stand for the polynomials `c`. -/
structure ProverPolys [FftParams F] (d ext : Domain F) (v : ProverView F) (vos : List (GenericVO F))
    (sigmas : List (ProverOracle F)) (qBlind : ProverOracle F) (r : ProverRounds F) (c : CircuitPolys F) :
    Prop where
  gates : List.Forall₂ (fun (vo : GenericVO F) g => ∃ e P, vo.getExpression = .ok e ∧
    QueryPolys d ext v e.queries P ∧ g = e.denote C P) vos c.gates
  ws : List.Forall₂ (fun o p => Honest d ext o ∧ p = toPoly o.poly) (v.witness.filter (·.shouldPermute)) c.ws
  sigmas : List.Forall₂ (fun o p => Honest d ext o ∧ p = toPoly o.poly) sigmas c.sigmas
  zs : List.Forall₂ (fun o p => Honest d ext o ∧ p = toPoly o.poly) r.zs c.zs
  lookups : List.Forall₂ (fun (l : LookupOracles (ProverOracle F)) (p : LookupPolys F × F[X]) =>
    (Honest d ext l.a ∧ p.1.a = toPoly l.a.poly) ∧ (Honest d ext l.s ∧ p.1.s = toPoly l.s.poly) ∧
    (Honest d ext l.aPrime ∧ p.1.aPrime = toPoly l.aPrime.poly) ∧
    (Honest d ext l.sPrime ∧ p.1.sPrime = toPoly l.sPrime.poly)) r.lookups c.lookups
  lookupZs : List.Forall₂ (fun o (p : LookupPolys F × F[X]) => Honest d ext o ∧ p.2 = toPoly o.poly)
    r.lookupZs c.lookups
  qBlind : OnCoset d ext qBlind ∧ c.qBlind = toPoly qBlind.poly

/-- The parameters of the permutation argument fit the circuit: as many sigma columns and column
coefficients as copied columns, one grand product for every chunk of columns, and a row that exists as the
last usable row. -/
structure CircuitPolys.Fits (c : CircuitPolys F) (d : Domain F) (p : PermutationArgument F) : Prop where
  usable : p.usableRows < d.size
  gates : c.gates ≠ []
  zs : c.ws = [] → c.zs = []
  cols : c.ws ≠ [] → 0 < p.maxCols ∧ c.ws.length = c.sigmas.length ∧ c.ws.length = p.deltas.length ∧
    c.zs.length = (chunks p.maxCols c.ws).length

/-- The verifier's oracles answer at the evaluation challenge `xi` (and at its rotations) with the values of
the polynomials `c` and `qs`. -/
structure VerifierPolys [DecidableEq F] {S : Scheme F} (d : Domain F) (st : VState S)
    (is : List (InstanceVerifierOracle F)) (vos : List (GenericVO F)) (xi : F) (u : Nat) (c : CircuitPolys F)
    (qs : List F[X]) : Prop where
  gates : List.Forall₂ (fun (vo : GenericVO F) g => ∃ e P, vo.getExpression = .ok e ∧
    VerifierAnswers d ⟨st.witness, is, st.pre.fixed, st.pre.table⟩ xi e.queries P ∧ g = e.denote C P) vos c.gates
  ws : List.Forall₂ (fun o p => o.query xi = .ok (p.eval xi)) (st.witness.filter (·.shouldPermute)) c.ws
  sigmas : List.Forall₂ (fun o p => o.query xi = .ok (p.eval xi)) st.pre.perm c.sigmas
  zs : List.Forall₂ (fun o p => o.query xi = .ok (p.eval xi) ∧
    o.query (d.omega * xi) = .ok (p.eval (d.omega * xi))) st.zs c.zs
  zsU : ∀ (j : Nat) (o : VerifierOracle F S.Comm) (p : F[X]), j + 1 < c.zs.length → st.zs[j]? = some o →
    c.zs[j]? = some p → o.query (d.omega ^ u * xi) = .ok (p.eval (d.omega ^ u * xi))
  lookups : List.Forall₂ (fun (l : LookupOracles (VerifierOracle F S.Comm)) (p : LookupPolys F × F[X]) =>
    l.a.query xi = .ok (p.1.a.eval xi) ∧ l.s.query xi = .ok (p.1.s.eval xi) ∧
    l.aPrime.query xi = .ok (p.1.aPrime.eval xi) ∧
    l.aPrime.query (d.omega⁻¹ * xi) = .ok (p.1.aPrime.eval (d.omega⁻¹ * xi)) ∧
    l.sPrime.query xi = .ok (p.1.sPrime.eval xi)) st.lookups c.lookups
  lookupZs : List.Forall₂ (fun o (p : LookupPolys F × F[X]) => o.query xi = .ok (p.2.eval xi) ∧
    o.query (d.omega * xi) = .ok (p.2.eval (d.omega * xi))) st.lookupZs c.lookups
  qBlind : c.ws ≠ [] ∨ c.lookups ≠ [] → st.pre.qBlind.query xi = .ok (c.qBlind.eval xi)
  quotient : List.Forall₂ (fun o p => o.query xi = .ok (p.eval xi)) st.quotient qs

end
end ZK
