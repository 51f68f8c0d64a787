import Verif.Spec.System
/-! Vocabulary for the lookup argument. -/
set_option autoImplicit false
namespace ZK
open Polynomial
variable {F : Type} [Field F]

/-- The polynomials of one lookup: compressed input, compressed table, permuted input, permuted table. -/
structure LookupPolys (F : Type) [Field F] where
  a : F[X]
  s : F[X]
  aPrime : F[X]
  sPrime : F[X]

/-- The four oracles of a lookup answer on the rows of the domain with the four polynomials. -/
def LookupPolys.Answered {C : Type} [DecidableEq F] (d : Domain F) (p : LookupPolys F)
    (l : LookupOracles (VerifierOracle F C)) : Prop :=
  AnswersRows d l.a p.a ∧ AnswersRows d l.s p.s ∧ AnswersRows d l.aPrime p.aPrime ∧
    AnswersRows d l.sPrime p.sPrime

/-- The verifier's evaluation of a lookup is zero on every row for all weights, with the selector of the
last usable row placed at row `uSel`. -/
def LookupHolds {C : Type} [DecidableEq F] (d : Domain F) (uSel : Nat) (qBlind : VerifierOracle F C)
    (l : LookupOracles (VerifierOracle F C)) (z : VerifierOracle F C) (beta gamma : F) : Prop :=
  ∀ i < d.size, ∀ alphas : List F, alphas.length = 5 →
    lookupOpen (selector i 0) (selector i uSel) qBlind l z beta gamma (d.omega ^ i) d alphas = .ok 0

/-- The verifier's oracles answer the queries of the list at `xi` with the values of the polynomials `P`
(which contain the rotation): witness and fixed oracles by what has been registered at the rotated point,
instance oracles by evaluating their own polynomial. -/
def VerifierAnswers {C : Type} [DecidableEq F] (d : Domain F) (v : VerifierView F C) (xi : F)
    (qs : List OracleQuery) (P : OracleQuery → F[X]) : Prop :=
  ∀ q ∈ qs, q.rotation.degree < d.size ∧
    (q.oracleType = .witness → ∃ o, Resolves v.witness q.label o ∧
      o.query (xi * d.omega ^ q.rotation.signed) = .ok ((P q).eval xi)) ∧
    (q.oracleType = .fixed → ∃ o, Resolves v.fixed q.label o ∧
      o.query (xi * d.omega ^ q.rotation.signed) = .ok ((P q).eval xi)) ∧
    (q.oracleType = .instance_ → ∃ o, Resolves v.inst q.label o ∧
      P q = shifted d (toPoly o.poly) q.rotation)

end ZK
