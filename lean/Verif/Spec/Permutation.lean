import Mathlib.Logic.Equiv.Defs
import Mathlib.Algebra.Polynomial.Eval.Defs
import Verif.Spec.Basic
/-! Vocabulary for the permutation and lookup arguments. -/
set_option autoImplicit false
namespace ZK
open Polynomial
variable {F : Type} [Field F]

/-- The values stored with a prover oracle are the values of its polynomial on the rows of the domain. -/
def Interpolates (d : Domain F) (o : ProverOracle F) : Prop :=
  o.evals.length = d.size ∧ ∀ i < d.size, o.evals[i]? = some ((toPoly o.poly).eval (d.omega ^ i))

/-- The verifier oracle answers queries on the rows of the domain with the values of `P`. -/
def AnswersRows {C : Type} [DecidableEq F] (d : Domain F) (v : VerifierOracle F C) (P : F[X]) : Prop :=
  ∀ k : Nat, v.query (d.omega ^ k) = .ok (P.eval (d.omega ^ k))

/-- One on row `j`, zero elsewhere. -/
def selector (i j : Nat) : F := if i = j then 1 else 0

/-- The blinding selector: one exactly on the rows after the last usable row `u`. -/
def blinding (u i : Nat) : F := if i ≤ u then 0 else 1

/-- The identity value of a cell: `delta_column * omega ^ row`. -/
def cellId (d : Domain F) (deltas : List F) {m u : Nat} (c : Fin m × Fin u) : F :=
  deltas.getD c.1 0 * d.omega ^ (c.2 : Nat)

/-- The value in column `k` and row `r` of a list of columns. -/
def colVal (cols : List (ProverOracle F)) (k r : Nat) : F :=
  ((cols.map (·.evals)).getD k []).getD r 0

/-- The value of a cell of a list of columns. -/
def cell (cols : List (ProverOracle F)) {m u : Nat} (c : Fin m × Fin u) : F := colVal cols c.1 c.2

/-- The factor column `k` contributes in row `r`:
`(w + beta * delta * omega^r + gamma) / (w + beta * sigma + gamma)`. -/
def copyRatio (d : Domain F) (beta gamma : F) (deltas : List F) (ws sigmas : List (ProverOracle F))
    (k r : Nat) : F :=
  (colVal ws k r + beta * (deltas.getD k 0 * d.omega ^ r) + gamma)
    / (colVal ws k r + beta * colVal sigmas k r + gamma)

/-- The value a polynomial takes in a cell. -/
noncomputable def cellOf (d : Domain F) {m u : Nat} (ps : List F[X]) (c : Fin m × Fin u) : F :=
  (ps.getD c.1 0).eval (d.omega ^ (c.2 : Nat))

end ZK
