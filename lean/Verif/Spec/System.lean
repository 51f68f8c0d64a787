import Mathlib.Algebra.Polynomial.Eval.Defs
import Verif.Spec.Basic
import Verif.Spec.Permutation
/-! Vocabulary for statements about the oracles of a whole proof. -/
set_option autoImplicit false
namespace ZK
open Polynomial

/-- `o` is the oracle a label stands for in a list: the last one carrying it. -/
def Resolves {O : Type} [ConcreteOracle O] (os : List O) (l : Label) (o : O) : Prop :=
  ∃ i : Nat, os[i]? = some o ∧ ConcreteOracle.label o = l ∧
    ∀ (j : Nat) (o' : O), i < j → os[j]? = some o' → ConcreteOracle.label o' ≠ l

section
variable {F : Type} [Field F]

/-- The polynomial `p(omega^(±k) * X)` a rotated query of `p` stands for. -/
noncomputable def shifted (d : Domain F) (p : F[X]) (r : Rotation) : F[X] :=
  p.comp (C (d.omega ^ r.signed) * X)

/-- A prover oracle whose polynomial, values on the rows and values on the coset belong together. -/
def Honest [FftParams F] (d ext : Domain F) (o : ProverOracle F) : Prop :=
  Interpolates d o ∧ o.poly.length ≤ d.size ∧ o.coset = some (ext.cosetFft o.poly)

/-- A prover oracle with its values on the coset; nothing is said about the rows. -/
def OnCoset [FftParams F] (d ext : Domain F) (o : ProverOracle F) : Prop :=
  o.poly.length ≤ d.size ∧ o.coset = some (ext.cosetFft o.poly)

/-- The list of oracles a query of the given type refers to. -/
def ProverView.oracles (v : ProverView F) : OracleType → List (ProverOracle F)
  | .witness => v.witness
  | .instance_ => v.inst
  | .fixed => v.fixed

/-- `P` gives the polynomial of every query of the list, with its rotation, over honest oracles. -/
def QueryPolys [FftParams F] (d ext : Domain F) (v : ProverView F) (qs : List OracleQuery)
    (P : OracleQuery → F[X]) : Prop :=
  ∀ q ∈ qs, q.rotation.degree < d.size ∧ ∃ o, Resolves (v.oracles q.oracleType) q.label o ∧
    Honest d ext o ∧ P q = shifted d (toPoly o.poly) q.rotation

/-- `T` gives the polynomial of every table query of the list (without its rotation). -/
def TablePolys [FftParams F] (d ext : Domain F) (v : ProverView F) (qs : List OracleQuery)
    (T : OracleQuery → F[X]) : Prop :=
  ∀ q ∈ qs, q.oracleType = .fixed ∧ ∃ o, Resolves v.table q.label o ∧ Honest d ext o ∧
    T q = toPoly o.poly

/-- The value a query reads in row `i` of a circuit with `n` rows: the cell of the resolved column in the row
reached by moving `degree` rows forward or backward cyclically, `degree < n`. -/
def ReadsCell (n : Nat) (v : ProverView F) (i : Nat) (q : OracleQuery) (y : F) : Prop :=
  q.rotation.degree < n ∧ ∃ o, Resolves (v.oracles q.oracleType) q.label o ∧
    ∃ j : Nat, (j : ℤ) = ((i : ℤ) + q.rotation.signed) % n ∧ o.evals[j]? = some y

end

/-- `l[0] + theta * l[1] + theta^2 * l[2] + ...` -/
def compress {R : Type} [CommRing R] (theta : R) (l : List R) : R :=
  l.foldr (fun a acc => a + theta * acc) 0

end ZK
