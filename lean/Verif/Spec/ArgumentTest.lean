import Mathlib.Algebra.BigOperators.Group.Finset.Defs
import Verif.Model.ArgumentTest
import Verif.Spec.CircuitTest
/-! Vocabulary for the tests of one argument. -/
set_option autoImplicit false
namespace ZK
section
variable {F : Type} [Field F]

/-- There is a column, there are as many sigmas and deltas as columns, every column has `n` values, and not all rows are usable. -/
structure PermutationTest.Wellformed (t : PermutationTest F) (n : Nat) : Prop where
  size : t.size = n
  some : t.columns ≠ []
  sigmas : t.sigmas.length = t.columns.length
  deltas : t.deltas.length = t.columns.length
  columnRows : ∀ c ∈ t.columns, c.2.length = n
  sigmaRows : ∀ c ∈ t.sigmas, c.2.length = n
  usable : t.u < n
  scaling : 2 ≤ t.scaling

/-- The product of `w + beta * delta * omega^row + gamma` over all cells. -/
def PermutationTest.idProduct (t : PermutationTest F) (d : Domain F) (beta gamma : F) : F :=
  ∏ k ∈ Finset.range t.columns.length, ∏ i ∈ Finset.range t.u,
    (valueAt t.columns k i + beta * (t.deltas.getD k 0 * d.omega ^ i) + gamma)

/-- The product of `w + beta * sigma + gamma` over all cells. -/
def PermutationTest.sigmaProduct (t : PermutationTest F) (beta gamma : F) : F :=
  ∏ k ∈ Finset.range t.columns.length, ∏ i ∈ Finset.range t.u,
    (valueAt t.columns k i + beta * valueAt t.sigmas k i + gamma)

/-- The sigmas name the cell each cell is sent to. -/
def PermutationTest.Encodes (t : PermutationTest F) (d : Domain F) (tau : Equiv.Perm (Fin t.columns.length × Fin t.u)) : Prop :=
  ∀ c, valueAt t.sigmas c.1 c.2 = t.deltas.getD (tau c).1 0 * d.omega ^ ((tau c).2 : Nat)

/-- Cells that are sent to each other have equal values. -/
def PermutationTest.Copies (t : PermutationTest F) (tau : Equiv.Perm (Fin t.columns.length × Fin t.u)) : Prop :=
  ∀ c, valueAt t.columns (tau c).1 (tau c).2 = valueAt t.columns c.1 c.2

/-- Different cells have different names. -/
def PermutationTest.Named (t : PermutationTest F) (d : Domain F) : Prop :=
  Function.Injective (fun c : Fin t.columns.length × Fin t.u => t.deltas.getD c.1 0 * d.omega ^ (c.2 : Nat))

end
end ZK
