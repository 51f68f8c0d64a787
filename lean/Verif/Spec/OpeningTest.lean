import Verif.Model.OpeningTest
import Verif.Spec.Basic
/-! Specification of C87: the data of the test of the multi-point opening. -/
set_option autoImplicit false
namespace ZK
section
variable {F : Type} [Field F]

/-- The points at which the polynomials are opened. -/
def OpeningTest.opened (d : Domain F) (t : OpeningTest F) : Set F :=
  {p | ∃ c ∈ t.columns, ∃ r ∈ c.rotations, p = t.xi * d.omega ^ r.signed}

/-- The test is written for the domain `d`: the polynomials have at most `n` coefficients, the rotations are below the size of the domain, and
the verifier's oracles know the values at the points of the rotations. -/
structure OpeningTest.Wellformed (d : Domain F) (n : Nat) (t : OpeningTest F) : Prop where
  size : t.size = d.size
  coefficients : ∀ c ∈ t.columns, c.poly.length ≤ n
  rotations : ∀ c ∈ t.columns, ∀ r ∈ c.rotations, r.degree < d.size
  points : ∀ c ∈ t.columns, ∀ r ∈ c.rotations, t.xi * d.omega ^ r.signed ∈ c.points

/-- Different rotations of a polynomial lead to different points. -/
def OpeningTest.Separated (d : Domain F) (t : OpeningTest F) : Prop :=
  ∀ c ∈ t.columns, ∀ r ∈ c.rotations, ∀ r' ∈ c.rotations, t.xi * d.omega ^ r.signed = t.xi * d.omega ^ r'.signed → r = r'

end
end ZK
