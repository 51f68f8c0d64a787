import Verif.Model.LookupTest
/-! What the data of the tests of the lookup argument must be like, and the product that decides them. -/
set_option autoImplicit false
namespace ZK
section
variable {F : Type} [Field F]

/-- The product of all `(x + beta)` over an input column and of all `(y + gamma)` over a table column. -/
def shiftedProduct (a s : List F) (beta gamma : F) : F := (a.map (· + beta)).prod * (s.map (· + gamma)).prod

/-- The data fit a domain of size `n`: all four columns have `u` values, which leaves at least one row free, and the extended domain is
four times as large. -/
structure SubsetTest.Wellformed (t : SubsetTest F) (n : Nat) : Prop where
  size : t.size = n
  a : t.cols.a.length = t.u
  s : t.cols.s.length = t.u
  aPrime : t.cols.aPrime.length = t.u
  sPrime : t.cols.sPrime.length = t.u
  usable : t.u < n
  scaling : 4 ≤ t.scaling

end
end ZK
