import Mathlib.Algebra.BigOperators.Group.List.Basic
import Mathlib.Algebra.Ring.Defs
/-!
The constraint systems of the permutation and lookup arguments, written once over an arbitrary
commutative ring.  With `R = F` they describe the values at a row, at a coset point or at the evaluation
challenge; with `R = F[X]` they describe the constraint polynomials.  Nothing here refers to the
transcribed code.
-/
set_option autoImplicit false
namespace ZK
section
variable {R : Type} [CommRing R]

/-- The weighted sum of constraints: `alphas[0] * cs[0] + alphas[1] * cs[1] + ...`. -/
def weighted (alphas cs : List R) : R := (List.zipWith (· * ·) alphas cs).sum

/-- One permutation column at a point: the witness value, the value of its sigma polynomial and the
identity value `delta * point`. -/
structure PermCol (R : Type) where
  w : R
  sigma : R
  ident : R

/-- `w + beta * sigma + gamma`. -/
def PermCol.den (beta gamma : R) (c : PermCol R) : R := c.w + beta * c.sigma + gamma
/-- `w + beta * ident + gamma`. -/
def PermCol.num (beta gamma : R) (c : PermCol R) : R := c.w + beta * c.ident + gamma

/-- The constraints of the permutation argument with chunked grand products `z 0, ..., z (m-1)`:

* the first grand product starts at one;
* outside the last usable row and the blinding rows each grand product is multiplied by
  numerator over denominator of its chunk;
* the next grand product starts with the value of the previous one on the last usable row;
* on the last usable row the last grand product is zero or one. -/
def permConstraints (beta gamma l0 lu qBlind : R) (z zNext zU : Nat → R)
    (chunks : List (List (PermCol R))) : List R :=
  [l0 * (1 - z 0)] ++
  chunks.zipIdx.map (fun c => (1 - (lu + qBlind)) *
    (zNext c.2 * (c.1.map (PermCol.den beta gamma)).prod - z c.2 * (c.1.map (PermCol.num beta gamma)).prod)) ++
  (List.range (chunks.length - 1)).map (fun j => l0 * (z (j + 1) - zU j)) ++
  [lu * (z (chunks.length - 1) * z (chunks.length - 1) - z (chunks.length - 1))]

/-- The values of one lookup at a point: compressed input and table, their permuted versions, the
previous permuted input, and the grand product at this point and the next. -/
structure LookupVals (R : Type) where
  a : R
  s : R
  aPrime : R
  aPrimePrev : R
  sPrime : R
  z : R
  zNext : R

/-- The five constraints of one lookup. -/
def lookupConstraints (beta gamma l0 lu qBlind : R) (v : LookupVals R) : List R :=
  [ l0 * (1 - v.z),
    (1 - (lu + qBlind)) * (v.zNext * (v.aPrime + beta) * (v.sPrime + gamma)
      - v.z * (v.a + beta) * (v.s + gamma)),
    lu * (v.z * v.z - v.z),
    l0 * (v.aPrime - v.sPrime),
    (1 - (lu + qBlind)) * (v.aPrime - v.sPrime) * (v.aPrime - v.aPrimePrev) ]

end
end ZK
