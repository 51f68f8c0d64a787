import Mathlib.Algebra.Field.Defs
import Mathlib.Algebra.Field.Basic
import Mathlib.Algebra.BigOperators.Group.List.Basic
import Verif.Model.Collections
/-!
Dense polynomials as coefficient lists (low degree first) and radix-2 evaluation domains: the part of
arkworks (`ark_poly`) the crate relies on.
-/
set_option autoImplicit false
namespace ZK

/-- Parameters of an FFT-friendly prime field used by arkworks: two-adicity, a root of unity of order
`2 ^ adicity` and the multiplicative generator. -/
class FftParams (F : Type) where
  adicity : Nat
  root : F
  gen : F

section
variable {F : Type} [Field F]

/-! ### Dense polynomials -/

/-- `DensePolynomial::evaluate` (Horner). -/
def peval (p : List F) (x : F) : F := p.foldr (fun c acc => c + x * acc) 0

/-- Addition of coefficient lists. -/
def padd : List F → List F → List F
  | [], q => q
  | p, [] => p
  | a :: p, b :: q => (a + b) :: padd p q

/-- Multiplication by a scalar (`&DensePolynomial * F`). -/
def pscale (c : F) (p : List F) : List F := p.map (fun a => a * c)

/-- Product of coefficient lists. -/
def pmul : List F → List F → List F
  | [], _ => []
  | a :: p, q => padd (pscale a q) (0 :: pmul p q)

/-- Removal of trailing zeros: what `DensePolynomial::from_coefficients_slice/vec` does. -/
def trim [DecidableEq F] (p : List F) : List F :=
  p.foldr (fun c acc => match acc with
    | [] => if c = 0 then [] else [c]
    | b :: t => c :: b :: t) []

/-- `DensePolynomial::degree` (0 for the zero polynomial). -/
def pdegree [DecidableEq F] (p : List F) : Nat := (trim p).length - 1

/-- One-pass long division by `d = dlow + lead * X^m`, `dlow` of length `m`: returns quotient and a
remainder of length `m`. -/
def divModAux (dlow : List F) (leadInv : F) : List F → List F × List F
  | [] => ([], dlow.map (fun _ => 0))
  | c :: cs =>
    let (q, r) := divModAux dlow leadInv cs
    -- c + X * r has length m + 1; its top coefficient decides the next quotient coefficient
    let r' := c :: r
    let top := r'.getLast?.getD 0
    let t := top * leadInv
    (t :: q, List.zipWith (fun a b => a - t * b) r' dlow)

/-- `&p / &d` of `DensePolynomial`s (quotient of the euclidean division). Panics when `d = 0`. -/
def pdiv {ε : Type} [DecidableEq F] (p d : List F) : Res ε (List F) :=
  match (trim d).getLast? with
  | none => .panic
  | some lead => .ok (trim (divModAux (trim d).dropLast lead⁻¹ p).1)

/-! ### Evaluation domains -/

/-- A radix-2 evaluation domain: size and generator of the group. -/
structure Domain (F : Type) where
  size : Nat
  omega : F
  deriving DecidableEq, Repr

/-- The least `j` with `k ≤ 2^j`. -/
def clog2 (k : Nat) : Nat := ((List.range (k + 1)).find? (fun j => decide (k ≤ 2 ^ j))).getD 0

/-- `GeneralEvaluationDomain::new(k)`: size `k` rounded up to a power of two (1 for `k = 0`), `None`
when the field has no subgroup of that size. Only the radix-2 case is modelled. -/
def Domain.new [FftParams F] (k : Nat) : Option (Domain F) :=
  let j := clog2 k
  let s := FftParams.adicity F
  if j ≤ s then some ⟨2 ^ j, (FftParams.root : F) ^ (2 ^ (s - j))⟩ else none

/-- `domain.element(i)`. -/
def Domain.element (d : Domain F) (i : Nat) : F := d.omega ^ i

/-- `domain.elements().collect()`. -/
def Domain.elements (d : Domain F) : List F := (List.range d.size).map d.element

/-- `vec.resize(n, 0)`. -/
def resize (n : Nat) (p : List F) : List F := p.take n ++ List.replicate (n - p.length) 0

/-- `domain.fft`: resize to the domain size, then evaluate at every element. -/
def Domain.fft (d : Domain F) (p : List F) : List F :=
  (List.range d.size).map (fun i => peval (resize d.size p) (d.element i))

/-- `domain.ifft`: coefficients `n⁻¹ * Σ_i v_i ω^(-ij)`. -/
def Domain.ifft (d : Domain F) (v : List F) : List F :=
  (List.range d.size).map (fun j => (d.size : F)⁻¹ * peval (resize d.size v) (d.omega⁻¹ ^ j))

/-- `distribute_powers(coeffs, g)`: `c_i * g^i`. -/
def distribute (g : F) : F → List F → List F
  | _, [] => []
  | acc, c :: cs => (c * acc) :: distribute g (acc * g) cs

/-- `domain.coset_fft` over the coset of the multiplicative generator. -/
def Domain.cosetFft [FftParams F] (d : Domain F) (p : List F) : List F :=
  d.fft (distribute (FftParams.gen : F) 1 p)

/-- `domain.coset_ifft`. -/
def Domain.cosetIfft [FftParams F] (d : Domain F) (v : List F) : List F :=
  distribute (FftParams.gen : F)⁻¹ 1 (d.ifft v)

/-- `domain.vanishing_polynomial().into()`: `X^n - 1` as a dense polynomial. -/
def Domain.vanishing (d : Domain F) : List F := (-1) :: (List.replicate (d.size - 1) 0 ++ [1])

/-- The unit vector of length `n` with a one at row `i`: `let mut e = vec![0; n]; e[i] = 1`
(src/piop/prover.rs 303-304, 310-311; src/turbo_plonk.rs 1125-1126, 1130-1131). -/
def unitVec {ε : Type} (n i : Nat) : Res ε (List F) :=
  if i < n then .ok ((List.range n).map (fun j => if j = i then 1 else 0)) else .panic

end
end ZK
