import Verif.Model.Multiopen
import Mathlib.Algebra.Module.LinearMap.Defs
/-!
The homomorphic wrapper around the KZG commitments of `ark_poly_commit` (src/commitment.rs).

The group of the curve is a module over the scalar field; affine and projective coordinates are identified.
`kzgCommitWith`, `kzgOpen` and `kzgCheck` follow `ark_poly_commit` 0.3 (`kzg10` and `sonic_pc` without degree
bounds), which is not part of the crate; they are needed to say what a commitment is.
-/
set_option autoImplicit false
namespace ZK

section
variable {F : Type} [Field F] {G : Type} [AddCommGroup G] [Module F G]

/-- `VariableBaseMSM::multi_scalar_mul`: pairs beyond the shorter argument are ignored. -/
def kzgMulti (points : List G) (scalars : List F) : G :=
  (List.zipWith (fun c k => k • c) points scalars).sum

/-! ### The crate's wrapper -/

/-- `msm`, src/commitment.rs 54-69. -/
def kzgMsm (commitments : List G) (scalars : List F) : G := kzgMulti commitments scalars

variable (F) in
/-- `neg_com`, src/commitment.rs 71-73: multiplies by `-1`. -/
def kzgNeg (c : G) : G := (-1 : F) • c

/-- `scale_com`, src/commitment.rs 75-80. -/
def kzgScale (c : G) (k : F) : G := k • c

/-- `add`, src/commitment.rs 82-84. -/
def kzgAdd (c1 c2 : G) : G := c1 + c2

/-- `zero_comm`, src/commitment.rs 86-88. -/
def kzgZero : G := 0

/-- `is_zero`, src/commitment.rs 90-92. -/
def kzgIsZero [DecidableEq G] (c : G) : Bool := decide (c = 0)

/-- `eq_cm`, src/commitment.rs 94-96. -/
def kzgEq [DecidableEq G] (c1 c2 : G) : Bool := decide (c1 = c2)

/-- `scale_rand`, src/commitment.rs 98-105. Randomness is its blinding polynomial. -/
def kzgScaleRand [DecidableEq F] (r : List F) (k : F) : List F := dscale k r

/-- `add_rands`, src/commitment.rs 107-112. -/
def kzgAddRands [DecidableEq F] (a b : List F) : List F := dadd a b

/-- `add_assign_rand`, src/commitment.rs 114-116; returns the updated `a`. -/
def kzgAddAssignRand [DecidableEq F] (a b : List F) : List F := dadd a b

/-! ### The commitment scheme -/

variable (G) in
/-- The trimmed committer key: `powers_of_g` and `powers_of_gamma_g`. -/
structure KzgKey where
  powers : List G
  gammaPowers : List G

inductive KzgErr where
  | tooManyCoefficients
  | hidingBoundTooLarge
  deriving DecidableEq, Repr

/-- `KZG10::commit` for given blinding polynomial (empty when there is no hiding bound). -/
def kzgCommitWith [DecidableEq F] (key : KzgKey G) (p r : List F) : Res KzgErr G :=
  if key.powers.length < pdegree p + 1 then .err .tooManyCoefficients
  else if key.gammaPowers.length < (trim r).length then .err .hidingBoundTooLarge
  else .ok (kzgMulti key.powers (trim p) + kzgMulti key.gammaPowers (trim r))

/-- An opening: the witness and the value of the blinding polynomial (0 when there is none). -/
structure KzgProof (F G : Type) where
  w : G
  randomV : F

/-- `KZG10::open`: divides polynomial and blinding polynomial by `X - x`. -/
def kzgOpen [DecidableEq F] (key : KzgKey G) (p : List F) (x : F) (r : List F) :
    Res KzgErr (KzgProof F G) :=
  if key.powers.length < pdegree p + 1 then .err .tooManyCoefficients
  else do
    let wp ← pdiv p [-x, 1]
    let wr ← pdiv r [-x, 1]
    pure ⟨kzgMulti key.powers wp + kzgMulti key.gammaPowers wr, peval r x⟩

/-- The verifier key. -/
structure KzgVk (G G2 : Type) where
  g : G
  gammaG : G
  h : G2
  betaH : G2

/-- `KZG10::check`: one pairing equation. -/
def kzgCheck {G2 GT : Type} [AddCommGroup G2] [Module F G2] [AddCommGroup GT] [Module F GT] [DecidableEq GT]
    (e : G →ₗ[F] G2 →ₗ[F] GT) (vk : KzgVk G G2) (c : G) (x v : F) (pf : KzgProof F G) : Bool :=
  decide (e (c - v • vk.g - pf.randomV • vk.gammaG) vk.h = e pf.w (vk.betaH - x • vk.h))

/-- `Randomness::rand` with hiding bound 1: a blinding polynomial of degree 2. -/
def kzgBlinding {Z : Type} (next : Z → F × Z) (z : Z) : List F × Z :=
  let a := next z
  let b := next a.2
  let c := next b.2
  ([a.1, b.1, c.1], c.2)

/-- `PC::commit` with a generator: every polynomial with a hiding bound gets fresh randomness. -/
def kzgCommit [DecidableEq F] {Z : Type} (next : Z → F × Z) (key : KzgKey G) :
    List (LPoly F) → Z → Res KzgErr (List (G × List F) × Z)
  | [], z => .ok ([], z)
  | p :: ps, z => do
    let b := if p.hide then kzgBlinding next z else ([], z)
    let c ← kzgCommitWith key p.poly b.1
    let rest ← kzgCommit next key ps b.2
    pure ((c, b.1) :: rest.1, rest.2)

end
end ZK
