import Mathlib.Algebra.Polynomial.Basic
import Mathlib.RingTheory.RootsOfUnity.PrimitiveRoots
import Verif.Model.TurboPlonk
/-! Vocabulary of the theorem statements that is independent of the transcribed code. -/
set_option autoImplicit false
namespace ZK
open Polynomial

/-- The polynomial with the given coefficients, lowest degree first. -/
noncomputable def toPoly {F : Type} [Field F] (p : List F) : F[X] :=
  p.foldr (fun c acc => C c + X * acc) 0

/-- What arkworks guarantees about the parameters of an FFT-friendly prime field: the root of unity has
exact order `2 ^ adicity`, and the multiplicative generator of the field is not itself such a root
(true whenever the multiplicative group is not a 2-group). -/
class LawfulFft (F : Type) [Field F] [FftParams F] : Prop where
  root_prim : IsPrimitiveRoot (FftParams.root : F) (2 ^ FftParams.adicity F)
  gen_ne_zero : (FftParams.gen : F) ≠ 0
  gen_pow : (FftParams.gen : F) ^ (2 ^ FftParams.adicity F) ≠ 1

/-- The domains arkworks can build for this field. -/
def Domain.Ok {F : Type} [Field F] [FftParams F] (d : Domain F) : Prop :=
  ∃ j ≤ FftParams.adicity F, d = ⟨2 ^ j, (FftParams.root : F) ^ (2 ^ (FftParams.adicity F - j))⟩

/-- Rows moved by a rotation: forward for plus, backward for minus. -/
def Rotation.signed (r : Rotation) : ℤ :=
  match r.sign with
  | .plus => (r.degree : ℤ)
  | .minus => -(r.degree : ℤ)

end ZK
