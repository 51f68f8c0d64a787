import Mathlib.Data.Fin.Basic
import Mathlib.Data.Fintype.Basic
import Mathlib.Data.ZMod.Defs
import Verif.Lemmas.Fft
/-! A concrete FFT-friendly field used in non-vacuity examples: the integers modulo 97, with
`96 = 2^5 * 3` and multiplicative generator 5. Everything computes in the kernel. -/
set_option autoImplicit false
namespace ZK

/-- Integers modulo 97. -/
def F97 := Fin 97

namespace F97

instance : DecidableEq F97 := inferInstanceAs (DecidableEq (Fin 97))
instance : LinearOrder F97 := inferInstanceAs (LinearOrder (Fin 97))
instance : Fintype F97 := inferInstanceAs (Fintype (Fin 97))
instance : Repr F97 := inferInstanceAs (Repr (Fin 97))
instance : CommRing F97 := Fin.instCommRing 97
instance : Inv F97 := ⟨fun x => x ^ 95⟩
instance : Nontrivial F97 := inferInstanceAs (Nontrivial (Fin 97))

set_option maxRecDepth 4000 in
instance : Field F97 where
  mul_inv_cancel := by decide +kernel
  inv_zero := by decide +kernel
  nnqsmul := _
  nnqsmul_def := fun _ _ => rfl
  qsmul := _
  qsmul_def := fun _ _ => rfl

instance : FftParams F97 where
  adicity := 5
  root := 5 ^ 3
  gen := 5

instance : LawfulFft F97 where
  root_prim := by
    have : (2 ^ FftParams.adicity F97) = 2 ^ 5 := rfl
    rw [this]
    apply IsPrimitiveRoot.iff_orderOf.2
    apply orderOf_eq_prime_pow
    · decide +kernel
    · decide +kernel
  gen_ne_zero := by decide +kernel
  gen_pow := by decide +kernel

/-- The domain with `2^j` elements. -/
def dom (j : Nat) : Domain F97 := ⟨2 ^ j, (FftParams.root : F97) ^ (2 ^ (FftParams.adicity F97 - j))⟩

theorem dom_ok {j : Nat} (h : j ≤ 5) : (dom j).Ok := ⟨j, h, rfl⟩

end F97
end ZK
