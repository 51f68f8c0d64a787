import Verif.Spec.Lookup
/-! Vocabulary for property C49: polynomials that agree on some rows. -/
set_option autoImplicit false
namespace ZK
open Polynomial

/-- The two polynomials take the same value on each of the first `n` rows. -/
def AgreeRows {F : Type} [Field F] (d : Domain F) (n : Nat) (P Q : F[X]) : Prop :=
  ∀ i < n, P.eval (d.omega ^ i) = Q.eval (d.omega ^ i)

end ZK
