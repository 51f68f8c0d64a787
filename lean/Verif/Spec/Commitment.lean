import Verif.Model.Commitment
import Verif.Spec.Basic
import Mathlib.Algebra.BigOperators.Fin
/-! What a KZG commitment and a correctly generated key are. -/
set_option autoImplicit false
namespace ZK
open Polynomial

section
variable {F : Type} [Field F] {G : Type} [AddCommGroup G] [Module F G]

/-- The commitment of the polynomial `p` with blinding polynomial `r`: every coefficient times its power. -/
noncomputable def kzgCom (key : KzgKey G) (p r : F[X]) : G :=
  ∑ i : Fin key.powers.length, p.coeff i • key.powers[i] +
    ∑ i : Fin key.gammaPowers.length, r.coeff i • key.gammaPowers[i]

/-- A correctly generated pair of keys with secret `beta`. -/
structure KzgSetup {G2 : Type} [AddCommGroup G2] [Module F G2] (beta : F) (key : KzgKey G) (vk : KzgVk G G2) :
    Prop where
  powers : ∀ i (h : i < key.powers.length), key.powers[i] = beta ^ i • vk.g
  gammaPowers : ∀ i (h : i < key.gammaPowers.length), key.gammaPowers[i] = beta ^ i • vk.gammaG
  betaH : vk.betaH = beta • vk.h

end
end ZK
