import Verif.Model.Setup
import Verif.Spec.Algebraic
/-! Vocabulary for the soundness error of a test with KZG commitments (specification of C84). -/
set_option autoImplicit false
open Polynomial
namespace ZK

/-- The representation of a commitment: the polynomial and the blinding polynomial. -/
abbrev algCom (F : Type) [Field F] : F[X] → (algScheme F).Rand → (algScheme F).Comm := fun p r => (p, r)

/-- All powers that were published. The committer key keeps all powers of `g` and three of `gammaG`. -/
def KzgSrs.key {G G2 : Type} (srs : KzgSrs G G2) : KzgKey G := ⟨srs.powers, srs.gammaPowers⟩

end ZK
