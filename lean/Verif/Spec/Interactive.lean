import Mathlib.Data.Fintype.Pi
import Verif.Spec.Soundness
import Verif.Spec.Verifier
/-!
Vocabulary for the soundness error: a prover that talks to the verifier, every message depending on the challenges
received so far, and the number of challenge tuples for which it convinces the verifier.
-/
set_option autoImplicit false
set_option linter.unusedSectionVars false
namespace ZK
open Polynomial

section
variable {F : Type} [Field F]

/-- A prover in the interactive argument. The verifier sends theta; beta and gamma; alpha; xi; `x1` and `x2`; `x3`; `x4`. Every
message of the prover is a function of the list of the challenges received before: the permuted columns of the lookups, the
grand products of the permutation argument and of the lookups, the parts of the quotient, the claimed evaluations together with
all commitments (the field `multiopen` of this proof is not used), the polynomial `f` with the randomness of its commitment,
the values `q`, and the final opening. The witness columns are fixed before the first challenge. -/
structure Strategy (S : Scheme F) where
  lookups : List F → List F[X]
  products : List F → List F[X]
  lookupProducts : List F → List F[X]
  quotient : List F → List F[X]
  claims : List F → TPProof S
  f : List F → F[X] × S.Rand
  q : List F → List F
  opening : List F → S.Proof

namespace Strategy
variable {S : Scheme F}

/-- The proof which the verifier has got at the end, for the challenges `c`. -/
def proof (P : Strategy S) (com : F[X] → S.Rand → S.Comm) (c : Fin 9 → F) : TPProof S :=
  { P.claims [c 0, c 1, c 2, c 3, c 4] with
    multiopen := ⟨P.q [c 0, c 1, c 2, c 3, c 4, c 5, c 6, c 7],
      com (P.f [c 0, c 1, c 2, c 3, c 4, c 5, c 6]).1 (P.f [c 0, c 1, c 2, c 3, c 4, c 5, c 6]).2,
      P.opening [c 0, c 1, c 2, c 3, c 4, c 5, c 6, c 7, c 8]⟩ }

/-- What the prover has to obey: its polynomials have at most `D` coefficients, the quotient has at most `Q` parts, the commitments
it sends are made from its polynomials, and it sends at least one value `q` for every opening set. -/
structure Legal [LinearOrder F] [FftParams F] (P : Strategy S) (com : F[X] → S.Rand → S.Comm) (D Q : Nat) (vk : VerifierKey S)
    (pre : VerifierPreprocessed S) (ws : List (VerifierOracle F S.Comm)) (is : List (InstanceVerifierOracle F)) (domainSize : Nat)
    (witness : List F[X]) : Prop where
  lookups : ∀ cs, ∀ p ∈ P.lookups cs, p.degree < D
  products : ∀ cs, ∀ p ∈ P.products cs, p.degree < D
  lookupProducts : ∀ cs, ∀ p ∈ P.lookupProducts cs, p.degree < D
  quotient : ∀ cs, ∀ p ∈ P.quotient cs, p.degree < D
  parts : ∀ cs, (P.quotient cs).length ≤ Q
  f : ∀ cs, (P.f cs).1.degree < D
  made : ∀ theta beta gamma alpha xi, MadeOf com witness (P.lookups [theta]) (P.products [theta, beta, gamma])
    (P.lookupProducts [theta, beta, gamma]) (P.quotient [theta, beta, gamma, alpha]) (P.claims [theta, beta, gamma, alpha, xi])
  enough : ∀ theta beta gamma alpha xi x1 x2 x3 st,
    verifyRegister S vk pre (P.claims [theta, beta, gamma, alpha, xi]) ws is domainSize ⟨theta, beta, gamma, alpha, xi⟩ = .ok st →
    distinctRotations st.oracles ≤ (P.q [theta, beta, gamma, alpha, xi, x1, x2, x3]).length

end Strategy

/-- The sets of rotations the columns of the circuit, the quotient, the permuted columns of the lookups and the grand products
are opened at. -/
def rotationSets {C : Type} (os : List (VerifierOracle F C)) (usableRows : Nat) : Finset (List Rotation) :=
  (os.map (fun (o : VerifierOracle F C) => o.rotations) ++ [setExtend [] [Rotation.curr], setExtend [] [Rotation.curr, Rotation.prev],
    setExtend [] [Rotation.curr, Rotation.next],
    setInsert (⟨usableRows, .plus⟩ : Rotation) (setExtend [] [Rotation.curr, Rotation.next])]).toFinset

end
end ZK
