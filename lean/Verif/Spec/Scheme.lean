import Verif.Model.Multiopen
import Verif.Spec.Basic
import Verif.Spec.Ideal
/-! What is expected of a homomorphic polynomial commitment scheme. -/
set_option autoImplicit false
namespace ZK
open Polynomial

section
variable {F : Type} [Field F]

/-- A correct homomorphic commitment scheme: `com p r` is the commitment of the polynomial `p` with
randomness `r`. -/
structure HomomorphicScheme (S : Scheme F) (ck : S.CK) (vk : S.VK) (com : F[X] → S.Rand → S.Comm) : Prop where
  /-- committing returns for every polynomial its commitment and randomness -/
  commit : ∀ ps z cs z', S.commit ck ps z = .ok (cs, z') →
    List.Forall₂ (fun (p : LPoly F) c => c.1 = com (toPoly p.poly) c.2) ps cs
  zero : S.zero = com 0 S.emptyRand
  add : ∀ p q r s, S.add (com p r) (com q s) = com (p + q) (S.addRand r s)
  scale : ∀ p r k, S.scale (com p r) k = com (C k * p) (S.scaleRand r k)
  /-- an opening made with the right randomness is accepted for the value of the polynomial -/
  opens : ∀ (p : LPoly F) cs x r pf, S.commitPlain ck p = .ok cs → S.open_ ck p cs x r = .ok pf →
    S.check vk (com (toPoly p.poly) r) x ((toPoly p.poly).eval x) pf = .ok true

/-- Perfect evaluation binding, the algebraic content of soundness: an accepted opening shows the value of the
committed polynomial. -/
def Binding (S : Scheme F) (vk : S.VK) (com : F[X] → S.Rand → S.Comm) : Prop :=
  ∀ p r x v pf, S.check vk (com p r) x v pf = .ok true → p.eval x = v

/-- A prover oracle with its randomness and the verifier's oracle: same rotations, the verifier holds the
commitment and answers with the values of the polynomial at the rotated points. -/
structure OpeningPair [FftParams F] [DecidableEq F] (S : Scheme F) (com : F[X] → S.Rand → S.Comm) (d : Domain F) (xi : F)
    (o : ProverOracle F × S.Rand) (v : VerifierOracle F S.Comm) : Prop where
  rotations : v.rotations = o.1.rotations
  commitment : v.commitment = some (com (toPoly o.1.poly) o.2)
  evals : ∀ r ∈ o.1.rotations, v.query (xi * d.omega ^ r.signed) = .ok ((toPoly o.1.poly).eval (xi * d.omega ^ r.signed))

end
end ZK
