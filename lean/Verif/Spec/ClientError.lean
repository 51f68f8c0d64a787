import Verif.Spec.CircuitTest
import Verif.Spec.RandomOracle
/-! What the probability of failure of a client, and of a test of a whole circuit, depends on (specification of C82). -/
set_option autoImplicit false
namespace ZK
variable {F : Type}

/-- The number of lookups among the calls of `configure`. -/
def lookupCount : List (Call F) → Nat
  | [] => 0
  | .gate _ _ :: calls => lookupCount calls
  | .lookup _ _ _ :: calls => lookupCount calls + 1

/-- The number of columns a test copies. -/
def CircuitTest.copiedCount (t : CircuitTest F) : Nat := if t.copied = true then t.columns.witness.length else 0

/-- The test program: the prover, then the verifier. -/
def CircuitTest.Succeeds [Field F] [LinearOrder F] [FftParams F] (t : CircuitTest F) (S : Scheme F) (ck : S.CK) (vk : S.VK) (d : Domain F)
    (z : S.Z) : Prop :=
  ∃ proof, runCircuitProver S ck vk d t z = .ok proof ∧ runCircuitVerifier S ck vk d t proof = .ok ()

end ZK
