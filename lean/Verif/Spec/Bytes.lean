import Verif.Model.Serialize
import Verif.Model.TurboPlonk
/-! A verifier that receives bytes (specification of C81). -/
set_option autoImplicit false
namespace ZK
section
variable {F : Type} [Field F] {S : Scheme F}

/-- What happens to bytes that a verifier receives. -/
inductive Received where
  | unreadable | accepted | rejected | stopped
deriving DecidableEq

/-- The verifier reads a proof with `deserialize` and calls `verify`; what follows the proof is left unread. A panic stops the verifier. -/
def receive (read : List UInt8 → Option (TPProof S × List UInt8)) (verify : TPProof S → Res (Err S.E) Unit) (bs : List UInt8) : Received :=
  match read bs with
  | none => .unreadable
  | some (p, _) => match verify p with
    | .ok _ => .accepted
    | .err _ => .rejected
    | .panic => .stopped

/-- A message: all lists are empty except for one part of the quotient, whose evaluation is missing. -/
def stopMessage (v : F) (c : S.Comm) (o : S.Proof) : TPProof S :=
  ⟨[], [], [], [], [], v, [], [], [], [], [], [], [c], [], ⟨[], c, o⟩⟩

end
end ZK
