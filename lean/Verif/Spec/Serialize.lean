import Verif.Model.Serialize
/-! What is asked of an encoding. -/
set_option autoImplicit false
namespace ZK
variable {α : Type}

/-- What has been written is read back, and what follows is left alone. -/
def Codec.RoundTrip (c : Codec α) : Prop := ∀ a rest, c.read (c.write a ++ rest) = some (a, rest)

/-- Reading accepts only bytes that writing produces. -/
def Codec.Canonical (c : Codec α) : Prop := ∀ bs a rest, c.read bs = some (a, rest) → bs = c.write a ++ rest

/-- All values take `k` bytes. -/
def Codec.Sized (c : Codec α) (k : Nat) : Prop := ∀ a, (c.write a).length = k

variable {F : Type} [Field F] {S : Scheme F}

/-- The vectors of a proof are no longer than a vector can be on a machine with 64 bits. -/
def TPProof.FitsMemory (p : TPProof S) : Prop :=
  p.witnessCommitments.length < 2 ^ 64 ∧ p.witnessEvals.length < 2 ^ 64 ∧ p.fixedEvals.length < 2 ^ 64 ∧
  p.tableEvals.length < 2 ^ 64 ∧ p.permEvals.length < 2 ^ 64 ∧ p.lookupCommitments.length < 2 ^ 64 ∧
  p.lookupZCommitments.length < 2 ^ 64 ∧ p.lookupEvals.length < 2 ^ 64 ∧ p.lookupZEvals.length < 2 ^ 64 ∧
  p.zCommitments.length < 2 ^ 64 ∧ p.zEvals.length < 2 ^ 64 ∧ p.quotientCommitments.length < 2 ^ 64 ∧
  p.quotientEvals.length < 2 ^ 64 ∧ p.multiopen.qEvals.length < 2 ^ 64

end ZK
