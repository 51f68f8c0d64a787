import Verif.Model.TurboPlonk
/-! The proof statistics, src/turbo_plonk.rs 73-165. -/
set_option autoImplicit false
namespace ZK
variable {F : Type} [Field F] {S : Scheme F}

namespace TPProof

/-- `num_of_commitments` of `cumulative_info`, src/turbo_plonk.rs 130-135. -/
def numCommitments (p : TPProof S) : Nat :=
  p.witnessCommitments.length + p.lookupCommitments.length + p.lookupZCommitments.length
    + p.quotientCommitments.length + p.zCommitments.length + 1

/-- `num_of_field_elements` of `cumulative_info`, src/turbo_plonk.rs 136-152. -/
def numFieldElements (p : TPProof S) : Nat :=
  p.witnessEvals.length + p.fixedEvals.length + p.tableEvals.length + p.permEvals.length + 1
    + p.lookupEvals.length + p.lookupZEvals.length + p.quotientEvals.length + p.zEvals.length
    + p.multiopen.qEvals.length

/-- The numbers printed by `info` in order, src/turbo_plonk.rs 78-127. The surrounding text is not modelled. -/
def infoCounts (p : TPProof S) : List Nat :=
  [p.witnessCommitments.length, p.witnessEvals.length, p.fixedEvals.length, p.tableEvals.length, p.permEvals.length,
    p.lookupCommitments.length, p.lookupEvals.length, p.lookupZCommitments.length, p.lookupZEvals.length,
    p.quotientCommitments.length, p.quotientEvals.length, p.zCommitments.length, p.zEvals.length,
    p.multiopen.qEvals.length]

end TPProof
end ZK
