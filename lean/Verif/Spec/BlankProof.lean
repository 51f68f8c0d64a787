import Verif.Model.TurboPlonk
/-! A proof without content, for C91. -/
set_option autoImplicit false
set_option linter.unusedSectionVars false
namespace ZK
variable {F : Type} [Field F] [LinearOrder F]

/-- A proof without content: every commitment is the zero commitment, every evaluation is zero except that of the quotient, there are no
evaluations for the opening sets, and the opening is the given one. Nothing in it depends on a witness. -/
structure TPProof.Blank {S : Scheme F} (opening : S.Proof) (proof : TPProof S) : Prop where
  commitments : ∀ c ∈ proof.witnessCommitments ++ proof.lookupCommitments ++ proof.zCommitments ++ proof.lookupZCommitments ++
    proof.quotientCommitments ++ [proof.multiopen.fCommit], c = S.zero
  evals : ∀ x ∈ proof.witnessEvals ++ proof.fixedEvals ++ proof.tableEvals ++ proof.permEvals ++ [proof.qBlindEval] ++ proof.lookupEvals ++
    proof.lookupZEvals ++ proof.zEvals, x = 0
  quotient : proof.quotientEvals.length = 1
  sets : proof.multiopen.qEvals = []
  opening : proof.multiopen.opening = opening

end ZK
