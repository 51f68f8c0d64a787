import Verif.Spec.RandomOracle
/-! Somebody who makes proofs with the help of a random oracle (specification of C68). -/
set_option autoImplicit false
namespace ZK

section
variable {F : Type} [Field F] {S : Scheme F}

/-- The same proof; nothing in it depends on the transcript. -/
def TPProof.hashing (p : TPProof S) (H : History → F) : TPProof (S.hashing H) :=
  ⟨p.witnessCommitments, p.witnessEvals, p.fixedEvals, p.tableEvals, p.permEvals, p.qBlindEval, p.lookupCommitments,
    p.lookupZCommitments, p.lookupEvals, p.lookupZEvals, p.zCommitments, p.zEvals, p.quotientCommitments, p.quotientEvals,
    ⟨p.multiopen.qEvals, p.multiopen.fCommit, p.multiopen.opening⟩⟩

end

/-- Somebody without bound on the computing power who puts questions to a hash function, each depending on the answers before, and makes
something out of the answers. -/
inductive Forger (F Out : Type) : Type
  | done (o : Out)
  | ask (q : History) (next : F → Forger F Out)

namespace Forger
variable {F Out : Type}

/-- What is made with the hash function `H`. -/
def run (H : History → F) : Forger F Out → Out
  | .done o => o
  | .ask q next => (next (H q)).run H

/-- The questions put to the hash function `H`. -/
def asked (H : History → F) : Forger F Out → List History
  | .done _ => []
  | .ask q next => q :: (next (H q)).asked H

end Forger
end ZK
