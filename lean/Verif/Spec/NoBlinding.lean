import Verif.Model.TurboPlonk
/-! A prover that blinds with zeros and counts no row of the lookups as usable (specification of C80). -/
set_option autoImplicit false
namespace ZK
section
variable {F : Type} [Field F]

/-- The scheme `S` where every field element the prover draws for blinding is zero. The verifier draws none. -/
def Scheme.unblinded (S : Scheme F) : Scheme F := { S with next := fun z => (0, z) }

variable {S : Scheme F}

/-- The key of a prover that takes no row of the lookups as usable. -/
def ProverKey.withoutRows (k : ProverKey S) : ProverKey S.unblinded :=
  ⟨⟨k.vk.vk, { k.vk.index with usableRows := 0 }, k.vk.zhInverses⟩, k.ck⟩

/-- The same proof, to be sent to a verifier for `S`. -/
def TPProof.ofUnblinded (p : TPProof S.unblinded) : TPProof S :=
  ⟨p.witnessCommitments, p.witnessEvals, p.fixedEvals, p.tableEvals, p.permEvals, p.qBlindEval, p.lookupCommitments,
    p.lookupZCommitments, p.lookupEvals, p.lookupZEvals, p.zCommitments, p.zEvals, p.quotientCommitments, p.quotientEvals,
    ⟨p.multiopen.qEvals, p.multiopen.fCommit, p.multiopen.opening⟩⟩

end
end ZK
