import Verif.Model.TurboPlonk
/-! The interactive argument with an honest verifier for an arbitrary commitment scheme (specification of C64). -/
set_option autoImplicit false
namespace ZK
section
variable {F : Type} [Field F]

/-- The scheme `S` with the transcript replaced by an honest verifier: its challenges `theta, beta, gamma, alpha, xi, x1, x2, x3, x4` are the
elements of `cs`, whatever the prover sends. -/
def Scheme.answering (S : Scheme F) (cs : List F) : Scheme F :=
  { S with
    T := List F
    fsInit := fun _ => cs
    fsAbsorb := fun t _ => t
    fsRand := fun t => (t.headD 0, t.tail) }

variable {S : Scheme F}

/-- The same key; nothing in it depends on the transcript. -/
def VerifierKey.answering (k : VerifierKey S) (cs : List F) : VerifierKey (S.answering cs) := ⟨k.vk, k.index, k.zhInverses⟩

def ProverKey.answering (k : ProverKey S) (cs : List F) : ProverKey (S.answering cs) := ⟨k.vk.answering cs, k.ck⟩

def VerifierPreprocessed.answering (p : VerifierPreprocessed S) (cs : List F) : VerifierPreprocessed (S.answering cs) :=
  ⟨p.fixed, p.table, p.perm, p.qBlind⟩

/-- The same proof. -/
def TPProof.answering (p : TPProof S) (cs : List F) : TPProof (S.answering cs) :=
  ⟨p.witnessCommitments, p.witnessEvals, p.fixedEvals, p.tableEvals, p.permEvals, p.qBlindEval, p.lookupCommitments,
    p.lookupZCommitments, p.lookupEvals, p.lookupZEvals, p.zCommitments, p.zEvals, p.quotientCommitments, p.quotientEvals,
    ⟨p.multiopen.qEvals, p.multiopen.fCommit, p.multiopen.opening⟩⟩

end
end ZK
