import Verif.Properties.Commitment
/-! The interactive argument with an honest verifier, seen as an environment of the non-interactive one; the field elements and the group
elements of a proof (specification of C63). -/
set_option autoImplicit false
namespace ZK

section
variable {F : Type} [Field F] {S : Scheme F}

/-- The field elements of a proof that are values of polynomials. -/
def TPProof.values (π : TPProof S) : List (List F) :=
  [π.witnessEvals, π.fixedEvals, π.tableEvals, π.permEvals, [π.qBlindEval], π.lookupEvals, π.lookupZEvals, π.zEvals, π.quotientEvals,
    π.multiopen.qEvals]

/-- The commitments of a proof. -/
def TPProof.commitments (π : TPProof S) : List S.Comm :=
  π.witnessCommitments ++ π.lookupCommitments ++ π.zCommitments ++ π.lookupZCommitments ++ π.quotientCommitments ++ [π.multiopen.fCommit]

end

section
variable {F G : Type} [Field F] [AddCommGroup G] [Module F G]

/-- Take the first element of a sequence. -/
def popFirst (s : Nat → F) : F × (Nat → F) := (s 0, fun i => s (i + 1))

/-- The honest verifier: its challenges `theta, beta, gamma, alpha, xi, x1, x2, x3, x4` are the first nine elements of `cs`, whatever the
prover sends. The prover draws its random elements from a sequence. -/
def honestEnv (cs : Nat → F) : KzgEnv F G where
  Z := Nat → F
  T := Nat → F
  next := popFirst
  fsInit := fun _ => cs
  fsAbsorb := fun t _ => t
  fsRand := popFirst
  encComm := fun _ => []
  encF := fun _ => []

/-- The sequence beginning with `r`. -/
def sequence {N : Nat} (r : Fin N → F) (i : Nat) : F := if h : i < N then r ⟨i, h⟩ else 0

end
end ZK
