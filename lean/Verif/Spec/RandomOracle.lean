import Mathlib.Probability.ProductMeasure
import Mathlib.Probability.UniformOn
import Verif.Model.TurboPlonk
/-! The argument with an ideal hash function, a random oracle, in place of the Fiat-Shamir generator (specification of C67). -/
set_option autoImplicit false
namespace ZK
open MeasureTheory ProbabilityTheory

/-- What a challenge may depend on: the initial message, the messages absorbed and the number of draws since the last one (C42). -/
abbrev History := List Nat × List (List Nat) × Nat

section
variable {F : Type} [Field F]

/-- The scheme `S` with an ideal hash function: the challenge is the value of `H` at the history of the transcript. -/
def Scheme.hashing (S : Scheme F) (H : History → F) : Scheme F :=
  { S with
    T := History
    fsInit := fun m => (m, [], 0)
    fsAbsorb := fun t m => (t.1, t.2.1 ++ [m], 0)
    fsRand := fun t => (H t, (t.1, t.2.1, t.2.2 + 1)) }

variable {S : Scheme F}

/-- The same key; nothing in it depends on the transcript. -/
def VerifierKey.hashing (k : VerifierKey S) (H : History → F) : VerifierKey (S.hashing H) := ⟨k.vk, k.index, k.zhInverses⟩

def ProverKey.hashing (k : ProverKey S) (H : History → F) : ProverKey (S.hashing H) := ⟨k.vk.hashing H, k.ck⟩

def VerifierPreprocessed.hashing (p : VerifierPreprocessed S) (H : History → F) : VerifierPreprocessed (S.hashing H) :=
  ⟨p.fixed, p.table, p.perm, p.qBlind⟩

end

/-- The probability of a set of hash functions: the values at different histories are independent, each of them uniformly distributed in
the field. -/
noncomputable def randomOracle (F : Type) [Fintype F] [MeasurableSpace F] : Measure (History → F) :=
  Measure.infinitePi (fun _ => uniformOn (Set.univ : Set F))

end ZK
