import Verif.Model.TurboPlonk
import Verif.Spec.Basic
import Mathlib.Data.Finset.Card
import Mathlib.Data.Finset.Dedup
/-! What the verifier expects of a proof. -/
set_option autoImplicit false
namespace ZK

/-- The number of evaluations of a list of oracles: one for each label and rotation. -/
def expectedEvals {O : Type} [ConcreteOracle O] (os : List O) : Nat :=
  (os.flatMap (fun o => (ConcreteOracle.rotations o).map
    (fun r => (ConcreteOracle.label o, r.signed)))).toFinset.card

/-- The number of different rotation sets among some oracles. -/
def distinctRotations {O : Type} [ConcreteOracle O] (os : List O) : Nat :=
  (os.map ConcreteOracle.rotations).toFinset.card

/-- An oracle without its registered evaluations: what is configured, plus the commitment. -/
def VerifierOracle.config {F C : Type} (o : VerifierOracle F C) : VerifierOracle F C := { o with evals := [] }

end ZK
