import Verif.Spec.ClientError
import Verif.Spec.Indexer
import Verif.Spec.Interactive
/-! The quantities the soundness error of a test of a whole circuit depends on (specification of C83). -/
set_option autoImplicit false
namespace ZK
variable {F : Type}

/-- The number of gates among the calls of `configure`. -/
def gateCount : List (Call F) → Nat
  | [] => 0
  | .gate _ _ :: calls => gateCount calls + 1
  | .lookup _ _ _ :: calls => gateCount calls

/-- The size of the extended domain divided by the number `n` of rows, for gates of degree `m`. -/
def CircuitTest.scale (t : CircuitTest F) (n m : Nat) : Nat := scalingFactor n (m * (n - 1) - n) t.copiedCount (lookupCount t.calls)

/-- The number of grand products of the permutation argument: each of them covers `scale - 1` columns. -/
def CircuitTest.products (t : CircuitTest F) (n m : Nat) : Nat := (t.copiedCount + (t.scale n m - 1) - 1) / (t.scale n m - 1)

/-- A bound on the degree of the constraints. -/
def CircuitTest.degreeBound (t : CircuitTest F) (n m : Nat) : Nat := max (max m 4) (t.scale n m + 1) * (n - 1)

/-- The cells of a test have different identities, and its sigmas are made from the permutation `tau`. -/
def CircuitTest.EncodesCopies [Field F] (t : CircuitTest F) (d : Domain F) (tau : Equiv.Perm (Fin t.columns.witness.length × Fin t.info.u)) : Prop :=
  t.copied = true → (∀ c, valueAt t.sigmas c.1 c.2 = t.info.deltas.getD (tau c).1 0 * d.omega ^ ((tau c).2 : Nat)) ∧
    Function.Injective (fun c : Fin t.columns.witness.length × Fin t.info.u => t.info.deltas.getD c.1 0 * d.omega ^ (c.2 : Nat))

end ZK
