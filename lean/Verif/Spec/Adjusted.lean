import Verif.Spec.CircuitTest
/-! The specification of C92: a test whose gates need not hold, and a proof in which two numbers are changed. -/
set_option autoImplicit false
namespace ZK
variable {F : Type} [Field F]

/-- The values of a test satisfy its lookups and its copies. Nothing is said about its gates. -/
structure CircuitTest.HoldsButGates (t : CircuitTest F) (d : Domain F) (tau : Equiv.Perm (Fin t.columns.witness.length × Fin t.info.u)) :
    Prop where
  lookups : ∀ es qs ts, Call.lookup es qs ts ∈ t.calls → ∀ i < t.rows, ∃ j < t.rows,
    es.map (fun e => e.denote id (t.columns.cell d.size i)) = ts.map (fun q => valueAt t.tables q.index j)
  sigmas : t.copied = true → ∀ c, valueAt t.sigmas c.1 c.2 = t.info.deltas.getD (tau c).1 0 * d.omega ^ ((tau c).2 : Nat)
  copies : t.copied = true → ∀ c, valueAt t.columns.witness (tau c).1 (tau c).2 = valueAt t.columns.witness c.1 c.2

/-- The test's verifier accepts what the test's prover returns, with the first two claimed evaluations of the quotient replaced by other
numbers and nothing else changed. -/
def CircuitTest.AcceptsAdjusted [LinearOrder F] [FftParams F] (t : CircuitTest F) (S : Scheme F) (ck : S.CK) (vk : S.VK) (d : Domain F)
    (z : S.Z) : Prop :=
  ∃ proof values, runCircuitProver S ck vk d t z = .ok proof ∧ values.length = proof.quotientEvals.length ∧
    values.drop 2 = proof.quotientEvals.drop 2 ∧ runCircuitVerifier S ck vk d t { proof with quotientEvals := values } = .ok ()

end ZK
