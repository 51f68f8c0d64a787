import Verif.Spec.Client
import Verif.Model.CircuitTest
/-!
When the values of a circuit test satisfy the circuit, in terms of the lists the test is made from (specification of C78).
-/
set_option autoImplicit false
set_option linter.unusedSectionVars false
namespace ZK

section
variable {F : Type} [Field F]

/-- The value in row `i` of column `k`. -/
def valueAt (cols : List (Label × List F)) (k i : Nat) : F := ((cols.map Prod.snd).getD k []).getD i 0

/-- All columns have `n` values, and columns of one type have different labels. -/
def CircuitTest.Wellformed (t : CircuitTest F) (n : Nat) : Prop :=
  t.columns.Wellformed n ∧ (∀ c ∈ t.tables ++ t.sigmas, c.2.length = n) ∧ (t.tables.map Prod.fst).Nodup ∧ t.selector.length = n

/-- The conditions on the circuit of a test over `n` rows. The calls are good and name columns that exist. If the witness columns are
copied, then each of them is queried at the current row, there is a sigma and a separator for each of them, and the selector marks the rows
after row `u`. If something is looked up, then there is a usable row and one that is not, and the selector marks the rows from the first one
that is not usable on, except for row `u`, which is this row or row zero. -/
structure CircuitTest.Fits (t : CircuitTest F) (n : Nat) : Prop where
  good : GoodCalls n t.calls
  range : InRange (fun ty => (t.columns.ofType ty).length) t.tables.length t.calls
  copied : t.copied = true → ∀ i < t.columns.witness.length, ∃ call ∈ t.calls, ∃ r : Rotation, r.degree = 0 ∧
    (⟨i, r, .witness⟩ : VirtualQuery) ∈ call.queries
  shape : t.copied = true → t.sigmas.length = t.columns.witness.length ∧ t.info.deltas.length = t.columns.witness.length
  marks : t.copied = true → ∀ i < n, t.selector.getD i 0 = if i ≤ t.info.u then 0 else 1
  usable : t.info.u < n
  lookups : (∃ es qs ts, Call.lookup es qs ts ∈ t.calls) → 0 < t.rows ∧ t.rows < n ∧ (t.info.u = t.rows ∨ t.info.u = 0) ∧
    ∀ i < n, t.rows ≤ i → t.selector.getD i 0 = if i = t.info.u then 0 else 1

/-- The values satisfy the circuit: every gate is zero on every row; every usable row of looked-up values is a usable row of the table;
the sigmas are made from the permutation `tau` of the cells, and cells that are permuted into each other have equal values. -/
structure CircuitTest.Holds (t : CircuitTest F) (d : Domain F) (tau : Equiv.Perm (Fin t.columns.witness.length × Fin t.info.u)) : Prop where
  gates : ∀ e qs, Call.gate e qs ∈ t.calls → ∀ i < d.size, e.denote id (t.columns.cell d.size i) = 0
  lookups : ∀ es qs ts, Call.lookup es qs ts ∈ t.calls → ∀ i < t.rows, ∃ j < t.rows,
    es.map (fun e => e.denote id (t.columns.cell d.size i)) = ts.map (fun q => valueAt t.tables q.index j)
  sigmas : t.copied = true → ∀ c, valueAt t.sigmas c.1 c.2 = t.info.deltas.getD (tau c).1 0 * d.omega ^ ((tau c).2 : Nat)
  copies : t.copied = true → ∀ c, valueAt t.columns.witness (tau c).1 (tau c).2 = valueAt t.columns.witness c.1 c.2

/-- No denominator of a grand product is zero: neither `w + beta * sigma + gamma` for a copied cell nor `a + beta` for a row `a` of
compressed looked-up values nor `s + gamma` for a compressed row `s` of the table. -/
structure CircuitTest.NoZeros (t : CircuitTest F) (n : Nat) (theta beta gamma : F) : Prop where
  copies : t.copied = true → ∀ k < t.columns.witness.length, ∀ i < t.info.u,
    valueAt t.columns.witness k i + beta * valueAt t.sigmas k i + gamma ≠ 0
  lookups : ∀ es qs ts, Call.lookup es qs ts ∈ t.calls → ∀ i < t.rows,
    compress theta (es.map (fun e => e.denote id (t.columns.cell n i))) + beta ≠ 0 ∧
    compress theta (ts.map (fun q => valueAt t.tables q.index i)) + gamma ≠ 0

end
end ZK
