import Verif.Properties.ArgumentTest
import Verif.Lemmas.F97
/-! C85: `test_chunked_permutation` over the field of 97 elements. -/
set_option autoImplicit false
set_option linter.unusedSectionVars false
namespace ZK
namespace ArgumentToy

/-- The random values are read off a tape. -/
def tape : List F97 → F97 × List F97 := fun l => (l.headD 0, l.tail)

/-- The data of the test with random values 3, 14, 15 and 92. -/
def good : PermutationTest F97 := chunkedPermutation (F97.dom 3) 3 14 15 92 65 [1, 2, 3] [4, 5, 6]

/-- The same with 4 for 3 in the second row of `b`. -/
def broken : PermutationTest F97 :=
  { good with columns := [(bytes "a", [3, 14, 15, 14, 3, 1, 2, 3]), (bytes "b", [92, 4, 3, 14, 14, 4, 5, 6])] }

/-- The test passes and the broken one panics. A zero denominator makes the test panic as well. -/
theorem runs :
    permutationTest Unit false good tape [5, 35, 89, 79, 32, 38, 46, 26] = .ok () ∧
    permutationTest Unit true good tape [5, 35, 89, 79, 32, 38, 46, 26] = .ok () ∧
    permutationTest Unit false broken tape [5, 35, 89, 79, 32, 38, 46, 26] = .panic ∧
    permutationTest Unit false good tape [0, 94, 89, 79, 32, 38, 46, 26] = .panic := by
  have h8 : (F97.dom 3).size = 8 := rfl
  have hext : Domain.new (F := F97) (2 * (F97.dom 3).size) = some (F97.dom 4) := by decide +kernel
  have h1 : good.Wellformed 8 := chunkedPermutation_wellformed _ _ _ _ _ _ rfl rfl
  have h2 : broken.Wellformed 8 := ⟨rfl, List.cons_ne_nil _ _, rfl, rfl, by decide +kernel, h1.sigmaRows, h1.usable, le_rfl⟩
  have hok := F97.dom_ok (j := 3) (by decide)
  refine ⟨?_, ?_, ?_, ?_⟩
  · rw [C85_permutation_test false hok (by decide +kernel) h1 hext]
    decide +kernel
  · rw [C85_permutation_test true hok (by decide +kernel) h1 hext]
    decide +kernel
  · rw [C85_permutation_test false hok (by decide +kernel) h2 hext]
    decide +kernel
  · rw [C85_permutation_test false hok (by decide +kernel) h1 hext]
    decide +kernel

/-- The outcome computed by the model itself. -/
theorem model_runs : (match permutationTest Unit true good tape [5, 35, 89, 79, 32, 38, 46, 26] with | .ok _ => true | _ => false) = true ∧
    (match permutationTest Unit false broken tape [5, 35, 89, 79, 32, 38, 46, 26] with | .panic => true | _ => false) = true := by
  constructor <;> decide +kernel

/-- `C85_copies_pass` for the test itself. -/
example (next : List F97 → F97 × List F97) (h : next = tape) :
    FewPairs 10 {p | permutationTest Unit false good next [p.1, p.2] ≠ .ok ()} :=
  C85_chunked_permutation (F97.dom_ok (by decide)) rfl (by decide) 3 14 15 92 65 rfl rfl next (fun p => [p.1, p.2])
    (fun p => by rw [h]; exact ⟨rfl, rfl⟩)

/-- The cells of the test have different names in this field, so `C85_broken_copy_fails` applies to the broken one. -/
theorem broken_named : broken.Named (F97.dom 3) := by
  have : Function.Injective (fun c : Fin 2 × Fin 5 => ([1, 13] : List F97).getD c.1 0 * (F97.dom 3).omega ^ (c.2 : Nat)) := by
    decide +kernel
  exact this

example : FewPairs 10 {p | permutationTest Unit false broken tape [p.1, p.2] ≠ .panic} := by
  have hext : Domain.new (F := F97) (2 * (F97.dom 3).size) = some (F97.dom 4) := by decide +kernel
  have h1 : good.Wellformed 8 := chunkedPermutation_wellformed _ _ _ _ _ _ rfl rfl
  have h2 : broken.Wellformed 8 := ⟨rfl, List.cons_ne_nil _ _, rfl, rfl, by decide +kernel, h1.sigmaRows, h1.usable, le_rfl⟩
  refine C85_broken_copy_fails (t := broken) (d := F97.dom 3) (tau := chunkedPerm) false (F97.dom_ok (by decide)) (by decide +kernel) h2 hext
    (chunked_encodes (F97.dom 3) 3 14 15 92 65 [] []) broken_named ?_ tape (fun p => [p.1, p.2]) (fun p => ⟨rfl, rfl⟩)
  intro h
  have := h ((0 : Fin 2), (0 : Fin 5))
  have h3 : valueAt broken.columns 1 1 = valueAt broken.columns 0 0 := this
  exact absurd h3 (by decide +kernel)

end ArgumentToy
end ZK
