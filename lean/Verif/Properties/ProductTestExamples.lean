import Verif.Properties.ProductTest
import Verif.Properties.ArgumentTestExamples
/-! C88: `test_product_argument` over the field of 97 elements. -/
set_option autoImplicit false
set_option linter.unusedSectionVars false
namespace ZK
namespace ProductToy
open ArgumentToy

/-- The data of the test with random values 3, 14, 15 and 92. -/
def good : PermutationTest F97 := productArgument (F97.dom 3) 3 14 15 92 65 [1, 2, 3] [4, 5, 6]

/-- The same with 4 for 3 in the second row of `b`. -/
def broken : PermutationTest F97 := { ArgumentToy.broken with scaling := 4 }

theorem good_wellformed : good.Wellformed 8 := productArgument_wellformed _ _ _ _ _ _ rfl rfl

theorem broken_wellformed : broken.Wellformed 8 :=
  ⟨rfl, List.cons_ne_nil _ _, rfl, rfl, by decide +kernel, good_wellformed.sigmaRows, good_wellformed.usable, by decide⟩

theorem ext_eq : Domain.new (F := F97) (4 * (F97.dom 3).size) = some (F97.dom 5) := by decide +kernel

/-- The test passes and the broken one panics. A zero denominator makes the test panic as well. -/
theorem runs :
    productTest Unit good tape [5, 35, 89, 79, 32, 38, 46, 26] = .ok () ∧
    productTest Unit broken tape [5, 35, 89, 79, 32, 38, 46, 26] = .panic ∧
    productTest Unit good tape [0, 94, 89, 79, 32, 38, 46, 26] = .panic := by
  have hok := F97.dom_ok (j := 3) (by decide)
  refine ⟨?_, ?_, ?_⟩
  · rw [C88_product_test hok (by decide +kernel) good_wellformed ext_eq (le_refl 4)]
    decide +kernel
  · rw [C88_product_test hok (by decide +kernel) broken_wellformed ext_eq (le_refl 4)]
    decide +kernel
  · rw [C88_product_test hok (by decide +kernel) good_wellformed ext_eq (le_refl 4)]
    decide +kernel

/-- The outcome computed by the model itself. -/
theorem model_runs : (match productTest Unit good tape [5, 35, 89, 79, 32, 38, 46, 26] with | .ok _ => true | _ => false) = true ∧
    (match productTest Unit broken tape [5, 35, 89, 79, 32, 38, 46, 26] with | .panic => true | _ => false) = true := by
  constructor <;> decide +kernel

/-- The quotient of this test needs the larger coset: with twice the size of the domain, as in `test_chunked_permutation`, the polynomial
interpolated from the coset is not divisible and the test panics. -/
theorem small_coset : (match productTest Unit ArgumentToy.good tape [5, 35, 89, 79, 32, 38, 46, 26] with | .panic => true | _ => false) = true ∧
    permutationTest Unit false ArgumentToy.good tape [5, 35, 89, 79, 32, 38, 46, 26] = .ok () :=
  ⟨by decide +kernel, ArgumentToy.runs.1⟩

example (next : List F97 → F97 × List F97) (h : next = tape) :
    FewPairs 10 {p | productTest Unit good next [p.1, p.2] ≠ .ok ()} :=
  C88_product_argument (F97.dom_ok (by decide)) rfl (by decide) 3 14 15 92 65 rfl rfl next (fun p => [p.1, p.2])
    (fun p => by rw [h]; exact ⟨rfl, rfl⟩)

example : FewPairs 10 {p | productTest Unit broken tape [p.1, p.2] ≠ .panic} := by
  refine C88_broken_copy_fails (t := broken) (d := F97.dom 3) (tau := chunkedPerm) (F97.dom_ok (by decide)) (by decide +kernel)
    broken_wellformed ext_eq (le_refl 4)
    (chunked_encodes (F97.dom 3) 3 14 15 92 65 [] []) broken_named ?_ tape (fun p => [p.1, p.2]) (fun p => ⟨rfl, rfl⟩)
  intro h
  have := h ((0 : Fin 2), (0 : Fin 5))
  have h3 : valueAt broken.columns 1 1 = valueAt broken.columns 0 0 := this
  exact absurd h3 (by decide +kernel)

end ProductToy
end ZK
