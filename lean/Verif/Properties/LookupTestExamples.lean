import Verif.Properties.LookupTest
import Verif.Lemmas.F97
import Verif.Lemmas.Fr381
/-! C86 over the field of 97 elements, and `simple_lookup` itself over the scalar field of BLS12-381, which it uses. -/
set_option autoImplicit false
set_option linter.unusedSectionVars false
namespace ZK
namespace LookupArgumentToy

/-- The random values are read off a tape. -/
def tape : List F97 → F97 × List F97 := fun l => (l.headD 0, l.tail)

/-- Two columns and shuffles of them. -/
def good : SubsetTest F97 := ⟨8, 4, 5, ⟨[3, 14, 15, 92, 65], [35, 89, 79, 32, 38], [92, 3, 15, 65, 14], [38, 35, 89, 32, 79]⟩⟩

/-- The same with 93 for 92 in the shuffled column. -/
def bad : SubsetTest F97 := ⟨8, 4, 5, ⟨[3, 14, 15, 92, 65], [35, 89, 79, 32, 38], [93, 3, 15, 65, 14], [38, 35, 89, 32, 79]⟩⟩

/-- Twelve blinds followed by the challenges, the blinds of the grand product, alpha and the point. -/
def tail (beta gamma : F97) : List F97 := [1, 2, 3, 4, 5, 6, 7, 8, 9, 10, 11, 12, beta, gamma, 20, 21, 22, 23]

theorem tape_draws (beta gamma : F97) : draw tape (tail beta gamma) (4 * (8 - 5)) = beta ∧
    draw tape (tail beta gamma) (4 * (8 - 5) + 1) = gamma := ⟨rfl, rfl⟩

theorem good_wf : good.Wellformed 8 := ⟨rfl, rfl, rfl, rfl, rfl, by decide, le_rfl⟩
theorem bad_wf : bad.Wellformed 8 := ⟨rfl, rfl, rfl, rfl, rfl, by decide, le_rfl⟩
theorem hext : Domain.new (F := F97) (4 * (F97.dom 3).size) = some (F97.dom 5) := by decide +kernel

/-- Shuffles pass for all but few challenges. -/
example : FewPairs 10 {p | subsetTest Unit good tape (tail p.1 p.2) ≠ .ok ()} :=
  C86_shuffles_pass (F97.dom_ok (j := 3) (by decide)) (by decide +kernel) good_wf hext (by decide +kernel) (by decide +kernel) tape
    (fun p => tail p.1 p.2) (fun p => tape_draws p.1 p.2)

/-- Other columns panic for all but few. -/
example : FewPairs 10 {p | subsetTest Unit bad tape (tail p.1 p.2) ≠ .panic} :=
  C86_others_fail (F97.dom_ok (j := 3) (by decide)) (by decide +kernel) bad_wf hext
    (fun h => absurd h.1 (by decide +kernel)) tape
    (fun p => tail p.1 p.2) (fun p => tape_draws p.1 p.2)

/-- Outcomes: shuffles, other columns, a challenge that makes a factor zero; a lookup of contained values, of a value outside the table. -/
theorem runs :
    subsetTest Unit good tape (tail 2 6) = .ok () ∧ subsetTest Unit bad tape (tail 2 6) = .panic ∧
    subsetTest Unit good tape (tail 5 6) = .panic ∧
    lookupArgumentTest Unit 8 4 5 [3, 1, 3, 3, 4] [1, 2, 3, 4, 5] tape (tail 2 6) = .ok () ∧
    lookupArgumentTest Unit 8 4 5 [3, 1, 3, 3, 6] [1, 2, 3, 4, 5] tape (tail 2 6) = .panic := by
  have hd := F97.dom_ok (j := 3) (by decide)
  have h1 : 1 < (F97.dom 3).size := by decide +kernel
  have hl := fun a s ha hs => C86_lookup_test (C := Unit) (u := 5) (scaling := 4) (a := a) (s := s) hd h1 ha hs (by decide) (by decide +kernel)
    le_rfl hext tape (tail 2 6)
  refine ⟨?_, ?_, ?_, ?_, ?_⟩
  · rw [C86_subset_test hd h1 good_wf hext]
    decide +kernel
  · rw [C86_subset_test hd h1 bad_wf hext]
    decide +kernel
  · rw [C86_subset_test hd h1 good_wf hext]
    decide +kernel
  · refine (hl [3, 1, 3, 3, 4] [1, 2, 3, 4, 5] rfl rfl).trans ?_
    decide +kernel
  · refine (hl [3, 1, 3, 3, 6] [1, 2, 3, 4, 5] rfl rfl).trans ?_
    decide +kernel

/-- The outcomes computed by the model itself. -/
theorem model_runs :
    (match subsetTest Unit good tape (tail 2 6) with | .ok _ => true | _ => false) = true ∧
    (match subsetTest Unit bad tape (tail 2 6) with | .panic => true | _ => false) = true ∧
    (match lookupArgumentTest Unit 8 4 5 [3, 1, 3, 3, 4] [1, 2, 3, 4, 5] tape (tail 2 6) with | .ok _ => true | _ => false) = true := by
  refine ⟨?_, ?_, ?_⟩ <;> decide +kernel

end LookupArgumentToy

/-- `simple_lookup` over its own field. -/
example {Z : Type} (next : Z → Fr × Z) (z : Z) (h1 : draw next z 24 = 1) (h2 : draw next z 25 = 1) :
    lookupArgumentTest Unit 16 4 10 (simpleLookupValues (F := Fr)).1 simpleLookupValues.2 next z = .ok () := by
  rw [C86_simple_lookup (Fr381.dom_ok (j := 4) (by decide)) rfl (by decide) next z, if_pos]
  have h : ∀ k : Nat, 0 < k → k < Fr381.r - 1 → (1 : Fr) ≠ -(k : Fr) := by
    intro k h0 hk h
    have h3 : ((k + 1 : Nat) : ZMod Fr381.r) = 0 := by
      have : (k : Fr) + 1 = 0 := by rw [h]; ring
      exact_mod_cast this
    rw [ZMod.natCast_eq_zero_iff] at h3
    have := Nat.le_of_dvd (by omega) h3
    omega
  rw [h1, h2]
  have h3 : ∀ k : Nat, 0 < k → k < 100 → (1 : Fr) ≠ -(k : Fr) := fun k h0 hk =>
    h k h0 (lt_trans hk (by decide))
  constructor
  · intro hm
    simp only [List.mem_cons, List.not_mem_nil, or_false] at hm
    rcases hm with hm | hm | hm | hm | hm | hm
    · exact h3 1 (by omega) (by omega) (by exact_mod_cast hm)
    · exact h3 2 (by omega) (by omega) (by exact_mod_cast hm)
    · exact h3 3 (by omega) (by omega) (by exact_mod_cast hm)
    · exact h3 6 (by omega) (by omega) (by exact_mod_cast hm)
    · exact h3 7 (by omega) (by omega) (by exact_mod_cast hm)
    · exact h3 99 (by omega) (by omega) (by exact_mod_cast hm)
  · intro hm
    simp only [List.mem_cons, List.not_mem_nil, or_false] at hm
    rcases hm with hm | hm | hm | hm | hm | hm | hm | hm
    · exact h3 1 (by omega) (by omega) (by exact_mod_cast hm)
    · exact h3 2 (by omega) (by omega) (by exact_mod_cast hm)
    · exact h3 3 (by omega) (by omega) (by exact_mod_cast hm)
    · exact h3 4 (by omega) (by omega) (by exact_mod_cast hm)
    · exact h3 5 (by omega) (by omega) (by exact_mod_cast hm)
    · exact h3 6 (by omega) (by omega) (by exact_mod_cast hm)
    · exact h3 7 (by omega) (by omega) (by exact_mod_cast hm)
    · exact h3 99 (by omega) (by omega) (by exact_mod_cast hm)

end ZK
