import Mathlib.Algebra.Polynomial.Roots
import Mathlib.Algebra.Polynomial.Div
import Mathlib.Algebra.Polynomial.BigOperators
import Mathlib.LinearAlgebra.Lagrange
import Verif.Lemmas.Poly
/-! Root counting for the soundness of random linear combinations. -/
set_option autoImplicit false
set_option linter.unusedSectionVars false
namespace ZK
open Polynomial

section
variable {F : Type} [Field F] [DecidableEq F]

/-- A list of values which are not all zero, combined with powers of `x`: few `x` give zero. -/
theorem bad_combination (l : List F) (h : ∃ c ∈ l, c ≠ 0) :
    ∃ B : Finset F, B.card ≤ l.length - 1 ∧ ∀ x ∉ B, peval l x ≠ 0 := by
  have hne : toPoly l ≠ 0 := by
    obtain ⟨c, hc, hc0⟩ := h
    obtain ⟨i, hi, rfl⟩ := List.getElem_of_mem hc
    intro h0
    apply hc0
    have := congrArg (fun p => coeff p i) h0
    simpa [coeff_toPoly, hi] using this
  refine ⟨(toPoly l).roots.toFinset, ?_, ?_⟩
  · refine (Multiset.toFinset_card_le _).trans ((card_roots' _).trans ?_)
    have h1 := degree_toPoly_lt l
    have h2 := (natDegree_lt_iff_degree_lt hne).2 h1
    omega
  · intro x hx h0
    apply hx
    rw [Multiset.mem_toFinset, mem_roots hne, IsRoot.def, ← peval_eq_eval]
    exact h0

theorem peval_ofFn {K : Nat} (h : Fin K → F) (x : F) : peval (List.ofFn h) x = ∑ i : Fin K, h i * x ^ (i : Nat) := by
  induction K with
  | zero => simp
  | succ K ih =>
    rw [List.ofFn_succ, peval_cons, ih, Fin.sum_univ_succ, Finset.mul_sum]
    simp only [Fin.val_zero, pow_zero, mul_one, Fin.val_succ, pow_succ]
    congr 1
    apply Finset.sum_congr rfl
    intro i _
    ring

/-- If one `num i` is not divisible by `Z i`, then for few `x` the sum of the `x^i * num i / Z i` is a polynomial. -/
theorem bad_quotients {K : Nat} (num Z : Fin K → F[X]) (hZ : ∀ i, (Z i).Monic) (i0 : Fin K) (h0 : ¬ Z i0 ∣ num i0) :
    ∃ B : Finset F, B.card ≤ K - 1 ∧ ∀ x ∉ B,
      ¬ (∏ i, Z i) ∣ ∑ i : Fin K, C (x ^ (i : Nat)) * (num i * ∏ j ∈ Finset.univ.erase i, Z j) := by
  set W := ∏ i, Z i with hW
  have hWm : W.Monic := monic_prod_of_monic _ _ (fun i _ => hZ i)
  set a : Fin K → F[X] := fun i => num i * ∏ j ∈ Finset.univ.erase i, Z j with ha
  have hWi : ∀ i, W = Z i * ∏ j ∈ Finset.univ.erase i, Z j := fun i => (Finset.mul_prod_erase _ _ (Finset.mem_univ i)).symm
  have hnd : ¬ W ∣ a i0 := by
    rw [hWi i0, ha]
    intro h
    apply h0
    have hne : (∏ j ∈ Finset.univ.erase i0, Z j) ≠ 0 := (monic_prod_of_monic _ _ (fun i _ => hZ i)).ne_zero
    exact (mul_dvd_mul_iff_right hne).1 h
  have hr : a i0 %ₘ W ≠ 0 := by
    rw [ne_eq, modByMonic_eq_zero_iff_dvd hWm]
    exact hnd
  obtain ⟨n, hn⟩ : ∃ n, (a i0 %ₘ W).coeff n ≠ 0 := by
    by_contra hc
    push Not at hc
    exact hr (Polynomial.ext (by simpa using hc))
  obtain ⟨B, hB1, hB2⟩ := bad_combination (List.ofFn (fun i => (a i %ₘ W).coeff n))
    ⟨_, List.mem_ofFn.2 ⟨i0, rfl⟩, hn⟩
  refine ⟨B, by simpa using hB1, ?_⟩
  intro x hx hdvd
  apply hB2 x hx
  rw [peval_ofFn]
  have h1 : (∑ i : Fin K, C (x ^ (i : Nat)) * a i) %ₘ W = 0 := (modByMonic_eq_zero_iff_dvd hWm).2 hdvd
  have h2 : (∑ i : Fin K, C (x ^ (i : Nat)) * a i) %ₘ W = ∑ i : Fin K, C (x ^ (i : Nat)) * (a i %ₘ W) := by
    have hl : ∀ p : F[X], p %ₘ W = modByMonicHom W p := fun p => rfl
    rw [hl, map_sum]
    apply Finset.sum_congr rfl
    intro i _
    rw [← smul_eq_C_mul, map_smul, ← smul_eq_C_mul]
    rfl
  rw [h2] at h1
  have h3 := congrArg (fun p => coeff p n) h1
  simp only [finsetSum_coeff, coeff_C_mul, coeff_zero] at h3
  rw [← h3]
  apply Finset.sum_congr rfl
  intro i _
  ring

/-- A polynomial `f` chosen when the sum of the `x^i num i / Z i` is not a polynomial agrees with it at few points. -/
theorem bad_points {K : Nat} (num Z : Fin K → F[X]) (hZ : ∀ i, (Z i).Monic) (x : F) (D : Nat) (f : F[X])
    (hf : f.degree < D) (hnum : ∀ i, (num i).degree < (D + (Z i).natDegree : Nat))
    (hnd : ¬ (∏ i, Z i) ∣ ∑ i : Fin K, C (x ^ (i : Nat)) * (num i * ∏ j ∈ Finset.univ.erase i, Z j)) :
    ∃ B : Finset F, B.card ≤ D + ∑ i, (Z i).natDegree - 1 ∧ ∀ y ∉ B, (∀ i, (Z i).eval y ≠ 0) →
      f.eval y ≠ ∑ i : Fin K, x ^ (i : Nat) * ((num i).eval y * ((Z i).eval y)⁻¹) := by
  set W := ∏ i, Z i with hW
  set a : Fin K → F[X] := fun i => num i * ∏ j ∈ Finset.univ.erase i, Z j with ha
  set H := f * W - ∑ i : Fin K, C (x ^ (i : Nat)) * a i with hH
  have hWi : ∀ i, W = Z i * ∏ j ∈ Finset.univ.erase i, Z j := fun i => (Finset.mul_prod_erase _ _ (Finset.mem_univ i)).symm
  have hne : H ≠ 0 := by
    intro h
    apply hnd
    rw [← sub_eq_zero.1 h]
    exact dvd_mul_left _ _
  have hWd : W.natDegree = ∑ i, (Z i).natDegree := natDegree_prod_of_monic _ _ (fun i _ => hZ i)
  have hWm : W.Monic := monic_prod_of_monic _ _ (fun i _ => hZ i)
  have hdeg : H.degree < ((D + W.natDegree : Nat) : WithBot Nat) := by
    refine lt_of_le_of_lt (degree_sub_le _ _) (max_lt ?_ ?_)
    · rw [hWm.degree_mul, degree_eq_natDegree hWm.ne_zero]
      by_cases hf0 : f = 0
      · simp [hf0]
      · rw [degree_eq_natDegree hf0] at hf ⊢
        have : f.natDegree < D := by exact_mod_cast hf
        exact_mod_cast (by omega : f.natDegree + W.natDegree < D + W.natDegree)
    · refine lt_of_le_of_lt (degree_sum_le _ _) ?_
      rw [Finset.sup_lt_iff (WithBot.bot_lt_coe _)]
      intro i _
      refine lt_of_le_of_lt ((degree_mul_le _ _).trans ((add_le_add degree_C_le le_rfl).trans (zero_add _).le)) ?_
      have hm : (∏ j ∈ Finset.univ.erase i, Z j).Monic := monic_prod_of_monic _ _ (fun i _ => hZ i)
      rw [ha]
      simp only
      rw [hm.degree_mul, degree_eq_natDegree hm.ne_zero]
      have hsum : W.natDegree = (Z i).natDegree + (∏ j ∈ Finset.univ.erase i, Z j).natDegree := by
        conv_lhs => rw [hWi i]
        rw [(hZ i).natDegree_mul hm]
      by_cases h0 : num i = 0
      · simp [h0]
      · have h1 := hnum i
        rw [degree_eq_natDegree h0] at h1 ⊢
        have : (num i).natDegree < D + (Z i).natDegree := by exact_mod_cast h1
        exact_mod_cast (by omega : (num i).natDegree + (∏ j ∈ Finset.univ.erase i, Z j).natDegree < D + W.natDegree)
  refine ⟨H.roots.toFinset, ?_, ?_⟩
  · refine (Multiset.toFinset_card_le _).trans ((card_roots' _).trans ?_)
    have := (natDegree_lt_iff_degree_lt hne).2 hdeg
    omega
  · intro y hy hz he
    apply hy
    rw [Multiset.mem_toFinset, mem_roots hne, IsRoot.def, hH, eval_sub, eval_mul, he, eval_finsetSum, Finset.sum_mul,
      sub_eq_zero]
    apply Finset.sum_congr rfl
    intro i _
    rw [ha, eval_mul, eval_C, eval_mul]
    have : W.eval y = (Z i).eval y * (∏ j ∈ Finset.univ.erase i, Z j).eval y := by
      conv_lhs => rw [hWi i]
      rw [eval_mul]
    rw [this]
    field_simp [hz i]

end
end ZK
