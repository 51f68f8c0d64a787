import Mathlib.Algebra.Polynomial.Roots
import Mathlib.Algebra.Polynomial.BigOperators
import Mathlib.Algebra.Polynomial.Eval.Degree
import Mathlib.Tactic.Ring
import Mathlib.Tactic.Linarith
import Mathlib.Tactic.LinearCombination
/-! Counting zeros of polynomials in one and two variables. -/
set_option autoImplicit false
namespace ZK
open Polynomial Finset
variable {F : Type} [Field F] [DecidableEq F]

theorem card_zeros_le (P : F[X]) (hP : P ≠ 0) (d : Nat) (hd : P.natDegree ≤ d) (S : Finset F) :
    (S.filter (fun x => P.eval x = 0)).card ≤ d := by
  calc (S.filter (fun x => P.eval x = 0)).card ≤ P.roots.toFinset.card := by
        apply card_le_card
        intro x hx
        rw [mem_filter] at hx
        rw [Multiset.mem_toFinset, mem_roots hP]
        exact hx.2
    _ ≤ P.roots.card := Multiset.toFinset_card_le _
    _ ≤ P.natDegree := card_roots' P
    _ ≤ d := hd

/-- Zeros of a nonzero polynomial in two variables on a grid. -/
theorem card_grid_le (P : Polynomial F[X]) (hP : P ≠ 0) (d1 d2 : Nat)
    (h1 : ∀ k, (P.coeff k).natDegree ≤ d1) (h2 : P.natDegree ≤ d2) (S T : Finset F) :
    ((S ×ˢ T).filter (fun p => (P.map (evalRingHom p.1)).eval p.2 = 0)).card
      ≤ d1 * T.card + d2 * S.card := by
  obtain ⟨k, hk⟩ : ∃ k, P.coeff k ≠ 0 := by
    by_contra h
    push Not at h
    exact hP (Polynomial.ext (by simpa using h))
  have hB := card_zeros_le (P.coeff k) hk d1 (h1 k) S
  set B := S.filter (fun x => (P.coeff k).eval x = 0)
  have hsub : (S ×ˢ T).filter (fun p => (P.map (evalRingHom p.1)).eval p.2 = 0)
      ⊆ (B ×ˢ T) ∪ (S \ B).biUnion (fun b =>
        (T.filter (fun y => (P.map (evalRingHom b)).eval y = 0)).image (fun y => (b, y))) := by
    rintro ⟨x, y⟩ hx
    rw [mem_filter, mem_product] at hx
    by_cases hxB : x ∈ B
    · exact mem_union_left _ (mem_product.2 ⟨hxB, hx.1.2⟩)
    · refine mem_union_right _ (mem_biUnion.2 ⟨x, mem_sdiff.2 ⟨hx.1.1, hxB⟩, ?_⟩)
      exact mem_image.2 ⟨y, mem_filter.2 ⟨hx.1.2, hx.2⟩, rfl⟩
  refine (card_le_card hsub).trans ((card_union_le _ _).trans ?_)
  refine Nat.add_le_add ?_ ?_
  · rw [card_product]; exact Nat.mul_le_mul_right _ hB
  · refine card_biUnion_le.trans ?_
    have : ∀ b ∈ S \ B, ((T.filter (fun y => (P.map (evalRingHom b)).eval y = 0)).image
        (fun y => (b, y))).card ≤ d2 := by
      intro b hb
      refine card_image_le.trans (card_zeros_le _ ?_ d2 ((natDegree_map_le).trans h2) T)
      intro h0
      have h3 : (P.map (evalRingHom b)).coeff k = 0 := by rw [h0]; simp
      rw [coeff_map] at h3
      rw [mem_sdiff] at hb
      exact hb.2 (mem_filter.2 ⟨hb.1, by simpa using h3⟩)
    refine (sum_le_sum this).trans ?_
    rw [sum_const, smul_eq_mul, Nat.mul_comm]
    exact Nat.mul_le_mul_left _ (card_le_card sdiff_subset)

omit [DecidableEq F] in
theorem coeff_natDegree_mul {P Q : Polynomial F[X]} {a b : Nat} (hP : ∀ k, (P.coeff k).natDegree ≤ a)
    (hQ : ∀ k, (Q.coeff k).natDegree ≤ b) (k : Nat) : ((P * Q).coeff k).natDegree ≤ a + b := by
  rw [coeff_mul]
  refine natDegree_sum_le_of_forall_le _ _ (fun x _ => ?_)
  exact natDegree_mul_le.trans (Nat.add_le_add (hP _) (hQ _))

/-- `∏ (Y + (f i + g i * X))` over a finite set of linear forms. -/
noncomputable def linProd {ι : Type} (s : Finset ι) (f g : ι → F) : Polynomial F[X] :=
  ∏ i ∈ s, (X + C (C (f i) + C (g i) * X))

omit [DecidableEq F] in
theorem linProd_eval {ι : Type} (s : Finset ι) (f g : ι → F) (x y : F) :
    ((linProd s f g).map (evalRingHom x)).eval y = ∏ i ∈ s, (f i + x * g i + y) := by
  unfold linProd
  rw [Polynomial.map_prod, eval_prod]
  apply prod_congr rfl
  intro i _
  simp
  ring

omit [DecidableEq F] in
theorem linProd_coeff {ι : Type} (s : Finset ι) (f g : ι → F) (k : Nat) :
    ((linProd s f g).coeff k).natDegree ≤ s.card := by
  classical
  unfold linProd
  induction s using Finset.induction_on generalizing k with
  | empty =>
    simp [coeff_one]
    split <;> simp
  | insert i s hi ih =>
    rw [prod_insert hi, card_insert_of_notMem hi, Nat.add_comm]
    refine coeff_natDegree_mul (fun k => ?_) ih k
    rw [coeff_add, coeff_X, coeff_C]
    refine (natDegree_add_le _ _).trans (max_le ?_ ?_)
    · split <;> simp
    · split
      · refine (natDegree_add_le _ _).trans (max_le (by simp) ?_)
        exact (natDegree_C_mul_le _ _).trans natDegree_X_le
      · simp

omit [DecidableEq F] in
theorem linProd_natDegree {ι : Type} (s : Finset ι) (f g : ι → F) :
    (linProd s f g).natDegree = s.card ∧ (linProd s f g).Monic := by
  unfold linProd
  have hm : ∀ i ∈ s, (X + C (C (f i) + C (g i) * X) : Polynomial F[X]).Monic := fun i _ => monic_X_add_C _
  refine ⟨?_, monic_prod_of_monic _ _ hm⟩
  rw [natDegree_prod_of_monic _ _ hm, sum_congr rfl (fun i _ => natDegree_X_add_C _)]
  simp

/-- Total degree at most `D`. -/
def TotalLe (P : Polynomial F[X]) (D : Nat) : Prop :=
  ∀ k, (P.coeff k).natDegree ≤ D - k ∧ (D < k → P.coeff k = 0)

omit [DecidableEq F] in
theorem TotalLe.mul {P Q : Polynomial F[X]} {a b : Nat} (hP : TotalLe P a) (hQ : TotalLe Q b) :
    TotalLe (P * Q) (a + b) := by
  intro k
  rw [coeff_mul]
  constructor
  · refine natDegree_sum_le_of_forall_le _ _ (fun x hx => ?_)
    have hx := mem_antidiagonal.1 hx
    by_cases h1 : a < x.1
    · simp [(hP x.1).2 h1]
    by_cases h2 : b < x.2
    · simp [(hQ x.2).2 h2]
    refine natDegree_mul_le.trans ((Nat.add_le_add (hP x.1).1 (hQ x.2).1).trans ?_)
    omega
  · intro hk
    refine sum_eq_zero (fun x hx => ?_)
    have hx := mem_antidiagonal.1 hx
    by_cases h1 : a < x.1
    · simp [(hP x.1).2 h1]
    · simp [(hQ x.2).2 (by omega)]

omit [DecidableEq F] in
theorem TotalLe.sub {P Q : Polynomial F[X]} {a : Nat} (hP : TotalLe P a) (hQ : TotalLe Q a) :
    TotalLe (P - Q) a := by
  intro k
  rw [coeff_sub]
  exact ⟨(natDegree_sub_le _ _).trans (max_le (hP k).1 (hQ k).1),
    fun h => by rw [(hP k).2 h, (hQ k).2 h, sub_zero]⟩

/-- Zeros of a nonzero polynomial in two variables on a square grid. -/
theorem card_square_le (P : Polynomial F[X]) (hP : P ≠ 0) (D : Nat) (h : TotalLe P D) (S : Finset F) :
    ((S ×ˢ S).filter (fun p => (P.map (evalRingHom p.1)).eval p.2 = 0)).card ≤ D * S.card := by
  have hk : P.coeff P.natDegree ≠ 0 := leadingCoeff_ne_zero.2 hP
  have hD : P.natDegree ≤ D := by
    by_contra hc
    exact hk ((h _).2 (by omega))
  have hB := card_zeros_le (P.coeff P.natDegree) hk (D - P.natDegree) (h _).1 S
  set B := S.filter (fun x => (P.coeff P.natDegree).eval x = 0)
  have hsub : (S ×ˢ S).filter (fun p => (P.map (evalRingHom p.1)).eval p.2 = 0)
      ⊆ (B ×ˢ S) ∪ (S \ B).biUnion (fun b =>
        (S.filter (fun y => (P.map (evalRingHom b)).eval y = 0)).image (fun y => (b, y))) := by
    rintro ⟨x, y⟩ hx
    rw [mem_filter, mem_product] at hx
    by_cases hxB : x ∈ B
    · exact mem_union_left _ (mem_product.2 ⟨hxB, hx.1.2⟩)
    · refine mem_union_right _ (mem_biUnion.2 ⟨x, mem_sdiff.2 ⟨hx.1.1, hxB⟩, ?_⟩)
      exact mem_image.2 ⟨y, mem_filter.2 ⟨hx.1.2, hx.2⟩, rfl⟩
  have h2 : ((S \ B).biUnion (fun b =>
      (S.filter (fun y => (P.map (evalRingHom b)).eval y = 0)).image (fun y => (b, y)))).card
      ≤ P.natDegree * S.card := by
    refine card_biUnion_le.trans ?_
    have : ∀ b ∈ S \ B, ((S.filter (fun y => (P.map (evalRingHom b)).eval y = 0)).image
        (fun y => (b, y))).card ≤ P.natDegree := by
      intro b hb
      refine card_image_le.trans (card_zeros_le _ ?_ _ natDegree_map_le S)
      intro h0
      have h3 : (P.map (evalRingHom b)).coeff P.natDegree = 0 := by rw [h0]; simp
      rw [coeff_map] at h3
      rw [mem_sdiff] at hb
      exact hb.2 (mem_filter.2 ⟨hb.1, by simpa using h3⟩)
    refine (sum_le_sum this).trans ?_
    rw [sum_const, smul_eq_mul, Nat.mul_comm]
    exact Nat.mul_le_mul_left _ (card_le_card sdiff_subset)
  have h1 : (B ×ˢ S).card ≤ (D - P.natDegree) * S.card := by
    rw [card_product]; exact Nat.mul_le_mul_right _ hB
  refine (card_le_card hsub).trans ((card_union_le _ _).trans ((Nat.add_le_add h1 h2).trans ?_))
  rw [← Nat.add_mul, Nat.sub_add_cancel hD]

omit [DecidableEq F] in
theorem linProd_total {ι : Type} (s : Finset ι) (f g : ι → F) : TotalLe (linProd s f g) s.card := by
  classical
  unfold linProd
  induction s using Finset.induction_on with
  | empty =>
    intro k
    simp only [prod_empty, coeff_one, card_empty]
    constructor
    · split <;> simp
    · intro hk; rw [if_neg (by omega)]
  | insert i s hi ih =>
    rw [prod_insert hi, card_insert_of_notMem hi, Nat.add_comm]
    refine TotalLe.mul (fun k => ?_) ih
    rw [coeff_add, coeff_X, coeff_C]
    rcases k with _ | _ | k
    · simp only [if_true]
      constructor
      · refine (natDegree_add_le _ _).trans (max_le (by simp) ?_)
        refine (natDegree_add_le _ _).trans (max_le (by simp) ?_)
        exact (natDegree_C_mul_le _ _).trans natDegree_X_le
      · omega
    · simp
    · simp

omit [DecidableEq F] in
/-- Equal products of linear forms have the same linear forms. -/
theorem linProd_eq_mem {ι κ : Type} (s : Finset ι) (t : Finset κ) (f g : ι → F) (f' g' : κ → F)
    (h : linProd s f g = linProd t f' g') (i : ι) (hi : i ∈ s) :
    ∃ j ∈ t, f' j = f i ∧ g' j = g i := by
  have h0 : (linProd s f g).eval (-(C (f i) + C (g i) * X)) = 0 := by
    unfold linProd
    rw [eval_prod]
    exact prod_eq_zero hi (by simp)
  rw [h] at h0
  unfold linProd at h0
  rw [eval_prod] at h0
  obtain ⟨j, hj, hz⟩ := prod_eq_zero_iff.1 h0
  refine ⟨j, hj, ?_⟩
  simp only [eval_add, eval_X, eval_C] at hz
  have e0 := congrArg (fun p => p.coeff 0) hz
  have e1 := congrArg (fun p => p.coeff 1) hz
  simp at e0 e1
  constructor
  · linear_combination e0
  · linear_combination e1

end ZK
