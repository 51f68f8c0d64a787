import Mathlib.Data.Fintype.Pi
import Mathlib.Data.Fin.Tuple.Finset
import Mathlib.Algebra.BigOperators.Fin
import Verif.Spec.Soundness
/-! Counting tuples of challenges one challenge after the other. -/
set_option autoImplicit false
set_option linter.unusedSectionVars false
namespace ZK
open Finset

section
variable {F : Type}

open Classical in
/-- The number of lists of length `n` with elements of `T` that belong to `A`. -/
noncomputable def count (T : Finset F) : Nat → (List F → Prop) → Nat
  | 0, A => if A [] then 1 else 0
  | n + 1, A => ∑ x ∈ T, count T n (fun cs => A (x :: cs))

theorem count_le (T : Finset F) (n : Nat) (A : List F → Prop) : count T n A ≤ T.card ^ n := by
  induction n generalizing A with
  | zero => unfold count; split <;> simp
  | succ n ih =>
    unfold count
    calc _ ≤ ∑ _x ∈ T, T.card ^ n := sum_le_sum (fun x _ => ih _)
      _ = _ := by rw [sum_const, smul_eq_mul, pow_succ']

theorem count_eq_zero (T : Finset F) (n : Nat) {A : List F → Prop} (h : ∀ cs, ¬ A cs) : count T n A = 0 := by
  induction n generalizing A with
  | zero => unfold count; rw [if_neg (h _)]
  | succ n ih => unfold count; exact sum_eq_zero (fun x _ => ih (fun cs => h _))

open Classical in
theorem count_eq_card (T : Finset F) (n : Nat) (A : List F → Prop) :
    ((Fintype.piFinset fun _ : Fin n => T).filter (fun c => A (List.ofFn c))).card = count T n A := by
  induction n generalizing A with
  | zero =>
    unfold count
    by_cases h : A []
    · rw [if_pos h]
      rw [card_eq_one]
      refine ⟨Fin.elim0, ?_⟩
      ext c
      simp only [mem_filter, Fintype.mem_piFinset, IsEmpty.forall_iff, true_and, mem_singleton, List.ofFn_zero, h, true_iff]
      exact Subsingleton.elim _ _
    · rw [if_neg h, card_eq_zero]
      ext c
      simp [h]
  | succ n ih =>
    unfold count
    rw [← sum_congr rfl (fun x _ => ih (fun cs => A (x :: cs)))]
    rw [← card_sigma]
    refine card_bij' (fun c _ => ⟨c 0, Fin.tail c⟩) (fun p _ => Fin.cons p.1 p.2) ?_ ?_ ?_ ?_
    · intro c hc
      simp only [mem_filter, Fintype.mem_piFinset, mem_sigma] at hc ⊢
      exact ⟨hc.1 0, fun i => hc.1 _, by
        have := hc.2
        rw [List.ofFn_succ] at this
        exact this⟩
    · intro p hp
      simp only [mem_filter, Fintype.mem_piFinset, mem_sigma] at hp ⊢
      refine ⟨fun i => ?_, ?_⟩
      · refine Fin.cases ?_ ?_ i
        · simpa using hp.1
        · intro j; simpa using hp.2.1 j
      · simpa [List.ofFn_succ] using hp.2.2
    · intro c _
      simp
    · intro p _
      simp

/-- At most `e` of every `T.card` tuples belong to `A`. -/
def ErrLe (T : Finset F) (n e : Nat) (A : List F → Prop) : Prop := count T n A * T.card ≤ e * T.card ^ n

theorem ErrLe.of_not (T : Finset F) (n e : Nat) {A : List F → Prop} (h : ∀ cs, ¬ A cs) : ErrLe T n e A := by
  unfold ErrLe; rw [count_eq_zero T n h]; simp

theorem ErrLe.mono {T : Finset F} {n e e' : Nat} {A : List F → Prop} (h : ErrLe T n e A) (he : e ≤ e') : ErrLe T n e' A :=
  h.trans (Nat.mul_le_mul_right _ he)

/-- One more challenge. -/
theorem ErrLe.step {T : Finset F} {n k e : Nat} {A : List F → Prop} {B : Finset F} (hB : B.card ≤ k)
    (h : ∀ x ∉ B, ErrLe T n e (fun cs => A (x :: cs))) : ErrLe T (n + 1) (k + e) A := by
  classical
  unfold ErrLe count
  rw [sum_mul]
  calc ∑ x ∈ T, count T n (fun cs => A (x :: cs)) * T.card
      ≤ ∑ x ∈ T, ((if x ∈ B then T.card ^ n * T.card else 0) + e * T.card ^ n) := by
        refine sum_le_sum (fun x _ => ?_)
        split
        · exact (Nat.mul_le_mul_right _ (count_le _ _ _)).trans (Nat.le_add_right _ _)
        · rename_i hx
          rw [Nat.zero_add]
          exact h x hx
    _ = (T.filter (· ∈ B)).card * (T.card ^ n * T.card) + T.card * (e * T.card ^ n) := by
        rw [sum_add_distrib, ← sum_filter, sum_const, sum_const, smul_eq_mul, smul_eq_mul]
    _ ≤ k * (T.card ^ n * T.card) + T.card * (e * T.card ^ n) := by
        refine Nat.add_le_add_right (Nat.mul_le_mul_right _ ?_) _
        refine le_trans (card_le_card ?_) hB
        intro x hx
        exact (mem_filter.1 hx).2
    _ = (k + e) * T.card ^ (n + 1) := by ring

/-- Two more challenges. -/
theorem ErrLe.step_pair [Field F] {T : Finset F} {n k e : Nat} {A : List F → Prop} {B : Set (F × F)} (hB : FewPairs k B)
    (h : ∀ x y, (x, y) ∉ B → ErrLe T n e (fun cs => A (x :: y :: cs))) : ErrLe T (n + 2) (k + e) A := by
  classical
  unfold ErrLe count count
  rw [sum_mul]
  simp only [sum_mul]
  rw [← sum_product' T T (fun x y => count T n (fun cs => A (x :: y :: cs)) * T.card)]
  calc ∑ p ∈ T ×ˢ T, count T n (fun cs => A (p.1 :: p.2 :: cs)) * T.card
      ≤ ∑ p ∈ T ×ˢ T, ((if p ∈ B then T.card ^ n * T.card else 0) + e * T.card ^ n) := by
        refine sum_le_sum (fun x _ => ?_)
        split
        · exact (Nat.mul_le_mul_right _ (count_le _ _ _)).trans (Nat.le_add_right _ _)
        · rename_i hx
          rw [Nat.zero_add]
          exact h x.1 x.2 hx
    _ = ((T ×ˢ T).filter (· ∈ B)).card * (T.card ^ n * T.card) + (T.card * T.card) * (e * T.card ^ n) := by
        rw [sum_add_distrib, ← sum_filter, sum_const, sum_const, smul_eq_mul, smul_eq_mul, card_product]
    _ ≤ (k * T.card) * (T.card ^ n * T.card) + (T.card * T.card) * (e * T.card ^ n) := by
        refine Nat.add_le_add_right (Nat.mul_le_mul_right _ ?_) _
        exact hB T
    _ = (k + e) * T.card ^ (n + 2) := by ring

/-- What the relation means for tuples. -/
theorem ErrLe.card {T : Finset F} {n e : Nat} {A : List F → Prop} (h : ErrLe T (n + 1) e A) : count T (n + 1) A ≤ e * T.card ^ n := by
  rcases Nat.eq_zero_or_pos T.card with h0 | h0
  · have : T = ∅ := card_eq_zero.1 h0
    subst this
    simp [count]
  · unfold ErrLe at h
    rw [pow_succ, ← mul_assoc] at h
    exact Nat.le_of_mul_le_mul_right h h0

end
end ZK
