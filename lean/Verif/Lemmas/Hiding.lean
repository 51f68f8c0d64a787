import Verif.Spec.Hiding
import Verif.Lemmas.Fft
import Verif.Model.Permutation
import Mathlib.LinearAlgebra.Lagrange
/-! Draws and uniformly distributed results. -/
set_option autoImplicit false
set_option linter.unusedSectionVars false
namespace ZK
open Polynomial

/-- Draws that lead to one result can be mapped injectively to draws that lead to another. -/
def Shifts {A B : Type} (f : A → B) : Prop :=
  ∀ y y', ∃ g : A → A, Function.Injective g ∧ ∀ a, f a = y → f (g a) = y'

theorem Shifts.uniform {A B : Type} [Fintype A] {f : A → B} (h : Shifts f) : Uniform f := by
  classical
  have key : ∀ y y', (Finset.univ.filter (fun a => f a = y)).card ≤ (Finset.univ.filter (fun a => f a = y')).card := by
    intro y y'
    obtain ⟨g, hg, h1⟩ := h y y'
    refine Finset.card_le_card_of_injOn g ?_ hg.injOn
    intro a ha
    simp only [Finset.coe_filter, Finset.mem_univ, true_and, Set.mem_setOf_eq] at ha ⊢
    exact h1 a ha
  intro y y'
  convert le_antisymm (key y y') (key y' y)

/-- Uniformly distributed results take every value. -/
theorem Uniform.surjective {A B : Type} [Fintype A] [Nonempty A] {f : A → B} (h : Uniform f) : Function.Surjective f := by
  classical
  intro y
  obtain ⟨a⟩ := ‹Nonempty A›
  have h1 : 0 < (Finset.univ.filter (fun b => f b = y)).card := by
    have h2 := h y (f a)
    have h3 : 0 < (Finset.univ.filter (fun b => f b = f a)).card := Finset.card_pos.2 ⟨a, by simp⟩
    have h4 : (Finset.univ.filter (fun b => f b = y)).card = (Finset.univ.filter (fun b => f b = f a)).card := by
      convert h2
    omega
  obtain ⟨b, hb⟩ := Finset.card_pos.1 h1
  exact ⟨b, by simpa using hb⟩

/-- Independent draws give independent results. -/
theorem Shifts.pi {ι : Type} {A B : ι → Type} {f : ∀ i, A i → B i} (h : ∀ i, Shifts (f i)) :
    Shifts (fun (a : ∀ i, A i) i => f i (a i)) := by
  intro y y'
  choose g hg h1 using h
  refine ⟨fun a i => g i (y i) (y' i) (a i), ?_, ?_⟩
  · intro a b hab
    funext i
    exact hg i _ _ (congrFun hab i)
  · intro a ha
    funext i
    exact h1 i _ _ _ (congrFun ha i)

theorem Shifts.prod {A B A' B' : Type} {f : A → B} {f' : A' → B'} (h : Shifts f) (h' : Shifts f') :
    Shifts (fun a : A × A' => (f a.1, f' a.2)) := by
  intro y y'
  obtain ⟨g, hg, h1⟩ := h y.1 y'.1
  obtain ⟨g', hg', h1'⟩ := h' y.2 y'.2
  refine ⟨fun a => (g a.1, g' a.2), ?_, ?_⟩
  · intro a b hab
    exact Prod.ext (hg (Prod.ext_iff.1 hab).1) (hg' (Prod.ext_iff.1 hab).2)
  · intro a ha
    exact Prod.ext (h1 _ (Prod.ext_iff.1 ha).1) (h1' _ (Prod.ext_iff.1 ha).2)

/-- Renaming the draws changes nothing. -/
theorem Shifts.comp_equiv {A A' B : Type} {f : A → B} (h : Shifts f) (e : A' ≃ A) : Shifts (fun a => f (e a)) := by
  intro y y'
  obtain ⟨g, hg, h1⟩ := h y y'
  refine ⟨fun a => e.symm (g (e a)), ?_, ?_⟩
  · intro a b hab
    exact e.injective (hg (e.symm.injective hab))
  · intro a ha
    simp only [Equiv.apply_symm_apply]
    exact h1 _ ha

section
variable {F : Type} [Field F]

theorem after_add {Z : Type} (next : Z → F × Z) (a b : Nat) (z : Z) : after next (a + b) z = after next b (after next a z) := by
  unfold after
  rw [Nat.add_comm, Function.iterate_add_apply]

theorem draw_after {Z : Type} (next : Z → F × Z) (a b : Nat) (z : Z) : draw next (after next a z) b = draw next z (a + b) := by
  unfold draw
  rw [after_add]

theorem drawN_eq {Z : Type} (next : Z → F × Z) (t : Nat) (z : Z) :
    drawN next t z = (List.ofFn (fun i : Fin t => draw next z i), after next t z) := by
  induction t generalizing z with
  | zero => rfl
  | succ t ih =>
    unfold drawN
    rw [ih, show (next z).2 = after next 1 z from rfl, ← after_add, List.ofFn_succ, Nat.add_comm 1 t]
    simp only [draw_after, Fin.val_succ, Nat.add_comm 1, Prod.mk.injEq, List.cons.injEq, and_true]
    exact rfl

variable [FftParams F] [LawfulFft F] [DecidableEq F]

/-- There is a polynomial that vanishes on the first `m` rows and has prescribed values at `k` further points. -/
theorem exists_mask {d : Domain F} {m k : Nat} {x : Fin k → F} (hx : Function.Injective x)
    (hoff : ∀ i, ∀ j < m, x i ≠ d.omega ^ j) (y : Fin k → F) :
    ∃ P : F[X], P.degree < (m + k : ℕ) ∧ (∀ j < m, P.eval (d.omega ^ j) = 0) ∧ ∀ i, P.eval (x i) = y i := by
  set Z : F[X] := ∏ j ∈ Finset.range m, (X - C (d.omega ^ j)) with hZ
  have hZe : ∀ i, Z.eval (x i) ≠ 0 := by
    intro i
    rw [hZ, eval_prod, Finset.prod_ne_zero_iff]
    intro j hj
    rw [eval_sub, eval_X, eval_C, sub_ne_zero]
    exact hoff i j (Finset.mem_range.1 hj)
  refine ⟨Z * Lagrange.interpolate Finset.univ x (fun i => y i / Z.eval (x i)), ?_, ?_, ?_⟩
  · have h1 : Z.degree = (m : ℕ) := by
      rw [hZ, degree_prod, Finset.sum_congr rfl (fun j _ => degree_X_sub_C (d.omega ^ j))]
      simp
    have h2 := Lagrange.degree_interpolate_lt (s := (Finset.univ : Finset (Fin k))) (v := x)
      (fun i => y i / Z.eval (x i)) hx.injOn
    rw [Finset.card_univ, Fintype.card_fin] at h2
    rw [degree_mul, h1, Nat.cast_add]
    exact WithBot.add_lt_add_left (WithBot.coe_ne_bot) h2
  · intro j hj
    rw [eval_mul, hZ, eval_prod, Finset.prod_eq_zero (Finset.mem_range.2 hj) (by simp), zero_mul]
  · intro i
    rw [eval_mul, Lagrange.eval_interpolate_at_node _ hx.injOn (Finset.mem_univ i), mul_div_cancel₀ _ (hZe i)]

/-- Adding a polynomial that vanishes on the first rows only changes the other rows. -/
theorem ifft_mask {d : Domain F} (hd : d.Ok) {t : Nat} {pre : List F} (hl : pre.length + t = d.size) {P : F[X]}
    (hP : P.degree < d.size) (h0 : ∀ j < pre.length, P.eval (d.omega ^ j) = 0) (r : Fin t → F) :
    toPoly (trim (d.ifft (pre ++ List.ofFn (fun i => r i + P.eval (d.omega ^ (pre.length + i))))))
      = toPoly (trim (d.ifft (pre ++ List.ofFn r))) + P := by
  have hlen : ∀ s : Fin t → F, (pre ++ List.ofFn s).length = d.size := by simp [hl]
  rw [toPoly_trim, toPoly_trim]
  refine hd.poly_ext ?_ ?_ ?_
  · have := degree_toPoly_lt (d.ifft (pre ++ List.ofFn (fun i => r i + P.eval (d.omega ^ (pre.length + i)))))
    rwa [Domain.ifft_length] at this
  · refine (degree_add_le _ _).trans_lt (max_lt ?_ hP)
    have := degree_toPoly_lt (d.ifft (pre ++ List.ofFn r))
    rwa [Domain.ifft_length] at this
  · intro j hj
    rw [eval_add, eval_toPoly, eval_toPoly, hd.peval_ifft (hlen _) j hj, hd.peval_ifft (hlen _) j hj]
    unfold Domain.element
    by_cases h1 : j < pre.length
    · rw [List.getElem_append_left h1, List.getElem_append_left h1, h0 j h1, add_zero]
    · rw [List.getElem_append_right (by omega), List.getElem_append_right (by omega), List.getElem_ofFn, List.getElem_ofFn]
      simp only
      rw [Nat.add_sub_cancel' (by omega)]

/-- The values of a column at points outside of its fixed rows depend on its random rows in such a way that all values
are equally likely, as long as there are at least as many random rows as points. -/
theorem shifts_evals {d : Domain F} (hd : d.Ok) {t k : Nat} {pre : List F} (hl : pre.length + t = d.size) (hk : k ≤ t)
    {x : Fin k → F} (hx : Function.Injective x) (hoff : ∀ i, ∀ j < pre.length, x i ≠ d.omega ^ j) :
    Shifts (fun (r : Fin t → F) i => peval (trim (d.ifft (pre ++ List.ofFn r))) (x i)) := by
  intro y y'
  obtain ⟨P, h1, h2, h3⟩ := exists_mask hx hoff (fun i => y' i - y i)
  have h1' : P.degree < d.size := h1.trans_le (by exact_mod_cast (by omega))
  refine ⟨fun r i => r i + P.eval (d.omega ^ (pre.length + i)), ?_, ?_⟩
  · intro r r' h
    funext i
    exact add_right_cancel (congrFun h i)
  · intro r hr
    funext i
    have h4 := congrFun hr i
    simp only at h4 ⊢
    rw [peval_eq_eval] at h4 ⊢
    rw [ifft_mask hd hl h1' h2, eval_add, h4, h3]
    ring

end
end ZK
