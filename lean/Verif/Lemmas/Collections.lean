import Mathlib.Data.List.Nodup
import Verif.Lemmas.Res
/-! Sets, maps and label lookup. -/
set_option autoImplicit false
namespace ZK

section
variable {α β : Type} [LinearOrder α]

theorem mem_setInsert {a b : α} {l : List α} : b ∈ setInsert a l ↔ b = a ∨ b ∈ l := by
  induction l with
  | nil => simp [setInsert]
  | cons c l ih =>
    simp only [setInsert]
    split_ifs with h1 h2
    · simp
    · simp only [List.mem_cons, ih]; tauto
    · have : a = c := le_antisymm (not_lt.1 h2) (not_lt.1 h1)
      subst this
      simp

theorem setInsert_sorted {a : α} {l : List α} (h : l.Pairwise (· < ·)) :
    (setInsert a l).Pairwise (· < ·) := by
  induction l with
  | nil => simp [setInsert]
  | cons c l ih =>
    rw [List.pairwise_cons] at h
    simp only [setInsert]
    split_ifs with h1 h2
    · rw [List.pairwise_cons]
      refine ⟨?_, List.pairwise_cons.2 h⟩
      intro b hb
      rcases List.mem_cons.1 hb with rfl | hb
      · exact h1
      · exact h1.trans (h.1 b hb)
    · rw [List.pairwise_cons]
      refine ⟨?_, ih h.2⟩
      intro b hb
      rcases mem_setInsert.1 hb with rfl | hb
      · exact h2
      · exact h.1 b hb
    · exact List.pairwise_cons.2 h

theorem mem_setExtend {b : α} {s l : List α} : b ∈ setExtend s l ↔ b ∈ s ∨ b ∈ l := by
  unfold setExtend
  induction l generalizing s with
  | nil => simp
  | cons a l ih => simp only [List.foldl_cons, ih, mem_setInsert, List.mem_cons]; tauto

theorem setExtend_sorted {s l : List α} (h : s.Pairwise (· < ·)) : (setExtend s l).Pairwise (· < ·) := by
  unfold setExtend
  induction l generalizing s with
  | nil => simpa
  | cons a l ih => exact ih (setInsert_sorted h)

/-- Strictly sorted lists are determined by their elements. -/
theorem sorted_ext {l l' : List α} (h : l.Pairwise (· < ·)) (h' : l'.Pairwise (· < ·))
    (he : ∀ a, a ∈ l ↔ a ∈ l') : l = l' := by
  apply List.Perm.eq_of_pairwise (le := (· < ·)) _ h h'
  · rw [List.perm_ext_iff_of_nodup (h.imp ne_of_lt) (h'.imp ne_of_lt)]
    exact he
  · intro a b _ _ h1 h2
    exact absurd h1 (lt_asymm h2)

end

/-! ### Label lookup -/

theorem lastIndexOf_eq_none {ls : List Label} {l : Label} : lastIndexOf ls l = none ↔ l ∉ ls := by
  induction ls with
  | nil => simp [lastIndexOf]
  | cons b bs ih =>
    simp only [lastIndexOf, List.mem_cons, not_or]
    cases h : lastIndexOf bs l with
    | some i =>
      simp only [reduceCtorEq, false_iff, not_and, not_not]
      intro _
      by_contra hc
      rw [ih.2 hc] at h
      simp at h
    | none =>
      have h1 := ih.1 h
      by_cases hb : b = l
      · simp [hb]
      · simp [hb, h1, Ne.symm hb]

theorem lastIndexOf_eq_some {ls : List Label} {l : Label} {i : Nat} :
    lastIndexOf ls l = some i ↔ ls[i]? = some l ∧ ∀ j, i < j → ls[j]? ≠ some l := by
  induction ls generalizing i with
  | nil => simp [lastIndexOf]
  | cons b bs ih =>
    simp only [lastIndexOf]
    cases h : lastIndexOf bs l with
    | some k =>
      obtain ⟨h1, h2⟩ := ih.1 h
      simp only [Option.some.injEq]
      constructor
      · rintro rfl
        refine ⟨by simpa using h1, ?_⟩
        intro j hj
        cases j with
        | zero => omega
        | succ j => simpa using h2 j (by omega)
      · rintro ⟨h3, h4⟩
        cases i with
        | zero => exact absurd (by simpa using h1) (h4 (k + 1) (by omega))
        | succ i =>
          have : lastIndexOf bs l = some i := ih.2 ⟨by simpa using h3, fun j hj => by
            simpa using h4 (j + 1) (by omega)⟩
          rw [h] at this
          simp at this
          omega
    | none =>
      have hn := lastIndexOf_eq_none.1 h
      by_cases hb : b = l
      · subst hb
        simp only [if_true, Option.some.injEq]
        constructor
        · rintro rfl
          refine ⟨by simp, ?_⟩
          intro j hj hc
          cases j with
          | zero => omega
          | succ j => exact hn (List.mem_of_getElem? (by simpa using hc))
        · rintro ⟨h3, _⟩
          cases i with
          | zero => rfl
          | succ i => exact absurd (List.mem_of_getElem? (by simpa using h3)) hn
      · simp only [hb, if_false, reduceCtorEq, false_iff, not_and]
        intro h3
        cases i with
        | zero => simp at h3; exact absurd h3 hb
        | succ i => exact absurd (List.mem_of_getElem? (by simpa using h3)) hn

theorem lastIndexOf_of_nodup {ls : List Label} (h : ls.Nodup) {l : Label} {i : Nat}
    (hi : ls[i]? = some l) : lastIndexOf ls l = some i := by
  rw [lastIndexOf_eq_some]
  refine ⟨hi, ?_⟩
  intro j hj hc
  have h1 : i < ls.length := by
    by_contra hc
    rw [List.getElem?_eq_none (by omega)] at hi
    simp at hi
  have h2 : j < ls.length := by
    by_contra hc'
    rw [List.getElem?_eq_none (by omega)] at hc
    simp at hc
  rw [List.getElem?_eq_getElem h1] at hi
  rw [List.getElem?_eq_getElem h2] at hc
  have := (List.Nodup.getElem_inj_iff h (hi := h1) (hj := h2)).1
    (by rw [Option.some.inj hi, Option.some.inj hc])
  omega

theorem getElem?_some_lt {α : Type} {l : List α} {i : Nat} {a : α} (h : l[i]? = some a) :
    i < l.length := by
  by_contra hc
  rw [List.getElem?_eq_none (by omega)] at h
  simp at h

end ZK
