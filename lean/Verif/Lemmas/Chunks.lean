import Mathlib.Data.List.Basic
import Mathlib.Tactic.Ring
import Mathlib.Tactic.Linarith
import Verif.Model.Collections
import Verif.Lemmas.Res
/-! `slice.chunks(k)`. -/
set_option autoImplicit false
namespace ZK
variable {α β : Type}

theorem chunksAux_fuel {k : Nat} (hk : 0 < k) (l : List α) :
    ∀ f, l.length ≤ f → chunksAux k f l = chunksAux k l.length l := by
  induction hn : l.length using Nat.strong_induction_on generalizing l with
  | _ n ih =>
    intro f hf
    cases l with
    | nil => subst hn; cases f <;> rfl
    | cons a l =>
      subst hn
      obtain ⟨f, rfl⟩ : ∃ f', f = f' + 1 := ⟨f - 1, by simp at hf; omega⟩
      have hd : ((a :: l).drop k).length < (a :: l).length := by simp [List.length_drop]; omega
      simp only [chunksAux, List.length_cons]
      rw [ih _ hd _ rfl f (by simp at hf hd ⊢; omega), ih _ hd _ rfl l.length (by simp at hd ⊢; omega)]

@[simp] theorem chunks_nil (k : Nat) : chunks k ([] : List α) = [] := rfl

theorem chunks_cons {k : Nat} (hk : 0 < k) {l : List α} (h : l ≠ []) :
    chunks k l = l.take k :: chunks k (l.drop k) := by
  cases l with
  | nil => exact absurd rfl h
  | cons a l =>
    unfold chunks
    simp only [List.length_cons, chunksAux]
    rw [chunksAux_fuel hk _ l.length (by simp [List.length_drop]; omega)]

/-- Strong induction along the chunks. -/
theorem chunks_induction {k : Nat} (hk : 0 < k) {P : List α → Prop} (h0 : P [])
    (hs : ∀ l, l ≠ [] → P (l.drop k) → P l) (l : List α) : P l := by
  induction hn : l.length using Nat.strong_induction_on generalizing l with
  | _ n ih =>
    by_cases hl : l = []
    · exact hl ▸ h0
    · refine hs l hl (ih (l.drop k).length ?_ _ rfl)
      have : 0 < l.length := List.length_pos_iff.2 hl
      simp [List.length_drop]; omega

theorem chunks_flatten {k : Nat} (hk : 0 < k) (l : List α) : (chunks k l).flatten = l := by
  induction l using chunks_induction hk with
  | h0 => rfl
  | hs l hl ih => rw [chunks_cons hk hl, List.flatten_cons, ih, List.take_append_drop]

theorem chunks_length {k : Nat} (hk : 0 < k) (l : List α) : (chunks k l).length = (l.length + k - 1) / k := by
  induction l using chunks_induction hk with
  | h0 => simp only [chunks_nil, List.length_nil]; rw [Nat.div_eq_of_lt (by omega)]
  | hs l hl ih =>
    have : 0 < l.length := List.length_pos_iff.2 hl
    rw [chunks_cons hk hl, List.length_cons, ih, List.length_drop]
    by_cases h : k ≤ l.length
    · rw [show l.length + k - 1 = (l.length - k + k - 1) + k by omega, Nat.add_div_right _ hk]
    · rw [show l.length - k + k - 1 = k - 1 by omega, Nat.div_eq_of_lt (by omega)]
      rw [show l.length + k - 1 = (l.length - 1) + k by omega, Nat.add_div_right _ hk,
        Nat.div_eq_of_lt (by omega)]

theorem chunks_length_le {k : Nat} (hk : 0 < k) (l : List α) : ∀ c ∈ chunks k l, c.length ≤ k := by
  induction l using chunks_induction hk with
  | h0 => simp
  | hs l hl ih =>
    rw [chunks_cons hk hl]
    intro c hc
    rcases List.mem_cons.1 hc with rfl | hc
    · simp
    · exact ih c hc

theorem chunks_ne_nil {k : Nat} (hk : 0 < k) (l : List α) : ∀ c ∈ chunks k l, c ≠ [] := by
  induction l using chunks_induction hk with
  | h0 => simp
  | hs l hl ih =>
    rw [chunks_cons hk hl]
    intro c hc
    rcases List.mem_cons.1 hc with rfl | hc
    · have : 0 < l.length := List.length_pos_iff.2 hl
      intro h0
      have h1 := congrArg List.length h0
      rw [List.length_take, List.length_nil] at h1; omega
    · exact ih c hc

theorem chunks_eq_nil {k : Nat} (hk : 0 < k) {l : List α} : chunks k l = [] ↔ l = [] := by
  constructor
  · intro h
    have := chunks_flatten hk l
    rw [h] at this; exact this.symm
  · rintro rfl; rfl

/-- All chunks but the last are full; the `i`-th chunk is the `i`-th slice. -/
theorem chunks_getElem? {k : Nat} (hk : 0 < k) (l : List α) (i : Nat) :
    (chunks k l)[i]? = if k * i < l.length then some ((l.drop (k * i)).take k) else none := by
  induction l using chunks_induction hk generalizing i with
  | h0 => simp
  | hs l hl ih =>
    have : 0 < l.length := List.length_pos_iff.2 hl
    rw [chunks_cons hk hl]
    cases i with
    | zero => simp [this]
    | succ i =>
      rw [List.getElem?_cons_succ, ih i, List.length_drop, List.drop_drop]
      have e : k * (i + 1) = k + k * i := by ring
      rw [e]
      by_cases h : k * i < l.length - k
      · rw [if_pos h, if_pos (by omega)]
      · rw [if_neg h, if_neg (by omega)]

theorem chunks_map {k : Nat} (hk : 0 < k) (f : α → β) (l : List α) :
    chunks k (l.map f) = (chunks k l).map (List.map f) := by
  induction l using chunks_induction hk with
  | h0 => rfl
  | hs l hl ih =>
    rw [chunks_cons hk hl, chunks_cons hk (by simpa using hl), List.map_cons, List.map_take, ← ih,
      List.map_drop]

theorem chunks_zip {k : Nat} (hk : 0 < k) (l : List α) (m : List β) (h : l.length = m.length) :
    chunks k (List.zip l m) = List.zipWith List.zip (chunks k l) (chunks k m) := by
  induction l using chunks_induction hk generalizing m with
  | h0 =>
    cases m with
    | nil => rfl
    | cons b m => simp at h
  | hs l hl ih =>
    have hm : m ≠ [] := by rintro rfl; simp at h; exact hl h
    have hz : List.zip l m ≠ [] := by
      intro h0
      have := congrArg List.length h0
      simp only [List.length_zip, List.length_nil, h, min_self] at this
      exact hm (List.length_eq_zero_iff.1 this)
    rw [chunks_cons hk hl, chunks_cons hk hm, chunks_cons hk hz, List.zipWith_cons_cons,
      ← ih (m.drop k) (by simp [h]), List.zip_eq_zipWith, List.take_zipWith, List.drop_zipWith,
      ← List.zip_eq_zipWith, ← List.zip_eq_zipWith]

/-- Chunks of three lists zipped: what the permutation argument iterates over. -/
theorem zip_chunks {γ : Type} {k : Nat} (hk : 0 < k) (a : List α) (b : List β) (c : List γ)
    (hab : a.length = b.length) (hac : a.length = c.length) :
    (List.zip (List.zip (chunks k a) (chunks k b)) (chunks k c)).map
      (fun p => List.zip (List.zip p.1.1 p.1.2) p.2) = chunks k (List.zip (List.zip a b) c) := by
  rw [chunks_zip hk _ c (by simp [hab.symm, hac]), chunks_zip hk a b hab]
  generalize chunks k a = x
  generalize chunks k b = y
  generalize chunks k c = w
  induction x generalizing y w with
  | nil => simp
  | cons x xs ih =>
    cases y with
    | nil => simp
    | cons y ys =>
      cases w with
      | nil => simp
      | cons w ws => simp [ih]

theorem chunks_length_congr {k : Nat} (hk : 0 < k) {a : List α} {b : List β} (h : a.length = b.length) :
    (chunks k a).length = (chunks k b).length := by
  rw [chunks_length hk, chunks_length hk, h]

@[simp] theorem chunksR_of_pos {ε : Type} {k : Nat} (hk : 0 < k) (l : List α) :
    (chunksR k l : Res ε (List (List α))) = .ok (chunks k l) := by
  simp [chunksR, hk.ne']

/-- Blocks of constant length are recovered by `chunks`. -/
theorem chunks_flatMap {k : Nat} (hk : 0 < k) (f : α → List β) (l : List α) (h : ∀ a ∈ l, (f a).length = k) :
    chunks k (l.flatMap f) = l.map f := by
  induction l with
  | nil => rfl
  | cons a l ih =>
    have ha := h a (by simp)
    have hne : (a :: l).flatMap f ≠ [] := by
      rw [List.flatMap_cons]
      intro hc
      have := congrArg List.length hc
      simp [ha] at this
      omega
    rw [chunks_cons hk hne, List.flatMap_cons, List.take_left' ha, List.drop_left' ha,
      ih (fun b hb => h b (by simp [hb])), List.map_cons]

end ZK
