import Verif.Model.Multiopen
import Verif.Lemmas.Collections
import Verif.Lemmas.Res
import Mathlib.Data.List.Induction
/-! Opening sets. -/
set_option autoImplicit false
set_option linter.unusedSectionVars false
namespace ZK

section
variable {κ β : Type} [LinearOrder κ]

theorem mapPush_map (k : κ) (v : β) (g : κ → List β) (ks : List κ) (hs : ks.Pairwise (· < ·))
    (hg : k ∉ ks → g k = []) :
    mapPush k v (ks.map (fun k' => (k', g k')))
      = (setInsert k ks).map (fun k' => (k', if k' = k then g k' ++ [v] else g k')) := by
  induction ks with
  | nil => simp [mapPush, setInsert, hg]
  | cons a ks ih =>
    rw [List.pairwise_cons] at hs
    simp only [List.map_cons, mapPush, setInsert]
    by_cases h1 : k < a
    · have hk : k ∉ a :: ks := by
        intro h
        rcases List.mem_cons.1 h with rfl | h
        · exact lt_irrefl _ h1
        · exact lt_irrefl _ (h1.trans (hs.1 _ h))
      rw [if_pos h1, if_pos h1]
      simp only [List.map_cons, if_true, hg hk, List.nil_append, h1.ne', if_false]
      congr 2
      apply List.map_congr_left
      intro k' hk'
      rw [if_neg]
      rintro rfl
      exact hk (by simp [hk'])
    · rw [if_neg h1, if_neg h1]
      by_cases h2 : a < k
      · rw [if_pos h2, if_pos h2, List.map_cons, if_neg h2.ne, ih hs.2]
        intro h
        apply hg
        simp [h, h2.ne']
      · have : k = a := le_antisymm (not_lt.1 h2) (not_lt.1 h1)
        subst this
        rw [if_neg h1, if_neg h1, List.map_cons, if_pos rfl]
        congr 1
        apply List.map_congr_left
        intro k' hk'
        rw [if_neg (hs.1 _ hk').ne']

end

/-- The opening sets in closed form: the rotation sets in increasing order, each with the oracles that have it, in
their order. -/
theorem openingSets_eq {α : Type} (rot : α → List Rotation) (os : List α) :
    openingSets rot os
      = (setExtend [] (os.map rot)).map (fun k => (k, os.filter (fun o => decide (rot o = k)))) := by
  unfold openingSets
  induction os using List.reverseRecOn with
  | nil => rfl
  | append_singleton os o ih =>
    rw [List.foldl_append, List.foldl_cons, List.foldl_nil, ih,
      mapPush_map _ _ _ _ (setExtend_sorted List.Pairwise.nil)]
    · rw [List.map_append, List.map_cons, List.map_nil]
      have : setExtend [] (os.map rot ++ [rot o]) = setInsert (rot o) (setExtend [] (os.map rot)) := by
        unfold setExtend; rw [List.foldl_append]; rfl
      rw [this]
      apply List.map_congr_left
      intro k _
      rw [List.filter_append]
      by_cases h : k = rot o
      · subst h; simp
      · rw [if_neg h]
        simp [Ne.symm h]
    · intro h
      rw [List.filter_eq_nil_iff]
      intro o' ho' hr
      apply h
      rw [mem_setExtend]
      exact .inr (List.mem_map.2 ⟨o', ho', of_decide_eq_true hr⟩)

end ZK
