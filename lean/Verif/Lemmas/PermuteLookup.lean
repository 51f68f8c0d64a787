import Mathlib.Data.List.Count
import Mathlib.Data.List.GetD
import Mathlib.Data.List.Perm.Basic
import Mathlib.Data.List.Sort
import Verif.Model.Lookup
import Verif.Lemmas.Res
/-! The routine permuting input and table of a lookup (src/lookup/permute.rs). -/
set_option autoImplicit false
namespace ZK
section
variable {F : Type} [Field F] [LinearOrder F] {ε : Type}

/-- The table elements an occurrence map stands for. -/
def flatCounts (m : List (F × Nat)) : List F := m.flatMap (fun p => List.replicate p.2 p.1)

omit [Field F] [LinearOrder F] in
@[simp] theorem flatCounts_cons (y : F) (c : Nat) (m : List (F × Nat)) :
    flatCounts ((y, c) :: m) = List.replicate c y ++ flatCounts m := rfl

omit [Field F] in
theorem flatCounts_inc (x : F) (m : List (F × Nat)) :
    (flatCounts (countInc x m)).Perm (x :: flatCounts m) := by
  induction m with
  | nil => simp [countInc, flatCounts]
  | cons p m ih =>
    obtain ⟨y, c⟩ := p
    unfold countInc
    split_ifs with h1 h2
    · simp
    · simp only [flatCounts_cons]
      exact (ih.append_left _).trans List.perm_middle
    · have : x = y := le_antisymm (not_lt.1 h2) (not_lt.1 h1)
      subst this
      simp [List.replicate_succ]

omit [Field F] in
theorem keys_inc (x : F) (m : List (F × Nat)) (h : (m.map Prod.fst).Pairwise (· < ·)) :
    ((countInc x m).map Prod.fst).Pairwise (· < ·) ∧
      ∀ k ∈ (countInc x m).map Prod.fst, k = x ∨ k ∈ m.map Prod.fst := by
  induction m with
  | nil => simp [countInc]
  | cons p m ih =>
    obtain ⟨y, c⟩ := p
    simp only [List.map_cons, List.pairwise_cons] at h
    unfold countInc
    split_ifs with h1 h2
    · refine ⟨?_, by simp⟩
      simp only [List.map_cons, List.pairwise_cons, List.mem_cons]
      exact ⟨by rintro a (rfl | ha); exacts [h1, h1.trans (h.1 _ ha)], h.1, h.2⟩
    · obtain ⟨i1, i2⟩ := ih h.2
      simp only [List.map_cons, List.pairwise_cons, List.mem_cons]
      refine ⟨⟨fun a ha => ?_, i1⟩, ?_⟩
      · rcases i2 a ha with rfl | ha
        · exact h2
        · exact h.1 _ ha
      · rintro k (rfl | hk)
        · simp
        · rcases i2 k hk with rfl | hk <;> simp [*]
    · exact ⟨by simpa using h, fun k hk => Or.inr (by simpa using hk)⟩

omit [Field F] in
theorem flatCounts_fold (s : List F) (m : List (F × Nat)) (h : (m.map Prod.fst).Pairwise (· < ·)) :
    (flatCounts (s.foldl (fun m x => countInc x m) m)).Perm (s ++ flatCounts m) ∧
      ((s.foldl (fun m x => countInc x m) m).map Prod.fst).Pairwise (· < ·) := by
  induction s generalizing m with
  | nil => simpa using h
  | cons x s ih =>
    obtain ⟨i1, i2⟩ := ih (countInc x m) (keys_inc x m h).1
    refine ⟨i1.trans ?_, i2⟩
    refine ((flatCounts_inc x m).append_left s).trans ?_
    simp

omit [Field F] in
/-- Taking one occurrence of `x` off works exactly when there is one left. -/
theorem countDec_spec (x : F) (m : List (F × Nat)) (h : (m.map Prod.fst).Nodup) :
    (x ∈ flatCounts m ∧ ∃ m', (countDec x m : Res ε _) = .ok m' ∧ (flatCounts m).Perm (x :: flatCounts m') ∧
      m'.map Prod.fst = m.map Prod.fst) ∨
    (x ∉ flatCounts m ∧ (countDec x m : Res ε _) = .panic) := by
  induction m with
  | nil => right; simp [flatCounts, countDec]
  | cons p m ih =>
    obtain ⟨y, c⟩ := p
    simp only [List.map_cons, List.nodup_cons] at h
    have hnot : ∀ z ∈ flatCounts m, z ∈ m.map Prod.fst := by
      intro z hz
      simp only [flatCounts, List.mem_flatMap, List.mem_replicate] at hz
      obtain ⟨p, hp, _, rfl⟩ := hz
      exact List.mem_map_of_mem hp
    unfold countDec
    by_cases hxy : x = y
    · subst hxy
      by_cases hc : c = 0
      · right
        subst hc
        refine ⟨?_, by simp⟩
        simp only [flatCounts_cons, List.replicate_zero, List.nil_append]
        exact fun hm => h.1 (hnot x hm)
      · left
        refine ⟨by simp [hc], (x, c - 1) :: m, by simp [hc], ?_, by simp⟩
        obtain ⟨c, rfl⟩ : ∃ k, c = k + 1 := ⟨c - 1, by omega⟩
        simp [List.replicate_succ]
    · rcases ih h.2 with ⟨hm, m', h1, h2, h3⟩ | ⟨hm, h1⟩
      · left
        refine ⟨by simp [hm], (y, c) :: m', by simp [hxy, h1], ?_, by simp [h3]⟩
        simp only [flatCounts_cons]
        exact (h2.append_left _).trans List.perm_middle
      · right
        refine ⟨by simp [hm, hxy], by simp [hxy, h1]⟩

/-- Invariant of the first loop after `k` rows: `A` lists the rows filled so far. -/
structure PermInv (a s : List F) (k : Nat) (st : PermState F) (A : List Nat) : Prop where
  rows : (A ++ st.unassigned).Perm (List.range k)
  len : st.table.length = a.length
  table : (A.map (fun i => st.table.getD i 0) ++ flatCounts st.counts).Perm s
  filled : ∀ i ∈ A, st.table[i]? = a[i]?
  repeated : ∀ i ∈ st.unassigned, 0 < i ∧ a[i - 1]? = a[i]?
  cover : ∀ j < k, ∃ i ∈ A, a[i]? = a[j]?
  keys : (st.counts.map Prod.fst).Nodup

theorem permStep_inv {a s : List F} (hsort : a.Pairwise (· ≤ ·)) {k : Nat} {st : PermState F} {A : List Nat}
    (inv : PermInv a s k st A) {x : F} (hx : a[k]? = some x) :
    (x ∈ s ∧ ∃ st' A', (permStep a st (x, k) : Res ε _) = .ok st' ∧ PermInv a s (k + 1) st' A') ∨
    (x ∉ s ∧ (permStep a st (x, k) : Res ε _) = .panic) := by
  have hk : k < a.length := (List.getElem?_eq_some_iff.1 hx).1
  have hA : ∀ i ∈ A, i < k := fun i hi =>
    List.mem_range.1 (inv.rows.subset (List.mem_append_left _ hi))
  have hval : ∀ i ∈ A, st.table.getD i 0 = a.getD i 0 := by
    intro i hi
    rw [List.getD_eq_getElem?_getD, List.getD_eq_getElem?_getD, inv.filled i hi]
  unfold permStep
  simp only
  by_cases hc : k = 0 ∨ a[k - 1]? ≠ some x
  · rw [if_pos hc]
    -- `x` does not occur among the rows handled so far
    have hnew : x ∉ A.map (fun i => st.table.getD i 0) := by
      intro hm
      obtain ⟨i, hi, hxi⟩ := List.mem_map.1 hm
      rw [hval i hi] at hxi
      have hik := hA i hi
      rcases hc with h0 | hc
      · omega
      · apply hc
        have h1 : a[k]'hk = x := (List.getElem?_eq_some_iff.1 hx).2
        have h2 : a[i]'(by omega) = x := by
          rw [List.getD_eq_getElem _ _ (by omega)] at hxi; exact hxi
        rw [List.getElem?_eq_getElem (by omega)]
        congr 1
        rcases Nat.lt_or_ge i (k - 1) with hlt | hge
        · have e1 : a[i]'(by omega) ≤ a[k - 1]'(by omega) :=
            List.pairwise_iff_getElem.1 hsort i (k - 1) (by omega) (by omega) hlt
          have e2 : a[k - 1]'(by omega) ≤ a[k]'hk :=
            List.pairwise_iff_getElem.1 hsort (k - 1) k (by omega) hk (by omega)
          rw [h1] at e2; rw [h2] at e1
          exact le_antisymm e2 e1
        · have : k - 1 = i := by omega
          simp only [this]; exact h2
    rcases countDec_spec (ε := ε) x st.counts inv.keys with ⟨hm, m', h1, h2, h3⟩ | ⟨hm, h1⟩
    · left
      refine ⟨inv.table.subset (List.mem_append_right _ hm), ⟨st.table.set k x, m', st.unassigned⟩, k :: A,
        by simp [h1], ?_⟩
      have hkA : k ∉ A := fun h => absurd (hA k h) (by omega)
      have hmap : (A.map (fun i => (st.table.set k x).getD i 0)) = A.map (fun i => st.table.getD i 0) := by
        apply List.map_congr_left
        intro i hi
        have := hA i hi
        simp [List.getD_eq_getElem?_getD, show k ≠ i by omega]
      constructor
      · rw [List.range_succ, List.cons_append]
        exact (inv.rows.cons k).trans (List.perm_append_singleton _ _).symm
      · simp [inv.len]
      · rw [List.map_cons, hmap]
        have : (st.table.set k x).getD k 0 = x := by
          rw [List.getD_eq_getElem?_getD]; simp [inv.len, hk]
        rw [this, List.cons_append]
        refine List.Perm.trans ?_ inv.table
        exact List.perm_middle.symm.trans (h2.symm.append_left _)
      · intro i hi
        rcases List.mem_cons.1 hi with rfl | hi
        · rw [hx]; simp [inv.len, hk]
        · have := hA i hi
          simp only
          rw [List.getElem?_set_ne (by omega)]
          exact inv.filled i hi
      · exact inv.repeated
      · intro j hj
        rcases Nat.lt_succ_iff_lt_or_eq.1 hj with hj | rfl
        · obtain ⟨i, hi, e⟩ := inv.cover j hj
          exact ⟨i, by simp [hi], e⟩
        · exact ⟨_, by simp, rfl⟩
      · simpa [h3] using inv.keys
    · right
      refine ⟨fun hxs => ?_, by simp [h1]⟩
      rcases List.mem_append.1 (inv.table.symm.subset hxs) with h | h
      · exact hnew h
      · exact hm h
  · rw [if_neg hc]
    push Not at hc
    left
    have hprev : a[k - 1]? = a[k]? := by rw [hc.2, hx]
    refine ⟨?_, ⟨st.table, st.counts, k :: st.unassigned⟩, A, rfl, ?_⟩
    · obtain ⟨i, hi, e⟩ := inv.cover (k - 1) (by omega)
      have h1 := inv.filled i hi
      rw [e, hc.2] at h1
      apply inv.table.subset
      apply List.mem_append_left
      exact List.mem_map.2 ⟨i, hi, by rw [List.getD_eq_getElem?_getD, h1]; rfl⟩
    · constructor
      · rw [List.range_succ]
        simp only
        refine List.perm_middle.trans ?_
        exact (inv.rows.cons k).trans (List.perm_append_singleton _ _).symm
      · exact inv.len
      · exact inv.table
      · exact inv.filled
      · intro i hi
        rcases List.mem_cons.1 hi with rfl | hi
        · exact ⟨by omega, hprev⟩
        · exact inv.repeated i hi
      · intro j hj
        rcases Nat.lt_succ_iff_lt_or_eq.1 hj with hj | rfl
        · exact inv.cover j hj
        · obtain ⟨i, hi, e⟩ := inv.cover (j - 1) (by omega)
          exact ⟨i, hi, e.trans hprev⟩
      · exact inv.keys

theorem permLoop {a s : List F} (hsort : a.Pairwise (· ≤ ·)) (l : List F) :
    ∀ (k : Nat) (st : PermState F) (A : List Nat), a.drop k = l → PermInv a s k st A →
    ((∀ x ∈ l, x ∈ s) ∧ ∃ st' A', (Res.foldM (permStep a) st (l.zipIdx k) : Res ε _) = .ok st' ∧
      PermInv a s (k + l.length) st' A') ∨
    ((∃ x ∈ l, x ∉ s) ∧ (Res.foldM (permStep a) st (l.zipIdx k) : Res ε _) = .panic) := by
  induction l with
  | nil =>
    intro k st A _ inv
    exact Or.inl ⟨by simp, st, A, rfl, inv⟩
  | cons x l ih =>
    intro k st A hd inv
    have hx : a[k]? = some x := by
      have := congrArg (fun l => l[0]?) hd
      simpa using this
    have hd' : a.drop (k + 1) = l := by
      have := congrArg (List.drop 1) hd
      rw [List.drop_drop] at this
      simpa using this
    rw [List.zipIdx_cons, Res.foldM_cons]
    rcases permStep_inv (ε := ε) hsort inv hx with ⟨hxs, st', A', h1, inv'⟩ | ⟨hxs, h1⟩
    · rcases ih (k + 1) st' A' hd' inv' with ⟨hall, st'', A'', h2, inv''⟩ | ⟨hex, h2⟩
      · left
        refine ⟨?_, st'', A'', by simp only [h1, Res.bind_ok]; exact h2, ?_⟩
        · intro y hy
          rcases List.mem_cons.1 hy with rfl | hy
          · exact hxs
          · exact hall y hy
        · rw [List.length_cons, show k + (l.length + 1) = k + 1 + l.length by omega]
          exact inv''
      · right
        obtain ⟨y, hy, hys⟩ := hex
        exact ⟨⟨y, by simp [hy], hys⟩, by simp only [h1, Res.bind_ok]; exact h2⟩
    · right
      exact ⟨⟨x, by simp, hxs⟩, by simp [h1]⟩

omit [LinearOrder F] in
/-- The loop distributing the rest of the table. -/
theorem fillLoop {a s : List F} (rest : List F) :
    ∀ (st : PermState F) (A : List Nat), rest.length = st.unassigned.length →
      (A ++ st.unassigned).Perm (List.range a.length) → st.table.length = a.length →
      (A.map (fun i => st.table.getD i 0) ++ rest).Perm s →
      (∀ i ∈ A, st.table[i]? = a[i]? ∨ (0 < i ∧ a[i - 1]? = a[i]?)) →
      (∀ i ∈ st.unassigned, 0 < i ∧ a[i - 1]? = a[i]?) →
      ∃ t c, (Res.foldM fillStep st rest : Res ε _) = .ok ⟨t, c, []⟩ ∧ t.length = a.length ∧ t.Perm s ∧
        ∀ i < a.length, t[i]? = a[i]? ∨ (0 < i ∧ a[i - 1]? = a[i]?) := by
  induction rest with
  | nil =>
    rintro ⟨t, c, u⟩ A hlen hrows htl htab hfill hrep
    have hu : u = [] := List.length_eq_zero_iff.1 hlen.symm
    subst hu
    simp only [List.append_nil] at hrows htab
    refine ⟨t, c, rfl, htl, ?_, fun i hi => hfill i (hrows.symm.subset (List.mem_range.2 hi))⟩
    refine List.Perm.trans ?_ htab
    refine List.Perm.trans ?_ (hrows.map _).symm
    apply List.Perm.of_eq
    apply List.ext_getElem
    · simp [htl]
    · intro i h1 h2
      simp [List.getElem?_eq_getElem h1]
  | cons el rest ih =>
    rintro ⟨t, c, u⟩ A hlen hrows htl htab hfill hrep
    cases u with
    | nil => simp at hlen
    | cons i u =>
      simp only [List.length_cons, Nat.add_right_cancel_iff] at hlen
      simp only at htl
      have hi : i < a.length := List.mem_range.1 (hrows.subset (by simp))
      have hnd : (A ++ i :: u).Nodup := hrows.nodup_iff.2 List.nodup_range
      have hiA : i ∉ A := fun h => (List.disjoint_of_nodup_append hnd) h (by simp)
      have hmap : A.map (fun j => (t.set i el).getD j 0) = A.map (fun j => t.getD j 0) := by
        apply List.map_congr_left
        intro j hj
        have : i ≠ j := by rintro rfl; exact hiA hj
        simp [List.getD_eq_getElem?_getD, this]
      rw [Res.foldM_cons]
      simp only [fillStep, Res.bind_ok]
      refine ih ⟨t.set i el, c, u⟩ (i :: A) hlen ?_ (by simpa using htl) ?_ ?_ ?_
      · exact (List.perm_middle.symm.trans hrows)
      · rw [List.map_cons, hmap]
        have : (t.set i el).getD i 0 = el := by
          rw [List.getD_eq_getElem?_getD]; simp [htl, hi]
        rw [this, List.cons_append]
        exact List.perm_middle.symm.trans htab
      · intro j hj
        rcases List.mem_cons.1 hj with rfl | hj
        · exact Or.inr (hrep _ (by simp))
        · have : i ≠ j := by rintro rfl; exact hiA hj
          simp only
          rw [List.getElem?_set_ne this]
          exact hfill j hj
      · intro j hj
        exact hrep j (by simp [hj])

/-- Outcome of `permute_for_lookup` on all inputs. -/
theorem permuteForLookup_outcome (a s : List F) :
    (a.length = s.length ∧ (∀ x ∈ a, x ∈ s) ∧ ∃ s', (permuteForLookup a s : Res ε _)
        = .ok (a.insertionSort (· ≤ ·), s') ∧ s'.Perm s ∧
      ∀ i < a.length, s'[i]? = (a.insertionSort (· ≤ ·))[i]? ∨
        (0 < i ∧ (a.insertionSort (· ≤ ·))[i - 1]? = (a.insertionSort (· ≤ ·))[i]?)) ∨
    (¬ (a.length = s.length ∧ ∀ x ∈ a, x ∈ s) ∧ (permuteForLookup a s : Res ε _) = .panic) := by
  unfold permuteForLookup
  by_cases hl : a.length = s.length
  swap
  · right
    exact ⟨fun h => hl h.1, by simp [hl]⟩
  have hperm : (a.insertionSort (· ≤ ·)).Perm a := List.perm_insertionSort _ _
  have hsort : (a.insertionSort (· ≤ ·)).Pairwise (· ≤ ·) := List.pairwise_insertionSort _ _
  have hlen : (a.insertionSort (· ≤ ·)).length = a.length := hperm.length_eq
  simp only [hl, decide_true, Res.assert_true, Res.bind_ok]
  set b := a.insertionSort (· ≤ ·) with hb
  obtain ⟨hc1, hc2⟩ := flatCounts_fold s ([] : List (F × Nat)) (by simp)
  have inv0 : PermInv b s 0 ⟨List.replicate s.length 0, s.foldl (fun m x => countInc x m) [], []⟩ [] := by
    constructor
    · simp
    · simp [hlen, hl]
    · simpa [flatCounts] using hc1
    · simp
    · simp
    · simp
    · exact hc2.imp (fun h => h.ne)
  rcases permLoop (ε := ε) hsort b 0 _ _ (by simp) inv0 with ⟨hall, st', A', h1, inv⟩ | ⟨⟨x, hx, hxs⟩, h1⟩
  · left
    refine ⟨trivial, fun x hx => hall x (hperm.symm.subset hx), ?_⟩
    rw [h1]
    simp only [Res.bind_ok, Nat.zero_add] at inv ⊢
    have hU : (flatCounts st'.counts).length = st'.unassigned.length := by
      have e1 := inv.rows.length_eq
      have e2 := inv.table.length_eq
      simp only [List.length_append, List.length_range, List.length_map] at e1 e2
      omega
    obtain ⟨t, c, h2, h3, h4, h5⟩ := fillLoop (ε := ε) (s := s) (flatCounts st'.counts) st' A' hU inv.rows
      inv.len inv.table (fun i hi => Or.inl (inv.filled i hi)) inv.repeated
    refine ⟨t, ?_, h4, fun i hi => h5 i (by omega)⟩
    unfold flatCounts at h2
    rw [h2]
    simp
  · right
    refine ⟨fun h => hxs (h.2 x (hperm.subset hx)), ?_⟩
    rw [h1]
    simp

end
end ZK
