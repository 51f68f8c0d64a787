import Verif.Lemmas.LookupTest
import Verif.Lemmas.Blinded
import Verif.Properties.Success
import Verif.Properties.Lookup
/-! # The tests of the lookup argument: C86. -/
set_option autoImplicit false
set_option linter.unusedSectionVars false
namespace ZK
open Polynomial
section
variable {F : Type} [Field F] [FftParams F] [LawfulFft F] [LinearOrder F]

omit [FftParams F] [LawfulFft F] [LinearOrder F] in
theorem drawFours_length {Z : Type} (next : Z → F × Z) (t : Nat) (z : Z) :
    (drawFours next t z).1.a.length = t ∧ (drawFours next t z).1.s.length = t ∧ (drawFours next t z).1.aPrime.length = t ∧
      (drawFours next t z).1.sPrime.length = t ∧ (drawFours next t z).2 = after next (4 * t) z := by
  induction t generalizing z with
  | zero => exact ⟨rfl, rfl, rfl, rfl, rfl⟩
  | succ t ih =>
    obtain ⟨h1, h2, h3, h4, h5⟩ := ih (next (next (next (next z).2).2).2).2
    simp only [drawFours, List.length_cons, h1, h2, h3, h4, h5, true_and]
    rw [show (next (next (next (next z).2).2).2).2 = after next 4 z from rfl, ← after_add, show 4 * (t + 1) = 4 + 4 * t by ring]

/-- **C86** `test_subset_equality_argument` on any four columns passes exactly when the product of the permuted columns is not zero and
equals that of the original ones, and panics otherwise. The two challenges are what the random source yields after the blinds; alpha, the
point and the blinds do not matter. -/
theorem C86_subset_test {Z C : Type} {t : SubsetTest F} {d ext : Domain F} (hd : d.Ok) (hn : 1 < d.size)
    (ht : t.Wellformed d.size) (hext : Domain.new (F := F) (t.scaling * d.size) = some ext) (next : Z → F × Z) (z : Z) :
    subsetTest C t next z =
      if shiftedProduct t.cols.aPrime t.cols.sPrime (draw next z (4 * (d.size - t.u))) (draw next z (4 * (d.size - t.u) + 1)) ≠ 0 ∧
        shiftedProduct t.cols.a t.cols.s (draw next z (4 * (d.size - t.u))) (draw next z (4 * (d.size - t.u) + 1))
          = shiftedProduct t.cols.aPrime t.cols.sPrime (draw next z (4 * (d.size - t.u))) (draw next z (4 * (d.size - t.u) + 1))
      then .ok () else .panic := by
  obtain ⟨hsize, ha, hs, ha', hs', hu, hscal⟩ := ht
  have he : ext.Ok := Domain.new_ok hext
  have hle := Domain.le_new_size hext
  obtain ⟨h1, h2, h3, h4, h5⟩ := drawFours_length next (d.size - t.u) z
  unfold subsetTest
  rw [hsize, hd.new_self, hext]
  simp only [Res.unwrap, Res.bind_ok]
  rw [decide_eq_true (by rw [List.length_append, ha, h1]; omega), Res.assert_true, Res.bind_ok]
  refine (lookupChecks_outcome C false hd he hn hu (fun h => absurd h Bool.false_ne_true) (by nlinarith) ha hs ha' hs' h1 h2 h3 h4
    (fun h => absurd h Bool.false_ne_true) next _).trans ?_
  rw [h5]
  have e2 : (next (next (after next (4 * (d.size - t.u)) z)).2).1 = draw next z (4 * (d.size - t.u) + 1) := by
    rw [← draw_after]; rfl
  rw [e2]
  rfl

omit [FftParams F] [LawfulFft F] [LinearOrder F] in
theorem shiftedProduct_perm {a s a' s' : List F} (ha : a'.Perm a) (hs : s'.Perm s) (x y : F) :
    shiftedProduct a s x y = shiftedProduct a' s' x y := by
  unfold shiftedProduct
  rw [(ha.map _).prod_eq, (hs.map _).prod_eq]

omit [FftParams F] [LawfulFft F] [LinearOrder F] in
theorem shiftedProduct_ne_zero (a s : List F) (x y : F) :
    shiftedProduct a s x y ≠ 0 ↔ (∀ v ∈ a, v + x ≠ 0) ∧ ∀ v ∈ s, v + y ≠ 0 := by
  unfold shiftedProduct
  rw [mul_ne_zero_iff, Ne, Ne, List.prod_eq_zero_iff, List.prod_eq_zero_iff]
  simp [List.mem_map]

/-- **C86** (shuffles) If the permuted columns are shuffles of the original ones, the test passes for all but few pairs `(beta, gamma)`. -/
theorem C86_shuffles_pass {Z C : Type} {t : SubsetTest F} {d ext : Domain F} (hd : d.Ok) (hn : 1 < d.size)
    (ht : t.Wellformed d.size) (hext : Domain.new (F := F) (t.scaling * d.size) = some ext)
    (ha : t.cols.aPrime.Perm t.cols.a) (hs : t.cols.sPrime.Perm t.cols.s) (next : Z → F × Z) (z : F × F → Z)
    (hz : ∀ p, draw next (z p) (4 * (d.size - t.u)) = p.1 ∧ draw next (z p) (4 * (d.size - t.u) + 1) = p.2) :
    FewPairs (2 * t.u) {p | subsetTest C t next (z p) ≠ .ok ()} := by
  have h1 := FewPairs.iUnion (ι := Fin t.u) (k := 1) (A := fun i => {p : F × F | t.cols.aPrime.getD i 0 + p.1 = 0})
    (fun i => FewPairs.graph' (fun x x' y h h' => by
      have h : t.cols.aPrime.getD i 0 + x = 0 := h
      have h' : t.cols.aPrime.getD i 0 + x' = 0 := h'
      linear_combination h - h'))
  have h2 := FewPairs.iUnion (ι := Fin t.u) (k := 1) (A := fun i => {p : F × F | t.cols.sPrime.getD i 0 + p.2 = 0})
    (fun i => FewPairs.graph (fun x y y' h h' => by
      have h : t.cols.sPrime.getD i 0 + y = 0 := h
      have h' : t.cols.sPrime.getD i 0 + y' = 0 := h'
      linear_combination h - h'))
  refine FewPairs.subset ((h1.union h2).mono (by rw [Fintype.card_fin]; omega)) fun p hp => ?_
  have hp : subsetTest C t next (z p) ≠ .ok () := hp
  rw [C86_subset_test hd hn ht hext, (hz p).1, (hz p).2] at hp
  have h0 : ¬ shiftedProduct t.cols.aPrime t.cols.sPrime p.1 p.2 ≠ 0 := fun h0 =>
    hp (if_pos ⟨h0, shiftedProduct_perm ha hs _ _⟩)
  rw [shiftedProduct_ne_zero, not_and_or] at h0
  rcases h0 with h0 | h0
  · push Not at h0
    obtain ⟨v, hv, h0⟩ := h0
    obtain ⟨i, hi, rfl⟩ := List.getElem_of_mem hv
    refine Or.inl (Set.mem_iUnion.2 ⟨⟨i, by rw [← ht.aPrime]; exact hi⟩, ?_⟩)
    show t.cols.aPrime.getD i 0 + p.1 = 0
    rw [List.getD_eq_getElem _ _ hi]; exact h0
  · push Not at h0
    obtain ⟨v, hv, h0⟩ := h0
    obtain ⟨i, hi, rfl⟩ := List.getElem_of_mem hv
    refine Or.inr (Set.mem_iUnion.2 ⟨⟨i, by rw [← ht.sPrime]; exact hi⟩, ?_⟩)
    show t.cols.sPrime.getD i 0 + p.2 = 0
    rw [List.getD_eq_getElem _ _ hi]; exact h0

/-- The polynomial whose roots are the negated entries. -/
noncomputable def listProd (l : List F) : F[X] := (l.map (fun x => X + Polynomial.C x)).prod

omit [FftParams F] [LawfulFft F] [LinearOrder F] in
theorem listProd_monic (l : List F) : (listProd l).Monic := by
  unfold listProd
  induction l with
  | nil => simp
  | cons x l ih => rw [List.map_cons, List.prod_cons]; exact (monic_X_add_C x).mul ih

omit [FftParams F] [LawfulFft F] [LinearOrder F] in
theorem listProd_natDegree (l : List F) : (listProd l).natDegree = l.length := by
  induction l with
  | nil => simp [listProd]
  | cons x l ih =>
    rw [show listProd (x :: l) = (X + Polynomial.C x) * listProd l by simp [listProd],
      (monic_X_add_C x).natDegree_mul (listProd_monic l), ih, natDegree_X_add_C, List.length_cons]
    omega

omit [FftParams F] [LawfulFft F] [LinearOrder F] in
theorem listProd_eval (l : List F) (x : F) : (listProd l).eval x = (l.map (· + x)).prod := by
  unfold listProd
  induction l with
  | nil => simp
  | cons y l ih => rw [List.map_cons, List.prod_cons, eval_mul, ih]; simp [add_comm]

omit [FftParams F] [LawfulFft F] [LinearOrder F] in
theorem listProd_perm {l l' : List F} (h : listProd l = listProd l') : l.Perm l' := by
  have hr : ∀ l : List F, (listProd l).roots = (l.map (fun x => -x) : Multiset F) := by
    intro l
    induction l with
    | nil => simp [listProd]
    | cons x l ih =>
      have e : listProd (x :: l) = (X + Polynomial.C x) * listProd l := by simp [listProd]
      rw [e, roots_mul (mul_ne_zero (monic_X_add_C x).ne_zero (listProd_monic l).ne_zero), ih,
        show (X + Polynomial.C x : F[X]) = X - Polynomial.C (-x) by rw [Polynomial.C_neg, sub_neg_eq_add], roots_X_sub_C]
      rfl
  have h1 := congrArg Polynomial.roots h
  rw [hr, hr, Multiset.coe_eq_coe] at h1
  have h2 := h1.map (fun x => -x)
  simpa [List.map_map, Function.comp_def] using h2

/-- **C86** (other columns) If a permuted column is not a shuffle of its original, the test passes for few pairs `(beta, gamma)` only. -/
theorem C86_others_fail {Z C : Type} {t : SubsetTest F} {d ext : Domain F} (hd : d.Ok) (hn : 1 < d.size)
    (ht : t.Wellformed d.size) (hext : Domain.new (F := F) (t.scaling * d.size) = some ext)
    (hno : ¬ (t.cols.aPrime.Perm t.cols.a ∧ t.cols.sPrime.Perm t.cols.s)) (next : Z → F × Z) (z : F × F → Z)
    (hz : ∀ p, draw next (z p) (4 * (d.size - t.u)) = p.1 ∧ draw next (z p) (4 * (d.size - t.u) + 1) = p.2) :
    FewPairs (2 * t.u) {p | subsetTest C t next (z p) ≠ .panic} := by
  classical
  set P := biProd (listProd t.cols.a) (listProd t.cols.s) - biProd (listProd t.cols.aPrime) (listProd t.cols.sPrime) with hP
  have hP0 : P ≠ 0 := by
    intro h0
    obtain ⟨e1, e2⟩ := biProd_eq (listProd_monic _) (listProd_monic _) (listProd_monic _)
      (by rw [listProd_natDegree, listProd_natDegree, ht.s, ht.sPrime]) (sub_eq_zero.1 h0)
    exact hno ⟨(listProd_perm e1).symm, (listProd_perm e2).symm⟩
  have hc : ∀ k, (P.coeff k).natDegree ≤ t.u := by
    intro k
    rw [hP, coeff_sub]
    refine (natDegree_sub_le _ _).trans (max_le ?_ ?_)
    · exact (biProd_coeff _ _ k).trans (by rw [listProd_natDegree, ht.a])
    · exact (biProd_coeff _ _ k).trans (by rw [listProd_natDegree, ht.aPrime])
  have hdeg : P.natDegree ≤ t.u := by
    refine (natDegree_sub_le _ _).trans (max_le ?_ ?_)
    · exact (biProd_natDegree _ _).trans (by rw [listProd_natDegree, ht.s])
    · exact (biProd_natDegree _ _).trans (by rw [listProd_natDegree, ht.sPrime])
  obtain ⟨S, hS⟩ : ∃ S : Set (F × F), S = {p | subsetTest C t next (z p) ≠ .panic} := ⟨_, rfl⟩
  rw [← hS]
  intro T
  have hmain := card_grid_le P hP0 t.u t.u hc hdeg T T
  refine le_trans (Finset.card_le_card ?_) (hmain.trans (by apply le_of_eq; ring))
  rintro ⟨beta, gamma⟩ hp
  replace hp := Finset.mem_filter.1 hp
  refine Finset.mem_filter.2 ⟨hp.1, ?_⟩
  have h1 := hp.2
  rw [hS] at h1
  replace h1 : subsetTest C t next (z (beta, gamma)) ≠ .panic := h1
  rw [C86_subset_test hd hn ht hext, (hz _).1, (hz _).2] at h1
  rw [hP, Polynomial.map_sub, eval_sub, biProd_eval, biProd_eval, listProd_eval, listProd_eval, listProd_eval, listProd_eval]
  refine sub_eq_zero.2 ?_
  by_contra h0
  exact h1 (if_neg fun h => h0 h.2)

/-- **C86** (`simple_lookup`) On any input and table columns of the right length, the test passes exactly when every input value is in the table
and neither challenge is the negative of a value of its column, and panics otherwise. -/
theorem C86_lookup_test {Z C : Type} {u scaling : Nat} {a s : List F} {d ext : Domain F} (hd : d.Ok) (hn : 1 < d.size)
    (ha : a.length = u) (hs : s.length = u) (hu0 : 0 < u) (hu : u < d.size) (hscal : 4 ≤ scaling)
    (hext : Domain.new (F := F) (scaling * d.size) = some ext) (next : Z → F × Z) (z : Z) :
    lookupArgumentTest C d.size scaling u a s next z =
      if (∀ x ∈ a, x ∈ s) ∧ (∀ x ∈ a, x + draw next z (4 * (d.size - u)) ≠ 0) ∧
        ∀ x ∈ s, x + draw next z (4 * (d.size - u) + 1) ≠ 0
      then .ok () else .panic := by
  have he : ext.Ok := Domain.new_ok hext
  have hle := Domain.le_new_size hext
  obtain ⟨h1, h2⟩ := drawPairs_length next (d.size - u) z
  obtain ⟨h3, h4⟩ := drawPairs_length next (d.size - u) (drawPairs next (d.size - u) z).2.2
  unfold lookupArgumentTest
  rw [hd.new_self, hext]
  simp only [Res.unwrap, Res.bind_ok]
  rw [decide_eq_true (by rw [List.length_append]; omega), Res.assert_true, Res.bind_ok,
    decide_eq_true (by rw [List.length_append]; omega), Res.assert_true, Res.bind_ok]
  have e1 : (a ++ (drawPairs next (d.size - u) z).1).take u = a := by rw [← ha, List.take_left]
  have e2 : (s ++ (drawPairs next (d.size - u) z).2.1).take u = s := by rw [← hs, List.take_left]
  rw [e1, e2]
  rcases permuteForLookup_outcome (ε := PiopErr) a s with ⟨-, hin, s', hok, hs', hrows⟩ | ⟨hno, hp⟩
  swap
  · rw [hp, if_neg (fun h => hno ⟨ha.trans hs.symm, h.1⟩)]
    rfl
  obtain ⟨a', hadef⟩ : ∃ a', a' = a.insertionSort (· ≤ ·) := ⟨_, rfl⟩
  have ha' : a'.Perm a := by rw [hadef]; exact List.perm_insertionSort _ _
  rw [← hadef] at hok hrows
  rw [hok]
  simp only [Res.bind_ok]
  have hla : a'.length = u := ha'.length_eq.trans ha
  have hls : s'.length = u := hs'.length_eq.trans hs
  have hga : ∀ (y : List F) i, i < u → (a' ++ y)[i]? = some (a'.getD i 0) := by
    intro y i hi
    rw [List.getElem?_append_left (by omega), List.getD_eq_getElem?_getD, List.getElem?_eq_getElem (by omega)]
    rfl
  have hgs : ∀ (y : List F) i, i < u → (s' ++ y)[i]? = some (s'.getD i 0) := by
    intro y i hi
    rw [List.getElem?_append_left (by omega), List.getD_eq_getElem?_getD, List.getElem?_eq_getElem (by omega)]
    rfl
  have hrow : ∀ i < u, s'.getD i 0 = a'.getD i 0 ∨ (0 < i ∧ a'.getD (i - 1) 0 = a'.getD i 0) := by
    intro i hi
    rcases hrows i (by omega) with h | ⟨h0, h⟩
    · exact Or.inl (by rw [List.getD_eq_getElem?_getD, h, ← List.getD_eq_getElem?_getD])
    · exact Or.inr ⟨h0, by rw [List.getD_eq_getElem?_getD, h, ← List.getD_eq_getElem?_getD]⟩
  rw [Res.idx_of_some (hga _ 0 hu0), Res.bind_ok, Res.idx_of_some (hgs _ 0 hu0), Res.bind_ok, decide_eq_true, Res.assert_true, Res.bind_ok]
  swap
  · rcases hrow 0 hu0 with h | h
    · exact h.symm
    · omega
  have hsanity : Res.mapM (ε := PiopErr) (fun i => do
      let x ← Res.idx (a' ++ (drawPairs next (d.size - u) (drawPairs next (d.size - u) z).2.2).1) (i + 1)
      let y ← Res.idx (a' ++ (drawPairs next (d.size - u) (drawPairs next (d.size - u) z).2.2).1) i
      let w ← Res.idx (s' ++ (drawPairs next (d.size - u) (drawPairs next (d.size - u) z).2.2).2.1) (i + 1)
      Res.assert (decide (¬ (x ≠ y ∧ x ≠ w)))) (List.range (u - 1)) = .ok ((List.range (u - 1)).map fun _ => ()) := by
    refine Res.mapM_ok_map fun i hi => ?_
    replace hi := List.mem_range.1 hi
    rw [Res.idx_of_some (hga _ (i + 1) (by omega)), Res.bind_ok, Res.idx_of_some (hga _ i (by omega)), Res.bind_ok,
      Res.idx_of_some (hgs _ (i + 1) (by omega)), Res.bind_ok, decide_eq_true]
    · rfl
    · rintro ⟨hx, hy⟩
      rcases hrow (i + 1) (by omega) with h | ⟨-, h⟩
      · exact hy h.symm
      · exact hx h.symm
  rw [hsanity, Res.bind_ok]
  refine (lookupChecks_outcome C true (c := ⟨a, s, a', s'⟩)
    (b := ⟨(drawPairs next (d.size - u) z).1, (drawPairs next (d.size - u) z).2.1,
      (drawPairs next (d.size - u) (drawPairs next (d.size - u) z).2.2).1,
      (drawPairs next (d.size - u) (drawPairs next (d.size - u) z).2.2).2.1⟩) hd he hn hu (fun _ => hu0) (by nlinarith) ha hs hla hls h1 h2 h3 h4
    (fun _ i hi => hrows i (by omega)) next _).trans ?_
  rw [drawPairs_eq, drawPairs_eq]
  simp only
  rw [← after_add, show 2 * (d.size - u) + 2 * (d.size - u) = 4 * (d.size - u) by ring]
  have e3 : (next (next (after next (4 * (d.size - u)) z)).2).1 = draw next z (4 * (d.size - u) + 1) := by
    rw [← draw_after]; rfl
  rw [e3, show (next (after next (4 * (d.size - u)) z)).1 = draw next z (4 * (d.size - u)) from rfl]
  refine if_congr ?_ rfl rfl
  rw [← shiftedProduct_perm ha' hs', shiftedProduct_ne_zero]
  exact ⟨fun h => ⟨hin, h.1⟩, fun h => ⟨h.2, rfl⟩⟩

/-- **C86** (the values of `simple_lookup`) The test passes unless the first challenge is `-1, -2, -3, -6, -7` or `-99`, or the second one
is `-1, ..., -7` or `-99`, and panics for these. -/
theorem C86_simple_lookup {Z C : Type} {d : Domain F} (hd : d.Ok) (h16 : d.size = 16) (had : 6 ≤ FftParams.adicity F)
    (next : Z → F × Z) (z : Z) :
    lookupArgumentTest C 16 4 10 (simpleLookupValues (F := F)).1 simpleLookupValues.2 next z =
      if draw next z 24 ∉ ([-1, -2, -3, -6, -7, -99] : List F) ∧ draw next z 25 ∉ ([-1, -2, -3, -4, -5, -6, -7, -99] : List F)
      then .ok () else .panic := by
  obtain ⟨ext, hext⟩ : ∃ ext, Domain.new (F := F) (4 * d.size) = some ext := ⟨_, by
    rw [h16, Domain.new, show clog2 (4 * 16) = 6 by decide, if_pos had]⟩
  have h := C86_lookup_test (C := C) (u := 10) (scaling := 4) (a := (simpleLookupValues (F := F)).1) (s := simpleLookupValues.2) hd
    (by omega) rfl rfl (by omega) (by omega) le_rfl hext next z
  rw [h16] at h
  rw [h]
  refine if_congr ?_ rfl rfl
  simp only [simpleLookupValues, List.mem_cons, List.not_mem_nil, or_false]
  have e : ∀ x y : F, y + x ≠ 0 ↔ ¬ x = -y := fun x y => by rw [Ne, add_comm, eq_neg_iff_add_eq_zero]
  constructor
  · rintro ⟨-, h1, h2⟩
    simp only [e] at h1 h2
    constructor
    · rintro (h | h | h | h | h | h) <;> exact h1 _ (by simp) h
    · rintro (h | h | h | h | h | h | h | h) <;> exact h2 _ (by simp) h
  · rintro ⟨h1, h2⟩
    refine ⟨?_, ?_, ?_⟩
    · rintro x (rfl | rfl | rfl | rfl | rfl | rfl | rfl | rfl | rfl | rfl) <;> simp
    · simp only [e]
      rintro x (rfl | rfl | rfl | rfl | rfl | rfl | rfl | rfl | rfl | rfl) h <;> exact h1 (by simp [h])
    · simp only [e]
      rintro x (rfl | rfl | rfl | rfl | rfl | rfl | rfl | rfl | rfl | rfl) h <;> exact h2 (by simp [h])

end
end ZK
