import Mathlib.LinearAlgebra.Lagrange
import Mathlib.Tactic.LinearCombination
import Verif.Model.Multiopen
import Verif.Lemmas.Opening
import Verif.Lemmas.Poly
import Verif.Lemmas.Fft
import Verif.Lemmas.Constraints
import Verif.Properties.Oracles
/-! The pieces of the multi-point opening, in closed form. -/
set_option autoImplicit false
set_option linter.unusedSectionVars false
namespace ZK
open Polynomial

section
variable {F : Type} [Field F]

/-! ### Powers -/

theorem powersFrom_length (s q : F) (n : Nat) : (powersFrom s q n).length = n := by
  induction n generalizing s with
  | zero => rfl
  | succ n ih => simp [powersFrom, ih]

theorem powersFrom_getElem? (s q : F) (n i : Nat) :
    (powersFrom s q n)[i]? = if i < n then some (s * q ^ i) else none := by
  induction n generalizing s i with
  | zero => simp [powersFrom]
  | succ n ih =>
    cases i with
    | zero => simp [powersFrom]
    | succ i =>
      simp only [powersFrom, List.getElem?_cons_succ, ih, Nat.succ_lt_succ_iff, pow_succ]
      congr 1
      rw [Option.some.injEq]; ring

theorem powersFrom_idx {ε : Type} (s q : F) (n i : Nat) (h : i < n) :
    (Res.idx (powersFrom s q n) i : Res ε F) = .ok (s * q ^ i) :=
  Res.idx_of_some (by rw [powersFrom_getElem?, if_pos h])

/-- `sum c_i x^i` over the polynomials. -/
noncomputable def horner (x : F) : List F[X] → F[X]
  | [] => 0
  | p :: ps => p + C x * horner x ps

theorem eval_horner (x y : F) (ps : List F[X]) : (horner x ps).eval y = peval (ps.map (eval y)) x := by
  induction ps with
  | nil => simp [horner]
  | cons p ps ih => simp [horner, ih]

theorem horner_eq_sum (x : F) (ps : List F[X]) :
    horner x ps = (ps.zipIdx.map (fun p => C (x ^ p.2) * p.1)).sum := by
  have key : ∀ k, (((ps.zipIdx k).map (fun p => C (x ^ p.2) * p.1)).sum : F[X]) = C (x ^ k) * horner x ps := by
    induction ps with
    | nil => intro k; simp [horner]
    | cons p ps ih =>
      intro k
      simp only [List.zipIdx_cons, List.map_cons, List.sum_cons, ih (k + 1), horner]
      rw [pow_succ, C_mul]; ring
  have := key 0
  simpa using this.symm

/-! ### Aggregated queries -/

theorem foldM_pow {ε α : Type} (query : α → Res ε F) (s x : F) (n : Nat) (os : List α) (v0 v : F) :
    Res.foldM (fun (acc : F) (o : α × Nat) => do
      let x ← Res.idx (powersFrom s x n) o.2
      let v ← query o.1
      pure (acc + x * v)) v0 os.zipIdx = .ok v ↔
    os.length ≤ n ∧ ∃ vals, List.Forall₂ (fun o y => query o = .ok y) os vals ∧ v = v0 + s * peval vals x := by
  have key : ∀ k v0, k ≤ n → (Res.foldM (fun (acc : F) (o : α × Nat) => do
      let x ← Res.idx (powersFrom s x n) o.2
      let v ← query o.1
      pure (acc + x * v)) v0 (os.zipIdx k) = .ok v ↔
      os.length + k ≤ n ∧ ∃ vals, List.Forall₂ (fun o y => query o = .ok y) os vals ∧
        v = v0 + s * x ^ k * peval vals x) := by
    induction os with
    | nil =>
      intro k v0 hk
      simp only [List.zipIdx_nil, Res.foldM_nil, Res.ok.injEq, List.length_nil, Nat.zero_add,
        List.forall₂_nil_left_iff, exists_eq_left, peval_nil, mul_zero, add_zero]
      exact ⟨fun h => ⟨hk, h.symm⟩, fun h => h.2.symm⟩
    | cons o os ih =>
      intro k v0 hk
      rw [List.zipIdx_cons, Res.foldM_eq_ok_cons]
      simp only [Res.bind_eq_ok]
      constructor
      · rintro ⟨b, ⟨y, hy, w, hw, hb⟩, hrest⟩
        rw [Res.idx_eq_ok, powersFrom_getElem?] at hy
        split at hy
        · rename_i hlt
          obtain ⟨h1, vals, h2, h3⟩ := (ih (k + 1) b (by omega)).1 hrest
          refine ⟨by simp; omega, w :: vals, List.Forall₂.cons hw h2, ?_⟩
          rw [h3, ← Res.ok.inj hb, ← Option.some.inj hy, peval_cons, pow_succ]; ring
        · simp at hy
      · rintro ⟨hl, vals, h2, h3⟩
        cases h2 with
        | cons hw h2 =>
          rename_i w vals
          simp only [List.length_cons] at hl
          refine ⟨v0 + s * x ^ k * w, ⟨s * x ^ k, powersFrom_idx s x n k (by omega), w, hw, rfl⟩, ?_⟩
          refine (ih (k + 1) _ (by omega)).2 ⟨by omega, vals, h2, ?_⟩
          rw [h3, peval_cons, pow_succ]; ring
  have := key 0 v0 (Nat.zero_le _)
  simpa using this

/-- The aggregated value of a set of oracles at a point. -/
theorem aggQuery_iff {α : Type} {query : α → F → Res PiopErr F} {x1 : F} {n : Nat} {os : List α} {p v : F} :
    aggQuery query (powersFrom 1 x1 n) os p = .ok v ↔
      os.length ≤ n ∧ ∃ vals, List.Forall₂ (fun o y => query o p = .ok y) os vals ∧ v = peval vals x1 := by
  unfold aggQuery
  rw [foldM_pow (fun o => query o p)]
  simp

/-! ### Evaluation sets -/

theorem mapInsert_map {κ β : Type} [LinearOrder κ] (k : κ) (g : κ → β) (ks : List κ) (hs : ks.Pairwise (· < ·)) :
    mapInsert k (g k) (ks.map (fun k' => (k', g k')))
      = ((setInsert k ks).map (fun k' => (k', g k')), if k ∈ ks then some (g k) else none) := by
  induction ks with
  | nil => simp [mapInsert, setInsert]
  | cons a ks ih =>
    rw [List.pairwise_cons] at hs
    simp only [List.map_cons, mapInsert, setInsert]
    by_cases h1 : k < a
    · have hk : k ∉ a :: ks := by
        intro h
        rcases List.mem_cons.1 h with rfl | h
        · exact lt_irrefl _ h1
        · exact lt_irrefl _ (h1.trans (hs.1 _ h))
      rw [if_pos h1, if_pos h1, if_neg hk]
      rfl
    · rw [if_neg h1, if_neg h1]
      by_cases h2 : a < k
      · rw [if_pos h2, if_pos h2, ih hs.2]
        simp [h2.ne']
      · have : k = a := le_antisymm (not_lt.1 h2) (not_lt.1 h1)
        subst this
        simp

variable [LinearOrder F] [FftParams F] [LawfulFft F]

/-- The points of a rotation set. -/
def points (d : Domain F) (xi : F) (rots : List Rotation) : List F := rots.map (fun r => xi * d.omega ^ r.signed)

theorem evalSet_iff {α : Type} {query : α → F → Res PiopErr F} {x1s : List F} {os : List α} {xi : F}
    {d : Domain F} (hd : d.Ok) {dup : Rotation → Res PiopErr (List (F × F))} (hdup : ∀ r m, dup r ≠ .ok m)
    {rots : List Rotation} {es : List (F × F)} :
    evalSet query x1s os xi d.elements dup rots = .ok es ↔
      (∀ r ∈ rots, r.degree < d.size) ∧ (points d xi rots).Nodup ∧
      ∃ g : F → F, (∀ p ∈ points d xi rots, aggQuery query x1s os p = .ok (g p)) ∧
        es = (setExtend [] (points d xi rots)).map (fun p => (p, g p)) := by
  have key : ∀ (rots : List Rotation) (ks : List F) (g0 : F → F) (es : List (F × F)), ks.Pairwise (· < ·) →
      (Res.foldM (fun (m : List (F × F)) (r : Rotation) => do
        let p ← r.point xi d.elements
        let v ← aggQuery query x1s os p
        match mapInsert p v m with
        | (m', none) => .ok m'
        | (_, some _) => dup r) (ks.map (fun p => (p, g0 p))) rots = .ok es ↔
      (∀ r ∈ rots, r.degree < d.size) ∧ (points d xi rots).Nodup ∧ (∀ p ∈ points d xi rots, p ∉ ks) ∧
      ∃ g : F → F, (∀ p ∈ ks, g p = g0 p) ∧ (∀ p ∈ points d xi rots, aggQuery query x1s os p = .ok (g p)) ∧
        es = (setExtend ks (points d xi rots)).map (fun p => (p, g p))) := by
    intro rots
    induction rots with
    | nil =>
      intro ks g0 es hs
      simp only [Res.foldM_nil, Res.ok.injEq, points, List.map_nil, List.not_mem_nil, IsEmpty.forall_iff,
        implies_true, List.nodup_nil, true_and, setExtend, List.foldl_nil]
      constructor
      · intro h
        exact ⟨g0, fun _ _ => rfl, h.symm⟩
      · rintro ⟨g, hg, rfl⟩
        apply List.map_congr_left
        intro p hp
        rw [hg p hp]
    | cons r rots ih =>
      intro ks g0 es hs
      rw [Res.foldM_eq_ok_cons]
      simp only [Res.bind_eq_ok]
      have hpts : points d xi (r :: rots) = xi * d.omega ^ r.signed :: points d xi rots := rfl
      have hins : ∀ p ∉ ks, ∀ v, mapInsert p v (ks.map (fun p => (p, g0 p)))
          = ((setInsert p ks).map (fun k => (k, Function.update g0 p v k)), none) := by
        intro p hp v
        have h1 : ks.map (fun p => (p, g0 p)) = ks.map (fun k => (k, Function.update g0 p v k)) := by
          apply List.map_congr_left
          intro k hk
          rw [Function.update_of_ne]
          rintro rfl
          exact hp hk
        have h2 := mapInsert_map p (Function.update g0 p v) ks hs
        rw [Function.update_self] at h2
        rw [h1, h2, if_neg hp]
      constructor
      · rintro ⟨b, ⟨p, hp, v, hv, hb⟩, hrest⟩
        have hr : r.degree < d.size := by
          by_contra hc
          have := Rotation.point_oob (ε := PiopErr) d r xi (by have := hd.size_pos; omega) (by omega)
          rw [this] at hp; simp at hp
        rw [Rotation.point_ok hd r xi hr] at hp
        have hp := Res.ok.inj hp
        have hpk : p ∉ ks := by
          intro hpk
          have h2 : ∃ m w, mapInsert p v (ks.map (fun p => (p, g0 p))) = (m, some w) := by
            clear hb hrest ih hins
            induction ks with
            | nil => simp at hpk
            | cons a ks ih =>
              rw [List.pairwise_cons] at hs
              simp only [List.map_cons, mapInsert]
              by_cases h1 : p < a
              · rcases List.mem_cons.1 hpk with rfl | h
                · exact absurd h1 (lt_irrefl _)
                · exact absurd (h1.trans (hs.1 _ h)) (lt_irrefl _)
              · rw [if_neg h1]
                by_cases h2 : a < p
                · rw [if_pos h2]
                  rcases List.mem_cons.1 hpk with rfl | h
                  · exact absurd h2 (lt_irrefl _)
                  · obtain ⟨m, w, e⟩ := ih hs.2 h
                    exact ⟨_, w, by rw [e]⟩
                · rw [if_neg h2]
                  exact ⟨_, _, rfl⟩
          obtain ⟨m, w, h2⟩ := h2
          rw [h2] at hb
          exact hdup _ _ hb
        rw [hins p hpk v] at hb
        have hb := Res.ok.inj hb
        subst hb
        obtain ⟨h1, h2, h3, g, h4, h5, h6⟩ := (ih _ _ es (setInsert_sorted hs)).1 hrest
        rw [hpts, hp]
        refine ⟨?_, ?_, ?_, g, ?_, ?_, h6⟩
        · intro r' hr'
          rcases List.mem_cons.1 hr' with rfl | h
          · exact hr
          · exact h1 _ h
        · refine List.nodup_cons.2 ⟨fun h => h3 _ h (mem_setInsert.2 (.inl rfl)), h2⟩
        · intro q hq
          rcases List.mem_cons.1 hq with rfl | h
          · exact hpk
          · exact fun h' => h3 _ h (mem_setInsert.2 (.inr h'))
        · intro q hq
          rw [h4 q (mem_setInsert.2 (.inr hq)), Function.update_of_ne]
          rintro rfl
          exact hpk hq
        · intro q hq
          rcases List.mem_cons.1 hq with rfl | h
          · rw [h4 q (mem_setInsert.2 (.inl rfl)), Function.update_self]; exact hv
          · exact h5 _ h
      · rintro ⟨h1, h2, h3, g, h4, h5, h6⟩
        rw [hpts] at h2 h3 h5 h6
        rw [List.nodup_cons] at h2
        refine ⟨(setInsert (xi * d.omega ^ r.signed) ks).map (fun p => (p, g p)),
          ⟨_, Rotation.point_ok hd r xi (h1 r (by simp)), _, h5 _ (by simp), ?_⟩, ?_⟩
        · have := hins _ (h3 _ List.mem_cons_self) (g (xi * d.omega ^ r.signed))
          rw [this]
          simp only [Res.ok.injEq]
          apply List.map_congr_left
          intro k hk
          rcases mem_setInsert.1 hk with rfl | hk
          · rw [Function.update_self]
          · rw [Function.update_of_ne, h4 k hk]
            rintro rfl
            exact h3 _ List.mem_cons_self hk
        · refine (ih _ g es (setInsert_sorted hs)).2 ⟨fun r' hr' => h1 r' (by simp [hr']), h2.2, ?_, g, fun _ _ => rfl,
            fun p hp => h5 p (by simp [hp]), h6⟩
          intro p hp hm
          rcases mem_setInsert.1 hm with rfl | hm
          · exact h2.1 hp
          · exact h3 p (by simp [hp]) hm
  have := key rots [] (fun _ => 0) es List.Pairwise.nil
  simp only [List.map_nil, List.not_mem_nil, not_false_eq_true, implies_true, true_and, IsEmpty.forall_iff] at this
  exact this

/-! ### Vanishing polynomial and interpolation -/

theorem toPoly_constructVanishing (xs : List F) :
    toPoly (constructVanishing xs) = (xs.map (fun x => X - C x)).prod := by
  have key : ∀ (xs : List F) (v : List F), toPoly (xs.foldl (fun v x => dmul v [-x, 1]) v)
      = toPoly v * (xs.map (fun x => X - C x)).prod := by
    intro xs
    induction xs with
    | nil => intro v; simp
    | cons x xs ih =>
      intro v
      rw [List.foldl_cons, ih, toPoly_dmul, List.map_cons, List.prod_cons]
      simp only [toPoly_cons, toPoly_nil, C_neg, C_1]
      ring
  unfold constructVanishing
  rw [key]
  simp

theorem degree_prod_sub (xs : List F) : ((xs.map (fun x => X - C x)).prod : F[X]).degree = xs.length := by
  induction xs with
  | nil => simp
  | cons x xs ih => rw [List.map_cons, List.prod_cons, degree_mul, ih, degree_X_sub_C]; simp [add_comm]

theorem eval_prod_sub (xs : List F) (y : F) :
    eval y ((xs.map (fun x => X - C x)).prod : F[X]) = (xs.map (fun x => y - x)).prod := by
  induction xs with
  | nil => simp
  | cons x xs ih => simp [ih]

theorem eval_prod_sub_eq_zero (xs : List F) (y : F) :
    eval y ((xs.map (fun x => X - C x)).prod : F[X]) = 0 ↔ y ∈ xs := by
  rw [eval_prod_sub, List.prod_eq_zero_iff]
  simp only [List.mem_map, sub_eq_zero]
  constructor
  · rintro ⟨x, hx, rfl⟩; exact hx
  · intro h; exact ⟨y, h, rfl⟩

theorem prod_sub_monic (xs : List F) : ((xs.map (fun x => X - C x)).prod : F[X]).Monic := by
  induction xs with
  | nil => simp
  | cons x xs ih => rw [List.map_cons, List.prod_cons]; exact (monic_X_sub_C x).mul ih

theorem lagrangeOne_ok {ε : Type} (xs : List F) (hnd : xs.Nodup) (i : Nat) (hi : i < xs.length) :
    ∃ l, lagrangeOne (ε := ε) xs xs[i] i = .ok l ∧ (toPoly l).degree < xs.length ∧
      ∀ j (hj : j < xs.length), (toPoly l).eval xs[j] = if j = i then 1 else 0 := by
  have key : ∀ (ys : List F) (k : Nat) (l0 : List F),
      (∀ j (hj : j < ys.length), k + j ≠ i → xs[i] - ys[j] ≠ 0) →
      ∃ l, Res.foldM (ε := ε) (fun (l : List F) (p : F × Nat) =>
        if p.2 = i then .ok l
        else if xs[i] - p.1 = 0 then .panic
        else .ok (dmul l (dscale (xs[i] - p.1)⁻¹ [-p.1, 1]))) l0 (ys.zipIdx k) = .ok l ∧
        toPoly l = toPoly l0 * ((ys.zipIdx k).map (fun p => if p.2 = i then (1 : F[X])
          else C (xs[i] - p.1)⁻¹ * (X - C p.1))).prod := by
    intro ys
    induction ys with
    | nil => intro k l0 _; exact ⟨l0, rfl, by simp⟩
    | cons y ys ih =>
      intro k l0 h
      rw [List.zipIdx_cons, Res.foldM_cons]
      have hrec : ∀ j (hj : j < ys.length), k + 1 + j ≠ i → xs[i] - ys[j] ≠ 0 := by
        intro j hj hne
        exact h (j + 1) (by simpa using hj) (by omega)
      by_cases hk : k = i
      · obtain ⟨l, h1, h2⟩ := ih (k + 1) l0 hrec
        refine ⟨l, ?_, ?_⟩
        · simp only [hk, if_true, Res.bind_ok]
          rw [hk] at h1
          exact h1
        · rw [h2]; simp [hk]
      · have h0 := h 0 (by simp) (by simpa using hk)
        simp only [List.getElem_cons_zero] at h0
        obtain ⟨l, h1, h2⟩ := ih (k + 1) (dmul l0 (dscale (xs[i] - y)⁻¹ [-y, 1])) hrec
        refine ⟨l, ?_, ?_⟩
        · simp only [hk, if_false, h0, Res.bind_ok]
          exact h1
        · rw [h2]
          simp only [toPoly_dmul, toPoly_dscale, toPoly_cons, toPoly_nil, List.map_cons, List.prod_cons, hk, if_false,
            C_neg, C_1]
          ring
  obtain ⟨l, h1, h2⟩ := key xs 0 [1] (by
    intro j hj hne h
    exact hne (by simpa using ((List.Nodup.getElem_inj_iff hnd).1 (sub_eq_zero.1 h)).symm))
  refine ⟨l, h1, ?_, ?_⟩
  · rw [h2]
    simp only [toPoly_cons, toPoly_nil, mul_zero, add_zero, C_1, one_mul]
    have : ∀ (ys : List F) (k : Nat), ((((ys.zipIdx k).map (fun p => if p.2 = i then (1 : F[X])
          else C (xs[i] - p.1)⁻¹ * (X - C p.1))).prod : F[X]).natDegree
          ≤ ((ys.zipIdx k).filter (fun p => decide (p.2 ≠ i))).length) := by
      intro ys
      induction ys with
      | nil => intro k; simp
      | cons y ys ih =>
        intro k
        simp only [List.zipIdx_cons, List.map_cons, List.prod_cons, List.filter_cons]
        by_cases hk : k = i
        · simp only [hk, if_true, one_mul, ne_eq, not_true, decide_false]
          have := ih (k + 1)
          rw [hk] at this
          exact this
        · simp only [hk, if_false, ne_eq, not_false_eq_true, decide_true, if_true, List.length_cons]
          refine (natDegree_mul_le).trans ?_
          rw [add_comm]
          apply Nat.add_le_add (ih (k + 1))
          refine natDegree_mul_le.trans ?_
          rw [natDegree_C, natDegree_X_sub_C]
    have hlen : (xs.zipIdx.filter (fun p => decide (p.2 ≠ i))).length < xs.length := by
      have h3 : xs.zipIdx.length = xs.length := by simp
      rw [← h3, List.length_filter_lt_length_iff_exists]
      exact ⟨(xs[i], i), List.mem_zipIdx_iff_getElem?.2 (List.getElem?_eq_getElem hi), by simp⟩
    refine lt_of_le_of_lt degree_le_natDegree ?_
    exact_mod_cast lt_of_le_of_lt (this xs 0) hlen
  · intro j hj
    rw [h2]
    simp only [toPoly_cons, toPoly_nil, mul_zero, add_zero, C_1, one_mul]
    by_cases hji : j = i
    · subst hji
      rw [if_pos rfl, eval_list_prod, List.map_map]
      apply List.prod_eq_one
      intro y hy
      obtain ⟨p, hp, rfl⟩ := List.mem_map.1 hy
      simp only [Function.comp]
      split
      · simp
      · rename_i hne
        have hp' := List.mem_zipIdx_iff_getElem?.1 hp
        have hlt := getElem?_some_lt hp'
        rw [List.getElem?_eq_getElem hlt] at hp'
        rw [eval_mul, eval_C, eval_sub, eval_X, eval_C]
        apply inv_mul_cancel₀
        rw [← Option.some.inj hp']
        intro h
        exact hne ((List.Nodup.getElem_inj_iff hnd).1 (sub_eq_zero.1 h)).symm
    · rw [if_neg hji, eval_list_prod, List.map_map, List.prod_eq_zero_iff]
      refine List.mem_map.2 ⟨(xs[j], j), List.mem_zipIdx_iff_getElem?.2 (List.getElem?_eq_getElem hj), ?_⟩
      simp [hji]

theorem mulInv_eq_ok {ε : Type} {a b v : F} : (mulInv a b : Res ε F) = .ok v ↔ b ≠ 0 ∧ v = a * b⁻¹ := by
  unfold mulInv
  split
  · simp_all
  · simp_all [eq_comm]

/-- The verifier's `f_i(x3)`: for distinct points it uses the interpolation polynomial of the evaluation set. -/
theorem fEval_iff {ε : Type} (x3 : F) (ks : List F) (hnd : ks.Nodup) (g : F → F) (qe v : F) (R : F[X])
    (hR : R.degree < ks.length) (hRe : ∀ k ∈ ks, R.eval k = g k) :
    fEval (ε := ε) x3 (ks.map (fun k => (k, g k))) qe = .ok v ↔
      x3 ∉ ks ∧ v = (qe - R.eval x3) * ((ks.map (fun k => x3 - k)).prod)⁻¹ := by
  have hb : ∃ bs, lagrangeBasis (ε := ε) ks = .ok bs ∧ bs.length = ks.length ∧
      ∀ i (hi : i < ks.length) (hi' : i < bs.length), (toPoly bs[i]).degree < ks.length ∧
        ∀ j (hj : j < ks.length), (toPoly bs[i]).eval ks[j] = if j = i then 1 else 0 := by
    unfold lagrangeBasis
    obtain ⟨bs, hbs⟩ := Res.mapM_ok_of (f := fun (p : F × Nat) => lagrangeOne (ε := ε) ks p.1 p.2) (l := ks.zipIdx) (by
      intro p hp
      have hp' := List.mem_zipIdx_iff_getElem?.1 hp
      have hlt := getElem?_some_lt hp'
      rw [List.getElem?_eq_getElem hlt] at hp'
      obtain ⟨l, hl, _⟩ := lagrangeOne_ok (ε := ε) ks hnd p.2 hlt
      exact ⟨l, by rw [← Option.some.inj hp']; exact hl⟩)
    refine ⟨bs, hbs, by rw [Res.mapM_length hbs]; simp, ?_⟩
    intro i hi hi'
    have := Res.mapM_getElem hbs i (by simpa using hi)
    simp only [List.getElem_zipIdx, Nat.zero_add] at this
    obtain ⟨l, hl, h1, h2⟩ := lagrangeOne_ok (ε := ε) ks hnd i hi
    rw [hl] at this
    rw [← Res.ok.inj this]
    exact ⟨h1, h2⟩
  obtain ⟨bs, hbs, hlen, hprop⟩ := hb
  have hfold : ∀ (zs : List (List F × F)) (acc : List F),
      toPoly (zs.foldl (fun acc p => dadd acc (dscale p.2 p.1)) acc)
        = toPoly acc + (zs.map (fun p => C p.2 * toPoly p.1)).sum := by
    intro zs
    induction zs with
    | nil => intro acc; simp
    | cons p zs ih => intro acc; rw [List.foldl_cons, ih, toPoly_dadd, toPoly_dscale]; simp [add_assoc]
  have hks : (ks.map (fun k => (k, g k))).map Prod.fst = ks := by simp [Function.comp_def]
  have hgs : (ks.map (fun k => (k, g k))).map Prod.snd = ks.map g := by simp [Function.comp_def]
  have hr : toPoly ((List.zip bs (ks.map g)).foldl (fun acc p => dadd acc (dscale p.2 p.1)) []) = R := by
    rw [hfold, toPoly_nil, zero_add]
    apply Polynomial.eq_of_degrees_lt_of_eval_finset_eq (s := ks.toFinset)
    · rw [List.toFinset_card_of_nodup hnd]
      have : ∀ l : List F[X], (∀ p ∈ l, p.degree < (ks.length : WithBot ℕ)) → l.sum.degree < (ks.length : WithBot ℕ) := by
        intro l
        induction l with
        | nil => intro _; simp [WithBot.bot_lt_coe]
        | cons p l ih =>
          intro h
          rw [List.sum_cons]
          exact lt_of_le_of_lt (degree_add_le _ _) (max_lt (h p (by simp)) (ih (fun q hq => h q (by simp [hq]))))
      apply this
      intro p hp
      obtain ⟨q, hq, rfl⟩ := List.mem_map.1 hp
      obtain ⟨i, hi, hqi⟩ := List.getElem_of_mem (List.of_mem_zip (a := q.1) (b := q.2) hq).1
      refine lt_of_le_of_lt (degree_mul_le _ _) ?_
      have h1 := (hprop i (by omega) hi).1
      rw [hqi] at h1
      refine lt_of_le_of_lt (add_le_add degree_C_le le_rfl) ?_
      rw [zero_add]; exact h1
    · rw [List.toFinset_card_of_nodup hnd]; exact hR
    · intro y hy
      obtain ⟨j, hj, rfl⟩ := List.getElem_of_mem (List.mem_toFinset.1 hy)
      rw [hRe _ (List.getElem_mem hj), eval_listSum, List.map_map]
      have hz : (List.zip bs (ks.map g)).map ((eval ks[j]) ∘ (fun p : List F × F => C p.2 * toPoly p.1))
          = (List.range ks.length).map (fun i => if i = j then g ks[j] else 0) := by
        apply List.ext_getElem
        · simp [hlen]
        · intro i h1 h2
          have hi : i < ks.length := by simpa using h2
          have hi' : i < bs.length := by omega
          rw [List.getElem_map, List.getElem_zip, List.getElem_map, List.getElem_map, List.getElem_range]
          simp only [Function.comp, eval_mul, eval_C, (hprop i hi hi').2 j hj]
          by_cases hij : i = j
          · subst hij; simp
          · simp [hij, Ne.symm hij]
      rw [hz, List.sum_map_ite_eq]
      simp [List.count_eq_one_of_mem List.nodup_range (List.mem_range.2 hj)]
  unfold fEval
  rw [hks, hgs]
  simp only [hbs, Res.bind_ok]
  rw [mulInv_eq_ok, peval_eq_eval, peval_eq_eval, hr, toPoly_constructVanishing, ne_eq, eval_prod_sub_eq_zero, eval_prod_sub]

/-! ### The verifier -/

theorem setExtend_length_le {α : Type} [LinearOrder α] (s l : List α) : (setExtend s l).length ≤ s.length + l.length := by
  have hi : ∀ (a : α) (s : List α), (setInsert a s).length ≤ s.length + 1 := by
    intro a s
    induction s with
    | nil => simp [setInsert]
    | cons b s ih =>
      unfold setInsert
      split
      · simp
      · split
        · simp only [List.length_cons]; omega
        · simp
  induction l generalizing s with
  | nil => simp [setExtend]
  | cons a l ih =>
    have h1 := ih (setInsert a s)
    have h2 := hi a s
    have h3 : setExtend s (a :: l) = setExtend (setInsert a s) l := rfl
    rw [h3, List.length_cons]; omega

theorem zipEvalM_iff {ε α β γ δ : Type} {f : α → Res ε β} {g : β → γ → Res ε δ} {as : List α} {cs : List γ}
    {ds : List δ} : zipEvalM f g as cs = .ok ds ↔
      (∀ a, as[cs.length]? = some a → f a ≠ .panic) ∧
      ∃ bs, Res.mapM f (as.take cs.length) = .ok bs ∧
        List.Forall₂ (fun (p : β × γ) d => g p.1 p.2 = .ok d) (List.zip bs cs) ds := by
  induction as generalizing cs ds with
  | nil => simp [zipEvalM, eq_comm]
  | cons a as ih =>
    cases cs with
    | nil =>
      simp only [zipEvalM, List.length_nil, List.getElem?_cons_zero, Option.some.injEq, forall_eq', List.take_zero,
        Res.mapM_nil, Res.ok.injEq, exists_eq_left', List.zip_nil_right, List.forall₂_nil_left_iff]
      cases f a <;> simp [eq_comm]
    | cons c cs =>
      simp only [zipEvalM, Res.bind_eq_ok, List.length_cons, List.getElem?_cons_succ, List.take_succ_cons,
        Res.mapM_cons]
      constructor
      · rintro ⟨b, hb, d, hd, ds', hds, he⟩
        obtain ⟨h1, bs, h2, h3⟩ := ih.1 hds
        refine ⟨h1, b :: bs, ⟨b, hb, bs, h2, rfl⟩, ?_⟩
        rw [← Res.ok.inj he]
        exact List.Forall₂.cons hd h3
      · rintro ⟨h1, bs', ⟨b, hb, bs, h2, he⟩, h3⟩
        rw [← Res.ok.inj he] at h3
        cases h3 with
        | cons hd h3 =>
          exact ⟨b, hb, _, hd, _, ih.2 ⟨h1, bs, h2, h3⟩, rfl⟩

/-- The commitment the verifier opens. -/
def finalComm (S : Scheme F) (f : S.Comm) (x4 : F) (cs : List S.Comm) : S.Comm :=
  cs.zipIdx.foldl (fun acc p => S.add acc (S.scale p.1 (x4 * x4 ^ p.2))) f

theorem forall2_ok_eq {ε α : Type} {l : List α} {vals : List F} {f : α → F}
    (h : List.Forall₂ (fun o y => (.ok (f o) : Res ε F) = .ok y) l vals) : vals = l.map f := by
  induction h with
  | nil => rfl
  | cons h _ ih => rw [List.map_cons, Res.ok.inj h, ih]

theorem openingSets_length_le {α : Type} (rot : α → List Rotation) (os : List α) :
    (openingSets rot os).length ≤ os.length := by
  rw [openingSets_eq, List.length_map]
  have := setExtend_length_le [] (os.map rot)
  simpa using this

theorem mpVerifyWith_iff {S : Scheme F} {vk : S.VK} {proof : MpProof S} {oracles : List (VerifierOracle F S.Comm)}
    {xi : F} {d : Domain F} {x1 x2 x3 x4 : F} :
    mpVerifyWith S vk proof oracles xi d x1 x2 x3 x4 = .ok () ↔
      (∀ s, (openingSets (fun (o : VerifierOracle F S.Comm) => o.rotations) oracles)[proof.qEvals.length]? = some s →
        mpVerifierSet (S := S) (powersFrom 1 x1 oracles.length) xi d.elements s ≠ .panic) ∧
      ∃ qs fs, Res.mapM (mpVerifierSet (S := S) (powersFrom 1 x1 oracles.length) xi d.elements)
          ((openingSets (fun (o : VerifierOracle F S.Comm) => o.rotations) oracles).take proof.qEvals.length) = .ok qs ∧
        List.Forall₂ (fun (p : (S.Comm × List (F × F)) × F) v => fEval (ε := PiopErr) x3 p.1.2 p.2 = .ok v)
          (List.zip qs proof.qEvals) fs ∧
        S.check vk (finalComm S proof.fCommit x4 (qs.map Prod.fst)) x3
          (peval fs x2 + x4 * peval (proof.qEvals.take qs.length) x4) proof.opening = .ok true := by
  unfold mpVerifyWith
  simp only [Res.bind_eq_ok, Res.mapErr_eq_ok]
  have hpow := fun (fs : List F) (v : F) => foldM_pow (ε := MpErr S.E) (α := F) (fun o => .ok o) 1 x2 oracles.length fs 0 v
  simp only [Res.bind_ok] at hpow
  have hfin : ∀ (qc : List (S.Comm × F)) (e0 : F) (r : S.Comm × F), qc.length ≤ proof.qEvals.length →
      (Res.foldM (ε := MpErr S.E) (fun (acc : S.Comm × F) (p : (S.Comm × F) × Nat) => do
        let x ← Res.idx (powersFrom x4 x4 proof.qEvals.length) p.2
        pure (S.add acc.1 (S.scale p.1.1 x), acc.2 + x * p.1.2)) (proof.fCommit, e0) qc.zipIdx = .ok r ↔
      r = (finalComm S proof.fCommit x4 (qc.map Prod.fst), e0 + x4 * peval (qc.map Prod.snd) x4)) := by
    intro qc e0 r hl
    have h1 := Res.foldM_ok_foldl (ε := MpErr S.E) (l := qc.zipIdx)
      (f := fun (acc : S.Comm × F) (p : (S.Comm × F) × Nat) => do
        let x ← Res.idx (powersFrom x4 x4 proof.qEvals.length) p.2
        pure (S.add acc.1 (S.scale p.1.1 x), acc.2 + x * p.1.2))
      (g := fun acc p => (S.add acc.1 (S.scale p.1.1 (x4 * x4 ^ p.2)), acc.2 + x4 * x4 ^ p.2 * p.1.2)) (by
        intro b a ha
        rw [powersFrom_idx _ _ _ _ (lt_of_lt_of_le (snd_lt_of_mem_zipIdx ha) hl)]
        rfl) (proof.fCommit, e0)
    rw [h1]
    have h2 : ∀ (qc : List (S.Comm × F)) (k : Nat) (acc : S.Comm × F),
        (qc.zipIdx k).foldl (fun acc p => (S.add acc.1 (S.scale p.1.1 (x4 * x4 ^ p.2)), acc.2 + x4 * x4 ^ p.2 * p.1.2)) acc
        = (((qc.map Prod.fst).zipIdx k).foldl (fun acc p => S.add acc (S.scale p.1 (x4 * x4 ^ p.2))) acc.1,
          acc.2 + x4 * x4 ^ k * peval (qc.map Prod.snd) x4) := by
      intro qc
      induction qc with
      | nil => intro k acc; simp
      | cons q qc ih =>
        intro k acc
        rw [List.zipIdx_cons, List.foldl_cons, ih, List.map_cons, List.map_cons, List.zipIdx_cons, List.foldl_cons, peval_cons]
        simp only [Prod.mk.injEq, true_and]
        rw [pow_succ]; ring
    rw [h2, pow_zero, mul_one]
    simp only [Res.ok.injEq]
    exact eq_comm
  constructor
  · rintro ⟨fs, hfs, e0, he0, qc, hqc, fin, hfin', b, hb, hres⟩
    have hb' : b = true := by
      cases b
      · simp at hres
      · rfl
    subst hb'
    obtain ⟨h1, qs, h2, h3⟩ := zipEvalM_iff.1 hfs
    obtain ⟨_, qs', h2', h4⟩ := zipEvalM_iff.1 hqc
    rw [h2] at h2'
    obtain rfl := Res.ok.inj h2'
    refine ⟨h1, qs, fs, h2, h3, ?_⟩
    obtain ⟨_, vals, hv1, hv2⟩ := (hpow fs e0).1 he0
    have hlenq : qs.length ≤ proof.qEvals.length := by rw [Res.mapM_length h2]; simp
    have hqc' : qc = List.zip (qs.map Prod.fst) (proof.qEvals.take qs.length) := by
      have : qc = (List.zip qs proof.qEvals).map (fun p => (p.1.1, p.2)) := by
        clear hqc hfin'
        generalize List.zip qs proof.qEvals = zs at h4
        induction h4 with
        | nil => rfl
        | cons h _ ih => rw [List.map_cons, ← ih, ← Res.ok.inj h]
      rw [this]
      apply List.ext_getElem
      · simp
      · intro i _ _
        simp
    have hl1 : qc.map Prod.fst = qs.map Prod.fst := by
      rw [hqc', List.map_fst_zip]; simp; omega
    have hl2 : qc.map Prod.snd = proof.qEvals.take qs.length := by
      rw [hqc', List.map_snd_zip]; simp
    have hr := (hfin qc e0 fin (by rw [hqc']; simp)).1 hfin'
    rw [hr, hl1, hl2] at hb
    simp only [] at hb
    rw [hv2, forall2_ok_eq hv1, List.map_id', zero_add, one_mul] at hb
    exact hb
  · rintro ⟨h1, qs, fs, h2, h3, h4⟩
    have hlenq : qs.length ≤ proof.qEvals.length := by rw [Res.mapM_length h2]; simp
    have hfl : fs.length ≤ oracles.length := by
      have e1 := h3.length_eq
      have e2 := Res.mapM_length h2
      have e3 := openingSets_length_le (fun (o : VerifierOracle F S.Comm) => o.rotations) oracles
      rw [List.length_zip] at e1
      rw [List.length_take] at e2
      omega
    have hself : ∀ l : List F, List.Forall₂ (fun o y => (.ok o : Res (MpErr S.E) F) = .ok y) l l := by
      intro l
      induction l with
      | nil => exact List.Forall₂.nil
      | cons a l ih => exact List.Forall₂.cons rfl ih
    refine ⟨fs, zipEvalM_iff.2 ⟨h1, qs, h2, h3⟩, peval fs x2, (hpow fs _).2 ⟨hfl, fs, hself fs, by simp⟩,
      (List.zip qs proof.qEvals).map (fun p => (p.1.1, p.2)), zipEvalM_iff.2 ⟨h1, qs, h2, ?_⟩, _,
      (hfin _ _ _ (by simp)).2 rfl, true, ?_, rfl⟩
    · generalize List.zip qs proof.qEvals = zs
      induction zs with
      | nil => exact List.Forall₂.nil
      | cons a l ih => exact List.Forall₂.cons rfl ih
    · have hl1 : ((List.zip qs proof.qEvals).map (fun p => (p.1.1, p.2))).map Prod.fst = qs.map Prod.fst := by
        rw [List.map_map]
        apply List.ext_getElem
        · simp; omega
        · intro i _ _; simp
      have hl2 : ((List.zip qs proof.qEvals).map (fun p => (p.1.1, p.2))).map Prod.snd = proof.qEvals.take qs.length := by
        rw [List.map_map]
        apply List.ext_getElem
        · simp
        · intro i _ _; simp
      rw [hl1, hl2]
      exact h4

end
end ZK
