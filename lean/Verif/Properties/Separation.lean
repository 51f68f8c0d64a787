import Verif.Properties.Quotient
/-! C30, C32: separation of the constraints by alpha, and soundness of the identity check. -/
set_option autoImplicit false
set_option linter.unusedSectionVars false
namespace ZK
open Polynomial

section
variable {F : Type} [Field F]

theorem zipIdx_cons_sum {α : Type} (f : α × Nat → F) (a : α) (l : List α) :
    ((a :: l).zipIdx.map f).sum = f (a, 0) + (l.zipIdx.map (fun p => f (p.1, p.2 + 1))).sum := by
  rw [List.zipIdx_cons, List.map_cons, List.sum_cons]
  congr 2
  apply List.ext_getElem
  · simp
  · intro i h1 h2
    simp [Nat.add_comm]

theorem sum_powers (alpha : F) (s : Nat) (l : List F) :
    (l.zipIdx.map (fun c => alpha ^ (s + c.2) * c.1)).sum = alpha ^ s * (toPoly l).eval alpha := by
  induction l generalizing s with
  | nil => simp
  | cons c l ih =>
    rw [zipIdx_cons_sum]
    have := ih (s + 1)
    simp only [Nat.add_assoc, Nat.add_comm 1] at this
    simp only [this]
    simp [pow_succ]
    ring

theorem sum_powers_flatten (alpha : F) (s k : Nat) (ls : List (List F)) (h : ∀ l ∈ ls, l.length = k) :
    (ls.zipIdx.map (fun l => (l.1.zipIdx.map (fun c => alpha ^ (s + k * l.2 + c.2) * c.1)).sum)).sum
      = alpha ^ s * (toPoly ls.flatten).eval alpha := by
  induction ls generalizing s with
  | nil => simp
  | cons l ls ih =>
    rw [zipIdx_cons_sum]
    have := ih (s + k) (fun l hl => h l (by simp [hl]))
    have e : ∀ j, s + k + k * j = s + k * (j + 1) := fun j => by ring
    simp only [e] at this
    simp only [this, Nat.mul_zero, Nat.add_zero]
    rw [sum_powers, List.flatten_cons, toPoly_append, h l (by simp)]
    simp [pow_add]
    ring

/-- The aggregated constraint as a polynomial in alpha. -/
noncomputable def alphaPoly (gates perm : List F) (m : Nat) (ls : List (List F)) : F[X] :=
  toPoly gates + X ^ gates.length * toPoly perm + X ^ (gates.length + 2 * m) * toPoly ls.flatten

theorem aggregate_eval (alpha : F) (gates perm : List F) (m : Nat) (ls : List (List F))
    (h : ∀ l ∈ ls, l.length = 5) : aggregate alpha gates perm m ls = (alphaPoly gates perm m ls).eval alpha := by
  unfold aggregate alphaPoly
  have h1 := sum_powers alpha 0 gates
  simp only [Nat.zero_add] at h1
  rw [sum_powers, h1, sum_powers_flatten _ _ _ _ h]
  simp

theorem alphaPoly_degree (gates perm : List F) (m : Nat) (ls : List (List F)) {W : Nat}
    (h1 : gates.length + perm.length ≤ W) (h2 : ls = [] ∨ gates.length + 2 * m + ls.flatten.length ≤ W) :
    (alphaPoly gates perm m ls).degree < W := by
  rw [degree_lt_iff_coeff_zero]
  intro e he
  have h3 : (if gates.length + 2 * m ≤ e then ls.flatten.getD (e - (gates.length + 2 * m)) 0 else 0) = 0 := by
    split
    · rcases h2 with rfl | h2
      · simp
      · rw [List.getD_eq_default _ _ (by omega)]
    · rfl
  simp only [alphaPoly, coeff_add, coeff_toPoly, coeff_X_pow_mul']
  rw [h3, List.getD_eq_default _ _ (by omega), if_pos (by omega), List.getD_eq_default _ _ (by omega)]
  simp

theorem alphaPoly_zero {gates perm : List F} {m : Nat} {ls : List (List F)} (hp : perm = [] ∧ m = 0 ∨ perm.length = 2 * m + 1)
    (h : alphaPoly gates perm m ls = 0) :
    (∀ g ∈ gates, g = 0) ∧ (∀ j < 2 * m, perm.getD j 0 = 0) ∧ perm.getD (2 * m) 0 + ls.flatten.getD 0 0 = 0 ∧
      ∀ j, ls.flatten.getD (j + 1) 0 = 0 := by
  have hc : ∀ e, (alphaPoly gates perm m ls).coeff e = 0 := by rw [h]; simp
  simp only [alphaPoly, coeff_add, coeff_toPoly, coeff_X_pow_mul'] at hc
  refine ⟨?_, ?_, ?_, ?_⟩
  · intro g hg
    obtain ⟨i, hi, rfl⟩ := List.getElem_of_mem hg
    have := hc i
    rw [if_neg (by omega), if_neg (by omega), List.getD_eq_getElem _ _ hi] at this
    simpa using this
  · intro j hj
    have := hc (gates.length + j)
    rw [if_pos (by omega), if_neg (by omega), List.getD_eq_default _ _ (by omega)] at this
    simpa using this
  · have := hc (gates.length + 2 * m)
    rw [if_pos (by omega), if_pos (by omega), List.getD_eq_default _ _ (by omega)] at this
    simpa using this
  · intro j
    have := hc (gates.length + 2 * m + (j + 1))
    rw [if_pos (by omega), if_pos (by omega), List.getD_eq_default _ _ (by omega),
      List.getD_eq_default perm _ (by rcases hp with ⟨rfl, rfl⟩ | hp; simp; omega)] at this
    rw [show gates.length + 2 * m + (j + 1) - (gates.length + 2 * m) = j + 1 by omega] at this
    simpa using this

end

section
variable {F : Type} [Field F] [DecidableEq F] [FftParams F] [LawfulFft F]

theorem rowPoly_eval {d : Domain F} (hd : d.Ok) {i j : Nat} (hi : i < d.size) (hj : j < d.size) :
    (rowPoly d j).eval (d.omega ^ i) = if i = j then 1 else 0 := by
  have hinj : Set.InjOn (fun k => d.omega ^ k) (Finset.range d.size : Set Nat) := by
    intro a ha b hb hab
    simp only [Finset.coe_range, Set.mem_Iio] at ha hb
    exact hd.element_inj ha hb hab
  unfold rowPoly
  split
  · rename_i h
    subst h
    exact Lagrange.eval_basis_self hinj (by simpa using hj)
  · rename_i h
    exact Lagrange.eval_basis_of_ne (v := fun k => d.omega ^ k) (Ne.symm h) (by simpa using hi)

/-- The values of all constraints of a circuit at a point. -/
noncomputable def CircuitPolys.alphaAt (c : CircuitPolys F) (d : Domain F) (p : PermutationArgument F)
    (beta gamma x : F) : F[X] :=
  alphaPoly (c.gates.map (·.eval x)) ((c.permutation d p beta gamma).map (·.eval x)) c.zs.length
    (c.lookups.map (fun l => (lookupPolys d p.usableRows c.qBlind beta gamma l).map (·.eval x)))

theorem CircuitPolys.eval_alphaAt (c : CircuitPolys F) (d : Domain F) (p : PermutationArgument F)
    (alpha beta gamma x : F) :
    (c.numerator d p alpha beta gamma).eval x = (c.alphaAt d p beta gamma x).eval alpha := by
  rw [CircuitPolys.eval_numerator, aggregate_eval]
  · rfl
  · intro l hl
    obtain ⟨t, _, rfl⟩ := List.mem_map.1 hl
    simp [lookupPolys, lookupConstraints]

/-- There are `2 m + 1` permutation constraints. -/
theorem CircuitPolys.permutation_length {c : CircuitPolys F} {d : Domain F} {p : PermutationArgument F}
    (hF : c.Fits d p) (beta gamma : F) (h : c.ws ≠ []) :
    (c.permutation d p beta gamma).length = 2 * c.zs.length + 1 := by
  obtain ⟨hk, h1, h2, h3⟩ := hF.cols h
  have hc : (c.columns p).length = c.zs.length := by
    unfold CircuitPolys.columns
    rw [List.length_map, h3]
    exact chunks_length_congr hk (by simp [← h1, ← h2])
  have hpos : 0 < c.zs.length := by
    rw [h3]
    exact List.length_pos_iff.2 (fun h0 => h ((chunks_eq_nil hk).1 h0))
  unfold CircuitPolys.permutation
  rw [if_neg h]
  simp [permConstraints, hc]
  omega

theorem CircuitPolys.alphaAt_degree {c : CircuitPolys F} {d : Domain F} {p : PermutationArgument F}
    (hF : c.Fits d p) (beta gamma x : F) : (c.alphaAt d p beta gamma x).degree < c.weights := by
  have hpl : (c.permutation d p beta gamma).length = if c.ws = [] then 0 else 2 * c.zs.length + 1 := by
    split
    · rename_i h
      simp [CircuitPolys.permutation, h]
    · rename_i h
      exact CircuitPolys.permutation_length hF beta gamma h
  apply alphaPoly_degree
  · rw [List.length_map, List.length_map, hpl]
    unfold CircuitPolys.weights
    split
    · omega
    · rename_i h
      split
      · omega
      · have : 0 < c.lookups.length := by
          rename_i h'
          exact List.length_pos_iff.2 h'
        omega
  · by_cases hl : c.lookups = []
    · left; simp [hl]
    · right
      rw [List.length_flatten, List.map_map, List.length_map]
      have : (c.lookups.map (List.length ∘ fun l =>
          (lookupPolys d p.usableRows c.qBlind beta gamma l).map (·.eval x))) = c.lookups.map (fun _ => 5) := by
        apply List.map_congr_left
        intro l _
        simp [lookupPolys, lookupConstraints]
      rw [this]
      unfold CircuitPolys.weights
      rw [if_neg hl]
      simp
      omega

/-- On a row, the polynomial in alpha is zero only if every constraint is. -/
theorem CircuitPolys.alphaAt_row {c : CircuitPolys F} {d : Domain F} (hd : d.Ok) {p : PermutationArgument F}
    (hF : c.Fits d p) {beta gamma : F} {i : Nat} (hi : i < d.size)
    (h : c.alphaAt d p beta gamma (d.omega ^ i) = 0) :
    (∀ g ∈ c.gates, g.eval (d.omega ^ i) = 0) ∧
    (∀ q ∈ c.permutation d p beta gamma, q.eval (d.omega ^ i) = 0) ∧
    ∀ l ∈ c.lookups, ∀ q ∈ lookupPolys d p.usableRows c.qBlind beta gamma l, q.eval (d.omega ^ i) = 0 := by
  obtain ⟨x, hx⟩ : ∃ x, x = d.omega ^ i := ⟨_, rfl⟩
  rw [← hx] at h ⊢
  have hl0 := rowPoly_eval hd hi hd.size_pos
  have hlu := rowPoly_eval hd hi hF.usable
  rw [← hx] at hl0 hlu
  have hpl : (c.permutation d p beta gamma).map (·.eval x) = [] ∧ c.zs.length = 0 ∨
      ((c.permutation d p beta gamma).map (·.eval x)).length = 2 * c.zs.length + 1 := by
    by_cases hw : c.ws = []
    · left
      simp [CircuitPolys.permutation, hw, hF.zs hw]
    · right
      rw [List.length_map, CircuitPolys.permutation_length hF beta gamma hw]
  obtain ⟨hg, hp, hmix, hlk⟩ := alphaPoly_zero hpl h
  obtain ⟨flat, hflat⟩ : ∃ flat, flat = (c.lookups.map (fun l =>
    (lookupPolys d p.usableRows c.qBlind beta gamma l).map (·.eval x))).flatten := ⟨_, rfl⟩
  rw [← hflat] at hmix hlk
  -- the shared weight
  have hshared : ((c.permutation d p beta gamma).map (·.eval x)).getD (2 * c.zs.length) 0 = 0 := by
    by_cases hw : c.ws = []
    · simp [CircuitPolys.permutation, hw]
    by_cases hlk0 : c.lookups = []
    · rw [hflat, hlk0] at hmix
      simpa using hmix
    obtain ⟨hk, e1, e2, e3⟩ := hF.cols hw
    have hc : ((chunks p.maxCols (List.zip (List.zip c.ws c.sigmas) p.deltas)).map
            (List.map (fun t => (⟨t.1.1.eval x, t.1.2.eval x, t.2 * x⟩ : PermCol F)))).length = c.zs.length := by
      rw [List.length_map, e3]
      exact chunks_length_congr hk (by simp [← e1, ← e2])
    have hpos : 0 < c.zs.length := by
      rw [e3]
      exact List.length_pos_iff.2 (fun h0 => hw ((chunks_eq_nil hk).1 h0))
    rw [CircuitPolys.eval_permutation c d p beta gamma x hw] at hp hmix ⊢
    unfold permConstraints at hp hmix ⊢
    rw [hc] at hp hmix ⊢
    rw [hl0, hlu] at hp hmix ⊢
    generalize hB : ((chunks p.maxCols (List.zip (List.zip c.ws c.sigmas) p.deltas)).map
            (List.map (fun t => (⟨t.1.1.eval x, t.1.2.eval x, t.2 * x⟩ : PermCol F)))) = B at hp hmix hc ⊢
    have hlen : ∀ (a : F) (M : List F), M.length = c.zs.length → ([a] ++ M ++ (List.range (c.zs.length - 1)).map
        (fun j => (if i = 0 then (1 : F) else 0) * ((c.zs.getD (j + 1) 0).eval x
          - (c.zs.getD j 0).eval (d.omega ^ p.usableRows * x)))).length = 2 * c.zs.length := by
      intro a M hM
      simp [hM]
      omega
    generalize hinit : [(if i = 0 then (1 : F) else 0) * (1 - (c.zs.getD 0 0).eval x)] ++ _ ++ _ = init at hp hmix ⊢
    have hil : init.length = 2 * c.zs.length := by
      rw [← hinit]
      exact hlen _ _ (by simp [hc])
    have hlast : ∀ y : F, (init ++ [y]).getD (2 * c.zs.length) 0 = y := by
      intro y
      rw [← hil]
      simp
    rw [hlast] at hmix ⊢
    have hinit0 : ∀ y ∈ init, y = 0 := by
      intro y hy
      obtain ⟨j, hj, rfl⟩ := List.getElem_of_mem hy
      have := hp j (by omega)
      rw [List.getD_eq_getElem _ _ (by simp; omega), List.getElem_append_left hj] at this
      exact this
    by_cases hi0 : i = 0
    · by_cases hu0 : p.usableRows = 0
      · -- both selectors are one on row zero: the other constraints force the last grand product to be one
        have hz : ∀ j < c.zs.length, (c.zs.getD j 0).eval x = 1 := by
          intro j
          induction j with
          | zero =>
            intro _
            have := hinit0 ((if i = 0 then (1 : F) else 0) * (1 - (c.zs.getD 0 0).eval x)) (by rw [← hinit]; simp)
            rw [if_pos hi0, one_mul, sub_eq_zero] at this
            exact this.symm
          | succ j ih =>
            intro hj
            have := hinit0 ((if i = 0 then (1 : F) else 0) * ((c.zs.getD (j + 1) 0).eval x
              - (c.zs.getD j 0).eval (d.omega ^ p.usableRows * x))) (by
                rw [← hinit]
                refine List.mem_append_right _ (List.mem_map.2 ⟨j, List.mem_range.2 (by omega), rfl⟩))
            rw [if_pos hi0, one_mul, sub_eq_zero, hu0, pow_zero, one_mul] at this
            rw [this]
            exact ih (by omega)
        beta_reduce
        rw [hz _ (by omega)]
        simp
      · rw [if_neg (by omega), zero_mul]
    · have hf0 : flat.getD 0 0 = 0 := by
        rw [hflat]
        obtain ⟨l, ls, hls⟩ := List.exists_cons_of_ne_nil hlk0
        rw [hls, List.map_cons, List.flatten_cons, eval_lookupPolys, hl0, if_neg hi0]
        simp [lookupConstraints]
      rw [hf0, add_zero] at hmix
      exact hmix
  have hfl0 : flat.getD 0 0 = 0 := by rw [hshared, zero_add] at hmix; exact hmix
  refine ⟨fun g hg' => hg _ (List.mem_map.2 ⟨g, hg', rfl⟩), ?_, ?_⟩
  · intro q hq
    obtain ⟨j, hj, rfl⟩ := List.getElem_of_mem hq
    have hj2 : j ≤ 2 * c.zs.length := by
      rcases hpl with ⟨h1, -⟩ | h1
      · rw [List.map_eq_nil_iff] at h1
        rw [h1] at hj
        simp at hj
      · rw [List.length_map] at h1
        omega
    have : ((c.permutation d p beta gamma).map (·.eval x)).getD j 0 = 0 := by
      rcases Nat.lt_or_ge j (2 * c.zs.length) with h1 | h1
      · exact hp j h1
      · rw [show j = 2 * c.zs.length by omega]
        exact hshared
    rw [List.getD_eq_getElem _ _ (by simpa using hj)] at this
    simpa using this
  · intro l hl q hq
    have hmem : q.eval x ∈ flat := by
      rw [hflat]
      exact List.mem_flatten.2 ⟨_, List.mem_map.2 ⟨l, hl, rfl⟩, List.mem_map.2 ⟨q, hq, rfl⟩⟩
    obtain ⟨j, hj, hjq⟩ := List.getElem_of_mem hmem
    rw [← hjq]
    cases j with
    | zero => rw [List.getD_eq_getElem _ _ hj] at hfl0; exact hfl0
    | succ j =>
      have := hlk j
      rw [List.getD_eq_getElem _ _ hj] at this
      exact this

/-- C30. If the aggregated constraint vanishes on a row for as many values of alpha as there are weights, then
every gate, every permutation constraint and every lookup constraint vanishes on that row. The only weight
used twice belongs to the last permutation constraint and the first constraint of the first lookup; they cannot
cancel each other. -/
theorem C30_alpha_separates {c : CircuitPolys F} {d : Domain F} (hd : d.Ok) {p : PermutationArgument F}
    (hF : c.Fits d p) {beta gamma : F} {i : Nat} (hi : i < d.size) (A : Finset F) (hA : c.weights ≤ A.card)
    (h : ∀ alpha ∈ A, (c.numerator d p alpha beta gamma).eval (d.omega ^ i) = 0) :
    (∀ g ∈ c.gates, g.eval (d.omega ^ i) = 0) ∧
    (∀ q ∈ c.permutation d p beta gamma, q.eval (d.omega ^ i) = 0) ∧
    ∀ l ∈ c.lookups, ∀ q ∈ lookupPolys d p.usableRows c.qBlind beta gamma l, q.eval (d.omega ^ i) = 0 := by
  apply CircuitPolys.alphaAt_row hd hF hi
  refine Polynomial.eq_zero_of_degree_lt_of_eval_finset_eq_zero A
    ((CircuitPolys.alphaAt_degree hF beta gamma _).trans_le (by exact_mod_cast hA)) ?_
  intro alpha ha
  rw [← CircuitPolys.eval_alphaAt]
  exact h alpha ha

/-- Every constraint of the circuit vanishes on row `k`. -/
def CircuitPolys.RowHolds (c : CircuitPolys F) (d : Domain F) (p : PermutationArgument F) (beta gamma : F)
    (k : Nat) : Prop :=
  (∀ g ∈ c.gates, g.eval (d.omega ^ k) = 0) ∧
  (∀ q ∈ c.permutation d p beta gamma, q.eval (d.omega ^ k) = 0) ∧
  ∀ l ∈ c.lookups, ∀ q ∈ lookupPolys d p.usableRows c.qBlind beta gamma l, q.eval (d.omega ^ k) = 0

omit [FftParams F] [LawfulFft F] [DecidableEq F] in
theorem natDegree_recombine {n e : Nat} {qs : List F[X]} (h : ∀ q ∈ qs, q.natDegree ≤ e) :
    (recombine n qs).natDegree ≤ n * (qs.length - 1) + e := by
  unfold recombine
  apply ZK.natDegree_list_sum_le
  intro t ht
  obtain ⟨⟨q, i⟩, hq, rfl⟩ := List.mem_map.1 ht
  have hi := List.mem_zipIdx hq
  simp only at hi ⊢
  refine natDegree_mul_le.trans (Nat.add_le_add ?_ ?_)
  · refine (natDegree_X_pow_le _).trans ?_
    exact Nat.mul_le_mul_left _ (by omega)
  · exact h _ (by rw [hi.2.2]; exact List.getElem_mem _)

end

section
variable {F : Type} [Field F] [LinearOrder F] [FftParams F] [LawfulFft F]

/-- C32. Let a gate, a permutation constraint or a lookup constraint of the committed polynomials fail on row
`k`, a root of the vanishing polynomial. Then for all but fewer than `weights` values of alpha, and for every
list `qs` of quotient polynomials chosen after alpha, at all but at most
`max B (n * (number of chunks - 1) + e + deg Z)` evaluation points the verifier, given the true evaluations,
computes a nonzero value and rejects. Here `n` is the number of rows, `e` bounds the degree of the quotient
polynomials and `B` the degree of the gates (with copies also `(maxCols + 2)(N - 1)`, with lookups also
`4 (N - 1)`). The committed polynomials have fewer than `N` coefficients, where `N` may exceed `n`: the
verifier only knows the bound that the commitment scheme imposes. -/
theorem C32_failing_row_caught {S : Scheme F} {vk : VerifierKey S} {d : Domain F} (hd : d.Ok) (hn : 2 ≤ d.size)
    {vos : List (GenericVO F)} {c : CircuitPolys F} (hF : c.Fits d vk.index.perm)
    (hL : vk.index.lookups.length = c.lookups.length) {N : Nat} (hN : d.size ≤ N) (hb : c.Bounded N) {B : Nat}
    (hg : ∀ g ∈ c.gates, g.natDegree ≤ B)
    (hw : c.ws ≠ [] → (vk.index.perm.maxCols + 2) * (N - 1) ≤ B)
    (hl : c.lookups ≠ [] → 4 * (N - 1) ≤ B) {vanishing : List F}
    {beta gamma : F} {k : Nat} (hk : k < d.size) (hZ : (toPoly vanishing).eval (d.omega ^ k) = 0)
    (hbad : ¬ c.RowHolds d vk.index.perm beta gamma k) :
    ∃ badAlphas : Finset F, badAlphas.card < c.weights ∧ ∀ alpha ∉ badAlphas,
      ∀ (qs : List F[X]) (e : Nat), (∀ q ∈ qs, q.natDegree ≤ e) →
        ∃ badXis : Finset F,
          badXis.card ≤ max B (d.size * (qs.length - 1) + e + (toPoly vanishing).natDegree) ∧
          ∀ xi ∉ badXis, ∀ (st : VState S) (is : List (InstanceVerifierOracle F)) (theta : F),
            VerifierPolys d st is vos xi vk.index.perm.usableRows c qs →
            ∃ v, quotientCheckValue S vk st is vos d.size vanishing ⟨theta, beta, gamma, alpha, xi⟩ = .ok v ∧
              v ≠ 0 := by
  have hne : c.alphaAt d vk.index.perm beta gamma (d.omega ^ k) ≠ 0 :=
    fun h0 => hbad (CircuitPolys.alphaAt_row hd hF hk h0)
  refine ⟨(c.alphaAt d vk.index.perm beta gamma (d.omega ^ k)).roots.toFinset, ?_, ?_⟩
  · have h1 := CircuitPolys.alphaAt_degree hF beta gamma (d.omega ^ k)
    rw [degree_eq_natDegree hne] at h1
    exact ((Multiset.toFinset_card_le _).trans (card_roots' _)).trans_lt (by exact_mod_cast h1)
  · intro alpha ha qs e hq
    have h2 : (c.numerator d vk.index.perm alpha beta gamma).eval (d.omega ^ k) ≠ 0 := by
      rw [CircuitPolys.eval_alphaAt]
      intro h0
      exact ha (Multiset.mem_toFinset.2 ((mem_roots hne).2 h0))
    obtain ⟨D, hD⟩ : ∃ D, D = c.numerator d vk.index.perm alpha beta gamma
        - recombine d.size qs * toPoly vanishing := ⟨_, rfl⟩
    have hD0 : D ≠ 0 := by
      intro h0
      apply h2
      have := congrArg (eval (d.omega ^ k)) (hD.symm.trans h0)
      rw [eval_sub, eval_mul, hZ, mul_zero, sub_zero, eval_zero] at this
      exact this
    refine ⟨D.roots.toFinset, ?_, ?_⟩
    · refine ((Multiset.toFinset_card_le _).trans (card_roots' _)).trans ?_
      rw [hD]
      refine (natDegree_sub_le _ _).trans (max_le_max ?_ ?_)
      · exact natDegree_numerator hd hn hF hN hb hg hw hl alpha beta gamma
      · exact natDegree_mul_le.trans (Nat.add_le_add_right (natDegree_recombine hq) _)
    · intro xi hxi st is theta hV
      refine ⟨_, quotientCheckValue_eq hd (ch := ⟨theta, beta, gamma, alpha, xi⟩) hV hF hL vanishing, ?_⟩
      intro h0
      apply hxi
      rw [Multiset.mem_toFinset, mem_roots hD0, hD]
      exact h0

end
end ZK
