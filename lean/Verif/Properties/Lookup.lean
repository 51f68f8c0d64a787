import Mathlib.Algebra.Polynomial.BigOperators
import Mathlib.Algebra.Polynomial.Roots
import Verif.Spec.Lookup
import Verif.Lemmas.Lookup
import Verif.Lemmas.Counting
import Verif.Lemmas.F97
import Verif.Properties.Permutation
/-! C24 to C29: the lookup argument. -/
set_option autoImplicit false
namespace ZK
open Polynomial
section
variable {F : Type} [Field F]

/-! ## C24 -/

/-- **C24** `permute_for_lookup` succeeds exactly on inputs of equal length with every input value in the
table, and panics otherwise. On success the outputs are permutations of input and table, they agree in
the first row, and in each later row the input equals the table value or the previous input. -/
theorem C24_permute_for_lookup {ε : Type} [LinearOrder F] (a s : List F) :
    ((a.length = s.length ∧ ∀ x ∈ a, x ∈ s) →
      ∃ a' s', (permuteForLookup a s : Res ε _) = .ok (a', s') ∧ a'.Perm a ∧ s'.Perm s ∧
        a'[0]? = s'[0]? ∧ ∀ i, 0 < i → i < a.length → a'[i]? = s'[i]? ∨ a'[i]? = a'[i - 1]?) ∧
    (¬ (a.length = s.length ∧ ∀ x ∈ a, x ∈ s) → (permuteForLookup a s : Res ε _) = .panic) := by
  rcases permuteForLookup_outcome (ε := ε) a s with ⟨h1, h2, s', hok, hs', hrows⟩ | ⟨hno, hp⟩
  · refine ⟨fun _ => ⟨_, s', hok, List.perm_insertionSort _ _, hs', ?_, ?_⟩, fun h => absurd ⟨h1, h2⟩ h⟩
    · by_cases h0 : 0 < a.length
      · rcases hrows 0 h0 with h | ⟨h, _⟩
        · exact h.symm
        · omega
      · have e1 : (a.insertionSort (· ≤ ·)).length = a.length := (List.perm_insertionSort _ _).length_eq
        have e2 := hs'.length_eq
        rw [List.getElem?_eq_none (by omega), List.getElem?_eq_none (by omega)]
    · intro i _ hi
      rcases hrows i hi with h | ⟨_, h⟩
      · exact Or.inl h.symm
      · exact Or.inr h.symm
  · exact ⟨fun h => absurd h hno, fun _ => hp⟩

/-- A concrete run. -/
example : (permuteForLookup [3, 1, 3, 3] [1, 2, 3, 4] : Res Unit (List F97 × List F97))
    = .ok ([1, 3, 3, 3], [1, 3, 4, 2]) := by decide +kernel

/-! ## C25, C26 -/

section
variable [FftParams F] [LawfulFft F] [DecidableEq F] {C : Type}

theorem inv_omega_mul {d : Domain F} (hd : d.Ok) (i : Nat) :
    (d.element 1)⁻¹ * d.omega ^ i = d.omega ^ (i + (d.size - 1)) := by
  have h0 := hd.omega_ne_zero
  have h1 := hd.prim.pow_eq_one
  have : d.omega ^ (d.size - 1) = d.omega⁻¹ := by
    have e : d.omega ^ (d.size - 1) * d.omega = 1 := by
      rw [← pow_succ, Nat.sub_add_cancel hd.size_pos, h1]
    field_simp
    exact e
  rw [pow_add, this, Domain.element, pow_one, mul_comm]

/-- The verifier's evaluation of a lookup on a row. -/
theorem lookupOpen_rows {d : Domain F} (hd : d.Ok) {p : LookupPolys F}
    {l : LookupOracles (VerifierOracle F C)} (hl : p.Answered d l) {zo : VerifierOracle F C} {Z : F[X]}
    (hz : AnswersRows d zo Z) {qBlind : VerifierOracle F C} {qb : F} {i : Nat}
    (hqb : qBlind.query (d.omega ^ i) = .ok qb) (l0 lu beta gamma : F) (alphas : List F)
    (hal : alphas.length = 5) :
    lookupOpen l0 lu qBlind l zo beta gamma (d.omega ^ i) d alphas
      = .ok (weighted alphas (lookupConstraints beta gamma l0 lu qb
        ⟨p.a.eval (d.omega ^ i), p.s.eval (d.omega ^ i), p.aPrime.eval (d.omega ^ i),
          p.aPrime.eval (d.omega ^ (i + (d.size - 1))), p.sPrime.eval (d.omega ^ i),
          Z.eval (d.omega ^ i), Z.eval (d.omega ^ (i + 1))⟩)) := by
  refine lookupOpen_eq l0 lu qBlind l zo beta gamma _ d alphas hal (hd.element_ne_zero 1) _ qb
    (hl.1 i) (hl.2.1 i) (hl.2.2.1 i) ?_ (hl.2.2.2 i) (hz i) ?_ hqb
  · rw [inv_omega_mul hd]; exact hl.2.2.1 _
  · rw [Domain.element, pow_one, ← pow_succ']; exact hz _

theorem lookup_constraints_zero {d : Domain F} (hd : d.Ok) {p : LookupPolys F}
    {l : LookupOracles (VerifierOracle F C)} (hl : p.Answered d l) {zo : VerifierOracle F C} {Z : F[X]}
    (hz : AnswersRows d zo Z) {qBlind : VerifierOracle F C} {u : Nat}
    (hqb : ∀ i < d.size, qBlind.query (d.omega ^ i) = .ok (blinding u i)) {beta gamma : F} {uSel : Nat}
    (h : LookupHolds d uSel qBlind l zo beta gamma) {i : Nat} (hi : i < d.size) :
    ∀ x ∈ lookupConstraints beta gamma (selector i 0) (selector i uSel) (blinding u i)
        ⟨p.a.eval (d.omega ^ i), p.s.eval (d.omega ^ i), p.aPrime.eval (d.omega ^ i),
          p.aPrime.eval (d.omega ^ (i + (d.size - 1))), p.sPrime.eval (d.omega ^ i),
          Z.eval (d.omega ^ i), Z.eval (d.omega ^ (i + 1))⟩, x = 0 := by
  apply weighted_zero_all
  intro alphas hal
  have := h i hi alphas hal
  rw [lookupOpen_rows hd hl hz (hqb i hi) _ _ _ _ _ hal] at this
  exact Res.ok.inj this

/-- **C25** If the verifier's evaluation of a lookup is zero on every row (the last usable row being `u`
for the selector and the blinding rows alike), every permuted input on a usable row occurs in the
permuted table on the same or an earlier usable row. -/
theorem C25_membership {d : Domain F} (hd : d.Ok) {u : Nat} (hu : u < d.size) (p : LookupPolys F)
    (l : LookupOracles (VerifierOracle F C)) (hl : p.Answered d l) (zo : VerifierOracle F C) (Z : F[X])
    (hz : AnswersRows d zo Z) (qBlind : VerifierOracle F C)
    (hqb : ∀ i < d.size, qBlind.query (d.omega ^ i) = .ok (blinding u i)) (beta gamma : F)
    (h : LookupHolds d u qBlind l zo beta gamma) :
    ∀ i < u, ∃ j ≤ i, p.aPrime.eval (d.omega ^ i) = p.sPrime.eval (d.omega ^ j) := by
  intro i hi
  induction i with
  | zero =>
    refine ⟨0, le_refl _, ?_⟩
    have := lookup_constraints_zero hd hl hz hqb h (i := 0) (by omega)
    have := this _ (by simp [lookupConstraints]; right; right; right; left; rfl)
    simpa [selector, sub_eq_zero] using this
  | succ i ih =>
    have := lookup_constraints_zero hd hl hz hqb h (i := i + 1) (by omega)
    have := this _ (by simp [lookupConstraints]; right; right; right; right; rfl)
    simp only [selector, show i + 1 ≠ u by omega, if_false, blinding, show i + 1 ≤ u by omega, if_true,
      add_zero, sub_zero, one_mul] at this
    rcases mul_eq_zero.1 this with h1 | h1
    · exact ⟨i + 1, le_refl _, sub_eq_zero.1 h1⟩
    · obtain ⟨j, hj, e⟩ := ih (by omega)
      refine ⟨j, by omega, ?_⟩
      rw [sub_eq_zero.1 h1, ← e]
      have : d.omega ^ (i + 1 + (d.size - 1)) = d.omega ^ i := by
        rw [show i + 1 + (d.size - 1) = i + d.size by have := hd.size_pos; omega, pow_add,
          hd.prim.pow_eq_one, mul_one]
      rw [this]

/-- The grand product of a lookup ties the values on the usable rows together. -/
theorem lookup_grand_product {d : Domain F} (hd : d.Ok) {u : Nat} (hu : u < d.size) {p : LookupPolys F}
    {l : LookupOracles (VerifierOracle F C)} (hl : p.Answered d l) {zo : VerifierOracle F C} {Z : F[X]}
    (hz : AnswersRows d zo Z) {qBlind : VerifierOracle F C}
    (hqb : ∀ i < d.size, qBlind.query (d.omega ^ i) = .ok (blinding u i)) {beta gamma : F}
    (h : LookupHolds d u qBlind l zo beta gamma) :
    let N := ∏ i ∈ Finset.range u, ((p.a.eval (d.omega ^ i) + beta) * (p.s.eval (d.omega ^ i) + gamma))
    let D := ∏ i ∈ Finset.range u, ((p.aPrime.eval (d.omega ^ i) + beta) * (p.sPrime.eval (d.omega ^ i) + gamma))
    N * (N - D) = 0 := by
  intro N D
  have hstep : ∀ k ≤ u, Z.eval (d.omega ^ k) * ∏ i ∈ Finset.range k,
        ((p.aPrime.eval (d.omega ^ i) + beta) * (p.sPrime.eval (d.omega ^ i) + gamma))
      = ∏ i ∈ Finset.range k, ((p.a.eval (d.omega ^ i) + beta) * (p.s.eval (d.omega ^ i) + gamma)) := by
    intro k hk
    induction k with
    | zero =>
      have := lookup_constraints_zero hd hl hz hqb h (i := 0) (by omega)
      have := this _ (by simp [lookupConstraints]; left; rfl)
      simp only [selector, if_true, one_mul, sub_eq_zero] at this
      simp only [Finset.range_zero, Finset.prod_empty, mul_one, pow_zero] at this ⊢
      exact this.symm
    | succ k ih =>
      have := lookup_constraints_zero hd hl hz hqb h (i := k) (by omega)
      have := this _ (by simp [lookupConstraints]; right; left; rfl)
      simp only [selector, show k ≠ u by omega, if_false, blinding, show k ≤ u by omega, if_true,
        add_zero, sub_zero, one_mul] at this
      rw [Finset.prod_range_succ, Finset.prod_range_succ, ← ih (by omega)]
      linear_combination (∏ i ∈ Finset.range k,
        ((p.aPrime.eval (d.omega ^ i) + beta) * (p.sPrime.eval (d.omega ^ i) + gamma))) * this
  have hlast := hstep u (le_refl _)
  have := lookup_constraints_zero hd hl hz hqb h (i := u) hu
  have := this _ (by simp [lookupConstraints]; right; right; left; rfl)
  simp only [selector, if_true, one_mul] at this
  have hz2 : Z.eval (d.omega ^ u) * (Z.eval (d.omega ^ u) - 1) = 0 := by linear_combination this
  change Z.eval (d.omega ^ u) * D = N at hlast
  rcases mul_eq_zero.1 hz2 with h0 | h1
  · rw [h0, zero_mul] at hlast
    rw [← hlast]; ring
  · rw [sub_eq_zero.1 h1, one_mul] at hlast
    rw [hlast]; ring

end

/-- `∏ (x + X)` over a family. -/
noncomputable def rootProd (u : Nat) (f : Nat → F) : F[X] := ∏ i ∈ Finset.range u, (X + Polynomial.C (f i))

theorem rootProd_eval (u : Nat) (f : Nat → F) (x : F) :
    (rootProd u f).eval x = ∏ i ∈ Finset.range u, (f i + x) := by
  unfold rootProd
  rw [eval_prod]
  exact Finset.prod_congr rfl (fun i _ => by simp [add_comm])

theorem rootProd_monic (u : Nat) (f : Nat → F) : (rootProd u f).Monic :=
  monic_prod_of_monic _ _ (fun i _ => monic_X_add_C _)

theorem rootProd_natDegree (u : Nat) (f : Nat → F) : (rootProd u f).natDegree = u := by
  unfold rootProd
  rw [natDegree_prod_of_monic _ _ (fun i _ => monic_X_add_C _)]
  simp

theorem rootProd_mem {u : Nat} {f g : Nat → F} (h : rootProd u f = rootProd u g) {i : Nat} (hi : i < u) :
    ∃ j < u, f i = g j := by
  have h0 : (rootProd u g).eval (-f i) = 0 := by
    rw [← h, rootProd_eval]
    exact Finset.prod_eq_zero (Finset.mem_range.2 hi) (by ring)
  rw [rootProd_eval] at h0
  obtain ⟨j, hj, e⟩ := Finset.prod_eq_zero_iff.1 h0
  exact ⟨j, Finset.mem_range.1 hj, by linear_combination -e⟩

/-- `A(beta) * S(gamma)` as a polynomial in `gamma` over polynomials in `beta`. -/
noncomputable def biProd (A S : F[X]) : Polynomial F[X] := Polynomial.C A * S.map Polynomial.C

theorem biProd_eval (A S : F[X]) (x y : F) :
    ((biProd A S).map (evalRingHom x)).eval y = A.eval x * S.eval y := by
  unfold biProd
  rw [Polynomial.map_mul, eval_mul, Polynomial.map_C, eval_C, Polynomial.map_map]
  have : (evalRingHom x).comp (Polynomial.C : F →+* F[X]) = RingHom.id F := by ext a; simp
  rw [this, Polynomial.map_id]
  rfl

theorem biProd_coeff (A S : F[X]) (k : Nat) : ((biProd A S).coeff k).natDegree ≤ A.natDegree := by
  unfold biProd
  rw [coeff_C_mul, coeff_map]
  exact (natDegree_mul_C_le _ _)

theorem biProd_natDegree (A S : F[X]) : (biProd A S).natDegree ≤ S.natDegree := by
  unfold biProd
  exact (natDegree_C_mul_le _ _).trans natDegree_map_le

theorem biProd_eq {A S A' S' : F[X]} (hA : A.Monic) (hS : S.Monic) (hS' : S'.Monic)
    (hdeg : S.natDegree = S'.natDegree) (h : biProd A S = biProd A' S') : A = A' ∧ S = S' := by
  have h1 : A = A' := by
    have := congrArg (fun P => P.coeff S.natDegree) h
    simp only [biProd, coeff_C_mul, coeff_map] at this
    rw [hS.coeff_natDegree, hdeg, hS'.coeff_natDegree] at this
    simpa using this
  refine ⟨h1, ?_⟩
  subst h1
  unfold biProd at h
  have hne : (Polynomial.C A : Polynomial F[X]) ≠ 0 := by
    rw [Ne, Polynomial.C_eq_zero]; exact hA.ne_zero
  exact Polynomial.map_injective _ Polynomial.C_injective (mul_left_cancel₀ hne h)

section
variable [FftParams F] [LawfulFft F] {C : Type}

open Classical in
/-- **C26** (for lookups and selectors using the same last usable row `u`) Fix any compressed input,
table and permuted columns. If some input value on a usable row is not in the table on the usable rows,
then for any finite set `S` of challenges at most `4 * u * |S|` of the `|S|^2` pairs `(beta, gamma)` admit
an aggregation polynomial, which may depend on them arbitrarily, for which the verifier's evaluation of
the lookup is zero on every row for all weights. -/
theorem C26_lookup_sound_partial [DecidableEq F] {d : Domain F} (hd : d.Ok) {u : Nat} (hu : u < d.size)
    (p : LookupPolys F) (l : LookupOracles (VerifierOracle F C)) (hl : p.Answered d l)
    (qBlind : VerifierOracle F C)
    (hqb : ∀ i < d.size, qBlind.query (d.omega ^ i) = .ok (blinding u i))
    (bad : Nat) (hbu : bad < u) (hbad : ∀ j < u, p.a.eval (d.omega ^ bad) ≠ p.s.eval (d.omega ^ j))
    (S : Finset F) :
    ((S ×ˢ S).filter (fun bg : F × F => ∃ (zo : VerifierOracle F C) (Z : F[X]), AnswersRows d zo Z ∧
      LookupHolds d u qBlind l zo bg.1 bg.2)).card ≤ 4 * u * S.card := by
  by_cases hex : ∃ bg ∈ S ×ˢ S, ∃ (zo : VerifierOracle F C) (Z : F[X]), AnswersRows d zo Z ∧
      LookupHolds d u qBlind l zo bg.1 bg.2
  swap
  · rw [Finset.filter_eq_empty_iff.2 (fun bg hbg h => hex ⟨bg, hbg, h⟩)]
    simp
  obtain ⟨bg, _, zo, Z, hz, hh⟩ := hex
  have hmem := C25_membership hd hu p l hl zo Z hz qBlind hqb bg.1 bg.2 hh
  set A := rootProd u (fun i => p.a.eval (d.omega ^ i))
  set T := rootProd u (fun i => p.s.eval (d.omega ^ i))
  set A' := rootProd u (fun i => p.aPrime.eval (d.omega ^ i))
  set T' := rootProd u (fun i => p.sPrime.eval (d.omega ^ i))
  have hNne : biProd A T ≠ 0 := by
    unfold biProd
    refine mul_ne_zero ?_ ?_
    · rw [Ne, Polynomial.C_eq_zero]; exact (rootProd_monic _ _).ne_zero
    · exact ((rootProd_monic _ _).map _).ne_zero
  have hDne : biProd A T - biProd A' T' ≠ 0 := by
    intro h0
    obtain ⟨e1, e2⟩ := biProd_eq (rootProd_monic _ _) (rootProd_monic _ _) (rootProd_monic _ _)
      (by rw [rootProd_natDegree, rootProd_natDegree]) (sub_eq_zero.1 h0)
    obtain ⟨i, hi, h1⟩ := rootProd_mem e1 hbu
    obtain ⟨j, hj, h2⟩ := hmem i hi
    obtain ⟨k, hk, h3⟩ := rootProd_mem e2.symm (show j < u by omega)
    exact hbad k hk (h1.trans (h2.trans h3))
  have hc : ∀ k, ((biProd A T).coeff k).natDegree ≤ u := fun k =>
    (biProd_coeff _ _ k).trans (rootProd_natDegree _ _).le
  have hc' : ∀ k, ((biProd A' T').coeff k).natDegree ≤ u := fun k =>
    (biProd_coeff _ _ k).trans (rootProd_natDegree _ _).le
  have hn : (biProd A T).natDegree ≤ u := (biProd_natDegree _ _).trans (rootProd_natDegree _ _).le
  have hn' : (biProd A' T').natDegree ≤ u := (biProd_natDegree _ _).trans (rootProd_natDegree _ _).le
  have hbound := card_grid_le (biProd A T * (biProd A T - biProd A' T')) (mul_ne_zero hNne hDne) (u + u) (u + u)
    (coeff_natDegree_mul hc (fun k => by
      rw [coeff_sub]
      exact (natDegree_sub_le _ _).trans (max_le (hc k) (hc' k))))
    (natDegree_mul_le.trans (Nat.add_le_add hn ((natDegree_sub_le _ _).trans (max_le hn hn')))) S S
  refine le_trans (Finset.card_le_card ?_) (hbound.trans (by apply le_of_eq; ring))
  rintro ⟨beta, gamma⟩ hm
  rw [Finset.mem_filter] at hm ⊢
  refine ⟨hm.1, ?_⟩
  obtain ⟨_, zo, Z, hz, hh⟩ := hm
  have := lookup_grand_product hd hu hl hz hqb hh
  rw [Polynomial.map_mul, Polynomial.map_sub, eval_mul, eval_sub, biProd_eval, biProd_eval, rootProd_eval,
    rootProd_eval, rootProd_eval, rootProd_eval, ← Finset.prod_mul_distrib, ← Finset.prod_mul_distrib]
  exact this

/-- **C26 is false** for a circuit whose permutation info has no usable rows (`PermutationInfo::dummy`,
or no copied column) while its lookups have `u > 0`: prover and verifier take the last-row selector from
the permutation argument (here row 0). Then any input and any table at all satisfy every lookup
constraint on every row for all `beta` and `gamma`, with permuted columns equal to zero and an
aggregation polynomial that is one on the first row and zero on the others. -/
theorem C26_selector_at_row_zero_unsound [DecidableEq F] {d : Domain F} (hd : d.Ok) {u : Nat} (hu : u + 1 < d.size)
    (A S : F[X]) :
    ∃ Z : F[X], ∀ (l : LookupOracles (VerifierOracle F C)) (zo qBlind : VerifierOracle F C) (beta gamma : F),
      LookupPolys.Answered d ⟨A, S, 0, 0⟩ l → AnswersRows d zo Z →
      (∀ i < d.size, qBlind.query (d.omega ^ i) = .ok (blinding u i)) →
      LookupHolds d 0 qBlind l zo beta gamma := by
  refine ⟨toPoly (d.ifft ((List.range d.size).map (fun j => if j = 0 then 1 else 0))), ?_⟩
  intro l zo qBlind beta gamma hl hz hqb i hi alphas hal
  rw [lookupOpen_rows hd hl hz (hqb i hi) _ _ _ _ _ hal]
  congr 1
  apply weighted_of_zero
  have hZ : ∀ k < d.size, (toPoly (d.ifft ((List.range d.size).map
      (fun j => if j = 0 then (1 : F) else 0)))).eval (d.omega ^ k) = if k = 0 then 1 else 0 := by
    intro k hk
    have := hd.peval_ifft (v := (List.range d.size).map (fun j => if j = 0 then (1 : F) else 0)) (by simp) k hk
    simp only [Domain.element] at this
    rw [eval_toPoly, this]
    simp
  intro x hx
  by_cases h0 : i = 0
  · subst h0
    simp only [lookupConstraints, hZ 0 hi, selector, blinding, if_true, Nat.zero_le, eval_zero, List.mem_cons,
      List.not_mem_nil, or_false] at hx
    rcases hx with rfl | rfl | rfl | rfl | rfl <;> ring
  · by_cases hiu : i ≤ u
    · simp only [lookupConstraints, hZ i hi, hZ (i + 1) (by omega), selector, blinding, h0, hiu, if_true,
        if_false, eval_zero, List.mem_cons, List.not_mem_nil, or_false, Nat.add_eq_zero_iff, one_ne_zero,
        and_false] at hx
      rcases hx with rfl | rfl | rfl | rfl | rfl <;> ring
    · simp only [lookupConstraints, hZ i hi, selector, blinding, h0, hiu, 
        if_false, eval_zero, List.mem_cons, List.not_mem_nil, or_false] at hx
      rcases hx with rfl | rfl | rfl | rfl | rfl <;> ring

end

/-! ## C27 -/

/-- The polynomial in theta of a tuple. -/
theorem compress_eq_eval (theta : F) (l : List F) : compress theta l = (toPoly l).eval theta := by
  rw [eval_toPoly]; rfl

open Classical in
/-- **C27** (collisions) Two different tuples of the same length `k` compress to the same value for fewer than `k` of
the values of theta in any finite set. `thetaAgg` is the loop of prover and verifier. -/
theorem C27_collisions (t t' : List F) (hlen : t.length = t'.length) (hne : t ≠ t') (S : Finset F) :
    (S.filter (fun theta => thetaAgg Res.ok theta t = thetaAgg Res.ok theta t')).card + 1 ≤ t.length := by
  have hpos : 0 < t.length := by
    rcases t with _ | ⟨a, t⟩
    · rcases t' with _ | ⟨b, t'⟩
      · exact absurd rfl hne
      · simp at hlen
    · simp
  have hP : toPoly t - toPoly t' ≠ 0 := fun h => hne (list_eq_of_toPoly (sub_eq_zero.1 h) hlen)
  have hdeg : (toPoly t - toPoly t').natDegree ≤ t.length - 1 := by
    refine (natDegree_sub_le _ _).trans (max_le (natDegree_toPoly_le _) ?_)
    rw [hlen]; exact natDegree_toPoly_le _
  have := card_zeros_le _ hP _ hdeg S
  refine Nat.succ_le_of_lt (lt_of_le_of_lt (Finset.card_le_card ?_) (lt_of_le_of_lt this (by omega)))
  intro theta h
  rw [Finset.mem_filter] at h ⊢
  refine ⟨h.1, ?_⟩
  have h2 := h.2
  rw [thetaAgg_ok (f := Res.ok) (g := fun x => x) theta t (fun _ _ => rfl),
    thetaAgg_ok (f := Res.ok) (g := fun x => x) theta t' (fun _ _ => rfl)] at h2
  simp only [List.map_id', Res.ok.injEq, compress_eq_eval] at h2
  rw [eval_sub, h2, sub_self]

open Classical in
/-- **C27** (membership) If some input tuple is not among the table tuples, the compressed input is among
the compressed table values for at most `(k - 1) * |table|` values of theta per input tuple. -/
theorem C27_membership (k : Nat) (inputs table : List (List F)) (hi : ∀ t ∈ inputs, t.length = k)
    (ht : ∀ t ∈ table, t.length = k) (S : Finset F) :
    (S.filter (fun theta => ∃ t ∈ inputs, t ∉ table ∧
      ∃ t' ∈ table, thetaAgg Res.ok theta t = thetaAgg Res.ok theta t')).card
      ≤ inputs.length * (table.length * (k - 1)) := by
  have hsub : S.filter (fun theta => ∃ t ∈ inputs, t ∉ table ∧
      ∃ t' ∈ table, thetaAgg Res.ok theta t = thetaAgg Res.ok theta t')
      ⊆ inputs.toFinset.biUnion (fun t => (table.toFinset.filter (fun t' => t ≠ t')).biUnion (fun t' =>
        if t.length = k ∧ t'.length = k then S.filter (fun theta => thetaAgg Res.ok theta t = thetaAgg Res.ok theta t') else ∅)) := by
    intro theta h
    obtain ⟨hS, t, htm, hnt, t', ht', he⟩ := Finset.mem_filter.1 h
    refine Finset.mem_biUnion.2 ⟨t, List.mem_toFinset.2 htm, Finset.mem_biUnion.2 ⟨t', ?_, ?_⟩⟩
    · rw [Finset.mem_filter, List.mem_toFinset]
      exact ⟨ht', fun h => hnt (h ▸ ht')⟩
    · rw [if_pos ⟨hi t htm, ht t' ht'⟩, Finset.mem_filter]
      exact ⟨hS, he⟩
  refine (Finset.card_le_card hsub).trans ?_
  refine (Finset.card_biUnion_le_card_mul _ _ (table.length * (k - 1)) ?_).trans
    (Nat.mul_le_mul_right _ (List.toFinset_card_le _))
  intro t _
  refine (Finset.card_biUnion_le_card_mul _ _ (k - 1) ?_).trans
    (Nat.mul_le_mul_right _ ((Finset.card_filter_le _ _).trans (List.toFinset_card_le _)))
  intro t' ht'
  split_ifs with hk
  · have hne : t ≠ t' := (Finset.mem_filter.1 ht').2
    have := C27_collisions t t' (by rw [hk.1, hk.2]) hne S
    omega
  · simp

/-! ## C28, C29 -/

section
variable [FftParams F] [LawfulFft F] {C : Type}

omit [FftParams F] [LawfulFft F] in
theorem degree_const_eq (e : Expr F) (m k : Nat) (h : e.degree (fun _ => .ok 1) = .ok k) :
    ∃ k', e.degree (fun _ => .ok m) = .ok k' ∧ k' ≤ k * m := by
  induction e generalizing k with
  | const c => exact ⟨0, rfl, Nat.zero_le _⟩
  | oracle q =>
    simp only [Expr.degree, Res.ok.injEq] at h ⊢
    exact ⟨m, rfl, by rw [← h, Nat.one_mul]⟩
  | neg a ih => exact ih k h
  | scaled a c ih => exact ih k h
  | sum a b iha ihb =>
    simp only [Expr.degree] at h ⊢
    cases ha : a.degree (fun _ => (Res.ok 1 : Res PiopErr Nat)) with
    | ok x =>
      rw [ha] at h
      obtain ⟨y, hb, hxy⟩ := Res.map1_eq_ok.1 h
      obtain ⟨x', h1, h2⟩ := iha x ha
      obtain ⟨y', h3, h4⟩ := ihb y hb
      rw [h1, h3]
      refine ⟨max x' y', rfl, ?_⟩
      rw [← hxy]
      exact max_le (h2.trans (Nat.mul_le_mul_right _ (le_max_left _ _)))
        (h4.trans (Nat.mul_le_mul_right _ (le_max_right _ _)))
    | err e => rw [ha] at h; simp at h
    | panic => rw [ha] at h; simp at h
  | prod a b iha ihb =>
    simp only [Expr.degree] at h ⊢
    cases ha : a.degree (fun _ => (Res.ok 1 : Res PiopErr Nat)) with
    | ok x =>
      rw [ha] at h
      obtain ⟨y, hb, hxy⟩ := Res.map1_eq_ok.1 h
      obtain ⟨x', h1, h2⟩ := iha x ha
      obtain ⟨y', h3, h4⟩ := ihb y hb
      rw [h1, h3]
      refine ⟨x' + y', rfl, ?_⟩
      rw [← hxy, Nat.add_mul]
      exact Nat.add_le_add h2 h4
    | err e => rw [ha] at h; simp at h
    | panic => rw [ha] at h; simp at h

omit [LawfulFft F] in
/-- Degree of the polynomial of an expression over honest oracles. -/
theorem QueryPolys.natDegree_denote {d ext : Domain F} {v : ProverView F} {e : Expr F}
    {P : OracleQuery → F[X]} (h : QueryPolys d ext v e.queries P) {k : Nat}
    (hk : e.degree (fun _ => .ok (d.size - 1)) = .ok k) : (e.denote Polynomial.C P).natDegree ≤ k := by
  refine Expr.natDegree_denote_le _ P e ?_ k hk
  intro q hq k hk
  obtain ⟨_, o, _, ho, hP⟩ := h q hq
  rw [hP]
  simp only [Res.ok.injEq] at hk
  rw [← hk]
  refine (natDegree_shifted_le _ _ _).trans ((natDegree_toPoly_le _).trans ?_)
  have := ho.2.1
  omega

omit [FftParams F] [LawfulFft F] in
/-- The value of an expression the verifier computes at the challenge. -/
theorem VerifierView.lookupAt_ok [FftParams F] [LawfulFft F] [DecidableEq F] {d : Domain F} (hd : d.Ok)
    {v : VerifierView F C} {xi : F}
    {qs : List OracleQuery} {P : OracleQuery → F[X]} (h : VerifierAnswers d v xi qs P)
    (hrot : ∀ q ∈ qs, q.oracleType ≠ .witness → q.rotation.degree = 0) :
    ∀ q ∈ qs, v.lookupAt xi d.elements q = .ok ((P q).eval xi) := by
  intro q hq
  obtain ⟨hr, hw, hf, hin⟩ := h q hq
  have hcurr : q.rotation.degree = 0 → q.rotation.signed = 0 := by
    intro h0
    unfold Rotation.signed
    cases q.rotation.sign <;> simp [h0]
  unfold VerifierView.lookupAt
  cases hty : q.oracleType with
  | witness =>
    obtain ⟨o, ho, hq⟩ := hw hty
    simp only [(C03_rotated_points hd xi).1 q.rotation hr, Res.bind_ok]
    rw [withOracle_of ho, hq]
  | fixed =>
    obtain ⟨o, ho, hq2⟩ := hf hty
    rw [hcurr (hrot q hq (by rw [hty]; simp)), zpow_zero, mul_one] at hq2
    simp only
    rw [withOracle_of ho, hq2]
  | instance_ =>
    obtain ⟨o, ho, hP⟩ := hin hty
    rw [shifted_curr _ _ _ (hrot q hq (by rw [hty]; simp))] at hP
    simp only
    rw [withOracle_of ho, hP, eval_toPoly]
    rfl

/-- **C28** (for lookup expressions that use rotations only in witness queries, and whose degree fits in
the extended domain) Whenever the lookup round of the prover succeeds, the compressed input and table
values the verifier recomputes at any challenge `xi` are the values at `xi` of the compressed
polynomials of the prover. -/
theorem C28_verifier_values_partial [LinearOrder F] {Z : Type} (next : Z → F × Z) (v : ProverView F)
    (vv : VerifierView F C) (u idx : Nat) (exprs : List (Expr F)) (tables : List OracleQuery) (theta xi : F)
    {d ext : Domain F} (z : Z) (hd : d.Ok) (he : ext.Ok) (hle : d.size ≤ ext.size)
    (hlen : exprs.length = tables.length) (hu : u ≤ d.size) (P T : OracleQuery → F[X])
    (hP : ∀ e ∈ exprs, QueryPolys d ext v e.queries P) (hT : TablePolys d ext v tables T)
    (hdeg : ∀ e ∈ exprs, ∃ k, e.degree (fun _ => .ok (d.size - 1)) = .ok k ∧ k < ext.size)
    (hv : ∀ e ∈ exprs, VerifierAnswers d vv xi e.queries P)
    (hrot : ∀ e ∈ exprs, ∀ q ∈ e.queries, q.oracleType ≠ .witness → q.rotation.degree = 0)
    (hvT : ∀ q ∈ tables, ∃ o, Resolves vv.table q.label o ∧ o.query xi = .ok ((T q).eval xi))
    (l : LookupOracles (ProverOracle F)) (z' : Z)
    (hl : lookupConstruct next v u idx exprs tables theta d ext z = .ok (l, z')) :
    ∃ va vs, lookupUnpermuted vv idx exprs tables theta xi d.elements = .ok (va, vs) ∧
      va.query xi = .ok ((toPoly l.a.poly).eval xi) ∧ vs.query xi = .ok ((toPoly l.s.poly).eval xi) := by
  have hAdeg : (compress (Polynomial.C theta) (exprs.map (Expr.denote Polynomial.C P))).degree < ext.size := by
    refine natDegree_lt_degree he.size_pos (natDegree_compress_le _ _ _ ?_)
    intro p hp
    obtain ⟨e, hee, rfl⟩ := List.mem_map.1 hp
    obtain ⟨k, hk, hlt⟩ := hdeg e hee
    have := (hP e hee).natDegree_denote hk
    omega
  obtain ⟨h1, h2⟩ := lookupConstruct_outcome next v u idx exprs tables theta z hd he hle hlen hu P T hP hT hAdeg
  have hsmall := lt_of_not_ge (fun h => by rw [h1 h] at hl; simp at hl)
  obtain ⟨h3, h4⟩ := h2 hsmall
  have hin := Classical.byContradiction (fun h => by rw [h4 h] at hl; simp at hl)
  obtain ⟨l', h5, hb⟩ := h3 hin
  rw [hl] at h5
  simp only [Res.ok.injEq, Prod.mk.injEq] at h5
  rw [← h5.1] at hb
  have ha : thetaAgg (fun e => e.evalR (vv.lookupAt xi d.elements)) theta exprs
      = .ok ((toPoly l.a.poly).eval xi) := by
    rw [thetaAgg_ok (g := fun e => (e.denote Polynomial.C P).eval xi), hb.aPoly, eval_compress, List.map_map]
    · rfl
    · intro e hee
      rw [Expr.evalR_ok (VerifierView.lookupAt_ok hd (hv e hee) (hrot e hee)), Expr.eval_denote]
  have hs : thetaAgg (vv.tableAt xi) theta tables = .ok ((toPoly l.s.poly).eval xi) := by
    rw [thetaAgg_ok (g := fun q => (T q).eval xi), hb.sPoly, eval_compress, List.map_map]
    · rfl
    · intro q hq
      obtain ⟨o, ho, hoq⟩ := hvT q hq
      unfold VerifierView.tableAt
      rw [(hT q hq).1]
      simp only
      rw [withOracle_of ho, hoq]
  unfold lookupUnpermuted
  simp only [hlen, decide_true, Res.assert_true, Res.bind_ok, ha, hs]
  exact ⟨_, _, rfl, by simp [VerifierOracle.query, assocGet], by simp [VerifierOracle.query, assocGet]⟩

/-- **C29** (for affine expressions) If every expression of a lookup is affine in its queries, all queries
can be answered and every compressed input on a usable row is a compressed table value on a usable row,
the lookup round succeeds. -/
theorem C29_lookup_round_partial [LinearOrder F] {Z : Type} (next : Z → F × Z) (v : ProverView F)
    (u idx : Nat) (exprs : List (Expr F)) (tables : List OracleQuery) (theta : F)
    {d ext : Domain F} (z : Z) (hd : d.Ok) (he : ext.Ok) (hle : d.size ≤ ext.size)
    (hlen : exprs.length = tables.length) (hu : u ≤ d.size) (P T : OracleQuery → F[X])
    (hP : ∀ e ∈ exprs, QueryPolys d ext v e.queries P) (hT : TablePolys d ext v tables T)
    (haff : ∀ e ∈ exprs, ∃ k ≤ 1, e.degree (fun _ => .ok 1) = .ok k)
    (hin : ∀ i < u, ∃ j < u,
      compress theta (exprs.map (fun e => (e.denote Polynomial.C P).eval (d.omega ^ i)))
        = compress theta (tables.map (fun q => (T q).eval (d.omega ^ j)))) :
    ∃ l z', lookupConstruct next v u idx exprs tables theta d ext z = .ok (l, z') := by
  have hAdeg : (compress (Polynomial.C theta) (exprs.map (Expr.denote Polynomial.C P))).degree < d.size := by
    refine natDegree_lt_degree hd.size_pos (natDegree_compress_le _ _ _ ?_)
    intro p hp
    obtain ⟨e, hee, rfl⟩ := List.mem_map.1 hp
    obtain ⟨k, hk1, hk⟩ := haff e hee
    obtain ⟨k', hk', hle'⟩ := degree_const_eq e (d.size - 1) k hk
    refine ((hP e hee).natDegree_denote hk').trans (hle'.trans ?_)
    calc k * (d.size - 1) ≤ 1 * (d.size - 1) := Nat.mul_le_mul_right _ hk1
      _ = _ := Nat.one_mul _
  obtain ⟨_, h2⟩ := lookupConstruct_outcome next v u idx exprs tables theta z hd he hle hlen hu P T hP hT
    (hAdeg.trans_le (by exact_mod_cast hle))
  obtain ⟨l, hl, _⟩ := (h2 hAdeg).1 (by
    intro i hi
    obtain ⟨j, hj, e⟩ := hin i hi
    refine ⟨j, hj, ?_⟩
    rw [eval_compress, eval_compress, List.map_map, List.map_map]
    exact e)
  exact ⟨l, _, hl⟩

/-- **C29 is false** for other expressions: whenever the compressed input, as a polynomial, has degree
at least the number of rows (and below the extended domain size), the sanity check of the lookup round
panics, whether or not the inputs are in the table. -/
theorem C29_nonlinear_panics [LinearOrder F] {Z : Type} (next : Z → F × Z) (v : ProverView F)
    (u idx : Nat) (exprs : List (Expr F)) (tables : List OracleQuery) (theta : F)
    {d ext : Domain F} (z : Z) (hd : d.Ok) (he : ext.Ok) (hle : d.size ≤ ext.size)
    (hlen : exprs.length = tables.length) (hu : u ≤ d.size) (P T : OracleQuery → F[X])
    (hP : ∀ e ∈ exprs, QueryPolys d ext v e.queries P) (hT : TablePolys d ext v tables T)
    (hlo : d.size ≤ (compress (Polynomial.C theta) (exprs.map (Expr.denote Polynomial.C P))).degree)
    (hhi : (compress (Polynomial.C theta) (exprs.map (Expr.denote Polynomial.C P))).degree < ext.size) :
    lookupConstruct next v u idx exprs tables theta d ext z = .panic :=
  (lookupConstruct_outcome next v u idx exprs tables theta z hd he hle hlen hu P T hP hT hhi).1 hlo

/-- **C29** (all expressions whose compression fits in the extended domain) The lookup round succeeds exactly when the compressed input has
degree below the number of rows and every compressed input on a usable row is a compressed table value on a usable row. Otherwise it
panics. -/
theorem C29_succeeds_iff [LinearOrder F] {Z : Type} (next : Z → F × Z) (v : ProverView F)
    (u idx : Nat) (exprs : List (Expr F)) (tables : List OracleQuery) (theta : F)
    {d ext : Domain F} (z : Z) (hd : d.Ok) (he : ext.Ok) (hle : d.size ≤ ext.size)
    (hlen : exprs.length = tables.length) (hu : u ≤ d.size) (P T : OracleQuery → F[X])
    (hP : ∀ e ∈ exprs, QueryPolys d ext v e.queries P) (hT : TablePolys d ext v tables T)
    (hhi : (compress (Polynomial.C theta) (exprs.map (Expr.denote Polynomial.C P))).degree < ext.size) :
    let good := (compress (Polynomial.C theta) (exprs.map (Expr.denote Polynomial.C P))).degree < d.size ∧
      ∀ i < u, ∃ j < u, compress theta (exprs.map (fun e => (e.denote Polynomial.C P).eval (d.omega ^ i)))
        = compress theta (tables.map (fun q => (T q).eval (d.omega ^ j)))
    (good → ∃ l z', lookupConstruct next v u idx exprs tables theta d ext z = .ok (l, z')) ∧
    (¬ good → lookupConstruct next v u idx exprs tables theta d ext z = .panic) := by
  obtain ⟨h1, h2⟩ := lookupConstruct_outcome next v u idx exprs tables theta z hd he hle hlen hu P T hP hT hhi
  have hev : ∀ i j : Nat, (compress theta (exprs.map (fun e => (e.denote Polynomial.C P).eval (d.omega ^ i)))
        = compress theta (tables.map (fun q => (T q).eval (d.omega ^ j)))) ↔
      (compress (Polynomial.C theta) (exprs.map (Expr.denote Polynomial.C P))).eval (d.omega ^ i)
        = (compress (Polynomial.C theta) (tables.map T)).eval (d.omega ^ j) := by
    intro i j
    rw [eval_compress, eval_compress, List.map_map, List.map_map]
    rfl
  simp only [hev]
  refine ⟨fun h => ?_, fun h => ?_⟩
  · obtain ⟨l, hl, -⟩ := (h2 h.1).1 h.2
    exact ⟨l, _, hl⟩
  · by_cases hlt : (compress (Polynomial.C theta) (exprs.map (Expr.denote Polynomial.C P))).degree < d.size
    · exact (h2 hlt).2 (fun h' => h ⟨hlt, h'⟩)
    · exact h1 (not_lt.1 hlt)

end
end

namespace LookupExample
open PermutationExample (dom ext noise dom_ok)

/-- A prover oracle with the given rows. -/
def col (l : Label) (evals : List F97) : ProverOracle F97 := (columnOf dom l evals).computeExtended ext

theorem dom_size : dom.size = 4 := by decide +kernel

theorem col_honest (l : Label) {evals : List F97} (h : evals.length = 4) : Honest dom ext (col l evals) := by
  refine honest_of_evals dom_ok (v := evals) (h.trans dom_size.symm) ?_ ?_ ?_ <;>
    simp only [col, columnOf, ProverOracle.newWitness, ProverOracle.computeExtended]

/-- One witness, one instance, one fixed and two table columns of four rows. -/
def view : ProverView F97 :=
  ⟨[col [1] [3, 1, 2, 5]], [col [2] [0, 9, 4, 7]], [col [3] [1, 1, 2, 2]],
    [col [4] [9, 4, 3, 0], col [5] [2, 1, 3, 0]]⟩

/-- `(w(next row) + 2 * f, w)` is looked up in the two tables. -/
def exprs : List (Expr F97) :=
  [.sum (.oracle ⟨[1], .next, .witness⟩) (.scaled (.oracle ⟨[3], .curr, .fixed⟩) 2),
    .oracle ⟨[1], .curr, .witness⟩]
def tables : List OracleQuery := [⟨[4], .curr, .fixed⟩, ⟨[5], .curr, .fixed⟩]

theorem view_honest : ∀ ty, ∀ o ∈ view.oracles ty, Honest dom ext o := by
  intro ty o ho
  cases ty <;> simp only [view, ProverView.oracles, List.mem_cons, List.not_mem_nil, or_false] at ho <;>
    subst ho <;> exact col_honest _ rfl

theorem table_honest : ∀ o ∈ view.table, Honest dom ext o := by
  intro o ho
  simp only [view, List.mem_cons, List.not_mem_nil, or_false] at ho
  rcases ho with rfl | rfl <;> exact col_honest _ rfl

theorem ext_ok : ext.Ok := F97.dom_ok (by norm_num)

theorem exprs_polys : ∀ e ∈ exprs, QueryPolys dom ext view e.queries (view.polyOf dom) := by
  intro e he
  refine queryPolys_polyOf view_honest ?_
  revert e
  decide +kernel

theorem table_polys : TablePolys dom ext view tables view.tablePolyOf :=
  tablePolys_tablePolyOf table_honest (by decide +kernel)

/-- The hypotheses of C29 hold for this lookup with three usable rows. -/
theorem round_ok : ∃ l z', lookupConstruct noise view 3 0 exprs tables 11 dom ext 40 = .ok (l, z') := by
  refine C29_lookup_round_partial noise view 3 0 exprs tables 11 40 dom_ok ext_ok (by decide +kernel) rfl
    (by decide +kernel) (view.polyOf dom) view.tablePolyOf exprs_polys table_polys ?_ ?_
  · intro e he
    simp only [exprs, List.mem_cons, List.not_mem_nil, or_false] at he
    rcases he with rfl | rfl
    · exact ⟨1, le_refl _, rfl⟩
    · exact ⟨1, le_refl _, rfl⟩
  · have key : ∀ i < 3, ∃ j < 3, thetaAgg (fun e => e.evalR (view.atRow i)) 11 exprs
        = thetaAgg (view.tableAtRow j) 11 tables := by decide +kernel
    intro i hi
    obtain ⟨j, hj, e⟩ := key i hi
    refine ⟨j, hj, ?_⟩
    rw [thetaAgg_ok (g := fun e : Expr F97 => (e.denote Polynomial.C (view.polyOf dom)).eval (dom.omega ^ i)),
      thetaAgg_ok (g := fun q => (view.tablePolyOf q).eval (dom.omega ^ j))] at e
    · exact Res.ok.inj e
    · exact ProverView.tableAtRow_ok table_polys (lt_trans hj (by decide +kernel))
    · intro e' he'
      rw [Expr.evalR_ok (ProverView.atRow_ok dom_ok (exprs_polys e' he') (lt_trans hi (by decide +kernel))),
        Expr.eval_denote]

/-- A verifier oracle that has been given the values of a prover oracle at some rotations of `xi`. -/
def told (o : ProverOracle F97) (xi : F97) (rs : List Rotation) : VerifierOracle F97 Unit :=
  ⟨o.kind, o.label, rs, rs.map (fun r => (xi * dom.omega ^ r.signed, peval o.poly (xi * dom.omega ^ r.signed))),
    none, false⟩

/-- The verifier's side of `view` at the challenge `xi`. -/
def vview (xi : F97) : VerifierView F97 Unit :=
  ⟨view.witness.map (fun o => told o xi [.curr, .next]), view.inst.map (fun o => ⟨o.label, o.poly, []⟩),
    view.fixed.map (fun o => told o xi [.curr, .next]), view.table.map (fun o => told o xi [.curr])⟩

/-- Registered values answer the queries, in the form needed below. -/
theorem answers_of {xi : F97} {qs : List OracleQuery}
    (hq : ∀ q ∈ qs, q.rotation.degree < dom.size ∧ match q.oracleType with
      | .witness => ∃ o ∈ view.witness, findOracle view.witness q.label = some o ∧
          ∃ vo ∈ (vview xi).witness, findOracle (vview xi).witness q.label = some vo ∧
          vo.query (xi * dom.omega ^ q.rotation.signed) = .ok (peval o.poly (dom.omega ^ q.rotation.signed * xi))
      | .fixed => ∃ o ∈ view.fixed, findOracle view.fixed q.label = some o ∧
          ∃ vo ∈ (vview xi).fixed, findOracle (vview xi).fixed q.label = some vo ∧
          vo.query (xi * dom.omega ^ q.rotation.signed) = .ok (peval o.poly (dom.omega ^ q.rotation.signed * xi))
      | .instance_ => ∃ o ∈ view.inst, findOracle view.inst q.label = some o ∧
          ∃ vo ∈ (vview xi).inst, findOracle (vview xi).inst q.label = some vo ∧ vo.poly = o.poly) :
    VerifierAnswers dom (vview xi) xi qs (view.polyOf dom) := by
  intro q hqq
  obtain ⟨h1, h2⟩ := hq q hqq
  refine ⟨h1, fun h => ?_, fun h => ?_, fun h => ?_⟩ <;> rw [h] at h2 <;>
    obtain ⟨o, _, ho, vo, _, hvo, he⟩ := h2 <;> refine ⟨vo, findOracle_eq_some.1 hvo, ?_⟩
  · rw [he, ProverView.polyOf, h, ProverView.oracles, ho, eval_shifted, eval_toPoly]
  · rw [he, ProverView.polyOf, h, ProverView.oracles, ho, eval_shifted, eval_toPoly]
  · rw [he, ProverView.polyOf, h, ProverView.oracles, ho]

/-- The hypotheses of C28 hold for the same lookup. -/
example : ∃ l z' va vs, lookupConstruct noise view 3 0 exprs tables 11 dom ext 40 = .ok (l, z') ∧
    lookupUnpermuted (vview 6) 0 exprs tables 11 6 dom.elements = .ok (va, vs) ∧
    va.query 6 = .ok ((toPoly l.a.poly).eval 6) ∧ vs.query 6 = .ok ((toPoly l.s.poly).eval 6) := by
  obtain ⟨l, z', hl⟩ := round_ok
  obtain ⟨va, vs, h⟩ := C28_verifier_values_partial noise view (vview 6) 3 0 exprs tables 11 6 40 dom_ok ext_ok
    (by decide +kernel) rfl (by decide +kernel) (view.polyOf dom) view.tablePolyOf exprs_polys table_polys
    (by
      intro e he
      simp only [exprs, List.mem_cons, List.not_mem_nil, or_false] at he
      rcases he with rfl | rfl
      · exact ⟨3, rfl, by decide +kernel⟩
      · exact ⟨3, rfl, by decide +kernel⟩)
    (by
      intro e he
      apply answers_of
      simp only [exprs, List.mem_cons, List.not_mem_nil, or_false] at he
      rcases he with rfl | rfl
      · intro q hq
        simp only [Expr.queries, List.mem_append, List.mem_cons, List.not_mem_nil, or_false] at hq
        rcases hq with rfl | rfl <;> decide +kernel
      · intro q hq
        simp only [Expr.queries, List.mem_cons, List.not_mem_nil, or_false] at hq
        subst hq; decide +kernel)
    (by decide +kernel)
    (by
      intro q hq
      have key : ∀ q ∈ tables, ∃ o ∈ view.table, findOracle view.table q.label = some o ∧
          ∃ vo ∈ (vview 6).table, findOracle (vview 6).table q.label = some vo ∧
          vo.query 6 = .ok (peval o.poly 6) := by decide +kernel
      obtain ⟨o, _, ho, vo, _, hvo, he⟩ := key q hq
      refine ⟨vo, findOracle_eq_some.1 hvo, ?_⟩
      rw [he, ProverView.tablePolyOf, ho, eval_toPoly])
    l z' hl
  exact ⟨l, z', va, vs, hl, h⟩

/-- Does the verifier's compressed input differ from the prover's polynomial at the challenge? -/
def differs (q t : OracleQuery) (u : Nat) (xi : F97) : Bool :=
  match lookupConstruct noise view u 0 [.oracle q] [t] 1 dom ext 40,
    lookupUnpermuted (vview xi) 0 [.oracle q] [t] 1 xi dom.elements with
  | .ok (l, _), .ok (va, _) => decide (va.query xi ≠ .ok (peval l.a.poly xi))
  | _, _ => false

theorem of_differs {q t : OracleQuery} {u : Nat} {xi : F97} (h : differs q t u xi = true) :
    ∃ l z' va vs, lookupConstruct noise view u 0 [.oracle q] [t] 1 dom ext 40 = .ok (l, z') ∧
      lookupUnpermuted (vview xi) 0 [.oracle q] [t] 1 xi dom.elements = .ok (va, vs) ∧
      va.query xi ≠ .ok ((toPoly l.a.poly).eval xi) := by
  unfold differs at h
  split at h
  · rename_i l z' va vs h1 h2
    exact ⟨l, z', va, vs, h1, h2, by rw [eval_toPoly]; simpa using h⟩
  · simp at h

/-- **C28 is false** for rotated fixed and instance queries: there is a lookup of a fixed (instance)
column under the rotation `+1` for which prover and verifier have consistent oracles and the lookup round
succeeds, but the verifier's compressed input is not the value of the prover's polynomial. -/
theorem C28_rotated_queries_false (ty : OracleType) (hty : ty = .fixed ∨ ty = .instance_) :
    ∃ (q t : OracleQuery) (P T : OracleQuery → F97[X]) (u : Nat) (xi : F97)
      (l : LookupOracles (ProverOracle F97)) (z' : Nat) (va vs : VerifierOracle F97 Unit),
      q.oracleType = ty ∧ QueryPolys dom ext view [q] P ∧ TablePolys dom ext view [t] T ∧
      VerifierAnswers dom (vview xi) xi [q] P ∧
      lookupConstruct noise view u 0 [.oracle q] [t] 1 dom ext 40 = .ok (l, z') ∧
      lookupUnpermuted (vview xi) 0 [.oracle q] [t] 1 xi dom.elements = .ok (va, vs) ∧
      va.query xi ≠ .ok ((toPoly l.a.poly).eval xi) := by
  rcases hty with rfl | rfl
  · obtain ⟨l, z', va, vs, h⟩ := of_differs (q := ⟨[3], .next, .fixed⟩) (t := ⟨[5], .curr, .fixed⟩) (u := 2)
      (xi := 6) (by decide +kernel)
    exact ⟨_, _, view.polyOf dom, view.tablePolyOf, 2, 6, l, z', va, vs, rfl,
      queryPolys_polyOf view_honest (by decide +kernel),
      tablePolys_tablePolyOf table_honest (by decide +kernel),
      answers_of (by intro q hq; rw [List.mem_singleton] at hq; subst hq; decide +kernel), h⟩
  · obtain ⟨l, z', va, vs, h⟩ := of_differs (q := ⟨[2], .next, .instance_⟩) (t := ⟨[4], .curr, .fixed⟩) (u := 2)
      (xi := 6) (by decide +kernel)
    exact ⟨_, _, view.polyOf dom, view.tablePolyOf, 2, 6, l, z', va, vs, rfl,
      queryPolys_polyOf view_honest (by decide +kernel),
      tablePolys_tablePolyOf table_honest (by decide +kernel),
      answers_of (by intro q hq; rw [List.mem_singleton] at hq; subst hq; decide +kernel), h⟩

/-- A product is looked up: every input `w * w` on the three usable rows is in the table `9, 4, 1`, yet the
round panics. -/
example : lookupConstruct noise ⟨[col [1] [3, 1, 2, 5]], [], [], [col [4] [9, 4, 1, 0]]⟩ 3 0
    [.prod (.oracle ⟨[1], .curr, .witness⟩) (.oracle ⟨[1], .curr, .witness⟩)] [⟨[4], .curr, .fixed⟩] 11 dom ext 40
    = .panic := by decide +kernel

/-- Input `5` is not in the table `1, 2` on the two usable rows. -/
def badLookup : LookupOracles (VerifierOracle F97 Unit) :=
  ⟨rowOracle Unit dom [] (dom.ifft [5, 2, 0, 0]), rowOracle Unit dom [] (dom.ifft [1, 2, 5, 0]),
    rowOracle Unit dom [] (dom.ifft [2, 5, 1, 1]), rowOracle Unit dom [] (dom.ifft [2, 1, 3, 3])⟩

open Classical in
/-- The hypotheses of C26 hold for this lookup. -/
example : ((Finset.univ ×ˢ Finset.univ).filter (fun bg : F97 × F97 =>
      ∃ (zo : VerifierOracle F97 Unit) (Z : F97[X]), AnswersRows dom zo Z ∧
      LookupHolds dom 2 (rowOracle Unit dom [] PermutationExample.blindPoly) badLookup zo bg.1 bg.2)).card
      ≤ 4 * 2 * 97 := by
  refine C26_lookup_sound_partial dom_ok (u := 2) (by decide +kernel)
    ⟨toPoly (dom.ifft [5, 2, 0, 0]), toPoly (dom.ifft [1, 2, 5, 0]), toPoly (dom.ifft [2, 5, 1, 1]),
      toPoly (dom.ifft [2, 1, 3, 3])⟩ badLookup
    ⟨rowOracle_answers dom_ok _ _, rowOracle_answers dom_ok _ _, rowOracle_answers dom_ok _ _,
      rowOracle_answers dom_ok _ _⟩ _ ?_ 0 (by norm_num) ?_ Finset.univ
  · intro i hi
    rw [rowOracle_answers dom_ok [] PermutationExample.blindPoly i, eval_toPoly]
    have hi : i < 4 := hi
    interval_cases i <;> decide +kernel
  · intro j hj
    rw [eval_toPoly, eval_toPoly]
    interval_cases j <;> decide +kernel

/-- Inputs `2, 1, 2` and table `1, 2, 5` with their permuted columns. -/
def goodLookup : LookupOracles (VerifierOracle F97 Unit) :=
  ⟨rowOracle Unit dom [] (dom.ifft [2, 1, 2, 7]), rowOracle Unit dom [] (dom.ifft [1, 2, 5, 7]),
    rowOracle Unit dom [] (dom.ifft [2, 2, 1, 8]), rowOracle Unit dom [] (dom.ifft [2, 5, 1, 9])⟩
/-- The running product for `beta = 2`, `gamma = 3`. -/
def goodZ : List F97 :=
  let z1 : F97 := (2 + 2) * (1 + 3) * ((2 + 2) * (2 + 3))⁻¹
  let z2 : F97 := z1 * ((1 + 2) * (2 + 3) * ((2 + 2) * (5 + 3))⁻¹)
  dom.ifft [1, z1, z2, 1]

theorem good_holds : LookupHolds dom 3 (rowOracle Unit dom [] (dom.ifft [0, 0, 0, 0])) goodLookup
    (rowOracle Unit dom [] goodZ) 2 3 := by
  intro i hi alphas hal
  rw [lookupOpen_rows (qb := blinding 3 i) dom_ok (p := ⟨toPoly (dom.ifft [2, 1, 2, 7]), toPoly (dom.ifft [1, 2, 5, 7]),
      toPoly (dom.ifft [2, 2, 1, 8]), toPoly (dom.ifft [2, 5, 1, 9])⟩)
    ⟨rowOracle_answers dom_ok _ _, rowOracle_answers dom_ok _ _, rowOracle_answers dom_ok _ _,
      rowOracle_answers dom_ok _ _⟩ (rowOracle_answers dom_ok [] goodZ) ?_ _ _ _ _ _ hal]
  · congr 1
    apply weighted_of_zero
    simp only [eval_toPoly]
    have hi : i < 4 := hi
    interval_cases i <;> decide +kernel
  · rw [rowOracle_answers dom_ok [] _ i, eval_toPoly]
    have hi : i < 4 := hi
    interval_cases i <;> decide +kernel

/-- The hypotheses of C25 hold for this lookup. -/
example : ∀ i < 3, ∃ j ≤ i, (toPoly (dom.ifft [2, 2, 1, 8])).eval (dom.omega ^ i)
    = (toPoly (dom.ifft [2, 5, 1, 9])).eval (dom.omega ^ j) :=
  C25_membership dom_ok (u := 3) (by decide +kernel)
    ⟨toPoly (dom.ifft [2, 1, 2, 7]), toPoly (dom.ifft [1, 2, 5, 7]), toPoly (dom.ifft [2, 2, 1, 8]),
      toPoly (dom.ifft [2, 5, 1, 9])⟩ goodLookup
    ⟨rowOracle_answers dom_ok _ _, rowOracle_answers dom_ok _ _, rowOracle_answers dom_ok _ _,
      rowOracle_answers dom_ok _ _⟩ _ _ (rowOracle_answers dom_ok [] goodZ) _
    (by
      intro i hi
      rw [rowOracle_answers dom_ok [] _ i, eval_toPoly]
      have hi : i < 4 := hi
      interval_cases i <;> decide +kernel) 2 3 good_holds

/-- The hypotheses of C27 hold for two tuples; they collide for one of the 97 challenges. -/
example : thetaAgg Res.ok (3 : F97) [(1 : F97), 2] = thetaAgg Res.ok 3 [(4 : F97), 1] ∧
    (Finset.univ.filter (fun theta : F97 => thetaAgg Res.ok theta [(1 : F97), 2]
      = thetaAgg Res.ok theta [(4 : F97), 1])).card + 1 ≤ 2 := by
  refine ⟨by decide +kernel, ?_⟩
  convert C27_collisions (F := F97) [1, 2] [4, 1] rfl (by decide +kernel) Finset.univ
  rfl

end LookupExample
end ZK
