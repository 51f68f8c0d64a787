import Mathlib.Algebra.BigOperators.Group.Finset.Basic
import Mathlib.Tactic.LinearCombination
import Verif.Lemmas.PermuteLookup
import Verif.Lemmas.System
import Verif.Lemmas.Constraints
import Verif.Lemmas.Permutation
/-! What the lookup round of the prover builds. -/
set_option autoImplicit false
namespace ZK
open Polynomial
section
variable {F : Type} [Field F]

theorem drawPairs_length {Z : Type} (next : Z → F × Z) (t : Nat) (z : Z) :
    (drawPairs next t z).1.length = t ∧ (drawPairs next t z).2.1.length = t := by
  induction t generalizing z with
  | zero => exact ⟨rfl, rfl⟩
  | succ t ih =>
    simp only [drawPairs, List.length_cons]
    exact ⟨by rw [(ih _).1], by rw [(ih _).2]⟩

variable [FftParams F] [LawfulFft F]

/-- Interpolating a column gives an honest oracle. -/
theorem honest_of_evals [DecidableEq F] {d ext : Domain F} (hd : d.Ok) {o : ProverOracle F} {v : List F}
    (hv : v.length = d.size) (hp : o.poly = trim (d.ifft v)) (he : o.evals = v)
    (hc : o.coset = some (ext.cosetFft (trim (d.ifft v)))) : Honest d ext o := by
  refine ⟨⟨by rw [he, hv], fun i hi => ?_⟩, ?_, by rw [hc, hp]⟩
  · rw [hp, toPoly_trim, eval_toPoly, he]
    have := hd.peval_ifft hv i hi
    simp only [Domain.element] at this
    rw [this, List.getElem?_eq_getElem]
  · rw [hp]
    exact (trim_length_le _).trans (by simp)

/-- Interpolating the values of a polynomial of small degree gives it back. -/
theorem toPoly_ifft_rows [DecidableEq F] {d : Domain F} (hd : d.Ok) {p : F[X]} (hp : p.degree < d.size) :
    toPoly (trim (d.ifft ((List.range d.size).map (fun i => p.eval (d.omega ^ i))))) = p := by
  rw [toPoly_trim]
  refine hd.poly_ext ?_ hp ?_
  · exact (degree_toPoly_lt _).trans_le (by simp)
  · intro i hi
    rw [eval_toPoly]
    rw [hd.peval_ifft (by simp) i hi]
    simp [Domain.element]

/-- The values of a polynomial on the coset are its coset FFT exactly when the polynomial is the
interpolant. -/
theorem coset_values_eq [DecidableEq F] {d ext : Domain F} (he : ext.Ok) (hle : d.size ≤ ext.size)
    {p : F[X]} (hp : p.degree < ext.size) {q : List F} (hq : q.length ≤ d.size) :
    (List.range ext.size).map (fun i => p.eval ((FftParams.gen : F) * ext.element i)) = ext.cosetFft q
      ↔ p = toPoly q := by
  have hget : ∀ i < ext.size, (ext.cosetFft q)[i]? = some (peval q ((FftParams.gen : F) * ext.element i)) :=
    fun i hi => ext.cosetFft_get (hq.trans hle) i hi
  constructor
  · intro h
    refine he.poly_ext_coset hp ((degree_toPoly_lt q).trans_le (by exact_mod_cast hq.trans hle)) ?_
    intro i hi
    have := hget i hi
    rw [← h] at this
    simp only [List.getElem?_map, List.getElem?_range hi, Option.map_some, Option.some.injEq] at this
    rw [this, eval_toPoly]
  · rintro rfl
    apply List.ext_getElem?
    intro i
    by_cases hi : i < ext.size
    · rw [hget i hi]
      simp [hi]
    · rw [List.getElem?_eq_none (by simpa using hi), List.getElem?_eq_none (by simpa using hi)]

/-- Everything the lookup round builds for one lookup with compressed input `A` and table `S`. -/
structure LookupBuilt [LinearOrder F] (d ext : Domain F) (u idx : Nat) (A S : F[X])
    (l : LookupOracles (ProverOracle F)) : Prop where
  aPoly : toPoly l.a.poly = A
  sPoly : toPoly l.s.poly = S
  aHonest : Honest d ext l.a
  sHonest : Honest d ext l.s
  aPrimeHonest : Honest d ext l.aPrime
  sPrimeHonest : Honest d ext l.sPrime
  aPerm : (l.aPrime.evals.take u).Perm ((List.range u).map (fun i => A.eval (d.omega ^ i)))
  sPerm : (l.sPrime.evals.take u).Perm ((List.range u).map (fun i => S.eval (d.omega ^ i)))
  rows : ∀ i < u, l.sPrime.evals[i]? = l.aPrime.evals[i]? ∨
    (0 < i ∧ l.aPrime.evals[i - 1]? = l.aPrime.evals[i]?)
  aPrimeKind : l.aPrime.kind = .witness
  sPrimeKind : l.sPrime.kind = .witness
  aPrimeLabel : l.aPrime.label = bytes "lookup_a_prime_" ++ natBytes idx ++ bytes "_poly"
  sPrimeLabel : l.sPrime.label = bytes "lookup_s_prime_" ++ natBytes idx ++ bytes "_poly"
  aPrimeRot : l.aPrime.rotations = setExtend [] [Rotation.curr, Rotation.prev]
  sPrimeRot : l.sPrime.rotations = setExtend [] [Rotation.curr]
  aPrimePermute : l.aPrime.shouldPermute = false
  sPrimePermute : l.sPrime.shouldPermute = false

omit [LawfulFft F] in
theorem natDegree_lt_degree {p : F[X]} {m : Nat} (hm : 0 < m) (h : p.natDegree ≤ m - 1) : p.degree < m := by
  refine lt_of_le_of_lt degree_le_natDegree ?_
  exact_mod_cast (by omega : p.natDegree < m)

/-- Outcome of the lookup round for one lookup, when every query can be answered. -/
theorem lookupConstruct_outcome [LinearOrder F] {Z : Type} (next : Z → F × Z) (v : ProverView F)
    (u idx : Nat) (exprs : List (Expr F)) (tables : List OracleQuery) (theta : F) {d ext : Domain F} (z : Z)
    (hd : d.Ok) (he : ext.Ok) (hle : d.size ≤ ext.size) (hlen : exprs.length = tables.length)
    (hu : u ≤ d.size) (P T : OracleQuery → F[X])
    (hP : ∀ e ∈ exprs, QueryPolys d ext v e.queries P) (hT : TablePolys d ext v tables T)
    (hdeg : (compress (C theta) (exprs.map (Expr.denote C P))).degree < ext.size) :
    let A := compress (C theta) (exprs.map (Expr.denote C P))
    let S := compress (C theta) (tables.map T)
    (d.size ≤ A.degree → lookupConstruct next v u idx exprs tables theta d ext z = .panic) ∧
    (A.degree < d.size →
      ((∀ i < u, ∃ j < u, A.eval (d.omega ^ i) = S.eval (d.omega ^ j)) →
        ∃ l, lookupConstruct next v u idx exprs tables theta d ext z
            = .ok (l, (drawPairs next (d.size - u) z).2.2) ∧ LookupBuilt d ext u idx A S l) ∧
      (¬ (∀ i < u, ∃ j < u, A.eval (d.omega ^ i) = S.eval (d.omega ^ j)) →
        lookupConstruct next v u idx exprs tables theta d ext z = .panic)) := by
  intro A S
  have hSdeg : S.degree < d.size := by
    refine natDegree_lt_degree hd.size_pos (natDegree_compress_le _ _ _ ?_)
    intro p hp
    obtain ⟨q, hq, rfl⟩ := List.mem_map.1 hp
    obtain ⟨_, o, _, ho, hTo⟩ := hT q hq
    rw [hTo]
    exact (natDegree_toPoly_le _).trans (by have := ho.2.1; omega)
  have hArow : Res.mapM (fun i => thetaAgg (fun e => e.evalR (v.atRow i)) theta exprs) (List.range d.size)
      = .ok ((List.range d.size).map (fun i => A.eval (d.omega ^ i))) := by
    apply Res.mapM_ok_map
    intro i hi
    rw [thetaAgg_ok (g := fun e => (e.denote C P).eval (d.omega ^ i))]
    · rw [eval_compress, List.map_map]; rfl
    · intro e hee
      rw [Expr.evalR_ok (ProverView.atRow_ok hd (hP e hee) (List.mem_range.1 hi)), Expr.eval_denote]
  have hAco : Res.mapM (fun i => thetaAgg (fun e => e.evalR (v.atCoset i)) theta exprs) (List.range ext.size)
      = .ok ((List.range ext.size).map (fun i => A.eval ((FftParams.gen : F) * ext.element i))) := by
    apply Res.mapM_ok_map
    intro i hi
    rw [thetaAgg_ok (g := fun e => (e.denote C P).eval ((FftParams.gen : F) * ext.element i))]
    · rw [eval_compress, List.map_map]; rfl
    · intro e hee
      rw [Expr.evalR_ok (ProverView.atCoset_ok hd he hle (hP e hee) (List.mem_range.1 hi)), Expr.eval_denote]
  have hSrow : Res.mapM (fun i => thetaAgg (v.tableAtRow i) theta tables) (List.range d.size)
      = .ok ((List.range d.size).map (fun i => S.eval (d.omega ^ i))) := by
    apply Res.mapM_ok_map
    intro i hi
    rw [thetaAgg_ok (g := fun q => (T q).eval (d.omega ^ i))]
    · rw [eval_compress, List.map_map]; rfl
    · exact ProverView.tableAtRow_ok hT (List.mem_range.1 hi)
  have hSco : Res.mapM (fun i => thetaAgg (v.tableAtCoset i) theta tables) (List.range ext.size)
      = .ok ((List.range ext.size).map (fun i => S.eval ((FftParams.gen : F) * ext.element i))) := by
    apply Res.mapM_ok_map
    intro i hi
    rw [thetaAgg_ok (g := fun q => (T q).eval ((FftParams.gen : F) * ext.element i))]
    · rw [eval_compress, List.map_map]; rfl
    · exact ProverView.tableAtCoset_ok hd he hle hT (List.mem_range.1 hi)
  set aRows := (List.range d.size).map (fun i => A.eval (d.omega ^ i)) with haRows
  set sRows := (List.range d.size).map (fun i => S.eval (d.omega ^ i)) with hsRows
  have hlenq : ∀ w : List F, (trim (d.ifft w)).length ≤ d.size := fun w => (trim_length_le _).trans (by simp)
  have hAiff := coset_values_eq (p := A) he hle hdeg (hlenq aRows)
  have hSiff := coset_values_eq (p := S) he hle (hSdeg.trans_le (by exact_mod_cast hle)) (hlenq sRows)
  have hSeq : S = toPoly (trim (d.ifft sRows)) := (toPoly_ifft_rows hd hSdeg).symm
  have htake : ∀ (p : F[X]), ((List.range d.size).map (fun i => p.eval (d.omega ^ i))).take u
      = (List.range u).map (fun i => p.eval (d.omega ^ i)) := by
    intro p
    rw [← List.map_take, List.take_range, Nat.min_eq_left hu]
  refine ⟨fun hbig => ?_, fun hsmall => ?_⟩
  · have hne : ¬ (A = toPoly (trim (d.ifft aRows))) := by
      intro h
      rw [h] at hbig
      have h2 := (degree_toPoly_lt (trim (d.ifft aRows))).trans_le
        (by exact_mod_cast hlenq aRows : ((trim (d.ifft aRows)).length : WithBot ℕ) ≤ (d.size : WithBot ℕ))
      exact absurd h2 (not_lt.2 hbig)
    unfold lookupConstruct
    simp only [hlen, decide_true, Res.assert_true, Res.bind_ok, hArow, hAco]
    rw [decide_eq_false (fun h => hne (hAiff.1 h))]
    rfl
  · have hAeq : A = toPoly (trim (d.ifft aRows)) := (toPoly_ifft_rows hd hsmall).symm
    have hsub : (∀ x ∈ aRows.take u, x ∈ sRows.take u) ↔
        ∀ i < u, ∃ j < u, A.eval (d.omega ^ i) = S.eval (d.omega ^ j) := by
      rw [haRows, hsRows, htake, htake]
      constructor
      · intro h i hi
        obtain ⟨j, hj, e⟩ := List.mem_map.1 (h _ (List.mem_map.2 ⟨i, List.mem_range.2 hi, rfl⟩))
        exact ⟨j, List.mem_range.1 hj, e.symm⟩
      · intro h x hx
        obtain ⟨i, hi, rfl⟩ := List.mem_map.1 hx
        obtain ⟨j, hj, e⟩ := h i (List.mem_range.1 hi)
        exact List.mem_map.2 ⟨j, List.mem_range.2 hj, e.symm⟩
    have hla : (aRows.take u).length = u := by simp [aRows, hu]
    have hls : (sRows.take u).length = u := by simp [sRows, hu]
    obtain ⟨hb1, hb2⟩ := drawPairs_length next (d.size - u) z
    refine ⟨fun hin => ?_, fun hnin => ?_⟩
    · rcases permuteForLookup_outcome (ε := PiopErr) (aRows.take u) (sRows.take u) with
        ⟨_, _, s', hok, hs', hrows⟩ | ⟨hno, _⟩
      swap
      · exact absurd ⟨by rw [hla, hls], hsub.2 hin⟩ hno
      set a' := (aRows.take u).insertionSort (· ≤ ·) with ha'
      have hpa : a'.Perm (aRows.take u) := List.perm_insertionSort _ _
      have hla' : a'.length = u := hpa.length_eq.trans hla
      have hls' : s'.length = u := hs'.length_eq.trans hls
      have hal : (a' ++ (drawPairs next (d.size - u) z).1).length = d.size := by
        rw [List.length_append, hb1, hla']; omega
      have hsl : (s' ++ (drawPairs next (d.size - u) z).2.1).length = d.size := by
        rw [List.length_append, hb2, hls']; omega
      unfold lookupConstruct
      simp only [hlen, decide_true, Res.assert_true, Res.bind_ok, hArow, hAco, hSrow, hSco,
        hAiff.2 hAeq, hSiff.2 hSeq, show u ≤ aRows.length by simp [aRows, hu],
        show u ≤ sRows.length by simp [sRows, hu], hok, hal, hsl, Res.pure_eq]
      refine ⟨_, rfl, ?_⟩
      constructor
      · exact hAeq.symm
      · exact hSeq.symm
      · exact honest_of_evals hd (v := aRows) (by simp [aRows]) rfl rfl rfl
      · exact honest_of_evals hd (v := sRows) (by simp [sRows]) rfl rfl rfl
      · exact honest_of_evals hd hal rfl rfl rfl
      · exact honest_of_evals hd hsl rfl rfl rfl
      · simp only [List.take_append_of_le_length hla'.ge, List.take_of_length_le hla'.le]
        rw [← htake]; exact hpa
      · simp only [List.take_append_of_le_length hls'.ge, List.take_of_length_le hls'.le]
        rw [← htake]; exact hs'
      · intro i hi
        simp only
        rw [List.getElem?_append_left (by omega), List.getElem?_append_left (by omega),
          List.getElem?_append_left (by omega)]
        exact hrows i (by omega)
      all_goals rfl
    · rcases permuteForLookup_outcome (ε := PiopErr) (aRows.take u) (sRows.take u) with
        ⟨_, hsub', _⟩ | ⟨_, hpan⟩
      · exact absurd (hsub.1 hsub') hnin
      · unfold lookupConstruct
        simp only [hlen, decide_true, Res.assert_true, Res.bind_ok, hArow, hAco, hSrow, hSco,
          hAiff.2 hAeq, hSiff.2 hSeq, show u ≤ aRows.length by simp [aRows, hu],
          show u ≤ sRows.length by simp [sRows, hu], hpan, Res.bind_panic]

end
end ZK
