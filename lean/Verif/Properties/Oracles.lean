import Verif.Lemmas.F97
/-! C01, C02, C03: rotated oracle queries and rotated evaluation points. -/
set_option autoImplicit false
namespace ZK
open Polynomial

section
variable {F : Type} [Field F] [FftParams F] [LawfulFft F]

omit [Field F] [FftParams F] [LawfulFft F] in
/-- Cyclic index arithmetic shared by the coset and the row query. -/
theorem rotatedAt_spec {ε : Type} (v : List F) (i shift : Nat) (s : Sign) (hi : i < v.length)
    (hs : shift < v.length) : ∃ j, ∃ hj : j < v.length, rotatedAt (ε := ε) v i shift s = .ok v[j] ∧
      ∃ k : ℤ, (j : ℤ) = i + (match s with | .plus => (shift : ℤ) | .minus => -(shift : ℤ)) + k * v.length := by
  cases s with
  | plus =>
    refine ⟨(i + shift) % v.length, Nat.mod_lt _ (by omega), ?_, -(((i + shift) / v.length : Nat) : ℤ), ?_⟩
    · have h0 : v.length ≠ 0 := by omega
      simp only [rotatedAt, h0, if_false]
      exact Res.idx_of_lt _
    · have := Nat.mod_add_div (i + shift) v.length
      zify at this ⊢
      linarith
  | minus =>
    by_cases hle : shift ≤ i
    · refine ⟨i - shift, by omega, ?_, 0, ?_⟩
      · simp only [rotatedAt, hle, if_true]
        exact Res.idx_of_lt _
      · simp only []
        omega
    · have hm : (shift - i) % v.length = shift - i := Nat.mod_eq_of_lt (by omega)
      refine ⟨v.length - (shift - i), by omega, ?_, 1, ?_⟩
      · have h0 : v.length ≠ 0 := by omega
        simp only [rotatedAt, hle, if_false, h0, hm]
        exact Res.idx_of_lt _
      · simp only []
        omega

theorem zpow_of_congr {d : Domain F} (h : d.Ok) {a b k : ℤ} (hab : a = b + k * d.size) :
    d.omega ^ a = d.omega ^ b := by
  have h0 := h.omega_ne_zero
  rw [hab, zpow_add₀ h0, mul_comm k, zpow_mul, zpow_natCast, h.prim.pow_eq_one, one_zpow, mul_one]

/-- C01. The value of a prover oracle at index `i` of the extended coset under a rotation is the value
of its polynomial at the `i`-th coset point times `omega^(±degree)`, `omega` the generator of the
original domain of `n` rows. In particular the query does not fail. -/
theorem C01_coset_query {d e : Domain F} (hd : d.Ok) (he : e.Ok) (hle : d.size ≤ e.size)
    (o : ProverOracle F) (hpoly : o.poly.length ≤ e.size) (hev : o.evals.length = d.size)
    (i : Nat) (hi : i < e.size) (r : Rotation) (hr : r.degree < d.size) :
    (o.computeExtended e).queryInCoset i r
      = .ok ((toPoly o.poly).eval ((FftParams.gen : F) * e.element i * d.omega ^ r.signed)) := by
  have hlen : (e.cosetFft o.poly).length = e.size := by simp
  have hget : ∀ j (hj : j < (e.cosetFft o.poly).length),
      (e.cosetFft o.poly)[j] = peval o.poly ((FftParams.gen : F) * e.element j) := by
    intro j hj
    have := Domain.cosetFft_get e hpoly j (by simpa using hj)
    rw [List.getElem?_eq_getElem hj] at this
    exact Option.some.inj this
  by_cases h0 : r.degree = 0
  · have hs : r.signed = 0 := by
      unfold Rotation.signed; cases r.sign <;> simp [h0]
    simp only [ProverOracle.queryInCoset, ProverOracle.computeExtended, ProverOracle.cosetEvals, h0,
      if_true, hs, zpow_zero, mul_one]
    rw [Res.idx_of_lt (by simpa using hi), hget, eval_toPoly]
  · have hn : d.size ≠ 0 := hd.size_pos.ne'
    simp only [ProverOracle.queryInCoset, ProverOracle.computeExtended, ProverOracle.cosetEvals, h0,
      if_false, hlen, hev, hn]
    have hdiv : e.size / d.size * d.size = e.size := Nat.div_mul_cancel (hd.dvd he hle)
    have hshift : r.degree * (e.size / d.size) < (e.cosetFft o.poly).length := by
      rw [hlen]
      conv_rhs => rw [← hdiv, Nat.mul_comm]
      exact Nat.mul_lt_mul_of_pos_right hr (Nat.div_pos hle hd.size_pos)
    obtain ⟨j, hj, hq, k, hk⟩ := rotatedAt_spec (ε := PiopErr) (e.cosetFft o.poly) i
      (r.degree * (e.size / d.size)) r.sign (by simpa using hi) hshift
    rw [hq, hget, eval_toPoly, mul_assoc]
    congr 3
    rw [← hd.omega_pow_ratio he hle, ← zpow_natCast, ← zpow_mul, Domain.element, Domain.element,
      ← zpow_natCast, ← zpow_natCast, ← zpow_add₀ he.omega_ne_zero]
    apply zpow_of_congr he (k := k)
    rw [hk, hlen]
    unfold Rotation.signed
    cases r.sign <;> push_cast <;> ring

/-- The hypotheses of `C01_coset_query` hold for a 4-row oracle extended to 16 coset points, and the
rotation by `-3` at index 5 wraps around. -/
example : (F97.dom 2).Ok ∧ (F97.dom 4).Ok ∧ (F97.dom 2).size ≤ (F97.dom 4).size ∧
    ((ProverOracle.newWitness (bytes "a") [1, 2, 3, 4] [10, 20, 30, 40] false).computeExtended
      (F97.dom 4)).queryInCoset 5 ⟨3, .minus⟩
      = .ok (peval [1, 2, 3, 4] (5 * (F97.dom 4).element 5 * ((F97.dom 2).omega⁻¹ ^ 3))) :=
  ⟨F97.dom_ok (by decide), F97.dom_ok (by decide), by decide +kernel, by decide +kernel⟩

omit [LawfulFft F] in
/-- Outside the stated range the property fails: a backward rotation by a full turn reads out of range
at index 0 (the code computes index `size - 0 % size`). -/
theorem C01_full_turn_panics {d e : Domain F} (hd : d.Ok) (he : e.Ok) (hle : d.size ≤ e.size)
    (o : ProverOracle F) (hev : o.evals.length = d.size) :
    (o.computeExtended e).queryInCoset 0 ⟨d.size, .minus⟩ = .panic := by
  have h1 : d.size ≠ 0 := hd.size_pos.ne'
  have h3 : e.size ≠ 0 := he.size_pos.ne'
  have hdiv : d.size * (e.size / d.size) = e.size := Nat.mul_div_cancel' (hd.dvd he hle)
  simp only [ProverOracle.queryInCoset, ProverOracle.computeExtended, ProverOracle.cosetEvals, h1,
    if_false, Domain.cosetFft_length, hev, hdiv, rotatedAt, Nat.le_zero, h3, Nat.sub_zero,
    Nat.mod_self]
  exact Res.idx_eq_panic.2 (by simp)

/-- C02. A row query under a rotation returns the cell of the row reached by moving `degree` rows
forward or backward cyclically, which is the value at `omega^(i ± degree)` of every polynomial
interpolating the column. -/
theorem C02_row_query {d : Domain F} (hd : d.Ok) (o : ProverOracle F) (hev : o.evals.length = d.size)
    (i : Nat) (hi : i < d.size) (r : Rotation) (hr : r.degree < d.size) :
    ∃ j, ∃ hj : j < d.size, (j : ℤ) = ((i : ℤ) + r.signed) % d.size ∧
      o.queryAtOmega (ε := PiopErr) i r = .ok (o.evals[j]'(by rw [hev]; exact hj)) ∧
      ∀ p : F[X], (∀ k (hk : k < d.size), p.eval (d.omega ^ k) = o.evals[k]'(by rw [hev]; exact hk)) →
        o.queryAtOmega (ε := PiopErr) i r = .ok (p.eval (d.omega ^ ((i : ℤ) + r.signed))) := by
  have key : ∃ j, ∃ hj : j < o.evals.length, o.queryAtOmega (ε := PiopErr) i r = .ok o.evals[j] ∧
      ∃ k : ℤ, (j : ℤ) = i + r.signed + k * d.size := by
    by_cases h0 : r.degree = 0
    · have hs : r.signed = 0 := by
        unfold Rotation.signed; cases r.sign <;> simp [h0]
      refine ⟨i, by omega, ?_, 0, by simp [hs]⟩
      simp only [ProverOracle.queryAtOmega, h0, if_true]
      exact Res.idx_of_lt _
    · simp only [ProverOracle.queryAtOmega, h0, if_false]
      obtain ⟨j, hj, h1, k, hk⟩ := rotatedAt_spec (ε := PiopErr) o.evals i r.degree r.sign (by omega)
        (by omega)
      exact ⟨j, hj, h1, k, by rw [hk, hev]; rfl⟩
  obtain ⟨j, hj, hq, k, hk⟩ := key
  refine ⟨j, by omega, ?_, hq, ?_⟩
  · have h1 : ((i : ℤ) + r.signed) = j + d.size * (-k) := by rw [hk]; ring
    rw [h1, Int.add_mul_emod_self_left, Int.emod_eq_of_lt (by omega) (by omega)]
  · intro p hp
    rw [hq, ← hp j (by omega), ← zpow_natCast]
    congr 2
    exact zpow_of_congr hd hk

/-- Row 1 rotated backward by 2 in a column of 4 rows is row 3; and the column has an interpolating
polynomial of the expected form. -/
example : (F97.dom 2).Ok ∧
    (ProverOracle.newWitness (bytes "a") (trim ((F97.dom 2).ifft [10, 20, 30, 40])) [10, 20, 30, 40]
      false).queryAtOmega (ε := PiopErr) 1 ⟨2, .minus⟩ = .ok 40 ∧
    peval (trim ((F97.dom 2).ifft [10, 20, 30, 40])) ((F97.dom 2).omega ^ 3) = 40 :=
  ⟨F97.dom_ok (by decide), by decide +kernel, by decide +kernel⟩

/-! ### C03 -/

omit [FftParams F] [LawfulFft F] in
theorem elements_get (d : Domain F) (i : Nat) :
    d.elements[i]? = if i < d.size then some (d.omega ^ i) else none := by
  unfold Domain.elements Domain.element
  by_cases h : i < d.size <;> simp [h]

omit [FftParams F] [LawfulFft F] in
theorem Rotation.point_oob {ε : Type} [DecidableEq F] (d : Domain F) (r : Rotation) (x : F)
    (h0 : 0 < r.degree) (h : d.size ≤ r.degree) : r.point (ε := ε) x d.elements = .panic := by
  have : ¬ r.degree < d.size := by omega
  simp [Rotation.point, Rotation.omega, elements_get, h0.ne', this]

theorem Rotation.point_ok {ε : Type} [DecidableEq F] {d : Domain F} (hd : d.Ok) (r : Rotation) (x : F)
    (h : r.degree < d.size) : r.point (ε := ε) x d.elements = .ok (x * d.omega ^ r.signed) := by
  by_cases h0 : r.degree = 0
  · have hs : r.signed = 0 := by
      unfold Rotation.signed; cases r.sign <;> simp [h0]
    simp [Rotation.point, h0, hs]
  · have hne : d.omega ^ r.degree ≠ 0 := pow_ne_zero _ hd.omega_ne_zero
    cases hs : r.sign <;>
      simp [Rotation.point, Rotation.omega, elements_get, h0, h, hs, Rotation.signed,
        hd.omega_ne_zero, zpow_neg]

/-- C03. The evaluation point of a rotation over a domain of `n` rows: (1) in range it is the challenge
times `omega^(±degree)`; (2) going forward then back by the same degree returns to the start; (3) it
panics exactly when the degree is positive and at least `n`; (4) for a non-zero challenge two in-range
rotations give the same point exactly when their signed degrees agree modulo `n`. -/
theorem C03_rotated_points [DecidableEq F] {d : Domain F} (hd : d.Ok) (x : F) :
    (∀ r : Rotation, r.degree < d.size →
      r.point (ε := PiopErr) x d.elements = .ok (x * d.omega ^ r.signed)) ∧
    (∀ k : Nat, k < d.size →
      (Rotation.point (ε := PiopErr) ⟨k, .plus⟩ x d.elements >>=
        fun y => Rotation.point ⟨k, .minus⟩ y d.elements) = .ok x) ∧
    (∀ r : Rotation, r.point (ε := PiopErr) x d.elements = .panic ↔ 0 < r.degree ∧ d.size ≤ r.degree) ∧
    (x ≠ 0 → ∀ r s : Rotation, r.degree < d.size → s.degree < d.size →
      (r.point (ε := PiopErr) x d.elements = s.point x d.elements ↔
        r.signed ≡ s.signed [ZMOD d.size])) := by
  refine ⟨fun r hr => Rotation.point_ok hd r x hr, ?_, ?_, ?_⟩
  · intro k hk
    rw [Rotation.point_ok hd _ _ hk, Res.bind_ok, Rotation.point_ok hd _ _ hk]
    congr 1
    rw [mul_assoc, ← zpow_add₀ hd.omega_ne_zero]
    simp [Rotation.signed]
  · intro r
    constructor
    · intro h
      by_contra hc
      by_cases h0 : r.degree = 0
      · simp [Rotation.point, h0] at h
      · rw [Rotation.point_ok hd r x (by omega)] at h
        simp at h
    · rintro ⟨h0, h1⟩
      exact Rotation.point_oob d r x h0 h1
  · intro hx r s hr hs
    rw [Rotation.point_ok hd r x hr, Rotation.point_ok hd s x hs, Res.ok.injEq,
      mul_right_inj' hx]
    have h0 := hd.omega_ne_zero
    rw [← mul_inv_eq_one₀ (zpow_ne_zero _ h0), ← zpow_neg, ← zpow_add₀ h0,
      hd.prim.zpow_eq_one_iff_dvd, Int.modEq_comm, Int.modEq_iff_dvd, ← sub_eq_add_neg]

/-- Rotation by `+1` and by `-3` give the same point on 4 rows, `+1` and `-1` do not. -/
example : (F97.dom 2).Ok ∧
    Rotation.point (ε := PiopErr) ⟨1, .plus⟩ 7 (F97.dom 2).elements
      = Rotation.point ⟨3, .minus⟩ 7 (F97.dom 2).elements ∧
    Rotation.point (ε := PiopErr) ⟨1, .plus⟩ 7 (F97.dom 2).elements
      ≠ Rotation.point ⟨1, .minus⟩ 7 (F97.dom 2).elements ∧
    Rotation.point (ε := PiopErr) ⟨4, .plus⟩ 7 (F97.dom 2).elements = .panic :=
  ⟨F97.dom_ok (by decide), by decide +kernel, by decide +kernel, by decide +kernel⟩

end
end ZK
