import Mathlib.RingTheory.RootsOfUnity.PrimitiveRoots
import Mathlib.LinearAlgebra.Lagrange
import Mathlib.Algebra.BigOperators.Intervals
import Verif.Lemmas.Poly
/-! Evaluation domains and the (coset) transforms. -/
set_option autoImplicit false
namespace ZK
open Polynomial

section
variable {F : Type} [Field F]

theorem peval_eq_sum (p : List F) (x : F) :
    peval p x = ∑ i ∈ Finset.range p.length, p.getD i 0 * x ^ i := by
  induction p with
  | nil => simp
  | cons c p ih =>
    rw [peval_cons, ih, List.length_cons, Finset.sum_range_succ', Finset.mul_sum]
    simp only [List.getD_cons_succ, List.getD_cons_zero, pow_zero, mul_one]
    rw [add_comm]
    congr 1
    apply Finset.sum_congr rfl
    intro i _
    ring

theorem peval_map_range (n : Nat) (f : Nat → F) (x : F) :
    peval ((List.range n).map f) x = ∑ i ∈ Finset.range n, f i * x ^ i := by
  rw [peval_eq_sum]
  simp only [List.length_map, List.length_range]
  apply Finset.sum_congr rfl
  intro i hi
  rw [Finset.mem_range] at hi
  rw [List.getD_eq_getElem _ _ (by simpa using hi)]
  simp

theorem resize_of_le {n : Nat} {p : List F} (h : p.length ≤ n) :
    resize n p = p ++ List.replicate (n - p.length) 0 := by
  unfold resize
  rw [List.take_of_length_le h]

theorem toPoly_resize {n : Nat} {p : List F} (h : p.length ≤ n) : toPoly (resize n p) = toPoly p := by
  rw [resize_of_le h, toPoly_append]; simp

theorem peval_resize {n : Nat} {p : List F} (h : p.length ≤ n) (x : F) :
    peval (resize n p) x = peval p x := by
  rw [peval_eq_eval, toPoly_resize h, eval_toPoly]

theorem toPoly_distribute (g a : F) (p : List F) :
    toPoly (distribute g a p) = C a * (toPoly p).comp (C g * X) := by
  induction p generalizing a with
  | nil => simp [distribute]
  | cons c p ih => simp [distribute, ih]; ring

theorem peval_distribute (g a : F) (p : List F) (x : F) :
    peval (distribute g a p) x = a * peval p (g * x) := by
  rw [peval_eq_eval, toPoly_distribute]; simp

theorem distribute_length (g a : F) (p : List F) : (distribute g a p).length = p.length := by
  induction p generalizing a with
  | nil => rfl
  | cons c p ih => simp [distribute, ih]

theorem distribute_distribute (g h a b : F) (p : List F) :
    distribute h b (distribute g a p) = distribute (g * h) (a * b) p := by
  induction p generalizing a b with
  | nil => rfl
  | cons c p ih =>
    simp only [distribute, ih]
    congr 1
    · ring
    · congr 1; ring

theorem distribute_one (p : List F) : distribute (1 : F) 1 p = p := by
  induction p with
  | nil => rfl
  | cons c p ih => simp [distribute, ih]

/-! ### `clog2` -/

theorem clog2_spec (k : Nat) : k ≤ 2 ^ clog2 k ∧ ∀ j, k ≤ 2 ^ j → clog2 k ≤ j := by
  unfold clog2
  cases h : (List.range (k + 1)).find? (fun j => decide (k ≤ 2 ^ j)) with
  | none =>
    exfalso
    rw [List.find?_eq_none] at h
    have := h k (by simp)
    simp at this
    exact absurd this (not_lt.2 (Nat.lt_two_pow_self).le)
  | some j =>
    simp only [Option.getD_some]
    rw [List.find?_range_eq_some] at h
    obtain ⟨h1, _, h2⟩ := h
    refine ⟨by simpa using h1, fun i hi => ?_⟩
    by_contra hc
    have := h2 i (by omega)
    simp at this
    omega

theorem clog2_pow (j : Nat) : clog2 (2 ^ j) = j := by
  apply le_antisymm
  · exact (clog2_spec _).2 j le_rfl
  · exact (Nat.pow_le_pow_iff_right (by norm_num)).1 (clog2_spec (2 ^ j)).1

/-! ### Domains -/

variable [FftParams F]

theorem Domain.new_ok {k : Nat} {d : Domain F} (h : Domain.new k = some d) : d.Ok := by
  unfold Domain.new at h
  simp only [Option.ite_none_right_eq_some, Option.some.injEq] at h
  exact ⟨clog2 k, h.1, h.2.symm⟩

theorem Domain.new_size {k : Nat} {d : Domain F} (h : Domain.new k = some d) :
    d.size = 2 ^ clog2 k := by
  unfold Domain.new at h
  simp only [Option.ite_none_right_eq_some, Option.some.injEq] at h
  rw [← h.2]

theorem Domain.le_new_size {k : Nat} {d : Domain F} (h : Domain.new k = some d) : k ≤ d.size := by
  rw [Domain.new_size h]; exact (clog2_spec k).1

/-- Building a domain of exactly its own size returns it. -/
theorem Domain.Ok.new_self {d : Domain F} (h : d.Ok) : Domain.new (F := F) d.size = some d := by
  obtain ⟨j, hj, rfl⟩ := h
  simp [Domain.new, clog2_pow, hj]

theorem Domain.Ok.size_pos {d : Domain F} (h : d.Ok) : 0 < d.size := by
  obtain ⟨j, _, rfl⟩ := h
  simp

theorem Domain.Ok.eq_of_size {d e : Domain F} (hd : d.Ok) (he : e.Ok) (h : d.size = e.size) : d = e := by
  have h1 := hd.new_self
  rw [h, he.new_self] at h1
  exact (Option.some.inj h1).symm

theorem Domain.Ok.dvd {d e : Domain F} (hd : d.Ok) (he : e.Ok) (h : d.size ≤ e.size) :
    d.size ∣ e.size := by
  obtain ⟨j, _, rfl⟩ := hd
  obtain ⟨k, _, rfl⟩ := he
  exact pow_dvd_pow 2 ((Nat.pow_le_pow_iff_right (by norm_num)).1 h)

/-- The extended domain refines the original one. -/
theorem Domain.Ok.omega_pow_ratio {d e : Domain F} (hd : d.Ok) (he : e.Ok) (h : d.size ≤ e.size) :
    e.omega ^ (e.size / d.size) = d.omega := by
  obtain ⟨j, hj, rfl⟩ := hd
  obtain ⟨k, hk, rfl⟩ := he
  have hjk : j ≤ k := (Nat.pow_le_pow_iff_right (by norm_num)).1 h
  simp only
  rw [Nat.pow_div hjk (by norm_num), ← pow_mul, ← pow_add]
  congr 2
  omega

variable [LawfulFft F]

theorem Domain.Ok.prim {d : Domain F} (h : d.Ok) : IsPrimitiveRoot d.omega d.size := by
  obtain ⟨j, hj, rfl⟩ := h
  apply LawfulFft.root_prim.pow (by simp)
  rw [← pow_add]; congr 1; omega

theorem Domain.Ok.omega_ne_zero {d : Domain F} (h : d.Ok) : d.omega ≠ 0 :=
  h.prim.ne_zero h.size_pos.ne'

theorem Domain.Ok.natCast_ne_zero {d : Domain F} (h : d.Ok) : (d.size : F) ≠ 0 := by
  have : NeZero d.size := ⟨h.size_pos.ne'⟩
  exact (h.prim.neZero').out

theorem Domain.Ok.element_pow {d : Domain F} (h : d.Ok) (i : Nat) : (d.element i) ^ d.size = 1 := by
  rw [Domain.element, ← pow_mul, mul_comm, pow_mul, h.prim.pow_eq_one, one_pow]

theorem Domain.Ok.element_ne_zero {d : Domain F} (h : d.Ok) (i : Nat) : d.element i ≠ 0 :=
  pow_ne_zero _ h.omega_ne_zero

theorem Domain.Ok.element_inj {d : Domain F} (h : d.Ok) {i j : Nat} (hi : i < d.size) (hj : j < d.size)
    (he : d.element i = d.element j) : i = j := h.prim.pow_inj hi hj he

/-- No power of the domain's order sends a coset point to one: the coset is disjoint from every
domain. -/
theorem Domain.Ok.coset_pow_ne {d e : Domain F} (hd : d.Ok) (he : e.Ok) (i : Nat) :
    ((FftParams.gen : F) * e.element i) ^ d.size ≠ 1 := by
  intro h
  obtain ⟨j, hj, hde⟩ := hd
  have hs : 2 ^ FftParams.adicity F = d.size * 2 ^ (FftParams.adicity F - j) := by
    rw [hde]; simp only; rw [← pow_add]; congr 1; omega
  apply (LawfulFft.gen_pow (F := F))
  have h1 : ((FftParams.gen : F) * e.element i) ^ (2 ^ FftParams.adicity F) = 1 := by
    rw [hs, pow_mul, h, one_pow]
  obtain ⟨k, hk, hee⟩ := he
  have hs2 : 2 ^ FftParams.adicity F = e.size * 2 ^ (FftParams.adicity F - k) := by
    rw [hee]; simp only; rw [← pow_add]; congr 1; omega
  have h2 : e.element i ^ (2 ^ FftParams.adicity F) = 1 := by
    have heOk : e.Ok := ⟨k, hk, hee⟩
    rw [hs2, pow_mul, heOk.element_pow, one_pow]
  rw [mul_pow, h2, mul_one] at h1
  exact h1

/-! ### Transforms -/

omit [LawfulFft F] [FftParams F] in
@[simp] theorem Domain.fft_length (d : Domain F) (p : List F) : (d.fft p).length = d.size := by
  simp [Domain.fft]
omit [LawfulFft F] [FftParams F] in
@[simp] theorem Domain.ifft_length (d : Domain F) (p : List F) : (d.ifft p).length = d.size := by
  simp [Domain.ifft]
omit [LawfulFft F] in
@[simp] theorem Domain.cosetFft_length (d : Domain F) (p : List F) : (d.cosetFft p).length = d.size := by
  simp [Domain.cosetFft]
omit [LawfulFft F] in
@[simp] theorem Domain.cosetIfft_length (d : Domain F) (p : List F) :
    (d.cosetIfft p).length = d.size := by
  simp [Domain.cosetIfft, distribute_length]

omit [LawfulFft F] [FftParams F] in
theorem Domain.fft_get (d : Domain F) {p : List F} (hp : p.length ≤ d.size) (i : Nat) (hi : i < d.size) :
    (d.fft p)[i]? = some (peval p (d.element i)) := by
  simp [Domain.fft, hi, peval_resize hp]

omit [LawfulFft F] in
theorem Domain.cosetFft_get (d : Domain F) {p : List F} (hp : p.length ≤ d.size) (i : Nat)
    (hi : i < d.size) :
    (d.cosetFft p)[i]? = some (peval p ((FftParams.gen : F) * d.element i)) := by
  rw [Domain.cosetFft, Domain.fft_get d (by rw [distribute_length]; exact hp) i hi, peval_distribute]
  simp

theorem Domain.Ok.peval_ifft {d : Domain F} (h : d.Ok) {v : List F} (hv : v.length = d.size) (k : Nat)
    (hk : k < d.size) : peval (d.ifft v) (d.element k) = v[k]'(hv ▸ hk) := by
  have hn := h.natCast_ne_zero
  have h0 := h.omega_ne_zero
  unfold Domain.ifft
  rw [peval_map_range]
  have h1 : ∀ j ∈ Finset.range d.size,
      (d.size : F)⁻¹ * peval (resize d.size v) (d.omega⁻¹ ^ j) * d.element k ^ j
      = ∑ i ∈ Finset.range d.size, (d.size : F)⁻¹ * v.getD i 0 * (d.omega⁻¹ ^ i * d.omega ^ k) ^ j := by
    intro j _
    rw [peval_resize hv.le, peval_eq_sum, hv, Finset.mul_sum, Finset.sum_mul]
    apply Finset.sum_congr rfl
    intro i _
    rw [mul_pow, Domain.element, ← pow_mul, ← pow_mul, ← pow_mul, Nat.mul_comm j i]
    ring
  rw [Finset.sum_congr rfl h1, Finset.sum_comm]
  have h2 : ∀ i ∈ Finset.range d.size,
      ∑ j ∈ Finset.range d.size, (d.size : F)⁻¹ * v.getD i 0 * (d.omega⁻¹ ^ i * d.omega ^ k) ^ j
      = if i = k then v.getD i 0 else 0 := by
    intro i hi
    rw [Finset.mem_range] at hi
    rw [← Finset.mul_sum]
    by_cases hik : i = k
    · subst hik
      have : d.omega⁻¹ ^ i * d.omega ^ i = 1 := by rw [← mul_pow, inv_mul_cancel₀ h0, one_pow]
      rw [this]
      simp
      field_simp
    · rw [if_neg hik]
      have hne : d.omega⁻¹ ^ i * d.omega ^ k ≠ 1 := by
        intro he
        apply hik
        apply h.prim.pow_inj hi hk
        rw [inv_pow] at he
        field_simp at he
        exact he.symm
      have hp : (d.omega⁻¹ ^ i * d.omega ^ k) ^ d.size = 1 := by
        rw [mul_pow, ← pow_mul, ← pow_mul, mul_comm i, mul_comm k, pow_mul, pow_mul, inv_pow,
          h.prim.pow_eq_one]
        simp
      have hg := mul_geom_sum (d.omega⁻¹ ^ i * d.omega ^ k) d.size
      rw [hp, sub_self] at hg
      rcases mul_eq_zero.1 hg with hg | hg
      · exact absurd (sub_eq_zero.1 hg) hne
      · rw [hg, mul_zero]
  rw [Finset.sum_congr rfl h2, Finset.sum_ite_eq' (Finset.range d.size) k]
  rw [if_pos (Finset.mem_range.2 hk), List.getD_eq_getElem]

theorem Domain.Ok.fft_ifft {d : Domain F} (h : d.Ok) {v : List F} (hv : v.length = d.size) :
    d.fft (d.ifft v) = v := by
  apply List.ext_getElem?
  intro i
  by_cases hi : i < d.size
  · rw [Domain.fft_get d (by simp) i hi, h.peval_ifft hv i hi]
    simp
  · rw [List.getElem?_eq_none (by simp; omega), List.getElem?_eq_none (by omega)]

/-- Two polynomials of degree below the domain size that agree on the domain are equal. -/
theorem Domain.Ok.poly_ext {d : Domain F} (h : d.Ok) {p q : F[X]} (hp : p.degree < d.size)
    (hq : q.degree < d.size) (he : ∀ i < d.size, p.eval (d.element i) = q.eval (d.element i)) : p = q := by
  apply Polynomial.eq_of_degrees_lt_of_eval_index_eq (s := Finset.range d.size) (v := d.element)
  · intro i hi j hj hij
    simp only [Finset.coe_range, Set.mem_Iio] at hi hj
    exact h.element_inj hi hj hij
  · simpa using hp
  · simpa using hq
  · intro i hi
    exact he i (Finset.mem_range.1 hi)

/-- The same on the coset. -/
theorem Domain.Ok.poly_ext_coset {d : Domain F} (h : d.Ok) {p q : F[X]} (hp : p.degree < d.size)
    (hq : q.degree < d.size)
    (he : ∀ i < d.size, p.eval ((FftParams.gen : F) * d.element i) = q.eval (FftParams.gen * d.element i)) :
    p = q := by
  apply Polynomial.eq_of_degrees_lt_of_eval_index_eq (s := Finset.range d.size)
    (v := fun i => (FftParams.gen : F) * d.element i)
  · intro i hi j hj hij
    simp only [Finset.coe_range, Set.mem_Iio] at hi hj
    exact h.element_inj hi hj (mul_left_cancel₀ LawfulFft.gen_ne_zero hij)
  · simpa using hp
  · simpa using hq
  · intro i hi
    exact he i (Finset.mem_range.1 hi)

omit [LawfulFft F] [FftParams F] in
theorem list_eq_of_toPoly {p q : List F} (h : toPoly p = toPoly q) (hl : p.length = q.length) : p = q := by
  apply List.ext_getElem hl
  intro i h1 h2
  have := congrArg (fun r => r.coeff i) h
  simp only [coeff_toPoly] at this
  rwa [List.getD_eq_getElem _ _ h1, List.getD_eq_getElem _ _ h2] at this

theorem Domain.Ok.toPoly_ifft_fft {d : Domain F} (h : d.Ok) {p : List F} (hp : p.length ≤ d.size) :
    toPoly (d.ifft (d.fft p)) = toPoly p := by
  apply h.poly_ext
  · exact lt_of_lt_of_eq (degree_toPoly_lt _) (by simp)
  · exact lt_of_lt_of_le (degree_toPoly_lt _) (by exact_mod_cast hp)
  · intro i hi
    rw [eval_toPoly, eval_toPoly, h.peval_ifft (by simp) i hi]
    have := Domain.fft_get d hp i hi
    rw [List.getElem?_eq_getElem (by simpa using hi)] at this
    exact Option.some.inj this

theorem Domain.Ok.peval_cosetIfft {d : Domain F} (h : d.Ok) {v : List F} (hv : v.length = d.size)
    (k : Nat) (hk : k < d.size) :
    peval (d.cosetIfft v) ((FftParams.gen : F) * d.element k) = v[k]'(hv ▸ hk) := by
  rw [Domain.cosetIfft, peval_distribute, ← mul_assoc, inv_mul_cancel₀ LawfulFft.gen_ne_zero, one_mul,
    one_mul, h.peval_ifft hv k hk]

theorem Domain.Ok.cosetFft_cosetIfft {d : Domain F} (h : d.Ok) {v : List F} (hv : v.length = d.size) :
    d.cosetFft (d.cosetIfft v) = v := by
  apply List.ext_getElem?
  intro i
  by_cases hi : i < d.size
  · rw [Domain.cosetFft_get d (by simp) i hi, h.peval_cosetIfft hv i hi]
    simp
  · rw [List.getElem?_eq_none (by simp; omega), List.getElem?_eq_none (by omega)]

/-- Interpolating on the coset recovers every polynomial small enough. -/
theorem Domain.Ok.toPoly_cosetIfft {d : Domain F} (h : d.Ok) {v : List F} (hv : v.length = d.size)
    {q : F[X]} (hq : q.degree < d.size)
    (he : ∀ i (hi : i < d.size), v[i]'(hv ▸ hi) = q.eval ((FftParams.gen : F) * d.element i)) :
    toPoly (d.cosetIfft v) = q := by
  apply h.poly_ext_coset
  · exact lt_of_lt_of_eq (degree_toPoly_lt _) (by simp)
  · exact hq
  · intro i hi
    rw [eval_toPoly, h.peval_cosetIfft hv i hi, he i hi]

theorem Domain.Ok.toPoly_cosetIfft_cosetFft {d : Domain F} (h : d.Ok) {p : List F}
    (hp : p.length ≤ d.size) : toPoly (d.cosetIfft (d.cosetFft p)) = toPoly p := by
  apply h.toPoly_cosetIfft (by simp)
  · exact lt_of_lt_of_le (degree_toPoly_lt _) (by exact_mod_cast hp)
  · intro i hi
    have := Domain.cosetFft_get d hp i hi
    rw [List.getElem?_eq_getElem (by simpa using hi)] at this
    rw [eval_toPoly]
    exact Option.some.inj this

/-! ### Vanishing polynomial -/

omit [FftParams F] [LawfulFft F] in
theorem toPoly_vanishing (d : Domain F) (h : 0 < d.size) : toPoly d.vanishing = X ^ d.size - 1 := by
  unfold Domain.vanishing
  obtain ⟨n, hn⟩ : ∃ n, d.size = n + 1 := ⟨d.size - 1, by omega⟩
  rw [hn, toPoly_cons, toPoly_append]
  simp
  ring

omit [LawfulFft F] in
omit [FftParams F] [LawfulFft F] in
theorem trim_append_ne [DecidableEq F] (p : List F) {c : F} (hc : c ≠ 0) : trim (p ++ [c]) = p ++ [c] := by
  induction p with
  | nil => simp [trim, hc]
  | cons a p ih =>
    rw [List.cons_append, trim_cons, ih]
    cases p <;> rfl

omit [FftParams F] [LawfulFft F] in
theorem trim_vanishing [DecidableEq F] (d : Domain F) : trim d.vanishing = d.vanishing := by
  have : d.vanishing = ((-1) :: List.replicate (d.size - 1) 0) ++ [1] := rfl
  rw [this]
  exact trim_append_ne _ one_ne_zero

theorem Domain.Ok.peval_vanishing {d : Domain F} (h : d.Ok) (x : F) :
    peval d.vanishing x = x ^ d.size - 1 := by
  rw [peval_eq_eval, toPoly_vanishing d h.size_pos]; simp

/-- A polynomial vanishing on the whole domain is divisible by `X^n - 1`. -/
theorem Domain.Ok.dvd_of_rows {d : Domain F} (h : d.Ok) {p : F[X]}
    (hp : ∀ i < d.size, p.eval (d.element i) = 0) : (X ^ d.size - 1 : F[X]) ∣ p := by
  have hm : (X ^ d.size - 1 : F[X]).Monic := monic_X_pow_sub_C 1 h.size_pos.ne'
  rw [← Polynomial.modByMonic_eq_zero_iff_dvd hm]
  apply h.poly_ext
  · have := degree_modByMonic_lt p hm
    have h2 : (X ^ d.size - 1 : F[X]).degree = d.size := by
      simpa using degree_X_pow_sub_C h.size_pos (1 : F)
    rwa [h2] at this
  · simp
  · intro i hi
    have h1 := congrArg (eval (d.element i)) (modByMonic_add_div p (X ^ d.size - 1 : F[X]))
    simp only [eval_add, eval_mul, eval_sub, eval_pow, eval_X, eval_one, h.element_pow, sub_self,
      zero_mul, add_zero, hp i hi] at h1
    simpa using h1

end
end ZK
