import Mathlib.Data.List.GetD
import Mathlib.Algebra.Polynomial.Eval.Defs
import Mathlib.Algebra.Polynomial.Degree.Lemmas
import Mathlib.Algebra.Polynomial.Roots
import Mathlib.Algebra.Polynomial.Div
import Mathlib.Tactic.Ring
import Mathlib.Tactic.FieldSimp
import Mathlib.Tactic.LinearCombination
import Verif.Spec.Basic
import Verif.Lemmas.Res
/-! The coefficient-list polynomials of the model as Mathlib polynomials. -/
set_option autoImplicit false
namespace ZK
open Polynomial

section
variable {F : Type} [Field F]

@[simp] theorem toPoly_nil : toPoly ([] : List F) = 0 := rfl
@[simp] theorem toPoly_cons (c : F) (p : List F) : toPoly (c :: p) = C c + X * toPoly p := rfl
@[simp] theorem peval_nil (x : F) : peval [] x = 0 := rfl
@[simp] theorem peval_cons (c : F) (p : List F) (x : F) : peval (c :: p) x = c + x * peval p x := rfl

@[simp] theorem eval_toPoly (p : List F) (x : F) : (toPoly p).eval x = peval p x := by
  induction p with
  | nil => simp
  | cons c p ih => simp [ih]

theorem peval_eq_eval (p : List F) (x : F) : peval p x = (toPoly p).eval x := (eval_toPoly p x).symm

theorem coeff_toPoly (p : List F) (i : Nat) : (toPoly p).coeff i = p.getD i 0 := by
  induction p generalizing i with
  | nil => simp
  | cons c p ih =>
    cases i with
    | zero => simp
    | succ i => simp [ih]

theorem degree_toPoly_lt (p : List F) : (toPoly p).degree < p.length := by
  rw [degree_lt_iff_coeff_zero]
  intro m hm
  rw [coeff_toPoly, List.getD_eq_default _ _ hm]

theorem natDegree_toPoly_le (p : List F) : (toPoly p).natDegree ≤ p.length - 1 := by
  rw [natDegree_le_iff_coeff_eq_zero]
  intro m hm
  rw [coeff_toPoly, List.getD_eq_default]
  omega

theorem toPoly_append (p q : List F) : toPoly (p ++ q) = toPoly p + X ^ p.length * toPoly q := by
  induction p with
  | nil => simp
  | cons c p ih => simp [ih, pow_succ]; ring

theorem peval_append (p q : List F) (x : F) : peval (p ++ q) x = peval p x + x ^ p.length * peval q x := by
  rw [peval_eq_eval, toPoly_append]; simp

@[simp] theorem toPoly_replicate_zero (n : Nat) : toPoly (List.replicate n (0 : F)) = 0 := by
  induction n with
  | zero => rfl
  | succ n ih => simp [List.replicate_succ, ih]

@[simp] theorem peval_replicate_zero (n : Nat) (x : F) : peval (List.replicate n (0 : F)) x = 0 := by
  rw [peval_eq_eval]; simp

theorem toPoly_padd (p q : List F) : toPoly (padd p q) = toPoly p + toPoly q := by
  induction p generalizing q with
  | nil => simp [padd]
  | cons a p ih =>
    cases q with
    | nil => simp [padd]
    | cons b q => simp [padd, ih]; ring

theorem toPoly_pscale (c : F) (p : List F) : toPoly (pscale c p) = C c * toPoly p := by
  induction p with
  | nil => simp [pscale]
  | cons a p ih =>
    simp only [pscale, List.map_cons, toPoly_cons] at ih ⊢
    rw [ih]; simp; ring

theorem toPoly_pmul (p q : List F) : toPoly (pmul p q) = toPoly p * toPoly q := by
  induction p with
  | nil => simp [pmul]
  | cons a p ih => simp [pmul, toPoly_padd, toPoly_pscale, ih]; ring

section
variable [DecidableEq F]

theorem trim_cons (c : F) (p : List F) : trim (c :: p) =
    match trim p with
    | [] => if c = 0 then [] else [c]
    | b :: t => c :: b :: t := rfl

@[simp] theorem toPoly_trim (p : List F) : toPoly (trim p) = toPoly p := by
  induction p with
  | nil => rfl
  | cons c p ih =>
    rw [trim_cons]
    cases h : trim p with
    | nil =>
      rw [h] at ih
      by_cases hc : c = 0
      · simp [hc, ← ih]
      · simp [hc, ← ih]
    | cons b t =>
      rw [h] at ih
      simp only [toPoly_cons] at ih ⊢
      rw [← ih]

@[simp] theorem peval_trim (p : List F) (x : F) : peval (trim p) x = peval p x := by
  rw [peval_eq_eval, toPoly_trim, eval_toPoly]

theorem trim_length_le (p : List F) : (trim p).length ≤ p.length := by
  induction p with
  | nil => simp [trim]
  | cons c p ih =>
    rw [trim_cons]
    cases h : trim p with
    | nil => by_cases hc : c = 0 <;> simp [hc]
    | cons b t => rw [h] at ih; simpa using ih

/-- A trimmed list ends in a non-zero coefficient. -/
theorem trim_getLast (p : List F) (c : F) (h : (trim p).getLast? = some c) : c ≠ 0 := by
  induction p with
  | nil => simp [trim] at h
  | cons a p ih =>
    rw [trim_cons] at h
    cases ht : trim p with
    | nil =>
      rw [ht] at h
      by_cases ha : a = 0
      · simp [ha] at h
      · simp [ha] at h; exact h ▸ ha
    | cons b t =>
      rw [ht] at h ih
      apply ih
      simpa using h

theorem trim_trim (p : List F) : trim (trim p) = trim p := by
  induction p with
  | nil => rfl
  | cons c p ih =>
    rw [trim_cons]
    cases h : trim p with
    | nil =>
      by_cases hc : c = 0
      · simp [hc, trim]
      · simp [hc, trim_cons, show trim ([] : List F) = [] from rfl]
    | cons b t =>
      rw [h] at ih
      simp only
      rw [trim_cons, ih]

/-- Trimmed lists are determined by their polynomial. -/
theorem trim_eq_of_toPoly_eq {p q : List F} (h : toPoly p = toPoly q) : trim p = trim q := by
  induction p generalizing q with
  | nil =>
    induction q with
    | nil => rfl
    | cons b q ih =>
      have h0 : b = 0 := by
        have := congrArg (fun r => r.coeff 0) h
        simpa [coeff_toPoly] using this.symm
      have h1 : toPoly ([] : List F) = toPoly q := by
        subst h0
        have : X * toPoly q = 0 := by simpa using h.symm
        have h2 : toPoly q = 0 := by simpa using this
        rw [h2]; rfl
      rw [trim_cons, ← ih h1, h0]
      simp [trim]
  | cons a p ih =>
    cases q with
    | nil =>
      have h0 : a = 0 := by
        have := congrArg (fun r => r.coeff 0) h
        simpa [coeff_toPoly] using this
      have h1 : toPoly p = toPoly ([] : List F) := by
        subst h0
        have : X * toPoly p = 0 := by simpa using h
        simpa using this
      rw [trim_cons, ih h1, h0]
      simp [trim]
    | cons b q =>
      have h0 : a = b := by
        have := congrArg (fun r => r.coeff 0) h
        simpa [coeff_toPoly] using this
      have h1 : toPoly p = toPoly q := by
        subst h0
        have : X * toPoly p = X * toPoly q := by simpa using h
        exact mul_left_cancel₀ X_ne_zero this
      rw [trim_cons, trim_cons, ih h1, h0]

theorem trim_length_le_of_degree {p : List F} {n : Nat} (h : (toPoly p).degree < n) :
    (trim p).length ≤ n := by
  by_contra hc
  push Not at hc
  have hne : trim p ≠ [] := by intro h0; simp [h0] at hc
  have hl : (trim p).getLast? = some ((trim p).getLast hne) := List.getLast?_eq_some_getLast hne
  have hnz := trim_getLast p _ hl
  rw [← toPoly_trim p, degree_lt_iff_coeff_zero] at h
  have := h ((trim p).length - 1) (by omega)
  rw [coeff_toPoly, List.getD_eq_getElem _ _ (by omega), ← List.getLast_eq_getElem hne] at this
  exact hnz this

theorem pdegree_eq (p : List F) : pdegree p = (toPoly p).natDegree := by
  unfold pdegree
  by_cases hne : trim p = []
  · rw [← toPoly_trim p, hne]; simp
  · symm
    rw [← toPoly_trim p]
    apply natDegree_eq_of_le_of_coeff_ne_zero (natDegree_toPoly_le _)
    have hl : (trim p).getLast? = some ((trim p).getLast hne) := List.getLast?_eq_some_getLast hne
    have hnz := trim_getLast p _ hl
    have hp : 0 < (trim p).length := List.length_pos_iff.2 hne
    rw [coeff_toPoly, List.getD_eq_getElem _ _ (by omega), ← List.getLast_eq_getElem hne]
    exact hnz

@[simp] theorem toPoly_dadd (p q : List F) : toPoly (dadd p q) = toPoly p + toPoly q := by
  simp [dadd, toPoly_padd]
@[simp] theorem toPoly_dscale (c : F) (p : List F) : toPoly (dscale c p) = C c * toPoly p := by
  simp [dscale, toPoly_pscale]
@[simp] theorem toPoly_dmul (p q : List F) : toPoly (dmul p q) = toPoly p * toPoly q := by
  simp [dmul, toPoly_pmul]

end

theorem toPoly_zipWith_sub (t : F) (p q : List F) (h : p.length = q.length) :
    toPoly (List.zipWith (fun a b => a - t * b) p q) = toPoly p - C t * toPoly q := by
  induction p generalizing q with
  | nil => cases q <;> simp at h ⊢
  | cons a p ih =>
    cases q with
    | nil => simp at h
    | cons b q =>
      simp only [List.length_cons, Nat.add_right_cancel_iff] at h
      simp [ih q h]; ring

theorem divModAux_spec (dlow : List F) (lead : F) (hl : lead ≠ 0) (p : List F) :
    toPoly p = toPoly (divModAux dlow lead⁻¹ p).1 * toPoly (dlow ++ [lead])
      + toPoly (divModAux dlow lead⁻¹ p).2 ∧ (divModAux dlow lead⁻¹ p).2.length = dlow.length := by
  induction p with
  | nil =>
    simp only [divModAux, toPoly_nil, zero_mul, zero_add, List.length_map, and_true]
    have : dlow.map (fun _ => (0 : F)) = List.replicate dlow.length 0 := by simp
    rw [this, toPoly_replicate_zero]
  | cons c cs ih =>
    obtain ⟨ih1, ih2⟩ := ih
    simp only [divModAux]
    set q := (divModAux dlow lead⁻¹ cs).1
    set r := (divModAux dlow lead⁻¹ cs).2
    have hr : (c :: r) ≠ [] := by simp
    set top := (c :: r).getLast?.getD 0
    set t := top * lead⁻¹
    have hlen : (c :: r).length = dlow.length + 1 := by simp [ih2]
    have hsplit : c :: r = (c :: r).dropLast ++ [top] := by
      have : top = (c :: r).getLast hr := by
        simp only [top, List.getLast?_eq_some_getLast hr, Option.getD_some]
      rw [this, List.dropLast_append_getLast]
    have hz : List.zipWith (fun a b => a - t * b) (c :: r) dlow
        = List.zipWith (fun a b => a - t * b) (c :: r).dropLast dlow := by
      have hl' : (c :: r).dropLast.length = dlow.length := by simp [ih2]
      conv_lhs => rw [hsplit, ← List.append_nil dlow]
      rw [List.zipWith_append hl']; simp
    have hdl : (c :: r).dropLast.length = dlow.length := by simp [ih2]
    constructor
    · rw [hz, toPoly_zipWith_sub _ _ _ hdl]
      have h1 : toPoly (c :: r) = toPoly (c :: r).dropLast + X ^ dlow.length * C top := by
        conv_lhs => rw [hsplit, toPoly_append, hdl]
        simp
      have h2 : C c + X * toPoly r = toPoly (c :: r).dropLast + X ^ dlow.length * C top := by
        rw [← h1]; simp
      have h3 : toPoly (dlow ++ [lead]) = toPoly dlow + X ^ dlow.length * C lead := by
        rw [toPoly_append]; simp
      have h4 : (C top : F[X]) = C t * C lead := by
        rw [← C_mul]; congr 1; simp only [t]; field_simp
      simp only [toPoly_cons]
      rw [h3] at ih1 ⊢
      rw [ih1]
      linear_combination h2 + X ^ dlow.length * h4
    · rw [hz, List.length_zipWith, hdl]; simp

/-- Division with remainder: quotient of the model's division. -/
theorem pdiv_spec {ε : Type} [DecidableEq F] {p d : List F} {q : List F}
    (h : (pdiv p d : Res ε (List F)) = .ok q) :
    ∃ r : F[X], toPoly p = toPoly q * toPoly d + r ∧ r.degree < (toPoly d).degree := by
  unfold pdiv at h
  cases hd : (trim d).getLast? with
  | none => simp [hd] at h
  | some lead =>
    simp only [hd, Res.ok.injEq] at h
    subst h
    have hl := trim_getLast d lead hd
    obtain ⟨h1, h2⟩ := divModAux_spec (trim d).dropLast lead hl p
    have hne : trim d ≠ [] := by intro h0; simp [h0] at hd
    have hd2 : (trim d).dropLast ++ [lead] = trim d := by
      rw [List.getLast?_eq_some_getLast hne] at hd
      have := Option.some.inj hd
      rw [← this, List.dropLast_append_getLast]
    refine ⟨toPoly (divModAux (trim d).dropLast lead⁻¹ p).2, ?_, ?_⟩
    · rw [hd2] at h1
      rw [toPoly_trim, ← toPoly_trim d]
      exact h1
    · refine lt_of_lt_of_le (degree_toPoly_lt _) ?_
      rw [h2, ← toPoly_trim d]
      have hlen : (trim d).dropLast.length = (trim d).length - 1 := by simp
      have hp : 0 < (trim d).length := List.length_pos_iff.2 hne
      rw [hlen]
      apply le_degree_of_ne_zero
      rw [coeff_toPoly, List.getD_eq_getElem _ _ (by omega)]
      rw [List.getLast?_eq_some_getLast hne] at hd
      have := Option.some.inj hd
      rw [← List.getLast_eq_getElem hne, this]
      exact hl

end
end ZK
