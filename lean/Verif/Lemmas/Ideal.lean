import Verif.Spec.Scheme
import Verif.Lemmas.Poly
import Verif.Lemmas.Res
/-! The ideal scheme is a correct homomorphic and binding commitment scheme. -/
set_option autoImplicit false
namespace ZK
open Polynomial

section
variable {F : Type} [Field F] [DecidableEq F]

/-- The list of coefficients of a polynomial. -/
noncomputable def coeffs (p : F[X]) : List F := trim ((List.range (p.natDegree + 1)).map p.coeff)

theorem toPoly_coeffs (p : F[X]) : toPoly (coeffs p) = p := by
  unfold coeffs
  rw [toPoly_trim]
  ext n
  rw [coeff_toPoly, List.getD_eq_getElem?_getD, List.getElem?_map]
  by_cases h : n < p.natDegree + 1
  · rw [List.getElem?_range h]; rfl
  · rw [List.getElem?_eq_none (by simpa using h)]
    simp only [Option.map_none, Option.getD_none]
    exact (coeff_eq_zero_of_natDegree_lt (by omega)).symm

theorem coeffs_toPoly (l : List F) : coeffs (toPoly l) = trim l := by
  have h := trim_eq_of_toPoly_eq (toPoly_coeffs (toPoly l))
  rw [← h]
  unfold coeffs
  exact (trim_eq_of_toPoly_eq (toPoly_trim _)).symm

theorem ideal_homomorphic (chal : List Nat → F) (encF : F → List Nat) :
    HomomorphicScheme (idealScheme chal encF) () () (fun p _ => coeffs p) where
  commit := by
    intro ps z cs z' h
    obtain ⟨rfl, _⟩ := Prod.mk.inj (Res.ok.inj h)
    clear h
    induction ps with
    | nil => exact List.Forall₂.nil
    | cons p ps ih => exact List.Forall₂.cons (coeffs_toPoly _).symm ih
  zero := by
    have := coeffs_toPoly ([] : List F)
    exact this.symm
  add := by
    intro p q r s
    show trim (padd (coeffs p) (coeffs q)) = coeffs (p + q)
    rw [← coeffs_toPoly, toPoly_padd, toPoly_coeffs, toPoly_coeffs]
  scale := by
    intro p r k
    show trim (pscale k (coeffs p)) = coeffs (C k * p)
    rw [← coeffs_toPoly, toPoly_pscale, toPoly_coeffs]
  opens := by
    intro p cs x r pf _ _
    show (Res.ok (decide (peval (coeffs (toPoly p.poly)) x = (toPoly p.poly).eval x)) : Res Unit Bool) = .ok true
    rw [peval_eq_eval, toPoly_coeffs]
    simp

theorem ideal_binding (chal : List Nat → F) (encF : F → List Nat) :
    Binding (idealScheme chal encF) () (fun p _ => coeffs p) := by
  intro p r x v pf h
  have h := Res.ok.inj h
  rw [peval_eq_eval, toPoly_coeffs] at h
  simpa using h

end
end ZK
