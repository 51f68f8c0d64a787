import Verif.Spec.Quotient
import Verif.Properties.Indexer
/-! C15: evaluation of an oracle from its row values. -/
set_option autoImplicit false
set_option linter.unusedSectionVars false
namespace ZK
open Polynomial

section
variable {F : Type} [Field F]

theorem foldl_zip_range (f : Nat → F) (v : List F) (s : Nat) (acc : F) :
    (List.zip v ((List.range' s v.length).map f)).foldl (fun acc p => acc + p.1 * p.2) acc
      = acc + ∑ i ∈ Finset.range v.length, v.getD i 0 * f (s + i) := by
  induction v generalizing s acc with
  | nil => simp
  | cons a v ih =>
    rw [List.length_cons, List.range'_succ, List.map_cons, List.zip_cons_cons, List.foldl_cons, ih,
      Finset.sum_range_succ', add_assoc]
    congr 1
    simp only [List.getD_cons_zero, List.getD_cons_succ, Nat.add_zero]
    rw [add_comm]
    congr 1
    exact Finset.sum_congr rfl fun i _ => by rw [add_assoc, add_comm 1 i]

variable [DecidableEq F] [FftParams F] [LawfulFft F]

/-- **C15** `query_in_evals_form`: an oracle whose polynomial has the row values of the oracle is evaluated at any point `x`
by adding up the row values, each times the value at `x` of the polynomial that is one on this row and zero on the others. -/
theorem C15_evals_form {d : Domain F} (hd : d.Ok) {o : ProverOracle F} (hl : o.evals.length = d.size)
    (hp : o.poly.length ≤ d.size) (hv : ∀ i < d.size, o.query (d.element i) = o.evals.getD i 0) (x : F) :
    o.queryEvalsForm ((List.range d.size).map fun i => (rowPoly d i).eval x) = o.query x := by
  have hinj : Set.InjOn (fun k => d.omega ^ k) (Finset.range d.size : Set Nat) := by
    intro a ha b hb hab
    simp only [Finset.coe_range, Set.mem_Iio] at ha hb
    exact hd.element_inj ha hb hab
  have hdeg : (toPoly o.poly).degree < (Finset.range d.size).card := by
    rw [Finset.card_range]
    exact lt_of_lt_of_le (degree_toPoly_lt _) (by exact_mod_cast hp)
  have he := Lagrange.eq_interpolate hinj hdeg
  unfold ProverOracle.queryEvalsForm
  rw [← hl, List.range_eq_range', foldl_zip_range, zero_add]
  show _ = peval o.poly x
  rw [peval_eq_eval]
  conv_rhs => rw [he]
  rw [Lagrange.interpolate_apply, eval_finset_sum, hl]
  refine Finset.sum_congr rfl fun i hi => ?_
  have h := hv i (Finset.mem_range.1 hi)
  unfold ProverOracle.query at h
  rw [peval_eq_eval] at h
  rw [eval_mul, eval_C, ← h, Nat.zero_add]
  rfl

/-- The oracles made from row values satisfy these conditions. -/
theorem C15_evals_form_of_evals {d e : Domain F} (hd : d.Ok) (he : e.Ok) (hle : d.size ≤ e.size) (l : Label) {v : List F}
    (hl : v.length = d.size) (x : F) :
    (ProverOracle.fromEvalsAndDomains l v d e).queryEvalsForm ((List.range d.size).map fun i => (rowPoly d i).eval x)
      = (ProverOracle.fromEvalsAndDomains l v d e).query x := by
  obtain ⟨-, -, -, h⟩ := C15_round_trips hd he
  obtain ⟨h1, h2, -⟩ := h l v hl hle
  refine C15_evals_form hd (by rw [h1, hl]) ?_ (by rwa [h1]) x
  show (trim (d.ifft v)).length ≤ _
  exact (trim_length_le _).trans (by simp [Domain.ifft])

end

/-- Four rows, evaluated at 5 with the values of the four row polynomials there. -/
example : ((ProverOracle.fromEvalsAndDomains (bytes "q") [1, 2, 3, 4] (F97.dom 2) (F97.dom 4)).query 5 : F97) ≠ 0 ∧
    (F97.dom 2).Ok ∧ (F97.dom 4).Ok := ⟨by decide +kernel, F97.dom_ok (by decide), F97.dom_ok (by decide)⟩

end ZK
