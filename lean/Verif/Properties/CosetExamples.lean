import Verif.Properties.Coset
import Verif.Properties.FiatShamirExamples
/-! C69: the toy circuit with a witness that violates its first gate. -/
set_option autoImplicit false
set_option linter.unusedSectionVars false
namespace ZK
open Polynomial
namespace Toy

/-- In row 1 the first gate reads `4 * 7 - 26 + 5 = 7`. The last cell of the second column is a random row. -/
def wrong (t : F97) : List (ProverOracle F97) := wit [7, 4, 11, 4] [8, 7, 2, t] [56, 26, 9, 2]

theorem wrong_gates {t : F97} (ht : t = 0 ∨ t = 6) : ¬ GatesHold dom ⟨wrong t, inst, fixed, table⟩ vos (toPoly dom.vanishing) := by
  obtain ⟨k, -, hk, -⟩ := honest
  have hs := supportedOf hk (a := [7, 4, 11, 4]) (b := [8, 7, 2, t]) (c := [56, 26, 9, 2]) rfl rfl rfl
  intro h
  have hm : mockProve (ε := Unit) (⟨wrong t, inst, fixed, table⟩ : ProverView F97) vos dom.size = .ok () := by
    refine (C43_mock_prover _ vos dom.size dom dom_Ok.new_self ?_).2 ?_
    · intro ty o ho
      refine (hs.columns o ?_).1
      cases ty <;> simp only [ProverView.oracles, wrong] at ho <;> simp [viewOf, ho]
    · intro i hi vo hvo
      obtain ⟨e, cell, h1, h2, -⟩ := gatePoly_cells dom_Ok hs.toSupportedShape hvo i
      refine ⟨e, cell, h1, h2, h vo hvo e (getExpression_eq_ok.2 h1) i hi ?_ cell h2⟩
      rw [toPoly_vanishing dom dom_Ok.size_pos, eval_sub, eval_pow, eval_X, eval_one, ← pow_mul, mul_comm i, pow_mul,
        dom_Ok.prim.pow_eq_one, one_pow, sub_self]
  revert hm
  rw [dom_size]
  rcases ht with rfl | rfl <;> decide +kernel

/-- For one choice of the random row the verifier accepts the proof of a violated gate, for another one it rejects it because of the quotient. -/
theorem anyWitness : ∃ k p p', key = .ok k ∧
    (∀ t : F97, t = 0 ∨ t = 6 → ¬ GatesHold dom ⟨wrong t, inst, fixed, table⟩ vos (toPoly dom.vanishing)) ∧
    proveWith k (wrong 6) = .ok p ∧ verify S k vpre p (witness.map blank) vinst vos dom.size dom.vanishing = .ok () ∧
    proveWith k (wrong 0) = .ok p' ∧ verify S k vpre p' (witness.map blank) vinst vos dom.size dom.vanishing = .err .quotientNotZero := by
  obtain ⟨k, p, hk, hp, h⟩ := of_holds (ws := wrong 6) (P := fun k p => decide ((verifierChallenges S p).1.xi = 5 ∧
    goodX3 p = true ∧ (5 : F97) = FftParams.gen * k.index.ext.element 0)) (by decide +kernel)
  obtain ⟨hxi, hx3, he⟩ := of_decide_eq_true h
  obtain ⟨k', p', hk', hpp, h'⟩ := of_holds (ws := wrong 0) (P := fun k p => match verifyWith k vinst p with
    | .err .quotientNotZero => true
    | _ => false) (by decide +kernel)
  obtain rfl : k = k' := Res.ok.inj (hk.symm.trans hk')
  have hv : verifyWith k vinst p' = .err .quotientNotZero := by
    revert h'
    split
    · intro _; assumption
    · simp
  have hz : toPoly dom.vanishing = X ^ dom.size - 1 := toPoly_vanishing dom dom_Ok.size_pos
  have hbl := blank_same (wrong 6)
  unfold wrong at hbl
  rw [wit_blank] at hbl
  obtain ⟨-, -, h3⟩ := C69_any_witness (pk := ⟨k, ()⟩) (vws := witness.map blank) (ideal_homomorphic _ _)
    (fun p q _ _ h => by rw [← toPoly_coeffs p, ← toPoly_coeffs q]; exact congrArg toPoly h)
    dom_Ok (by rw [dom_size]; norm_num) hk (by decide +kernel) (by rw [hz]) (Or.inl hz) (supportedOf hk rfl rfl rfl)
    ⟨hbl, setUp.inst, setUp.fixed, setUp.table, setUp.perm, setUp.qBlind⟩ (z := ()) (by rw [dom_size]; exact hp)
  refine ⟨k, p, p', hk, fun _ => wrong_gates, hp, (h3 (ne_of_goodX3 hx3)).2 ⟨0, by rw [ext_size hk]; norm_num, hxi.trans he⟩, hpp, ?_⟩
  rw [dom_size]; exact hv

end Toy
end ZK
