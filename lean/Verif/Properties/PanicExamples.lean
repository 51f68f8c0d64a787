import Verif.Properties.Panic
import Verif.Properties.SuccessExamples
/-! The hypotheses of C65 are met by the toy circuit, and its verifier panics on a proof from which a value has been removed. -/
set_option autoImplicit false
set_option linter.unusedSectionVars false
namespace ZK
namespace Toy

/-- The verifier of the toy circuit is ready. -/
theorem ready {k : VerifierKey S} (hk : key = .ok k) : Ready dom.size k.index vpre (witness.map blank) vinst vos :=
  .of_setUp (supported hk) (provable hk) setUp (by rw [dom_size]; decide)

/-- **C65** is false: the honest proof of the toy circuit is accepted, and without its last evaluation of a witness column, or
with one more evaluation of a grand product, it makes the verifier panic. -/
theorem C65_false : ∃ k p, key = .ok k ∧ proveWith k witness = .ok p ∧ verifyWith k vinst p = .ok () ∧
    verifyWith k vinst { p with witnessEvals := p.witnessEvals.dropLast } = .panic ∧
    verifyWith k vinst { p with zEvals := p.zEvals ++ [0] } = .panic := by
  obtain ⟨k, p, h1, h2, h3⟩ := of_holds (ws := witness)
    (P := fun k p => decide (verifyWith k vinst p = .ok () ∧
      verifyWith k vinst { p with witnessEvals := p.witnessEvals.dropLast } = .panic ∧
      verifyWith k vinst { p with zEvals := p.zEvals ++ [0] } = .panic)) (by decide +kernel)
  have h3 := of_decide_eq_true h3
  exact ⟨k, p, h1, h2, h3.1, h3.2.1, h3.2.2⟩

theorem check_no_panic (k : VerifierKey S) (c : S.Comm) (x y : F97) (pf : S.Proof) : S.check k.vk c x y pf ≠ .panic := by
  show (Res.ok _ : Res Unit Bool) ≠ .panic
  simp

/-- The hypotheses of `C65_no_panic_partial` are met by the honest proof. -/
example : ∃ k p ch t x1 x2 x3 x4, key = .ok k ∧ proveWith k witness = .ok p ∧
    Ready dom.size k.index vpre (witness.map blank) vinst vos ∧ WellShaped k.index vpre (witness.map blank) p ∧
    verifierChallenges S p = (ch, t) ∧ ch.xi ≠ 0 ∧ mpChallenges S p.multiopen t = (x1, x2, x3, x4) ∧
    ∀ j : ℤ, x3 ≠ ch.xi * dom.omega ^ j := by
  obtain ⟨k, p, h1, h2, h3⟩ := of_holds (ws := witness)
    (P := fun k p => decide (verifyWith k vinst p = .ok () ∧ (verifierChallenges S p).1.xi ≠ 0 ∧
      (mpChallenges S p.multiopen (verifierChallenges S p).2).2.2.1 ^ 4 ≠ (verifierChallenges S p).1.xi ^ 4)) (by decide +kernel)
  obtain ⟨g1, g2, g3⟩ := of_decide_eq_true h3
  obtain ⟨st, hst, _⟩ := verify_inv.1 g1
  refine ⟨k, p, _, _, _, _, _, _, h1, h2, ready h1, wellShaped_of_register hst, rfl, g2, rfl, ?_⟩
  intro j hj
  refine g3 ?_
  have hj : (mpChallenges S p.multiopen (verifierChallenges S p).2).2.2.1 = (verifierChallenges S p).1.xi * dom.omega ^ j := hj
  rw [hj, mul_pow, ← zpow_natCast (dom.omega ^ j), ← zpow_mul, mul_comm j, zpow_mul, zpow_natCast]
  have : dom.omega ^ 4 = 1 := by decide +kernel
  rw [this, one_zpow, mul_one]

end Toy
end ZK
