import Verif.Properties.ForgeAll
import Verif.Properties.PanicExamples
/-! C36: the toy circuit with one more gate, which no witness satisfies. It has an accepted proof. -/
set_option autoImplicit false
set_option linter.unusedSectionVars false
namespace ZK
open Polynomial MeasureTheory
namespace Toy

/-- The gates of the toy circuit and `a * a - 5`. -/
def vosFalse : List (GenericVO F97) := vos ++ [vo (.sum (.prod (.oracle qA) (.oracle qA)) (.neg (.const 5)))]

def keyFalse : Res (Err Unit) (VerifierKey S) :=
  indexer (S := S) (fun o => o.shouldPermute) () vosFalse [lookup] witness inst fixed dom dom.vanishing info 2

/-- Five is not a square, so no value satisfies the gate. -/
theorem no_root (a : F97) : a * a + -5 ≠ 0 := by
  revert a
  decide +kernel

theorem readyFalse {k : VerifierKey S} (hk : keyFalse = .ok k) : Ready dom.size k.index vpre (witness.map blank) vinst vosFalse := by
  obtain ⟨k0, hk0⟩ : ∃ k0, key = .ok k0 := by
    obtain ⟨k, p, h, -⟩ := of_holds (ws := witness) (P := fun _ _ => true) (by decide +kernel)
    exact ⟨k, h⟩
  have h0 := ready hk0
  obtain ⟨-, -, -, -, -, -, -, -, -, u0, d0, l0, -⟩ := indexer_ok dom_Ok hk0
  obtain ⟨-, -, -, -, -, -, -, m, -, u1, d1, l1, -⟩ := indexer_ok dom_Ok hk
  refine ⟨h0.rows, by simp [vosFalse], ?_, h0.labels, h0.rotations, h0.distinct, h0.copied, ?_, ?_, ?_⟩
  · intro v hv
    rcases List.mem_append.1 hv with hv | hv
    · exact h0.gates v hv
    · obtain rfl := List.mem_singleton.1 hv
      obtain ⟨e, he, hq⟩ := h0.gates (vo gate) (by simp [vos])
      obtain rfl : gate = e := Res.ok.inj he
      refine ⟨_, rfl, fun q h => hq q ?_⟩
      obtain rfl : q = qA := by simpa [Expr.queries] using h
      simp [gate, Expr.queries]
  · rw [u1, ← u0]
    exact h0.usable
  · intro h
    obtain ⟨g1, g2, -⟩ := h0.shape h
    refine ⟨g1, by rw [d1, ← d0]; exact g2, ?_⟩
    have := m (by decide +kernel)
    omega
  · rw [l1, ← l0]
    exact h0.lookups

theorem zero_opens (k : VerifierKey S) (x : F97) : S.check k.vk S.zero x 0 () = .ok true := by
  show (Res.ok (decide (peval [] x = 0)) : Res Unit Bool) = .ok true
  simp

/-- **C36** The proof with zero commitments is accepted for a circuit without a satisfying witness. -/
theorem acceptedFalse : ∃ k w, keyFalse = .ok k ∧
    verify S k vpre (zeroProof k.index vpre (witness.map blank) () w) (witness.map blank) vinst vosFalse dom.size dom.vanishing = .ok () := by
  have h : (match keyFalse with
    | .ok k => decide ((verifierChallenges S (zeroProof k.index vpre (witness.map blank) () 0)).1.xi ≠ 0 ∧
        peval dom.vanishing (verifierChallenges S (zeroProof k.index vpre (witness.map blank) () 0)).1.xi ≠ 0)
    | _ => false) = true := by decide +kernel
  split at h
  · next k hk =>
    obtain ⟨h1, h2⟩ := of_decide_eq_true h
    obtain ⟨w, hw⟩ := C36_accepted_for_every_circuit dom_Ok (readyFalse hk) dom.vanishing (zero_opens k) h1 h2
    exact ⟨k, w, hk, hw⟩
  · simp at h

/-- **C36** With a random oracle in place of the toy hash this fails with probability at most 5/97. -/
theorem acceptedFalseRandomOracle [MeasurableSpace F97] [DiscreteMeasurableSpace F97] : ∃ k, keyFalse = .ok k ∧
    randomOracle F97 {H | ¬ ∃ w, verify (S.hashing H) (k.hashing H) (vpre.hashing H)
      (zeroProof (S := S.hashing H) k.index (vpre.hashing H) (witness.map blank) () w) (witness.map blank) vinst vosFalse dom.size
      dom.vanishing = .ok ()} ≤ 5 / 97 := by
  obtain ⟨k, w, hk, -⟩ := acceptedFalse
  have hz : toPoly dom.vanishing = X ^ dom.size - 1 := toPoly_vanishing dom dom_Ok.size_pos
  have hdeg : (X ^ dom.size - 1 : F97[X]).natDegree = dom.size := natDegree_X_pow_sub_C (r := (1 : F97))
  have h := C36_accepted_with_random_oracle dom_Ok (readyFalse hk) dom.vanishing
    (by rw [hz]; exact X_pow_sub_C_ne_zero dom_Ok.size_pos 1) (zero_opens k)
  refine ⟨k, hk, h.trans (le_of_eq ?_)⟩
  rw [hz, hdeg, dom_size, show Fintype.card F97 = 97 from ZMod.card 97]
  norm_num

end Toy
end ZK
