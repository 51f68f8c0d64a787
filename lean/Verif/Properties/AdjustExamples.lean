import Verif.Properties.Adjust
/-! C61 on a circuit which no witness satisfies. -/
set_option autoImplicit false
set_option linter.unusedSectionVars false
namespace ZK
namespace Toy

/-- The prover of the code, run for a witness that violates a gate. -/
def proveBad (k : VerifierKey S) : Res (Err Unit) (TPProof S) := prove S ⟨k, ()⟩ (pre k) witness inst vosBad 4 ()

/-- The proof with two numbers changed. -/
def adjustBad (k : VerifierKey S) (p : TPProof S) : TPProof S :=
  let ch := verifierChallenges S p
  let x1 := (mpChallenges S p.multiopen ch.2).1
  match verifyRegister S k vpre p (witness.map blank) vinst 4 ch.1 with
  | .ok st => match quotientCheckValue S k st vinst vosBad 4 dom.vanishing ch.1 with
    | .ok e => adjust p x1 (e / ((ch.1.xi ^ 4 - x1) * peval dom.vanishing ch.1.xi))
    | _ => p
  | _ => p

def sets (k : VerifierKey S) (p : TPProof S) : Option Nat :=
  match verifyRegister S k vpre p (witness.map blank) vinst 4 (verifierChallenges S p).1 with
  | .ok st => some (distinctRotations st.oracles)
  | _ => none

def adjustedAccepted : Bool :=
  match keyBad with
  | .ok k => match proveBad k with
    | .ok p => decide (verifyBad k p = .err .quotientNotZero ∧ verifyBad k (adjustBad k p) = .ok () ∧
        sets k (adjustBad k p) = some p.multiopen.qEvals.length)
    | _ => false
  | _ => false

theorem adjustedAccepted_eq : adjustedAccepted = true := by decide +kernel

end Toy

/-- **C61** is false. The circuit requires `b[1] = 7` and `b[1] = 8` at the same time, so no witness satisfies it. The proof
the prover returns for some witness is rejected; with two numbers in it changed it is accepted, and it has one `q`
evaluation for each opening set. -/
theorem C61_false : (∀ σ : OracleQuery → F97, σ ⟨[7], .curr, .fixed⟩ = 1 →
      ¬ ((Toy.gateNext.evalR (fun q => (.ok (σ q) : Res PiopErr F97)) = .ok 0) ∧
        Toy.gateNext8.evalR (fun q => (.ok (σ q) : Res PiopErr F97)) = .ok 0)) ∧
    (∀ o ∈ Toy.fixed, o.label = [7] → o.evals[0]? = some 1) ∧
    ∃ k p, Toy.keyBad = .ok k ∧ Toy.proveBad k = .ok p ∧ Toy.verifyBad k p ≠ .ok () ∧
      ∃ p' st, Toy.verifyBad k p' = .ok () ∧ p' = { p with quotientEvals := p'.quotientEvals } ∧
        verifyRegister Toy.S k Toy.vpre p' (Toy.witness.map Toy.blank) Toy.vinst 4 (verifierChallenges Toy.S p').1 = .ok st ∧
        p'.multiopen.qEvals.length = distinctRotations st.oracles := by
  refine ⟨C36_false.1, C36_false.2.1, ?_⟩
  have h := Toy.adjustedAccepted_eq
  unfold Toy.adjustedAccepted at h
  split at h
  · rename_i k hk
    split at h
    · rename_i p hp
      obtain ⟨h1, h2, h3⟩ := of_decide_eq_true h
      have hk' : ∃ es, Toy.adjustBad k p = { p with quotientEvals := es } := by
        unfold Toy.adjustBad
        simp only
        split
        · split
          · exact ⟨_, rfl⟩
          · exact ⟨p.quotientEvals, rfl⟩
        · exact ⟨p.quotientEvals, rfl⟩
      obtain ⟨es, hes⟩ := hk'
      refine ⟨k, p, hk, hp, by rw [h1]; simp, Toy.adjustBad k p, ?_⟩
      unfold Toy.sets at h3
      split at h3
      · rename_i st hst
        refine ⟨st, h2, by rw [hes], hst, ?_⟩
        have := Option.some.inj h3
        rw [hes]
        exact this.symm
      · simp at h3
    · simp at h
  · simp at h

end ZK
