import Verif.Lemmas.Ideal
import Verif.Properties.RealSound
/-! C83: a scheme, columns and provers the bound for `copy_plonk` applies to. -/
set_option autoImplicit false
set_option linter.unusedSectionVars false
open Polynomial
namespace ZK
namespace Fr381

/-- Commitments are the coefficients. -/
noncomputable def ideal (chal : List Nat → Fr) : Scheme Fr := idealScheme chal (fun _ => [])

noncomputable def idealCom (chal : List Nat → Fr) : Fr[X] → (ideal chal).Rand → (ideal chal).Comm := fun p _ => coeffs p

/-- A prover that makes its grand products, the quotient, `f` and the values `q` from the challenges. -/
noncomputable def guesser (chal : List Nat → Fr) (ws : List Fr[X]) : Strategy (ideal chal) where
  lookups _ := []
  products cs := [C (cs.getD 0 0), C (cs.getD 1 0), C (cs.getD 2 0)]
  lookupProducts _ := []
  quotient cs := [C (cs.getD 3 0), C (cs.getD 3 0)]
  claims cs := {
    witnessCommitments := ws.map coeffs
    witnessEvals := [0, 0, 0]
    fixedEvals := [0, 0, 0, 0, 0]
    tableEvals := []
    permEvals := [0, 0, 0]
    qBlindEval := 0
    lookupCommitments := []
    lookupZCommitments := []
    lookupEvals := []
    lookupZEvals := []
    zCommitments := [coeffs (C (cs.getD 0 0)), coeffs (C (cs.getD 1 0)), coeffs (C (cs.getD 2 0))]
    zEvals := [cs.getD 0 0, cs.getD 0 0, cs.getD 0 0, cs.getD 1 0, cs.getD 1 0, cs.getD 1 0, cs.getD 2 0, cs.getD 2 0]
    quotientCommitments := [coeffs (C (cs.getD 3 0)), coeffs (C (cs.getD 3 0))]
    quotientEvals := [cs.getD 3 0, cs.getD 3 0]
    multiopen := ⟨[], [], ()⟩ }
  f cs := (C (cs.getD 6 0), ())
  q cs := [cs.getD 7 0, 1, 2, 3]
  opening _ := ()

/-- Columns of ones. -/
def ones : List Fr := List.replicate 16 1

/-- The circuit with columns for the wrong root `x = 1`. -/
noncomputable abbrev wrong : CircuitTest Fr := copyPlonkCircuit (dom 4) ones ones ones

theorem C_degree (a : Fr) : (C a : Fr[X]).degree < (16 : Nat) := lt_of_le_of_lt degree_C_le (by norm_num)

open Classical in
/-- The theorem applies to the ideal scheme and the columns of a wrong root. This prover obeys the rules, and nobody who does is
accepted for more than the fraction `161 / r` of the challenges from the whole field. -/
example (chal : List Nat → Fr) : ∃ c' key, configureAll wrong.calls (wrong.verifier (ideal chal) (idealCom chal) (dom 4)) [] = .ok c' ∧
      (guesser chal ([ones, ones, ones].map (fun c => toPoly ((dom 4).ifft c)))).Legal (idealCom chal) 16 2 key ⟨c'.oracles.fixed, c'.tables,
          wrong.sigmas.map (CircuitTest.handleCurr (ideal chal) (idealCom chal) (dom 4)),
          CircuitTest.handleCurr (ideal chal) (idealCom chal) (dom 4) (bytes "q_blind", wrong.selector)⟩
          c'.oracles.witness c'.oracles.inst 16 ([ones, ones, ones].map (fun c => toPoly ((dom 4).ifft c))) ∧
      ∀ P : Strategy (ideal chal), P.Legal (idealCom chal) 16 2 key ⟨c'.oracles.fixed, c'.tables,
          wrong.sigmas.map (CircuitTest.handleCurr (ideal chal) (idealCom chal) (dom 4)),
          CircuitTest.handleCurr (ideal chal) (idealCom chal) (dom 4) (bytes "q_blind", wrong.selector)⟩
          c'.oracles.witness c'.oracles.inst 16 ([ones, ones, ones].map (fun c => toPoly ((dom 4).ifft c))) →
        ((Fintype.piFinset fun _ : Fin 9 => (Finset.univ : Finset Fr)).filter (fun x =>
          runCircuitVerifier ((ideal chal).answering (List.ofFn x)) () () (dom 4) wrong
            ((P.proof (idealCom chal) x).answering _) = .ok ())).card
        ≤ 161 * r ^ 8 := by
  have hroot : ones.getD 0 0 ^ 3 + 2 * ones.getD 0 0 + 12 ≠ 0 := by
    show (1 : Fr) ^ 3 + 2 * 1 + 12 ≠ 0
    intro h
    have h' : (15 : Fr) = 0 := by linear_combination h
    have h : ((15 : Nat) : ZMod r) = 0 := by exact_mod_cast h'
    rw [ZMod.natCast_eq_zero_iff] at h
    exact absurd (Nat.le_of_dvd (by norm_num) h) (by decide +kernel)
  obtain ⟨c', key, h1, h2, h3⟩ := C83_copy_plonk (S := ideal chal) (ck := ()) (vk := ()) (com := idealCom chal) (a := ones) (b := ones)
    (c := ones) (ideal_homomorphic _ _)
    (fun p cs h => by
      obtain rfl := Res.ok.inj h
      exact congrArg (· :: []) (coeffs_toPoly _).symm) (ideal_binding _ _)
    (fun p q _ _ h => by rw [← toPoly_coeffs p, ← toPoly_coeffs q]; exact congrArg toPoly h)
    ⟨fun ps z _ => ⟨_, rfl⟩, fun p _ => ⟨_, rfl⟩, fun p cs x r _ _ => ⟨_, rfl⟩⟩ rfl rfl rfl hroot
  refine ⟨c', key, h1, ?_, fun P hP => ?_⟩
  · have hu := (indexer_ok (dom_ok (by norm_num)) h2).2.2.2.2.2.2.2.2.2.1
    constructor
    · intro cs p hp; cases hp
    · intro cs p hp
      simp only [guesser, List.mem_cons, List.not_mem_nil, or_false] at hp
      rcases hp with rfl | rfl | rfl <;> exact C_degree _
    · intro cs p hp; cases hp
    · intro cs p hp
      simp only [guesser, List.mem_cons, List.not_mem_nil, or_false] at hp
      rcases hp with rfl | rfl <;> exact C_degree _
    · intro cs; exact le_rfl
    · intro cs; exact C_degree _
    · intro theta beta gamma alpha xi
      refine ⟨?_, .nil, ?_, .nil, ?_⟩
      · exact List.forall₂_map_right_iff.2 (List.forall₂_same.2 (fun p _ => ⟨(), rfl⟩))
      · exact .cons ⟨(), rfl⟩ (.cons ⟨(), rfl⟩ (.cons ⟨(), rfl⟩ .nil))
      · exact .cons ⟨(), rfl⟩ (.cons ⟨(), rfl⟩ .nil)
    · intro _ _ _ _ _ _ _ _ st hst
      obtain ⟨dd, hreg⟩ := verifyRegister_iff.1 hst
      have hR := distinctRotations_le (fun o ho => hreg.rotations ho)
      have hsets := copyPlonk_rotationSets h1 (bytes "q_blind", wrong.selector)
      rw [hu] at hR
      have h4 : (List.replicate 12 [Rotation.curr] ++ [setExtend [] [Rotation.curr], setExtend [] [Rotation.curr, Rotation.prev],
        setExtend [] [Rotation.curr, Rotation.next],
        setInsert (⟨8, .plus⟩ : Rotation) (setExtend [] [Rotation.curr, Rotation.next])]).toFinset.card = 4 := by decide +kernel
      exact hR.trans (le_of_eq ((congrArg Finset.card hsets).trans h4))
  · have h := h3 2 P hP Finset.univ
    rw [Finset.card_univ, card_fr] at h
    exact h

end Fr381
end ZK
