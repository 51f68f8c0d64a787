import Verif.Properties.GateSound
import Verif.Properties.RealSoundExamples
/-! C95: a scheme, columns and provers the bound for `test_simple_mul` applies to. -/
set_option autoImplicit false
set_option linter.unusedSectionVars false
open Polynomial
namespace ZK
namespace Fr381

/-- A prover that makes the quotient, `f` and the values `q` from the challenges. -/
noncomputable def mulGuesser (chal : List Nat → Fr) (ws : List Fr[X]) : Strategy (ideal chal) where
  lookups _ := []
  products _ := []
  lookupProducts _ := []
  quotient cs := [C (cs.getD 3 0)]
  claims cs := {
    witnessCommitments := ws.map coeffs
    witnessEvals := [1, 1]
    fixedEvals := []
    tableEvals := []
    permEvals := []
    qBlindEval := 0
    lookupCommitments := []
    lookupZCommitments := []
    lookupEvals := []
    lookupZEvals := []
    zCommitments := []
    zEvals := []
    quotientCommitments := [coeffs (C (cs.getD 3 0))]
    quotientEvals := [cs.getD 3 0]
    multiopen := ⟨[], [], ()⟩ }
  f cs := (C (cs.getD 6 0), ())
  q cs := [cs.getD 7 0, 1, 2, 3]
  opening _ := ()

/-- A column of zeros, which is not the product of two columns of ones. -/
def zeros : List Fr := List.replicate 16 0

open Classical in
/-- The sixteen rows of the test, with `0` as the product of `1` and `1`. This prover obeys the rules, and nobody who does is accepted for more
than the fraction `91 / r` of the challenges from the whole field. -/
example (chal : List Nat → Fr) : ∃ vo s key, (GenericVO.init (Gates.mul (F := Fr))).configure
        (TestColumns.verifier (ideal chal) (idealCom chal) (dom 4) ⟨[(bytes "a", ones), (bytes "b", ones)], [(bytes "c", zeros)], []⟩)
          = .ok (vo, s) ∧
      (mulGuesser chal ([ones, ones].map (fun c => toPoly ((dom 4).ifft c)))).Legal (idealCom chal) 16 1 key
        (.newWoBlind (ideal chal) s.fixed [] []) s.witness s.inst 16 ([ones, ones].map (fun c => toPoly ((dom 4).ifft c))) ∧
      ∀ P : Strategy (ideal chal), P.Legal (idealCom chal) 16 1 key (.newWoBlind (ideal chal) s.fixed [] []) s.witness s.inst 16
          ([ones, ones].map (fun c => toPoly ((dom 4).ifft c))) →
        ((Fintype.piFinset fun _ : Fin 9 => (Finset.univ : Finset Fr)).filter (fun x =>
          runVerifier ((ideal chal).answering (List.ofFn x)) () () (dom 4) ⟨[(bytes "a", ones), (bytes "b", ones)], [(bytes "c", zeros)], []⟩
            Gates.mul ((P.proof (idealCom chal) x).answering _) = .ok ())).card
        ≤ 91 * r ^ 8 := by
  have h16 : (dom 4).size = 16 := rfl
  have hfalse : ones.getD 0 0 * ones.getD 0 0 ≠ zeros.getD 0 0 := by
    show (1 : Fr) * 1 ≠ 0
    rw [mul_one]
    exact one_ne_zero
  obtain ⟨vo, s, key, h1, h2, h3⟩ := C95_mul (S := ideal chal) (ck := ()) (vk := ()) (com := idealCom chal) (d := dom 4)
    (la := bytes "a") (lb := bytes "b") (lc := bytes "c") (a := ones) (b := ones) (c := zeros) (ideal_homomorphic _ _)
    (fun p cs h => by
      obtain rfl := Res.ok.inj h
      exact congrArg (· :: []) (coeffs_toPoly _).symm) (ideal_binding _ _)
    (fun p q _ _ h => by rw [← toPoly_coeffs p, ← toPoly_coeffs q]; exact congrArg toPoly h) (dom_ok (by norm_num))
    ⟨fun ps z _ => ⟨_, rfl⟩, fun p _ => ⟨_, rfl⟩, fun p cs x r _ _ => ⟨_, rfl⟩⟩ (by rw [h16]; norm_num)
    (by rw [h16]; show 4 * 16 ≤ 2 ^ 32; norm_num) (by decide) rfl rfl rfl (i := 0) (by rw [h16]; norm_num) hfalse
  refine ⟨vo, s, key, h1, ?_, fun P hP => ?_⟩
  · have hu := (indexer_ok (dom_ok (by norm_num)) h2).2.2.2.2.2.2.2.2.2.1
    constructor
    · intro cs p hp; cases hp
    · intro cs p hp; cases hp
    · intro cs p hp; cases hp
    · intro cs p hp
      cases List.mem_singleton.1 hp
      exact C_degree _
    · intro cs; exact le_rfl
    · intro cs; exact C_degree _
    · intro theta beta gamma alpha xi
      refine ⟨?_, .nil, .nil, .nil, ?_⟩
      · exact List.forall₂_map_right_iff.2 (List.forall₂_same.2 (fun p _ => ⟨(), rfl⟩))
      · exact .cons ⟨(), rfl⟩ .nil
    · intro _ _ _ _ _ _ _ _ st hst
      obtain ⟨dd, hreg⟩ := verifyRegister_iff.1 hst
      have hR := distinctRotations_le (fun o ho => hreg.rotations ho)
      have hsets := mul_rotationSets h1
      rw [hu] at hR
      have h4 : ([[Rotation.curr], [Rotation.curr], [], setExtend [] [Rotation.curr], setExtend [] [Rotation.curr, Rotation.prev],
        setExtend [] [Rotation.curr, Rotation.next],
        setInsert (⟨0, .plus⟩ : Rotation) (setExtend [] [Rotation.curr, Rotation.next])] : List (List Rotation)).toFinset.card = 4 := by
        decide +kernel
      have hR' : distinctRotations st.oracles ≤ (rotationSets (s.witness ++ s.fixed ++ [] ++ [] ++
        [VerifierOracle.newFixed (bytes "q_blind") (some (ideal chal).zero)]) 0).card := hR
      rw [List.append_nil, List.append_nil] at hR'
      exact hR'.trans (le_of_eq ((congrArg Finset.card hsets).trans h4))
  · have h := h3 1 P hP Finset.univ
    rw [Finset.card_univ, card_fr] at h
    exact h.trans (le_of_eq rfl)

end Fr381
end ZK
