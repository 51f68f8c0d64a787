import Verif.Properties.SoundnessError
import Verif.Properties.SoundnessExamples
import Verif.Properties.HidingExamples
/-! C57: the bound for the toy circuit is smaller than the field, and there are provers it applies to. -/
set_option autoImplicit false
set_option linter.unusedSectionVars false
namespace ZK
open Polynomial
namespace Toy

/-- What a prover may claim for the bad witness of C51: constant grand products and zeros for the rest. -/
def guess : TPProof S where
  witnessCommitments := viewBad.witness.map (fun o => trim o.poly)
  witnessEvals := [0, 0, 0, 0]
  fixedEvals := [0, 0]
  tableEvals := [0]
  permEvals := [0, 0]
  qBlindEval := 0
  lookupCommitments := [[1], [1]]
  lookupZCommitments := [[1]]
  lookupEvals := [1, 1, 1]
  lookupZEvals := [1, 1]
  zCommitments := [[1]]
  zEvals := [1, 1]
  quotientCommitments := [[1], [1]]
  quotientEvals := [1, 1]
  multiopen := ⟨[], [], ()⟩

/-- This prover guesses; its polynomial `f` and its values `q` depend on the challenges. -/
noncomputable def guesser : Strategy S where
  lookups _ := [toPoly [1], toPoly [1]]
  products _ := [toPoly [1]]
  lookupProducts _ := [toPoly [1]]
  quotient _ := [toPoly [1], toPoly [1]]
  claims _ := guess
  f cs := (toPoly [cs.headD 0], ())
  q cs := [cs.headD 0, 1, 2, cs.getLastD 0]
  opening _ := ()

theorem one_lt_four (a : F97) : (toPoly [a]).degree < (4 : Nat) :=
  lt_of_lt_of_le (degree_toPoly_lt [a]) (by simp)

theorem rotationSets_card : (rotationSets ((witness.map blank : List (VerifierOracle F97 S.Comm)) ++ vpre.fixed ++ vpre.table ++ vpre.perm ++
    [vpre.qBlind]) 2).card = 4 := by decide +kernel

theorem rotationSets_sum : (∑ r ∈ rotationSets ((witness.map blank : List (VerifierOracle F97 S.Comm)) ++ vpre.fixed ++ vpre.table ++ vpre.perm ++
    [vpre.qBlind]) 2, r.length) = 8 := by decide +kernel

theorem guesser_legal {k : VerifierKey S} (hu : k.index.perm.usableRows = 2) :
    guesser.Legal (fun p _ => coeffs p) 4 4 k vpre (witness.map blank) vinst 4 (viewBad.witness.map (fun o => toPoly o.poly)) where
  lookups := by intro cs p hp; simp only [guesser, List.mem_cons, List.not_mem_nil, or_false, or_self] at hp; subst hp; exact one_lt_four 1
  products := by intro cs p hp; simp only [guesser, List.mem_cons, List.not_mem_nil, or_false, or_self] at hp; subst hp; exact one_lt_four 1
  lookupProducts := by intro cs p hp; simp only [guesser, List.mem_cons, List.not_mem_nil, or_false, or_self] at hp; subst hp; exact one_lt_four 1
  quotient := by intro cs p hp; simp only [guesser, List.mem_cons, List.not_mem_nil, or_false, or_self] at hp; subst hp; exact one_lt_four 1
  parts := by intro cs; simp [guesser]
  f := fun cs => one_lt_four _
  made := by
    have h1 : coeffs (toPoly [(1 : F97)]) = [1] := by rw [coeffs_toPoly]; decide +kernel
    intro _ _ _ _ _
    refine ⟨?_, ?_, ?_, ?_, ?_⟩
    · exact List.forall₂_map_left_iff.2 (List.forall₂_map_right_iff.2 (List.forall₂_same.2 (fun o _ => ⟨(), (coeffs_toPoly _).symm⟩)))
    · exact .cons ⟨(), h1.symm⟩ (.cons ⟨(), h1.symm⟩ .nil)
    · exact .cons ⟨(), h1.symm⟩ .nil
    · exact .cons ⟨(), h1.symm⟩ .nil
    · exact .cons ⟨(), h1.symm⟩ (.cons ⟨(), h1.symm⟩ .nil)
  enough := by
    intro _ _ _ _ _ _ _ _ st hst
    obtain ⟨dd, hreg⟩ := verifyRegister_iff.1 hst
    have hR := distinctRotations_le (fun o ho => hreg.rotations ho)
    rw [hu, rotationSets_card] at hR
    exact hR

/-- The guess gets as far as the quotient check. -/
theorem guess_registered : ∃ k, key = .ok k ∧ ∃ st, verifyRegister S k vpre guess (witness.map blank) vinst 4 ⟨1, 2, 3, 4, 5⟩ = .ok st := by
  have h : (match key with
    | .ok k => isOk (verifyRegister S k vpre guess (witness.map blank) vinst 4 ⟨1, 2, 3, 4, 5⟩)
    | _ => false) = true := by decide +kernel
  obtain ⟨k, -, hk, -⟩ := honest
  rw [hk] at h
  exact ⟨k, hk, of_isOk h⟩

open Classical in
/-- C57 for the toy circuit and the witness that violates a copy constraint: with challenges from the whole field at most 70 of 97 challenge tuples
are accepted, whatever the prover does. -/
theorem error_example : ∃ k, key = .ok k ∧ guesser.Legal (fun p _ => coeffs p) 4 4 k vpre (witness.map blank) vinst 4
      (viewBad.witness.map (fun o => toPoly o.poly)) ∧
    ∀ P : Strategy S, P.Legal (fun p _ => coeffs p) 4 4 k vpre (witness.map blank) vinst 4 (viewBad.witness.map (fun o => toPoly o.poly)) →
    ((Fintype.piFinset fun _ : Fin 9 => (Finset.univ : Finset F97)).filter (fun c =>
      verifyAt S k vpre (P.proof (fun p _ => coeffs p) c) (witness.map blank) vinst vos 4 dom.vanishing ⟨c 0, c 1, c 2, c 3, c 4⟩
        (c 5) (c 6) (c 7) (c 8) = .ok ())).card ≤ 70 * 97 ^ 8 := by
  obtain ⟨k, -, hk, -⟩ := honest
  obtain ⟨-, -, -, -, -, -, -, -, -, hu, hdl, hl, hu', -⟩ := indexer_ok dom_Ok hk
  have hs := dom_size
  refine ⟨k, hk, guesser_legal hu, fun P hP => ?_⟩
  obtain ⟨tau, ht1, ht2⟩ := copied k.index.perm.usableRows hu
  have hm : (viewBad.witness.filter (·.shouldPermute)).length = 2 := by decide +kernel
  have hz : (toPoly dom.vanishing).natDegree = 4 := by
    rw [toPoly_vanishing dom dom_Ok.size_pos, hs]
    exact natDegree_X_pow_sub_C (r := (1 : F97))
  have hZ : k.index.perm.numberOfZPolys (viewBad.witness.filter (·.shouldPermute)).length = (.ok 1 : Res (Err S.E) Nat) := by
    rw [hm]
    unfold PermutationArgument.numberOfZPolys
    rw [maxCols hk]
    rfl
  have hmain := C57_soundness_error (S := S) (com := fun p _ => coeffs p) (ck := ()) (vk := k) (ideal_homomorphic _ _)
    (ideal_binding _ _) (fun p q _ _ h => by rw [← toPoly_coeffs p, ← toPoly_coeffs q]; exact congrArg toPoly h) (setUpBad)
    dom_Ok.new_self (by omega) (by simp [vos]) (enforced hk) (bounds hk) tau (by rw [hdl]; exact ht1) (fun h => ht2 h.2.1) hZ P
    (by rw [hs]; exact hP) Finset.univ
  have hu2 : k.index.perm.usableRows = 2 := hu
  have hc : (Finset.univ : Finset F97).card = 97 := by decide +kernel
  rw [hm, hz, hu2, hl, hs, hc] at hmain
  have h1 := congrArg₂ (fun a b => soundnessError 2 1 2 2 1 1 4 15 4 4 4 17 a b) rotationSets_card rotationSets_sum
  have h2 : soundnessError 2 1 2 2 1 1 4 15 4 4 4 17 4 8 = 70 := by decide
  exact hmain.trans (Nat.mul_le_mul_right _ (le_of_eq (h1.trans h2)))

end Toy
end ZK
