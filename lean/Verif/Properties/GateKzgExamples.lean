import Verif.Properties.GateKzg
import Verif.Properties.KzgErrorExamples
/-! C96: groups, columns and a prover the bound for `test_simple_mul` with KZG commitments applies to. -/
set_option autoImplicit false
set_option linter.unusedSectionVars false
open Polynomial
namespace ZK
namespace Fr381

/-- A prover that makes the quotient, `f`, the opening and all blindings from the challenges. -/
noncomputable def blindMulGuesser (ws : List Fr[X]) : Strategy (algScheme Fr) where
  lookups _ := []
  products _ := []
  lookupProducts _ := []
  quotient cs := [C (cs.getD 3 0)]
  claims cs := {
    witnessCommitments := (ws.map (fun w => (w, 1)) : List (Fr[X] × Fr[X]))
    witnessEvals := [1, 1]
    fixedEvals := []
    tableEvals := []
    permEvals := []
    qBlindEval := 0
    lookupCommitments := ([] : List (Fr[X] × Fr[X]))
    lookupZCommitments := ([] : List (Fr[X] × Fr[X]))
    lookupEvals := []
    lookupZEvals := []
    zCommitments := ([] : List (Fr[X] × Fr[X]))
    zEvals := []
    quotientCommitments := ([(C (cs.getD 3 0), 1)] : List (Fr[X] × Fr[X]))
    quotientEvals := [cs.getD 3 0]
    multiopen := ⟨[], ((0, 0) : Fr[X] × Fr[X]), (⟨0, 0, 0⟩ : AlgOpening Fr)⟩ }
  f cs := (C (cs.getD 6 0), (C (cs.getD 5 0) : Fr[X]))
  q cs := [cs.getD 7 0, 1, 2, 3]
  opening cs := (⟨C (cs.getD 8 0), C (cs.getD 7 0), cs.getD 6 0⟩ : AlgOpening Fr)

/-- A column of zeros, which is not the product of two columns of ones. -/
def zeroColumn : List Fr := List.replicate 16 0

noncomputable def twoOnes : List Fr[X] := [oneColumn, oneColumn].map (fun c => toPoly ((dom 4).ifft c))

open Classical in
/-- The sixteen rows of the test, with `0` as the product of `1` and `1`. The theorem applies to a pairing and to this prover: it is accepted for at
most the fraction `109 / r` of the challenges and keys from the whole field. -/
example (env : KzgEnv Fr Fr[X]) :
    (((Fintype.piFinset fun _ : Fin 9 => (Finset.univ : Finset Fr)) ×ˢ ((Finset.univ : Finset Fr) ×ˢ (Finset.univ : Finset Fr))).filter (fun y =>
      ∃ srs ck vk, universalSetup 15 y.2.1 (1 : Fr[X]) (y.2.2 • (1 : Fr[X])) (1 : Fr[X]) = .ok srs ∧ prepareKeys srs = .ok (ck, vk) ∧
        runVerifier ((kzgScheme (LinearMap.mul Fr Fr[X]) env).answering (List.ofFn y.1)) ck vk (dom 4)
          ⟨[(bytes "a", oneColumn), (bytes "b", oneColumn)], [(bytes "c", zeroColumn)], []⟩ Gates.mul
          ((((blindMulGuesser twoOnes).proof (algCom Fr) y.1).elements (LinearMap.mul Fr Fr[X]) env srs.key).answering _) = .ok ())).card
    ≤ 109 * r ^ 10 := by
  have h16 : (dom 4).size = 16 := rfl
  have hfalse : oneColumn.getD 0 0 * oneColumn.getD 0 0 ≠ zeroColumn.getD 0 0 := by
    show (1 : Fr) * 1 ≠ 0
    rw [mul_one]
    exact one_ne_zero
  obtain ⟨vo, s, key, h1, h2, h3⟩ := C96_mul (LinearMap.mul Fr Fr[X]) env (g := 1) (h := 1) one_ne_zero (fun x h => by simpa using h) (d := dom 4)
    (la := bytes "a") (lb := bytes "b") (lc := bytes "c") (a := oneColumn) (b := oneColumn) (c := zeroColumn) (dom_ok (by norm_num))
    (by rw [h16]; norm_num) (by rw [h16]; show 4 * 16 ≤ 2 ^ 32; norm_num) (by decide) rfl rfl rfl (i := 0) (by rw [h16]; norm_num) hfalse
  have hw : ∀ w ∈ twoOnes, w.degree < (16 : WithBot ℕ) := by
    intro w hw
    obtain ⟨col, -, rfl⟩ := List.mem_map.1 hw
    have := degree_toPoly_lt ((dom 4).ifft col)
    rwa [Domain.ifft_length] at this
  have hone : (1 : Fr[X]).degree < (17 : Nat) := by rw [degree_one]; norm_num
  have h := h3 1 (blindMulGuesser twoOnes) ?_ ?_ Finset.univ
  · rw [Finset.card_univ, card_fr] at h
    exact h.trans (le_of_eq rfl)
  · have hu := (indexer_ok (dom_ok (by norm_num)) h2).2.2.2.2.2.2.2.2.2.1
    constructor
    · intro cs p hp; cases hp
    · intro cs p hp; cases hp
    · intro cs p hp; cases hp
    · intro cs p hp
      cases List.mem_singleton.1 hp
      exact const_degree _ _ (by rw [h16]; norm_num)
    · intro cs; exact le_rfl
    · intro cs; exact const_degree _ _ (by rw [h16]; norm_num)
    · intro theta beta gamma alpha xi
      refine ⟨?_, .nil, .nil, .nil, ?_⟩
      · exact List.forall₂_map_right_iff.2 (List.forall₂_same.2 (fun p _ => ⟨(1 : Fr[X]), rfl⟩))
      · exact .cons ⟨(1 : Fr[X]), rfl⟩ .nil
    · intro _ _ _ _ _ _ _ _ st hst
      obtain ⟨dd, hreg⟩ := verifyRegister_iff.1 hst
      have hR := distinctRotations_le (fun o ho => hreg.rotations ho)
      have hsets := mul_rotationSets h1
      rw [hu] at hR
      have h4 : ([[Rotation.curr], [Rotation.curr], [], setExtend [] [Rotation.curr], setExtend [] [Rotation.curr, Rotation.prev],
        setExtend [] [Rotation.curr, Rotation.next],
        setInsert (⟨0, .plus⟩ : Rotation) (setExtend [] [Rotation.curr, Rotation.next])] : List (List Rotation)).toFinset.card = 4 := by
        decide +kernel
      have hR' : distinctRotations st.oracles ≤ (rotationSets (s.witness ++ s.fixed ++ [] ++ [] ++
        [VerifierOracle.newFixed (bytes "q_blind") (some (algScheme Fr).zero)]) 0).card := hR
      rw [List.append_nil, List.append_nil] at hR'
      exact hR'.trans (le_of_eq ((congrArg Finset.card hsets).trans h4))
  · intro x
    have hall : ∀ (l : List Fr[X]), (∀ w ∈ l, w.degree < (16 : WithBot ℕ)) → ∀ c : Fr[X] × Fr[X],
        c ∈ l.map (fun w => (w, (1 : Fr[X]))) ++ [] ++ [] ++ [] ++
          [(C (x 3), 1)] ++ [(C (x 6), C (x 5)), (C (x 8), C (x 7))] → c.1.degree < (16 : Nat) ∧ c.2.degree < (17 : Nat) := by
      intro l hl c hc
      simp only [List.append_nil, List.mem_append, List.mem_map, List.mem_cons, List.not_mem_nil, or_false] at hc
      rcases hc with (⟨w, h, rfl⟩ | rfl) | rfl | rfl
      · exact ⟨hl w h, hone⟩
      all_goals
        refine ⟨const_degree _ _ (by norm_num), ?_⟩
        first | exact const_degree _ _ (by norm_num) | exact hone
    exact hall twoOnes hw

end Fr381
end ZK
