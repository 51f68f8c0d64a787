import Mathlib.Algebra.Algebra.Bilinear
import Verif.Properties.KzgError
/-! C84: groups, columns and a prover the bound for `copy_plonk` with KZG commitments applies to. -/
set_option autoImplicit false
set_option linter.unusedSectionVars false
open Polynomial
namespace ZK
namespace Fr381

/-- A prover that makes its grand products, the quotient, `f`, the opening and all blindings from the challenges. -/
noncomputable def blindGuesser (ws : List Fr[X]) : Strategy (algScheme Fr) where
  lookups _ := []
  products cs := [C (cs.getD 0 0), C (cs.getD 1 0), C (cs.getD 2 0)]
  lookupProducts _ := []
  quotient cs := [C (cs.getD 3 0), C (cs.getD 3 0)]
  claims cs := {
    witnessCommitments := (ws.map (fun w => (w, 1)) : List (Fr[X] × Fr[X]))
    witnessEvals := [0, 0, 0]
    fixedEvals := [0, 0, 0, 0, 0]
    tableEvals := []
    permEvals := [0, 0, 0]
    qBlindEval := 0
    lookupCommitments := ([] : List (Fr[X] × Fr[X]))
    lookupZCommitments := ([] : List (Fr[X] × Fr[X]))
    lookupEvals := []
    lookupZEvals := []
    zCommitments := ([(C (cs.getD 0 0), C (cs.getD 1 0)), (C (cs.getD 1 0), C (cs.getD 2 0)), (C (cs.getD 2 0), 0)] : List (Fr[X] × Fr[X]))
    zEvals := [cs.getD 0 0, cs.getD 0 0, cs.getD 0 0, cs.getD 1 0, cs.getD 1 0, cs.getD 1 0, cs.getD 2 0, cs.getD 2 0]
    quotientCommitments := ([(C (cs.getD 3 0), 1), (C (cs.getD 3 0), 0)] : List (Fr[X] × Fr[X]))
    quotientEvals := [cs.getD 3 0, cs.getD 3 0]
    multiopen := ⟨[], ((0, 0) : Fr[X] × Fr[X]), (⟨0, 0, 0⟩ : AlgOpening Fr)⟩ }
  f cs := (C (cs.getD 6 0), (C (cs.getD 5 0) : Fr[X]))
  q cs := [cs.getD 7 0, 1, 2, 3]
  opening cs := (⟨C (cs.getD 8 0), C (cs.getD 7 0), cs.getD 6 0⟩ : AlgOpening Fr)

/-- Columns of ones. -/
def oneColumn : List Fr := List.replicate 16 1

/-- The circuit with columns for the wrong root `x = 1`. -/
noncomputable abbrev wrongRoot : CircuitTest Fr := copyPlonkCircuit (dom 4) oneColumn oneColumn oneColumn

noncomputable def oneWitness : List Fr[X] := [oneColumn, oneColumn, oneColumn].map (fun c => toPoly ((dom 4).ifft c))

theorem const_degree (a : Fr) (n : Nat) (hn : 0 < n) : (C a : Fr[X]).degree < (n : WithBot ℕ) :=
  lt_of_le_of_lt degree_C_le (by exact_mod_cast hn)

open Classical in
/-- The theorem applies to a pairing, to the columns of a wrong root and to this prover: it is accepted for at most the fraction `179 / r` of the
challenges and keys from the whole field. -/
example (env : KzgEnv Fr Fr[X]) :
    (((Fintype.piFinset fun _ : Fin 9 => (Finset.univ : Finset Fr)) ×ˢ ((Finset.univ : Finset Fr) ×ˢ (Finset.univ : Finset Fr))).filter (fun y =>
      ∃ srs ck vk, universalSetup 15 y.2.1 (1 : Fr[X]) (y.2.2 • (1 : Fr[X])) (1 : Fr[X]) = .ok srs ∧ prepareKeys srs = .ok (ck, vk) ∧
        runCircuitVerifier ((kzgScheme (LinearMap.mul Fr Fr[X]) env).answering (List.ofFn y.1)) ck vk (dom 4) wrongRoot
          ((((blindGuesser oneWitness).proof (algCom Fr) y.1).elements (LinearMap.mul Fr Fr[X]) env srs.key).answering _) = .ok ())).card
    ≤ 179 * r ^ 10 := by
  have hroot : oneColumn.getD 0 0 ^ 3 + 2 * oneColumn.getD 0 0 + 12 ≠ 0 := by
    show (1 : Fr) ^ 3 + 2 * 1 + 12 ≠ 0
    intro h
    have h' : (15 : Fr) = 0 := by linear_combination h
    have h : ((15 : Nat) : ZMod r) = 0 := by exact_mod_cast h'
    rw [ZMod.natCast_eq_zero_iff] at h
    exact absurd (Nat.le_of_dvd (by norm_num) h) (by decide +kernel)
  obtain ⟨c', key, h1, h2, h3⟩ := C84_copy_plonk (LinearMap.mul Fr Fr[X]) env (g := 1) (h := 1) one_ne_zero (fun x h => by simpa using h)
    (a := oneColumn) (b := oneColumn) (c := oneColumn) rfl rfl rfl hroot
  have hw : ∀ w ∈ oneWitness, w.degree < (16 : WithBot ℕ) := by
    intro w hw
    obtain ⟨col, -, rfl⟩ := List.mem_map.1 hw
    have := degree_toPoly_lt ((dom 4).ifft col)
    rwa [Domain.ifft_length] at this
  have hzero : ∀ n : Nat, (0 : Fr[X]).degree < (n : WithBot ℕ) := fun n => by rw [degree_zero]; exact WithBot.bot_lt_coe _
  have hone : (1 : Fr[X]).degree < (17 : Nat) := by rw [degree_one]; norm_num
  have h := h3 2 (blindGuesser oneWitness) ?_ ?_ Finset.univ
  · rw [Finset.card_univ, card_fr] at h
    exact h
  · have hu := (indexer_ok (dom_ok (by norm_num)) h2).2.2.2.2.2.2.2.2.2.1
    constructor
    · intro cs p hp; cases hp
    · intro cs p hp
      simp only [blindGuesser, List.mem_cons, List.not_mem_nil, or_false] at hp
      rcases hp with rfl | rfl | rfl <;> exact const_degree _ _ (by norm_num)
    · intro cs p hp; cases hp
    · intro cs p hp
      simp only [blindGuesser, List.mem_cons, List.not_mem_nil, or_false] at hp
      rcases hp with rfl | rfl <;> exact const_degree _ _ (by norm_num)
    · intro cs; exact le_rfl
    · intro cs; exact const_degree _ _ (by norm_num)
    · intro theta beta gamma alpha xi
      refine ⟨?_, .nil, ?_, .nil, ?_⟩
      · exact List.forall₂_map_right_iff.2 (List.forall₂_same.2 (fun p _ => ⟨(1 : Fr[X]), rfl⟩))
      · exact .cons ⟨C beta, rfl⟩ (.cons ⟨C gamma, rfl⟩ (.cons ⟨(0 : Fr[X]), rfl⟩ .nil))
      · exact .cons ⟨(1 : Fr[X]), rfl⟩ (.cons ⟨(0 : Fr[X]), rfl⟩ .nil)
    · intro _ _ _ _ _ _ _ _ st hst
      obtain ⟨dd, hreg⟩ := verifyRegister_iff.1 hst
      have hR := distinctRotations_le (fun o ho => hreg.rotations ho)
      have hsets := copyPlonk_rotationSets h1 (bytes "q_blind", wrongRoot.selector)
      rw [hu] at hR
      have h4 : (List.replicate 12 [Rotation.curr] ++ [setExtend [] [Rotation.curr], setExtend [] [Rotation.curr, Rotation.prev],
        setExtend [] [Rotation.curr, Rotation.next],
        setInsert (⟨8, .plus⟩ : Rotation) (setExtend [] [Rotation.curr, Rotation.next])]).toFinset.card = 4 := by decide +kernel
      exact hR.trans (le_of_eq ((congrArg Finset.card hsets).trans h4))
  · intro x
    have hall : ∀ (l : List Fr[X]), (∀ w ∈ l, w.degree < (16 : WithBot ℕ)) → ∀ c : Fr[X] × Fr[X],
        c ∈ l.map (fun w => (w, (1 : Fr[X]))) ++ [] ++ [] ++ [(C (x 0), C (x 1)), (C (x 1), C (x 2)), (C (x 2), 0)] ++
          [(C (x 3), 1), (C (x 3), 0)] ++ [(C (x 6), C (x 5)), (C (x 8), C (x 7))] → c.1.degree < (16 : Nat) ∧ c.2.degree < (17 : Nat) := by
      intro l hl c hc
      simp only [List.append_nil, List.mem_append, List.mem_map, List.mem_cons, List.not_mem_nil, or_false] at hc
      rcases hc with ((⟨w, h, rfl⟩ | rfl | rfl | rfl) | rfl | rfl) | rfl | rfl
      · exact ⟨hl w h, hone⟩
      all_goals
        refine ⟨const_degree _ _ (by norm_num), ?_⟩
        first | exact const_degree _ _ (by norm_num) | exact hzero _ | exact hone
    exact hall oneWitness hw

end Fr381
end ZK
