import Verif.Properties.ConfigureSound
import Verif.Properties.ConfigureExamples
import Verif.Properties.SoundnessErrorExamples
/-! C75: the toy circuit made with `configure`, with columns that violate a copy. -/
set_option autoImplicit false
set_option linter.unusedSectionVars false
namespace ZK
open Polynomial
namespace Toy

/-- The cells `a[0]` and `b[1]` differ. -/
def startBad : Oracles (ProverOracle F97) (ProverOracle F97) (ProverOracle F97) :=
  { start with witness := [column .witness [1] [2, 3, 11, 4] [] true, column .witness [2] [8, 7, 2, 6] [] true,
      column .witness [3] [16, 26, 9, 2] [] false] }

theorem marksRows : MarksRows dom info.u qBlind := by
  refine ⟨⟨(column_isColumn _ _ rfl _ _).1, rfl⟩, ?_⟩
  rw [dom_size]
  decide +kernel

theorem goodCircuitBad : GoodCircuit dom dom.size startBad startTable calls sigma qBlind info 2 := by
  have hs := dom_size
  constructor
  · constructor
    · intro o ho
      simp only [startBad, start, startTable, List.cons_append, List.nil_append, List.mem_cons, List.not_mem_nil, or_false] at ho
      rcases ho with rfl | rfl | rfl | rfl | rfl | rfl | rfl <;> exact ⟨column_isColumn _ _ rfl [] _, rfl⟩
    · unfold Oracles.DistinctLabels
      decide +kernel
  · rw [hs]; exact goodCalls
  · exact ⟨_, _, List.mem_cons_self⟩
  · intro i o ho hp
    match i, ho with
    | 0, ho => exact ⟨_, List.mem_cons_self, .curr, rfl, by decide⟩
    | 1, ho => exact ⟨_, List.mem_cons_self, .curr, rfl, by decide⟩
    | 2, ho =>
      obtain rfl := Option.some.inj ho
      cases hp
    | i + 3, ho => cases ho
  · exact goodCircuit.sigmaColumns
  · exact goodCircuit.selector
  · intro _; decide +kernel
  · intro _; exact marksRows
  · rw [hs]; decide
  · intro _
    exact goodCircuit.lookedUp ⟨_, _, _, List.mem_cons_of_mem _ (List.mem_cons_of_mem _ List.mem_cons_self)⟩

theorem freshVerifierBad : FreshVerifier S (fun p _ => coeffs p) startBad startTable vstart vstartTable :=
  ⟨by
    have h2 : startBad.witness.map blank = start.witness.map blank := by decide +kernel
    exact (h2 ▸ blank_same startBad.witness : List.Forall₂ SameConfig startBad.witness (start.witness.map blank)),
    freshVerifier.inst, freshVerifier.fixed, freshVerifier.table⟩

theorem startBadCopies : ∃ tau : Equiv.Perm (Fin (startBad.witness.filter (·.shouldPermute)).length × Fin info.u),
    Encodes dom info.deltas sigma tau ∧
      ¬ ∀ x, cell (startBad.witness.filter (·.shouldPermute)) (tau x) = cell (startBad.witness.filter (·.shouldPermute)) x := by
  refine ⟨Equiv.swap (⟨0, by decide +kernel⟩, ⟨0, by decide⟩) (⟨1, by decide +kernel⟩, ⟨1, by decide⟩), ?_⟩
  unfold Encodes MadeFrom
  decide +kernel

/-- What the verifier's calls and the indexer return. -/
theorem vconfigured : (match configureAll calls vstart vstartTable with
    | .ok c' => decide (c'.oracles.witness = witness.map blank) && decide (c'.oracles.inst = vinst) &&
        decide (c'.oracles.fixed = fixed.map published) && decide (c'.tables = table.map published) && decide (c'.vos.length = 2) &&
        decide (c'.lookups.length = 1) &&
        match indexer (S := S) (fun o => o.shouldPermute) () c'.vos c'.lookups c'.oracles.witness c'.oracles.inst c'.oracles.fixed dom
          dom.vanishing info 2 with
        | .ok k => decide (k.index.perm.maxCols = 3)
        | _ => false
    | _ => false) = true := by decide +kernel

open Classical in
/-- C75 for the toy circuit: the verifier configures its handles, the indexer makes the key, there is a prover the bound applies to, and
at most 70 of 97 challenge tuples are accepted. -/
theorem configured_error : ∃ c' k, configureAll calls vstart vstartTable = .ok c' ∧
    indexer (S := S) (fun o => o.shouldPermute) () c'.vos c'.lookups c'.oracles.witness c'.oracles.inst c'.oracles.fixed dom dom.vanishing
      info 2 = .ok k ∧
    guesser.Legal (fun p _ => coeffs p) 4 4 k ⟨c'.oracles.fixed, c'.tables, sigma.map published, published qBlind⟩ c'.oracles.witness
      c'.oracles.inst 4 (startBad.witness.map (fun o => toPoly o.poly)) ∧
    ∀ P : Strategy S, P.Legal (fun p _ => coeffs p) 4 4 k ⟨c'.oracles.fixed, c'.tables, sigma.map published, published qBlind⟩
        c'.oracles.witness c'.oracles.inst 4 (startBad.witness.map (fun o => toPoly o.poly)) →
      ((Fintype.piFinset fun _ : Fin 9 => (Finset.univ : Finset F97)).filter (fun x =>
        verify (S.answering (List.ofFn x)) (k.answering _)
          (VerifierPreprocessed.answering (S := S) ⟨c'.oracles.fixed, c'.tables, sigma.map published, published qBlind⟩ _)
          ((P.proof (fun p _ => coeffs p) x).answering _) c'.oracles.witness c'.oracles.inst c'.vos 4 dom.vanishing = .ok ())).card
        ≤ 70 * 97 ^ 8 := by
  have hrun := vconfigured
  split at hrun
  swap; · cases hrun
  rename_i c' hc'
  simp only [Bool.and_eq_true, decide_eq_true_eq] at hrun
  obtain ⟨⟨⟨⟨⟨⟨e1, e2⟩, e3⟩, e4⟩, e5⟩, e6⟩, hrun⟩ := hrun
  split at hrun
  swap; · cases hrun
  rename_i k hk
  have hmc : k.index.perm.maxCols = 3 := of_decide_eq_true hrun
  obtain ⟨-, -, -, -, -, -, -, -, -, hu, hdl, hl, hu', -⟩ := indexer_ok dom_Ok hk
  have hsz := dom_size
  have hz : toPoly dom.vanishing = X ^ dom.size - 1 := toPoly_vanishing dom dom_Ok.size_pos
  have hdeg : (toPoly dom.vanishing : F97[X]).natDegree = 4 := by
    rw [hz, hsz]
    exact natDegree_X_pow_sub_C (r := (1 : F97))
  have hm : (startBad.witness.filter (·.shouldPermute)).length = 2 := by decide +kernel
  have hpolys : startBad.witness.map (fun o => toPoly o.poly) = viewBad.witness.map (fun o => toPoly o.poly) := rfl
  obtain ⟨tau, henc, hcop⟩ := startBadCopies
  refine ⟨c', k, hc', hk, ?_, fun P hP => ?_⟩
  · rw [e1, e2, e3, e4, hpolys]
    exact guesser_legal hu
  · have hmain := C75_soundness (S := S) (com := fun p _ => coeffs p) (ck := ()) (N := 4) (B := 15) (K := 1) (Z := 1) (Q := 4) (key := k)
      (ideal_homomorphic _ _) (ideal_binding _ _) (fun p q _ _ h => by rw [← toPoly_coeffs p, ← toPoly_coeffs q]; exact congrArg toPoly h)
      dom_Ok (by omega) goodCircuitBad (fun _ => marksRows) henc freshVerifierBad hc' setUp.perm setUp.qBlind (fun _ => by rw [e1]; decide +kernel) hk
      (fun _ i _ => by
        rw [hz]
        simp only [eval_sub, eval_pow, eval_X, eval_one]
        rw [← pow_mul, mul_comm, pow_mul, hsz, show dom.omega ^ 4 = 1 by decide +kernel, one_pow, sub_self])
      (by omega) (by omega) (by
        rw [hsz]
        intro e qs h
        simp only [calls, List.mem_cons, List.not_mem_nil, or_false, reduceCtorEq, Call.gate.injEq] at h
        rcases h with ⟨rfl, -⟩ | ⟨rfl, -⟩ <;> decide)
      (by
        intro es qs ts h
        simp only [calls, List.mem_cons, List.not_mem_nil, or_false, reduceCtorEq, false_or, Call.lookup.injEq] at h
        obtain ⟨rfl, rfl, rfl⟩ := h
        decide)
      (by rw [hmc]) (by norm_num)
      (by
        rw [hm]
        unfold PermutationArgument.numberOfZPolys
        rw [hmc]
        rfl)
      (fun h => hcop h.2.2) P (by rw [hsz]; exact hP) Finset.univ
    have hc97 : (Finset.univ : Finset F97).card = 97 := by decide +kernel
    rw [hsz, hdeg, hm, e5, e6, hc97, e1, e3, e4] at hmain
    have h1 := congrArg₂ (fun a b => soundnessError 2 1 2 2 1 1 4 15 4 4 4 17 a b) rotationSets_card rotationSets_sum
    have h2 : soundnessError 2 1 2 2 1 1 4 15 4 4 4 17 4 8 = 70 := by decide
    rw [e1, e3, e4]
    exact hmain.trans (Nat.mul_le_mul_right _ (le_of_eq (h1.trans h2)))

end Toy
end ZK
