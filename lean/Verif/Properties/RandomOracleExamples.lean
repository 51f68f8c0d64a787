import Verif.Properties.RandomOracle
import Verif.Properties.SuccessExamples
/-! C67: the hypotheses are met by the toy circuit; with a random oracle the honest run fails with probability at most 13/97. -/
set_option autoImplicit false
set_option linter.unusedSectionVars false
namespace ZK
open Polynomial MeasureTheory
namespace Toy

theorem randomOracleError [MeasurableSpace F97] [DiscreteMeasurableSpace F97] : ∃ k, key = .ok k ∧
    randomOracle F97 {H | ¬ ∃ proof,
      prove (S.hashing H) ((⟨k, ()⟩ : ProverKey S).hashing H) (.new _ fixed sigma table qBlind k.index) witness inst vos
        dom.size () = .ok proof ∧
      verify (S.hashing H) (k.hashing H) (vpre.hashing H) proof (witness.map blank) vinst vos dom.size dom.vanishing = .ok ()}
      ≤ 13 / 97 := by
  obtain ⟨k, p, hk, -, h⟩ := of_holds (ws := witness) (P := fun k p => decide
    (k.index.quotientDegree ≠ k.index.ext.size)) (by decide +kernel)
  have hsz := dom_size
  have hz : toPoly dom.vanishing = X ^ dom.size - 1 := toPoly_vanishing dom dom_Ok.size_pos
  have hdeg : (X ^ dom.size - 1 : F97[X]).natDegree = dom.size := natDegree_X_pow_sub_C (r := (1 : F97))
  obtain ⟨-, -, -, -, -, -, -, -, -, hu, hdl, hl, hu', -⟩ := indexer_ok dom_Ok hk
  obtain ⟨tau, henc, hcop⟩ := copiedOk k.index.perm.usableRows hu
  have hmain := C67_completeness_error_random_oracle (pk := ⟨k, ()⟩) (ideal_homomorphic _ _) dom_Ok (by rw [hsz]; norm_num)
    (supports _) hk (by decide +kernel) (by rw [hz]) (Or.inl hz) (of_decide_eq_true h) (fun _ => by rw [hz, hdeg]; omega)
    (supported hk) (provable hk) (by rw [hdl]; exact henc.1) setUp (gatesHold _) hcop (lookedUp hk) ()
  refine ⟨k, hk, hmain.trans (le_of_eq ?_)⟩
  rw [show ((wit [7, 3, 11, 4] [8, 7, 2, 6] [56, 26, 9, 2]).filter (·.shouldPermute)).length = 2 from by decide +kernel]
  show ((2 * k.index.perm.usableRows + 2 * (k.index.lookups.length * k.index.usableRows) + 1 + dom.size : Nat) : ENNReal) / _ = _
  rw [hl, hu, hu', hsz, show Fintype.card F97 = 97 from ZMod.card 97]
  rfl

end Toy
end ZK
