import Verif.Properties.Outcome
import Verif.Properties.SuccessExamples
/-! C70: the toy circuit meets the hypotheses, and all four outcomes occur. -/
set_option autoImplicit false
set_option linter.unusedSectionVars false
namespace ZK
open Polynomial
namespace Toy

/-- The sets of rotations the toy circuit is opened at. -/
def openedAt : Finset (List Rotation) := {[.curr], [.curr, .next], [.curr, .prev]}

/-- The toy circuit is opened at the current, the next and the previous row. An honest run succeeds exactly for the
challenges with which no denominator vanishes, `xi` is not zero and `x3` is not one of three points. -/
theorem interactive : ∃ k, key = .ok k ∧ ∀ theta beta gamma alpha xi x1 x2 x3 x4 : F97,
    let cs := [theta, beta, gamma, alpha, xi, x1, x2, x3, x4]
    (∃ proof,
      prove (S.answering cs) ((⟨k, ()⟩ : ProverKey S).answering _) (.new _ fixed sigma table qBlind k.index) witness inst vos dom.size ()
        = .ok proof ∧
      verify (S.answering cs) (k.answering _) (vpre.answering _) proof (witness.map blank) vinst vos dom.size dom.vanishing = .ok ()) ↔
    GoodDraw dom k.index view sigma theta beta gamma ∧ xi ≠ 0 ∧ x3 ≠ xi ∧ x3 ≠ xi * dom.omega ∧ x3 ≠ xi * dom.omega⁻¹ := by
  obtain ⟨k, p, hk, -, h⟩ := of_holds (ws := witness) (P := fun k p => decide
    (k.index.quotientDegree ≠ k.index.ext.size)) (by decide +kernel)
  have hsz := dom_size
  have hz : toPoly dom.vanishing = X ^ dom.size - 1 := toPoly_vanishing dom dom_Ok.size_pos
  have hdeg : (X ^ dom.size - 1 : F97[X]).natDegree = dom.size := natDegree_X_pow_sub_C (r := (1 : F97))
  obtain ⟨-, -, -, -, -, -, -, -, -, hu, hdl, hl, hu', -⟩ := indexer_ok dom_Ok hk
  obtain ⟨tau, henc, hcop⟩ := copiedOk k.index.perm.usableRows hu
  refine ⟨k, hk, fun theta beta gamma alpha xi x1 x2 x3 x4 => ?_⟩
  have hm := maxCols hk
  refine (C70_interactive (pk := ⟨k, ()⟩) (ideal_homomorphic _ _) dom_Ok (by rw [hsz]; norm_num)
    (supports _) hk (by decide +kernel) (by rw [hz]) (Or.inl hz) (of_decide_eq_true h) (fun _ => by rw [hz, hdeg]; omega)
    (supported hk) (provable hk) (by rw [hdl]; exact henc.1) setUp (gatesHold _) hcop (lookedUp hk) (R := openedAt) (by
      show _ = openedSets _ _ (grandProducts _ k.index.perm.maxCols) _
      rw [hm]
      decide +kernel) () theta beta gamma alpha xi x1 x2 x3 x4).trans ?_
  refine and_congr Iff.rfl (and_congr ?_ ?_)
  · simp [openedAt]
  · simp [openedAt, Rotation.signed, Rotation.curr, Rotation.next, Rotation.prev]
    exact fun h => ⟨fun g => ⟨g.1.2, g.2.2⟩, fun g => ⟨⟨h, g.1⟩, h, g.2⟩⟩

/-- How an honest run with given challenges ends: the prover panics, the prover returns an error, the verifier panics, the verifier
rejects, the verifier accepts. -/
inductive End | proverPanic | repeatedRotation | otherError | verifierPanic | rejected | accepted
  deriving DecidableEq

def outcome (cs : List F97) : Option End :=
  match key with
  | .ok k => some (match prove (S.answering cs) ((⟨k, ()⟩ : ProverKey S).answering cs) (.new _ fixed sigma table qBlind k.index) witness inst
        vos 4 () with
    | .panic => .proverPanic
    | .err (.multiproof (.piop (.repeatedRotation _))) => .repeatedRotation
    | .err _ => .otherError
    | .ok proof => match verify (S.answering cs) (k.answering cs) (vpre.answering cs) proof (witness.map blank) vinst vos 4 dom.vanishing with
      | .panic => .verifierPanic
      | .err _ => .rejected
      | .ok _ => .accepted)
  | _ => none

/-- All outcomes of C70 occur: with `beta = -56` a denominator of the lookup vanishes, with `xi = 0` two rotations give the same point,
with `x3 = xi * omega` the verifier divides by zero, and with other challenges the proof is accepted. -/
theorem outcomes : outcome [2, 41, 3, 4, 5, 6, 7, 8, 9] = some .proverPanic ∧ outcome [2, 10, 3, 4, 0, 6, 7, 8, 9] = some .repeatedRotation ∧
    outcome [2, 10, 3, 4, 5, 6, 7, 5 * dom.omega, 9] = some .verifierPanic ∧ outcome [2, 10, 3, 4, 5, 6, 7, 8, 9] = some .accepted := by
  decide +kernel

end Toy
end ZK
