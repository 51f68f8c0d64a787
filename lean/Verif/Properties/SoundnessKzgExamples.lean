import Verif.Properties.SoundnessKzg
import Verif.Properties.SoundnessExamples
/-! C56: the hypotheses are met by the toy circuit with a witness that violates a copy constraint. -/
set_option autoImplicit false
set_option linter.unusedSectionVars false
namespace ZK
open Polynomial
namespace Toy

/-- The verifier's oracle with the polynomial as representation of its commitment. -/
noncomputable def publishedAlg (o : ProverOracle F97) : VerifierOracle F97 (F97[X] × F97[X]) :=
  ⟨o.kind, o.label, o.rotations, [], some (toPoly o.poly, 0), o.shouldPermute⟩

/-- The verifier's oracle of a witness column. -/
def blankAlg (o : ProverOracle F97) : VerifierOracle F97 (F97[X] × F97[X]) :=
  ⟨o.kind, o.label, o.rotations, [], none, o.shouldPermute⟩

noncomputable def vpreAlg : VerifierPreprocessed (algScheme F97) :=
  ⟨fixed.map publishedAlg, table.map publishedAlg, sigma.map publishedAlg, publishedAlg qBlind⟩

theorem setUpAlg : SetUp (algScheme F97) (fun (p r : F97[X]) => ((p, r) : F97[X] × F97[X])) viewBad sigma qBlind
    (viewBad.witness.map blankAlg) vinst vpreAlg := by
  have key : ∀ os : List (ProverOracle F97), List.Forall₂ (fun (o : ProverOracle F97) (p : VerifierOracle F97 (F97[X] × F97[X])) =>
      SameConfig o p ∧ p.commitment = some (toPoly o.poly, (0 : F97[X]))) os (os.map publishedAlg) := fun os =>
    List.forall₂_map_right_iff.2 (List.forall₂_same.2 fun o _ => ⟨⟨rfl, rfl, rfl⟩, rfl⟩)
  exact ⟨List.forall₂_map_right_iff.2 (List.forall₂_same.2 fun o _ => ⟨rfl, rfl, rfl⟩), setUp.inst, key _, key _, key _,
    ⟨⟨rfl, rfl, rfl⟩, rfl⟩⟩

/-- The hypotheses of C56 are met by a witness that violates a copy constraint only. -/
theorem sound_kzg_example : ∃ k, key = .ok k ∧
    SetUp (algScheme F97) (fun (p r : F97[X]) => ((p, r) : F97[X] × F97[X])) viewBad sigma qBlind (viewBad.witness.map blankAlg) vinst vpreAlg ∧
    Enforced dom dom.size k.index viewBad sigma qBlind vos (toPoly dom.vanishing) ∧ DegreeBounds dom dom.size 4 15 1 k.index vos ∧
    ∃ tau : Equiv.Perm (Fin (viewBad.witness.filter (·.shouldPermute)).length × Fin k.index.perm.usableRows),
      Encodes dom k.index.perm.deltas sigma tau ∧ ¬ CopiesHold viewBad tau := by
  obtain ⟨k, -, hk, -⟩ := honest
  obtain ⟨-, -, -, -, -, -, -, -, -, hu, hdl, hl, hu', -⟩ := indexer_ok dom_Ok hk
  obtain ⟨tau, ht1, ht2⟩ := copied k.index.perm.usableRows hu
  refine ⟨k, hk, setUpAlg, enforced hk, bounds hk, tau, ?_, ht2⟩
  rw [hdl]
  exact ht1

end Toy
end ZK
