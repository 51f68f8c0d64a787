import Verif.Properties.ProofSize
import Verif.Properties.CompletenessExamples
/-! The size of the proofs of the toy circuit. -/
set_option autoImplicit false
set_option linter.unusedSectionVars false
namespace ZK.Toy
open Polynomial ZK

/-- The toy circuit has three columns (two copied), one lookup and a domain of four rows: every proof of it has 12
commitments and 24 field elements, whichever cells the witness has. -/
theorem size {a b c : List F97} (ha : a.length = 4) (hb : b.length = 4) (hc : c.length = 4) {k : VerifierKey S}
    {p : TPProof S} (hk : key = .ok k) (hp : proveWith k (wit a b c) = .ok p) :
    p.numCommitments = 12 ∧ p.numFieldElements = 24 := by
  have hp' : prove S ⟨k, ()⟩ (.new S fixed sigma table qBlind k.index) (wit a b c) inst vos dom.size () = .ok p := by
    rw [dom_size]; exact hp
  obtain ⟨-, h1, h2⟩ := C58_proof_size (pk := ⟨k, ()⟩) (ideal_homomorphic _ _) dom_Ok hk (supportedOf hk ha hb hc) hp'
  have hm := maxCols hk
  simp only [hm] at h1 h2
  have hf : ((wit a b c).filter (·.shouldPermute)).length = 2 := rfl
  have hg : grandProducts 2 3 = 1 := by decide
  rw [hf, hg] at h1 h2
  refine ⟨h1.trans rfl, h2.trans ?_⟩
  have e1 : expectedEvals (wit a b c) = expectedEvals witness :=
    expectedEvals_forall₂ (.cons ⟨rfl, rfl⟩ (.cons ⟨rfl, rfl⟩ (.cons ⟨rfl, rfl⟩ .nil)))
  have e2 : openedSets (wit a b c ++ fixed ++ table ++ sigma ++ [qBlind]) [lookup].length 1 info.u
    = openedSets (witness ++ fixed ++ table ++ sigma ++ [qBlind]) [lookup].length 1 info.u := by
    have : (wit a b c).map (·.rotations) = witness.map (·.rotations) := by
      simp only [wit, witness, List.map_cons, List.map_nil, column]
    unfold openedSets
    simp only [List.map_append, this]
  rw [e1, e2]
  decide +kernel

/-- Such proofs exist. -/
theorem size_example : ∃ k p, key = .ok k ∧ proveWith k witness = .ok p ∧ p.numCommitments = 12 ∧ p.numFieldElements = 24 := by
  obtain ⟨k, p, hk, hp, -⟩ := honest
  exact ⟨k, p, hk, hp, size rfl rfl rfl hk hp⟩

end ZK.Toy
