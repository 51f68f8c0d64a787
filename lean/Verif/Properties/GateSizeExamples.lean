import Verif.Properties.GateSize
import Verif.Properties.ClientExamples
/-! C97: a proof of the test of `PrecompiledMul` with eight rows. -/
set_option autoImplicit false
set_option linter.unusedSectionVars false
namespace ZK
namespace Toy8

/-- There are proofs for right products and for products that are all wrong, and they have the same size. -/
theorem mul_size : ∃ p p', runProver S () () dom mulColumns Gates.mul () = .ok p ∧
    runProver S () () dom ⟨mulColumns.witness, [(bytes "c", [9, 9, 9, 9, 9, 9, 9, 9])], []⟩ Gates.mul () = .ok p' ∧
    p.quotientEvals ≠ p'.quotientEvals ∧ (p.numCommitments = 4 ∧ p.numFieldElements = 6) ∧ p'.numCommitments = 4 ∧ p'.numFieldElements = 6 := by
  have h : (match runProver S () () dom mulColumns Gates.mul (),
      runProver S () () dom ⟨mulColumns.witness, [(bytes "c", [9, 9, 9, 9, 9, 9, 9, 9])], []⟩ Gates.mul () with
      | .ok p, .ok p' => decide (p.quotientEvals ≠ p'.quotientEvals)
      | _, _ => false) = true := by decide +kernel
  have hcount : ∀ {c : List F97} (_ : c.length = 8) {p : TPProof S}
      (_ : runProver S () () dom ⟨mulColumns.witness, [(bytes "c", c)], []⟩ Gates.mul () = .ok p), p.numCommitments = 4 ∧ p.numFieldElements = 6 := by
    intro c hc p hp
    have hs := dom_size
    have h := C97_mul (S := S) (ck := ()) (vk := ()) (d := dom) (la := bytes "a") (lb := bytes "b") (lc := bytes "c")
      (a := [7, 3, 11, 4, 1, 2, 3, 4]) (b := [8, 7, 2, 6, 1, 1, 1, 1]) (c := c) (z := ()) (proof := p) (ideal_homomorphic _ _) dom_Ok (by rw [hs])
      (by rw [hs]; decide) (by decide) (by rw [hs]; rfl) (by rw [hs]; rfl) (by rw [hs, hc]) hp
    exact ⟨h.2.1, h.2.2.1⟩
  revert h
  generalize hx : runProver S () () dom mulColumns Gates.mul () = x
  generalize hy : runProver S () () dom ⟨mulColumns.witness, [(bytes "c", [9, 9, 9, 9, 9, 9, 9, 9])], []⟩ Gates.mul () = y
  intro h
  match x, y, h with
  | .ok p, .ok p', h => exact ⟨p, p', rfl, rfl, of_decide_eq_true h, hcount rfl hx, hcount rfl hy⟩

end Toy8
end ZK
