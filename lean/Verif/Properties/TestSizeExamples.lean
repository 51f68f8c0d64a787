import Verif.Properties.TestSize
import Verif.Properties.CircuitTestExamples
/-! C93: proofs of the lookup test and the copy test with eight rows. -/
set_option autoImplicit false
set_option linter.unusedSectionVars false
namespace ZK
namespace Toy8

/-- The lookup test with products that are all wrong. -/
def lookWrong : CircuitTest F97 := lookupTest la lb [9, 9, 9, 9, 9, 9, 9, 9] lq lt lsel 4

theorem look_counts {c : List F97} (hc : c.length = 8) {p : TPProof S}
    (hp : runCircuitProver S () () dom (lookupTest la lb c lq lt lsel 4) () = .ok p) : p.numCommitments = 11 ∧ p.numFieldElements = 18 := by
  have hs := dom_size
  have h := C93_lookup (S := S) (ck := ()) (vk := ()) (d := dom) (a := la) (b := lb) (c := c) (q := lq) (table := lt) (selector := lsel) (rows := 4)
    (z := ()) (proof := p) (ideal_homomorphic _ _) dom_Ok (by rw [hs]) (by rw [hs]; decide) (by rw [hs]; simp [hc, la, lb, lq, lt, lsel])
    (by rw [hs]; decide) (by rw [hs]; decide +kernel) hp
  exact ⟨h.2.1, h.2.2.1⟩

/-- There are proofs for values that satisfy the circuit and for values that do not, and they have the same size. -/
theorem look_size : ∃ p p', runCircuitProver S () () dom look () = .ok p ∧ runCircuitProver S () () dom lookWrong () = .ok p' ∧
    p ≠ p' ∧ (p.numCommitments = 11 ∧ p.numFieldElements = 18) ∧ p'.numCommitments = 11 ∧ p'.numFieldElements = 18 := by
  have h : (match runCircuitProver S () () dom look (), runCircuitProver S () () dom lookWrong () with
      | .ok p, .ok p' => decide (p.witnessEvals ≠ p'.witnessEvals)
      | _, _ => false) = true := by decide +kernel
  revert h
  generalize hx : runCircuitProver S () () dom look () = x
  generalize hy : runCircuitProver S () () dom lookWrong () = y
  intro h
  match x, y, h with
  | .ok p, .ok p', h =>
    exact ⟨p, p', rfl, rfl, fun he => of_decide_eq_true h (congrArg TPProof.witnessEvals he), look_counts rfl hx, look_counts rfl hy⟩

theorem copy_counts {p : TPProof S} (hp : runCircuitProver S () () dom copyGood () = .ok p) : p.numCommitments = 9 ∧ p.numFieldElements = 25 := by
  have hs := dom_size
  have h := C93_copy (S := S) (ck := ()) (vk := ()) (d := dom) (z := ()) (proof := p)
    (a := [7, 3, 11, 4, 1, 2, 3, 4]) (b := [8, 7, 2, 6, 1, 1, 1, 1]) (c := [56, 21, 22, 24, 1, 2, 3, 4]) (pi := [0, 0, 0, 0, 0, 0, 0, 0])
    (qm := [1, 1, 1, 1, 0, 0, 0, 0]) (ql := [0, 0, 0, 0, 0, 0, 0, 0]) (qr := [0, 0, 0, 0, 0, 0, 0, 0]) (qo := [-1, -1, -1, -1, 0, 0, 0, 0])
    (qc := [0, 0, 0, 0, 0, 0, 0, 0]) (s1 := [5 * w, w, w ^ 2, w ^ 3, 0, 0, 0, 0]) (s2 := [5, 1, 5 * w ^ 2, 5 * w ^ 3, 0, 0, 0, 0])
    (s3 := [25, 25 * w, 25 * w ^ 2, 25 * w ^ 3, 0, 0, 0, 0]) (selector := [0, 0, 0, 0, 0, 1, 1, 1]) (deltas := [1, 5, 25]) (u := 4)
    (ideal_homomorphic _ _) dom_Ok (by rw [hs]) (by rw [hs]; decide)
    (by rw [hs]; decide +kernel) (by decide) (by rw [hs]; decide) rfl (by rw [hs]; decide +kernel) hp
  exact ⟨h.2.1, h.2.2.1⟩

/-- The proof of the copy test. -/
theorem copy_size : ∃ p, runCircuitProver S () () dom copyGood () = .ok p ∧ p.numCommitments = 9 ∧ p.numFieldElements = 25 := by
  have h := copy_runs.1
  revert h
  generalize hx : runCircuitProver S () () dom copyGood () = x
  intro h
  match x, h with
  | .ok p, h => exact ⟨p, rfl, copy_counts hx⟩

end Toy8
end ZK
