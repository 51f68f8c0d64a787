import Verif.Properties.CircuitTest
import Verif.Properties.ClientExamples
/-! C78: a lookup test and a copy test of eight rows that meet the hypotheses, and a false lookup that is accepted. -/
set_option autoImplicit false
set_option linter.unusedSectionVars false
namespace ZK
open Polynomial
namespace Toy8

/-! ### Lookup -/

def la : List F97 := [1, 1, 2, 3, 4, 5, 6, 7]
def lb : List F97 := [8, 7, 2, 6, 1, 1, 1, 1]
def lc : List F97 := [8, 7, 4, 18, 1, 2, 3, 4]
def lq : List F97 := [1, 1, 1, 1, 0, 0, 0, 0]
def lt : List F97 := [1, 2, 3, 9, 9, 9, 9, 9]
def lsel : List F97 := [0, 0, 0, 0, 1, 1, 1, 1]

/-- The test with four usable rows. -/
def look : CircuitTest F97 := lookupTest la lb lc lq lt lsel 4

/-- The prover succeeds and the verifier accepts. The verifier rejects if the table is another one. -/
theorem look_runs :
    (match runCircuitProver S () () dom look () with
      | .ok p => match runCircuitVerifier S () () dom look p with
        | .ok () => true
        | _ => false
      | _ => false) = true ∧
    (match runCircuitProver S () () dom look () with
      | .ok p => match runCircuitVerifier S () () dom (lookupTest la lb lc lq [1, 2, 9, 9, 9, 9, 9, 9] lsel 4) p with
        | .ok () => false
        | .err _ => true
        | .panic => false
      | _ => false) = true := by
  constructor <;> decide +kernel

/-- The hypotheses of `C78_lookup` are met with the group of 97 elements and a setup of degree 7. -/
example (env : KzgEnv F97 Toy.G97) (beta : F97) (g gammaG h : Toy.G97) (z : env.Z) : ∃ srs ck vk,
    universalSetup 7 beta g gammaG h = .ok srs ∧ prepareKeys srs = .ok (ck, vk) ∧
    ∃ p theta beta gamma, circuitProver (kzgScheme Toy.pair97 env) vk dom look = .ok p ∧
      ((∀ i < 4, la.getD i 0 + beta ≠ 0 ∧ lt.getD i 0 + gamma ≠ 0) →
        ∃ tr, runCircuitRounds (kzgScheme Toy.pair97 env) ck vk dom look z = .ok tr ∧ tr.chal.theta = theta) := by
  obtain ⟨srs, ck, vk, h1, h2, -⟩ := (C59_keys 7 beta g gammaG h).2 (by decide)
  have hs := dom_size
  obtain ⟨p, hp, theta, beta, gamma, -, h3⟩ := C78_lookup Toy.pair97 env h1 h2 dom_Ok (by rw [hs]) (by rw [hs]; decide) (by rw [hs])
    (a := la) (b := lb) (c := lc) (q := lq) (table := lt) (selector := lsel) (by rw [hs]; decide +kernel) (rows := 4) (by rw [hs]; decide)
    (by rw [hs]; decide +kernel) (by rw [hs]; decide +kernel) (by decide +kernel) z
  refine ⟨srs, ck, vk, h1, h2, p, theta, beta, gamma, hp, fun hz => ?_⟩
  obtain ⟨tr, h4, h5, -⟩ := h3 hz
  exact ⟨tr, h4, h5⟩

/-! ### Copies -/

def copyOf (a c : List F97) : CircuitTest F97 :=
  copyTest a [8, 7, 2, 6, 1, 1, 1, 1] c [0, 0, 0, 0, 0, 0, 0, 0] [1, 1, 1, 1, 0, 0, 0, 0] [0, 0, 0, 0, 0, 0, 0, 0] [0, 0, 0, 0, 0, 0, 0, 0]
    [-1, -1, -1, -1, 0, 0, 0, 0] [0, 0, 0, 0, 0, 0, 0, 0] [5 * w, w, w ^ 2, w ^ 3, 0, 0, 0, 0] [5, 1, 5 * w ^ 2, 5 * w ^ 3, 0, 0, 0, 0]
    [25, 25 * w, 25 * w ^ 2, 25 * w ^ 3, 0, 0, 0, 0] [0, 0, 0, 0, 0, 1, 1, 1] [1, 5, 25] 4

/-- Products of `a` and `b` in the first four rows; `a[0]` and `b[1]` change places. -/
def copyGood : CircuitTest F97 := copyOf [7, 3, 11, 4, 1, 2, 3, 4] [56, 21, 22, 24, 1, 2, 3, 4]

/-- The prover succeeds and the verifier accepts. The prover fails if the two values differ. -/
theorem copy_runs :
    (match runCircuitProver S () () dom copyGood () with
      | .ok p => match runCircuitVerifier S () () dom copyGood p with
        | .ok () => true
        | _ => false
      | _ => false) = true ∧
    (match runCircuitProver S () () dom (copyOf [9, 3, 11, 4, 1, 2, 3, 4] [72, 21, 22, 24, 1, 2, 3, 4]) () with
      | .panic => true
      | _ => false) = true := by
  constructor <;> decide +kernel

/-- The hypotheses of `C78_copy` are met with the group of 97 elements and a setup of degree 7. -/
example (env : KzgEnv F97 Toy.G97) (beta : F97) (g gammaG h : Toy.G97) (z : env.Z) : ∃ srs ck vk,
    universalSetup 7 beta g gammaG h = .ok srs ∧ prepareKeys srs = .ok (ck, vk) ∧
    ∃ p theta beta gamma, circuitProver (kzgScheme Toy.pair97 env) vk dom copyGood = .ok p ∧
      ((∀ k < 3, ∀ i < 4, valueAt copyGood.columns.witness k i + beta * valueAt copyGood.sigmas k i + gamma ≠ 0) →
        ∃ tr, runCircuitRounds (kzgScheme Toy.pair97 env) ck vk dom copyGood z = .ok tr ∧ tr.chal.theta = theta) := by
  obtain ⟨srs, ck, vk, h1, h2, -⟩ := (C59_keys 7 beta g gammaG h).2 (by decide)
  have hs := dom_size
  obtain ⟨p, hp, theta, beta, gamma, -, h3⟩ := C78_copy Toy.pair97 env h1 h2 dom_Ok (by rw [hs]) (by rw [hs]; decide) (by rw [hs])
    (a := [7, 3, 11, 4, 1, 2, 3, 4]) (b := [8, 7, 2, 6, 1, 1, 1, 1]) (c := [56, 21, 22, 24, 1, 2, 3, 4]) (pi := [0, 0, 0, 0, 0, 0, 0, 0])
    (qm := [1, 1, 1, 1, 0, 0, 0, 0]) (ql := [0, 0, 0, 0, 0, 0, 0, 0]) (qr := [0, 0, 0, 0, 0, 0, 0, 0]) (qo := [-1, -1, -1, -1, 0, 0, 0, 0])
    (qc := [0, 0, 0, 0, 0, 0, 0, 0]) (s1 := [5 * w, w, w ^ 2, w ^ 3, 0, 0, 0, 0]) (s2 := [5, 1, 5 * w ^ 2, 5 * w ^ 3, 0, 0, 0, 0])
    (s3 := [25, 25 * w, 25 * w ^ 2, 25 * w ^ 3, 0, 0, 0, 0]) (selector := [0, 0, 0, 0, 0, 1, 1, 1]) (deltas := [1, 5, 25])
    (by rw [hs]; decide +kernel) (u := 4) (by rw [hs]; decide) rfl (by rw [hs]; decide +kernel) (by rw [hs]; decide +kernel)
    (tau := Equiv.swap (⟨0, by decide⟩, ⟨0, by decide⟩) (⟨1, by decide⟩, ⟨1, by decide⟩)) (by decide +kernel) (by decide +kernel) z
  refine ⟨srs, ck, vk, h1, h2, p, theta, beta, gamma, hp, fun hz => ?_⟩
  obtain ⟨tr, h4, h5, -⟩ := h3 hz
  exact ⟨tr, h4, h5⟩

/-! ### A false lookup -/

/-- The ideal scheme with a generator of zeros. The generator belongs to the prover alone. -/
abbrev S0 : Scheme F97 := { Toy.S with next := fun z => (0, z) }

/-- Values none of which is in the table. -/
def outside : List F97 := [50, 51, 52, 53, 54, 55, 56, 57]
def outsideC : List F97 := List.zipWith (· * ·) outside lb

/-- **C78, soundness of the lookup test.** The verifier of the lookup test, which gets `PermutationInfo::dummy()` and so takes row zero for the
last usable row, accepts looked-up values none of which is in the table. The prover runs the crate's own code with zero usable rows and a generator
of zeros. (`C26_selector_at_row_zero_unsound` is the reason.) -/
theorem C78_lookup_test_unsound : (∀ x ∈ outside, x ∉ lt) ∧
    (match runCircuitProver S0 () () dom (lookupTest outside lb outsideC lq lt lsel 0) () with
      | .ok p => match runCircuitVerifier S0 () () dom (lookupTest outside lb outsideC lq lt lsel 4) p with
        | .ok () => true
        | _ => false
      | _ => false) = true := by
  constructor <;> decide +kernel

end Toy8
end ZK
