import Verif.Properties.KzgErrorExamples
import Verif.Properties.TestForgery
/-! C91: keys and columns the theorems apply to. -/
set_option autoImplicit false
set_option linter.unusedSectionVars false
open Polynomial
namespace ZK
namespace Fr381

/-- The groups are the polynomials, the pairing is their product. The keys are made by `universal_setup` with any secret. The columns of
ones do not satisfy the circuit of `copy_plonk` (C82), yet a proof without content is rejected with probability at most `17 / r`. For the
strategies of C84, which give an evaluation for every opening set, the same columns are accepted with probability at most `179 / r`. -/
example (env : KzgEnv Fr Fr[X]) (secret : Fr) : ∃ srs ck vk, universalSetup 15 secret (1 : Fr[X]) (secret • (1 : Fr[X])) (1 : Fr[X]) = .ok srs ∧
    prepareKeys srs = .ok (ck, vk) ∧ ¬ wrongRoot.Holds (dom 4) copyPlonkPerm ∧
    randomOracle Fr {H | ¬ ∃ proof : TPProof ((kzgScheme (LinearMap.mul Fr Fr[X]) env).hashing H),
        proof.Blank (S := (kzgScheme (LinearMap.mul Fr Fr[X]) env).hashing H) (⟨0, 0⟩ : KzgProof Fr Fr[X]) ∧
        runCircuitVerifier ((kzgScheme (LinearMap.mul Fr Fr[X]) env).hashing H) ck vk (dom 4) wrongRoot proof = .ok ()}
      ≤ 17 / (r : ENNReal) := by
  refine ⟨_, _, _, rfl, rfl, fun h => ?_, C91_copy_plonk _ env rfl rfl rfl rfl rfl⟩
  have h := (C82_copy_plonk_meaning (d := dom 4) rfl _).1 ⟨oneColumn, oneColumn, oneColumn, rfl, h⟩
  replace h : (1 : Fr) ^ 3 + 2 * 1 + 12 = 0 := h
  have h' : (15 : Fr) = 0 := by linear_combination h
  have h : ((15 : Nat) : ZMod r) = 0 := by exact_mod_cast h'
  rw [ZMod.natCast_eq_zero_iff] at h
  exact absurd (Nat.le_of_dvd (by norm_num) h) (by decide +kernel)

/-- The same for the circuit that nothing satisfies. -/
example (env : KzgEnv Fr Fr[X]) (secret : Fr) : ∃ srs ck vk, universalSetup 15 secret (1 : Fr[X]) (secret • (1 : Fr[X])) (1 : Fr[X]) = .ok srs ∧
    prepareKeys srs = .ok (ck, vk) ∧ (∀ a b c tau, ¬ (falsePlonk a b c oneColumn oneColumn oneColumn).Holds (dom 4) tau) ∧
    randomOracle Fr {H | ¬ ∃ proof : TPProof ((kzgScheme (LinearMap.mul Fr Fr[X]) env).hashing H),
        proof.Blank (S := (kzgScheme (LinearMap.mul Fr Fr[X]) env).hashing H) (⟨0, 0⟩ : KzgProof Fr Fr[X]) ∧
        runCircuitVerifier ((kzgScheme (LinearMap.mul Fr Fr[X]) env).hashing H) ck vk (dom 4)
          (falsePlonk oneColumn oneColumn oneColumn oneColumn oneColumn oneColumn) proof = .ok ()}
      ≤ 17 / (r : ENNReal) := by
  obtain ⟨srs, ck, vk, h1, h2⟩ : ∃ srs ck vk, universalSetup 15 secret (1 : Fr[X]) (secret • (1 : Fr[X])) (1 : Fr[X]) = .ok srs ∧
    prepareKeys srs = .ok (ck, vk) := ⟨_, _, _, rfl, rfl⟩
  obtain ⟨h3, h4⟩ := C91_unsatisfiable (LinearMap.mul Fr Fr[X]) env h1 h2 (s1 := oneColumn) (s2 := oneColumn) (s3 := oneColumn) rfl rfl rfl
  exact ⟨srs, ck, vk, h1, h2, h3, h4 _ _ _ rfl rfl rfl⟩

end Fr381
end ZK
