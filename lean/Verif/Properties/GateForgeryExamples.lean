import Verif.Properties.GateForgery
import Verif.Properties.TestForgeryExamples
/-! C94: keys and columns the theorems apply to. -/
set_option autoImplicit false
set_option linter.unusedSectionVars false
open Polynomial
namespace ZK
namespace Fr381

/-- Sixteen rows over the scalar field of BLS12-381. The gate is one in every row, and a proof without content is rejected with probability at
most `17 / r`. -/
example (env : KzgEnv Fr Fr[X]) (secret : Fr) : ∃ srs ck vk, universalSetup 15 secret (1 : Fr[X]) (secret • (1 : Fr[X])) (1 : Fr[X]) = .ok srs ∧
    prepareKeys srs = .ok (ck, vk) ∧
    (∀ i < 16, (Gates.plonkArith (F := Fr)).1.denote id ((falseArith 16 oneColumn oneColumn oneColumn).cell 16 i) = 1) ∧
    randomOracle Fr {H | ¬ ∃ proof : TPProof ((kzgScheme (LinearMap.mul Fr Fr[X]) env).hashing H),
        proof.Blank (S := (kzgScheme (LinearMap.mul Fr Fr[X]) env).hashing H) (⟨0, 0⟩ : KzgProof Fr Fr[X]) ∧
        runVerifier ((kzgScheme (LinearMap.mul Fr Fr[X]) env).hashing H) ck vk (dom 4) (falseArith 16 oneColumn oneColumn oneColumn)
          Gates.plonkArith proof = .ok ()}
      ≤ 17 / (r : ENNReal) := by
  obtain ⟨srs, ck, vk, h1, h2⟩ : ∃ srs ck vk, universalSetup 15 secret (1 : Fr[X]) (secret • (1 : Fr[X])) (1 : Fr[X]) = .ok srs ∧
    prepareKeys srs = .ok (ck, vk) := ⟨_, _, _, rfl, rfl⟩
  have h16 : (dom 4).size = 16 := rfl
  obtain ⟨h3, h4⟩ := C94_false_gate (LinearMap.mul Fr Fr[X]) env h1 h2 (d := dom 4) (dom_ok (by norm_num)) (by rw [h16]; norm_num)
    (by rw [h16]; show 4 * 16 ≤ 2 ^ 32; norm_num) (by rw [h16]) (a := oneColumn) (b := oneColumn) (c := oneColumn) rfl rfl rfl
  rw [card_fr] at h4
  exact ⟨srs, ck, vk, h1, h2, h3, h4.trans (le_of_eq (by norm_cast))⟩

end Fr381
end ZK
