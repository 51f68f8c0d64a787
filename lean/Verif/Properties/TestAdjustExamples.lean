import Verif.Properties.KzgErrorExamples
import Verif.Properties.TestAdjust
/-! C92: keys and columns the theorems apply to. -/
set_option autoImplicit false
set_option linter.unusedSectionVars false
open Polynomial
namespace ZK
namespace Fr381

theorem fifteen_ne_zero : (15 : Fr) ≠ 0 := by
  intro h'
  have h : ((15 : Nat) : ZMod r) = 0 := by exact_mod_cast h'
  rw [ZMod.natCast_eq_zero_iff] at h
  exact absurd (Nat.le_of_dvd (by norm_num) h) (by decide +kernel)

/-- The groups are the polynomials, the pairing is their product. The columns of ones satisfy the copies of `copy_plonk` but not its gates:
one is not a root of `x^3 + 2 x + 12`. What the prover returns for them is rejected with probability at most `58 / r` once two numbers in it
are changed. -/
example (env : KzgEnv Fr Fr[X]) (secret : Fr) (z : env.Z) :
    ∃ srs ck vk, universalSetup 15 secret (1 : Fr[X]) (secret • (1 : Fr[X])) (1 : Fr[X]) = .ok srs ∧
    prepareKeys srs = .ok (ck, vk) ∧ ¬ wrongRoot.Holds (dom 4) copyPlonkPerm ∧
    randomOracle Fr {H | ¬ wrongRoot.AcceptsAdjusted ((kzgScheme (LinearMap.mul Fr Fr[X]) env).hashing H) ck vk (dom 4) z}
      ≤ 58 / (r : ENNReal) := by
  refine ⟨_, _, _, rfl, rfl, fun h => ?_, C92_copy_plonk _ env rfl rfl rfl rfl rfl ?_ z⟩
  · have h := (C82_copy_plonk_meaning (d := dom 4) rfl _).1 ⟨oneColumn, oneColumn, oneColumn, rfl, h⟩
    replace h : (1 : Fr) ^ 3 + 2 * 1 + 12 = 0 := h
    exact fifteen_ne_zero (by linear_combination h)
  · rintro ⟨k, i⟩
    rw [copyPlonkPerm_apply]
    fin_cases k <;> fin_cases i <;> rfl

/-- The same for the circuit that nothing satisfies. -/
example (env : KzgEnv Fr Fr[X]) (secret : Fr) (z : env.Z) :
    ∃ srs ck vk, universalSetup 15 secret (1 : Fr[X]) (secret • (1 : Fr[X])) (1 : Fr[X]) = .ok srs ∧
    prepareKeys srs = .ok (ck, vk) ∧ (∀ a b c tau, ¬ (falseCopyPlonk a b c).Holds (dom 4) tau) ∧
    randomOracle Fr {H | ¬ (falseCopyPlonk (List.replicate 16 0) (List.replicate 16 0) (List.replicate 16 0)).AcceptsAdjusted
        ((kzgScheme (LinearMap.mul Fr Fr[X]) env).hashing H) ck vk (dom 4) z} ≤ 58 / (r : ENNReal) := by
  obtain ⟨srs, ck, vk, h1, h2⟩ : ∃ srs ck vk, universalSetup 15 secret (1 : Fr[X]) (secret • (1 : Fr[X])) (1 : Fr[X]) = .ok srs ∧
    prepareKeys srs = .ok (ck, vk) := ⟨_, _, _, rfl, rfl⟩
  obtain ⟨h3, h4⟩ := C92_unsatisfiable (LinearMap.mul Fr Fr[X]) env h1 h2 z
  exact ⟨srs, ck, vk, h1, h2, h3, h4⟩

/-- A column of ones, looked up in a table of ones, for a gate that says `1 * 0 = 1` in every row. -/
example (env : KzgEnv Fr Fr[X]) (secret : Fr) (z : env.Z) :
    ∃ srs ck vk, universalSetup 15 secret (1 : Fr[X]) (secret • (1 : Fr[X])) (1 : Fr[X]) = .ok srs ∧
    prepareKeys srs = .ok (ck, vk) ∧
    randomOracle Fr {H | ¬ (lookupTest oneColumn (List.replicate 16 0) oneColumn oneColumn oneColumn oneColumn 10).AcceptsAdjusted
        ((kzgScheme (LinearMap.mul Fr Fr[X]) env).hashing H) ck vk (dom 4) z} ≤ ((54 : Nat) : ENNReal) / (r : ENNReal) := by
  refine ⟨_, _, _, rfl, rfl, C92_simple_lookup _ env rfl rfl rfl rfl rfl rfl rfl rfl (by norm_num) ?_ ?_ z⟩
  · intro i hi _
    revert i
    exact forall_lt_16 ⟨by decide, by decide, by decide, by decide, by decide, by decide, by decide, by decide, by decide, by decide,
      fun _ => rfl, fun _ => rfl, fun _ => rfl, fun _ => rfl, fun _ => rfl, fun _ => rfl⟩
  · exact fun i hi => ⟨i, hi, rfl⟩

end Fr381
end ZK
