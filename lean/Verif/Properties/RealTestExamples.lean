import Verif.Properties.RealTest
import Verif.Properties.Setup
/-! C82: keys, blinding rows and a random source that meet the hypotheses. -/
set_option autoImplicit false
set_option linter.unusedSectionVars false
namespace ZK
namespace Fr381

variable {G G2 GT : Type} [AddCommGroup G] [Module Fr G] [AddCommGroup G2] [Module Fr G2] [AddCommGroup GT] [Module Fr GT] [DecidableEq GT]

/-- `copy_plonk` with the setup of the source, of degree 15, and rows blinded with `1`, `2`, …, `8`. -/
example (e : G →ₗ[Fr] G2 →ₗ[Fr] GT) (env : KzgEnv Fr G) (secret : Fr) (g gammaG : G) (h : G2) (z : env.Z) : ∃ srs ck vk,
    universalSetup 15 secret g gammaG h = .ok srs ∧ prepareKeys srs = .ok (ck, vk) ∧
    randomOracle Fr {H | ¬ (copyPlonk (dom 4) [1, 2, 3, 4, 5, 6, 7, 8] [8, 7, 6, 5, 4, 3, 2, 1] [1, 3, 5, 7, 2, 4, 6, 8]).Succeeds
      ((kzgScheme e env).hashing H) ck vk (dom 4) z} ≤ 1 / 2 ^ 249 := by
  obtain ⟨srs, ck, vk, h1, h2, -⟩ := (C59_keys 15 secret g gammaG h).2 (by decide)
  exact ⟨srs, ck, vk, h1, h2, (C82_copy_plonk_source e env h1 h2 rfl rfl rfl z).trans C82_negligible.1⟩

/-- `test_full_circuit_simple_lookup` with the same setup. -/
example (e : G →ₗ[Fr] G2 →ₗ[Fr] GT) (env : KzgEnv Fr G) (secret : Fr) (g gammaG : G) (h : G2) (z : env.Z) : ∃ srs ck vk,
    universalSetup 15 secret g gammaG h = .ok srs ∧ prepareKeys srs = .ok (ck, vk) ∧
    randomOracle Fr {H | ¬ (simpleLookup [1, 2, 3, 4, 5, 6, 7, 8, 9, 10, 11, 12, 13, 14, 15, 16] [1, 2, 3, 4, 5, 6] [6, 5, 4, 3, 2, 1]).Succeeds
      ((kzgScheme e env).hashing H) ck vk (dom 4) z} ≤ 1 / 2 ^ 249 := by
  obtain ⟨srs, ck, vk, h1, h2, -⟩ := (C59_keys 15 secret g gammaG h).2 (by decide)
  exact ⟨srs, ck, vk, h1, h2, (C82_simple_lookup e env h1 h2 le_rfl rfl rfl rfl z).trans C82_negligible.2⟩

/-- The circuit is not trivial: no columns that begin with `1`, which is not a root, satisfy it. -/
example (a b c : List Fr) (h : a.getD 0 0 = 1) : ¬ (copyPlonkCircuit (dom 4) a b c).Holds (dom 4) copyPlonkPerm := by
  intro h2
  have h := (C82_copy_plonk_meaning rfl 1).1 ⟨a, b, c, h, h2⟩
  have h' : (15 : Fr) = 0 := by linear_combination h
  have h : ((15 : Nat) : ZMod r) = 0 := by exact_mod_cast h'
  rw [ZMod.natCast_eq_zero_iff] at h
  exact absurd (Nat.le_of_dvd (by norm_num) h) (by decide +kernel)

end Fr381
end ZK
