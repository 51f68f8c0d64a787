import Verif.Properties.NoRowsTest
import Verif.Properties.CircuitTestExamples
/-! A concrete case that meets the hypotheses of C80: the columns of `Toy8.C78_lookup_test_unsound`, none of whose values is in the table. -/
set_option autoImplicit false
namespace ZK
namespace Toy8

/-- The hypotheses of `C80_lookup_test` are met with the group of 97 elements, a setup of degree 7 and values outside the table. -/
example (env : KzgEnv F97 Toy.G97) (beta : F97) (g gammaG h : Toy.G97) (z : env.Z) : (∀ x ∈ outside, x ∉ lt) ∧ ∃ srs ck vk,
    universalSetup 7 beta g gammaG h = .ok srs ∧ prepareKeys srs = .ok (ck, vk) ∧
    ∃ tr, runCircuitRounds (kzgScheme Toy.pair97 env).unblinded ck vk dom (lookupTest outside lb outsideC lq lt lsel 0) z = .ok tr ∧
      (tr.chal.xi ≠ 0 → ∃ proof,
        runCircuitProver (kzgScheme Toy.pair97 env).unblinded ck vk dom (lookupTest outside lb outsideC lq lt lsel 0) z = .ok proof) := by
  refine ⟨by decide +kernel, ?_⟩
  obtain ⟨srs, ck, vk, h1, h2, -⟩ := (C59_keys 7 beta g gammaG h).2 (by decide)
  have hs := dom_size
  obtain ⟨tr, h3, h4⟩ := C80_lookup_test Toy.pair97 env h1 h2 dom_Ok (by rw [hs]) (by rw [hs]; decide) (by rw [hs])
    (a := outside) (b := lb) (c := outsideC) (q := lq) (table := lt) (selector := lsel) (by rw [hs]; decide +kernel) (rows := 4)
    (by rw [hs]; decide) (by rw [hs]; decide +kernel) (by rw [hs]; decide +kernel) z
  refine ⟨srs, ck, vk, h1, h2, tr, h3, fun hxi => ?_⟩
  obtain ⟨proof, h5, -⟩ := h4 hxi
  exact ⟨proof, h5⟩

end Toy8
end ZK
