import Verif.Properties.RealTest
import Verif.Properties.TestSound
/-! Soundness of the test `copy_plonk` with the inputs of the source (C83). -/
set_option autoImplicit false
set_option linter.unusedSectionVars false
open Polynomial
namespace ZK

section
variable {F : Type} [Field F] [LinearOrder F]

/-- What the verifier of `copy_plonk` gets from `configure`. -/
theorem copyPlonk_configured {S : Scheme F} {com : F[X] → S.Rand → S.Comm} (d : Domain F) (a b c : List F) :
    ∃ c', configureAll (copyPlonkCircuit d a b c).calls ((copyPlonkCircuit d a b c).verifier S com d)
        ((copyPlonkCircuit d a b c).tables.map (CircuitTest.handle S com d)) = .ok c' ∧
      c'.oracles.witness.map (·.rotations) = List.replicate 3 [Rotation.curr] ∧
      c'.oracles.fixed.map (·.rotations) = List.replicate 5 [Rotation.curr] ∧ c'.tables = [] :=
  ⟨_, rfl, rfl, rfl, rfl⟩

/-- The sets of rotations a proof for `copy_plonk` is opened at: `{0}`, `{-1, 0}`, `{0, 1}` and `{0, 1, 8}`. -/
theorem copyPlonk_rotationSets {S : Scheme F} {com : F[X] → S.Rand → S.Comm} {d : Domain F} {a b c : List F}
    {c' : Configured F (VerifierOracle F S.Comm) (InstanceVerifierOracle F) (VerifierOracle F S.Comm) (VerifierOracle F S.Comm)}
    (h : configureAll (copyPlonkCircuit d a b c).calls ((copyPlonkCircuit d a b c).verifier S com d)
        ((copyPlonkCircuit d a b c).tables.map (CircuitTest.handle S com d)) = .ok c') (sel : Label × List F) :
    rotationSets (c'.oracles.witness ++ c'.oracles.fixed ++ c'.tables ++
        (copyPlonkCircuit d a b c).sigmas.map (CircuitTest.handleCurr S com d) ++ [CircuitTest.handleCurr S com d sel]) 8
      = (List.replicate 12 [Rotation.curr] ++ [setExtend [] [Rotation.curr], setExtend [] [Rotation.curr, Rotation.prev],
          setExtend [] [Rotation.curr, Rotation.next], setInsert (⟨8, .plus⟩ : Rotation) (setExtend [] [Rotation.curr, Rotation.next])]).toFinset := by
  obtain ⟨c'', h1, h2, h3, h4⟩ := copyPlonk_configured (S := S) (com := com) d a b c
  obtain rfl := Res.ok.inj (h.symm.trans h1)
  unfold rotationSets
  rw [List.map_append, List.map_append, List.map_append, List.map_append, h2, h3, h4]
  rfl

end

section
variable {S : Scheme Fr} {ck : S.CK} {vk : S.VK} {com : Fr[X] → S.Rand → S.Comm}

open Classical in
/-- **C83** Soundness of `copy_plonk`, over the scalar field of BLS12-381. Let the witness columns be any columns whose first cell is not a
root of `x^3 + 2 x + 12`. Then the verifier of the test, for any strategy that commits to them and has a quotient of at most `Q` parts, accepts for
at most the fraction `(99 + Q + max 60 (16 (Q - 1) + 31)) / |T|` of the challenges from a set `T`. The honest prover has two parts, the
fraction is then `161 / |T|`. -/
theorem C83_copy_plonk (hS : HomomorphicScheme S ck vk com)
    (hplain : ∀ p cs, S.commitPlain ck p = .ok cs → cs = [com (toPoly p.poly) S.emptyRand])
    (hB : Binding S vk com) (hinj : ∀ p q r s, com p r = com q s → p = q) (hn : SupportsDegree S ck 16)
    {a b c : List Fr} (ha : a.length = 16) (hb : b.length = 16) (hc : c.length = 16)
    (hx : a.getD 0 0 ^ 3 + 2 * a.getD 0 0 + 12 ≠ 0) :
    ∃ c' key, configureAll (copyPlonkCircuit (Fr381.dom 4) a b c).calls ((copyPlonkCircuit (Fr381.dom 4) a b c).verifier S com (Fr381.dom 4)) []
        = .ok c' ∧
      indexer (fun o => o.shouldPermute) vk c'.vos c'.lookups c'.oracles.witness c'.oracles.inst c'.oracles.fixed (Fr381.dom 4)
        (Fr381.dom 4).vanishing (copyPlonkCircuit (Fr381.dom 4) a b c).info 8 (S := S) = .ok key ∧
      ∀ (Q : Nat) (P : Strategy S), P.Legal com 16 Q key ⟨c'.oracles.fixed, c'.tables,
          (copyPlonkCircuit (Fr381.dom 4) a b c).sigmas.map (CircuitTest.handleCurr S com (Fr381.dom 4)),
          CircuitTest.handleCurr S com (Fr381.dom 4) (bytes "q_blind", (copyPlonkCircuit (Fr381.dom 4) a b c).selector)⟩
          c'.oracles.witness c'.oracles.inst 16 ([a, b, c].map (fun col => toPoly ((Fr381.dom 4).ifft col))) →
        ∀ T : Finset Fr, ((Fintype.piFinset fun _ : Fin 9 => T).filter (fun x =>
          runCircuitVerifier (S.answering (List.ofFn x)) ck vk (Fr381.dom 4) (copyPlonkCircuit (Fr381.dom 4) a b c)
            ((P.proof com x).answering _) = .ok ())).card
        ≤ (99 + Q + max 60 (16 * (Q - 1) + 31)) * T.card ^ 8 := by
  have hd : (Fr381.dom 4).Ok := Fr381.dom_ok (by norm_num)
  have h16 : (Fr381.dom 4).size = 16 := rfl
  have hsep := C82_separators
  have hadic : FftParams.adicity Fr = 32 := rfl
  generalize Fr381.dom 4 = d at hd h16 hsep ⊢
  have hdeg : GateDegrees d.size (FftParams.adicity Fr) 3 (copyPlonkCircuit d a b c).calls :=
    copyTest_degrees (by rw [h16]; norm_num) (by rw [h16, hadic]; norm_num)
  have hw : (copyPlonkCircuit d a b c).Wellformed d.size := by
    rw [h16]
    refine copyTest_wellformed ?_
    simp [ha, hb, hc]
  have hfit : (copyPlonkCircuit d a b c).Fits d.size := by
    rw [h16]; exact copyPlonkCircuit_fits d a b c
  have henc : (copyPlonkCircuit d a b c).EncodesCopies d copyPlonkPerm := by
    intro _
    refine ⟨copyPlonk_sigmas d a b c, ?_⟩
    intro x y hxy
    have h := @hsep (x.1, ⟨x.2, x.2.2.trans (show 8 < 16 by norm_num)⟩) (y.1, ⟨y.2, y.2.2.trans (show 8 < 16 by norm_num)⟩) hxy
    obtain ⟨h1, h2⟩ := Prod.mk.inj h
    exact Prod.ext h1 (Fin.ext (Fin.mk.inj h2))
  have hfalse : ¬ (copyPlonkCircuit d a b c).Holds d copyPlonkPerm := fun h => hx ((C82_copy_plonk_meaning h16 _).1 ⟨a, b, c, rfl, h⟩)
  have hno : ∀ es qs ts, Call.lookup es qs ts ∉ (copyPlonkCircuit d a b c).calls := by
    intro es qs ts h
    cases List.mem_singleton.1 h
  obtain ⟨c', key, h1, h2, hmain⟩ := C83_circuit (K := 0) hS hplain hB hinj hd (by rw [h16]; exact hn) hw hfit hdeg
    (fun ⟨es, qs, ts, h⟩ => absurd h (hno es qs ts)) (fun es qs ts h => absurd h (hno es qs ts)) henc hfalse
  refine ⟨c', key, h1, h2, fun Q P hP T => ?_⟩
  have hmain := hmain Q P (by rw [h16]; exact hP) T
  have hsets := copyPlonk_rotationSets h1 (bytes "q_blind", (copyPlonkCircuit d a b c).selector)
  rw [show (copyPlonkCircuit d a b c).info.u = 8 from rfl, hsets, h16] at hmain
  refine hmain.trans (Nat.mul_le_mul_right _ (le_of_eq ?_))
  have e1 : (copyPlonkCircuit d a b c).scale 16 3 = 2 := by
    show scalingFactor 16 (3 * (16 - 1) - 16) 3 0 = 2
    decide +kernel
  have e2 : (copyPlonkCircuit d a b c).products 16 3 = 3 := by
    unfold CircuitTest.products
    rw [e1]
    show (3 + (2 - 1) - 1) / (2 - 1) = 3
    norm_num
  have e3 : (copyPlonkCircuit d a b c).degreeBound 16 3 = 60 := by
    unfold CircuitTest.degreeBound
    rw [e1]
    rfl
  rw [e2, e3]
  have e4 : (List.replicate 12 [Rotation.curr] ++ [setExtend [] [Rotation.curr], setExtend [] [Rotation.curr, Rotation.prev],
      setExtend [] [Rotation.curr, Rotation.next],
      setInsert (⟨8, .plus⟩ : Rotation) (setExtend [] [Rotation.curr, Rotation.next])]).toFinset.card = 4 := by decide +kernel
  have e5 : (∑ r ∈ (List.replicate 12 [Rotation.curr] ++ [setExtend [] [Rotation.curr], setExtend [] [Rotation.curr, Rotation.prev],
      setExtend [] [Rotation.curr, Rotation.next],
      setInsert (⟨8, .plus⟩ : Rotation) (setExtend [] [Rotation.curr, Rotation.next])]).toFinset, r.length) = 8 := by decide +kernel
  rw [e4, e5]
  show 8 * (0 - 1) + (max (2 * (3 * 8)) (4 * 8) + ((1 + 2 * 3 + 5 * 0) + (max 60 (16 * (Q - 1) + (16 - 1) + 16) +
    (((3 + 3 * 0 + Q + 3 + (5 + 0 + 3 + 1)) - 1) + ((4 - 1) + ((16 + 8 - 1) + 4)))))) = _
  omega

end
end ZK
