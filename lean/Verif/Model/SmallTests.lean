import Verif.Model.TurboPlonk
import Verif.Model.Setup
import Verif.Model.Precompiled
/-!
Five short tests of single functions: `test_stitches` (src/lookup/permute.rs 49-88), `test_rands_homomorphism` (src/piop/prover.rs
465-529), `test_simple_lookup_configuration` (src/vo/precompiled_lookups/simple_3_arith.rs 66-137) and `x_in_coset`
(src/permutation/grand_product.rs 206-229) and `works` (src/tests/simple.rs 10-22). A failed assertion or `unwrap` panics.
-/
set_option autoImplicit false
namespace ZK
section
variable {F : Type} [Field F]

/-- `test_stitches` from the lists on, src/lookup/permute.rs 59-86. -/
def stitchProgram {ε : Type} [LinearOrder F] (a s : List F) (dummy : F) : Res ε Unit := do
  Res.assert (decide (a.length < s.length))
  let a := a ++ List.replicate (s.length - a.length) dummy
  Res.assert (decide (a.length = s.length))
  let perm ← permuteForLookup a s
  let a0 ← Res.idx perm.1 0
  let s0 ← Res.idx perm.2 0
  Res.assert (decide (a0 = s0))
  let _ ← Res.mapM (fun i => do
      let x ← Res.idx perm.1 (i + 1)
      let y ← Res.idx perm.1 i
      if x ≠ y then do
        let w ← Res.idx perm.2 (i + 1)
        Res.assert (decide (x = w))
      else pure ())
    (List.range (perm.1.length - 1))
  pure ()

/-- The input of `test_stitches`, src/lookup/permute.rs 50-53. -/
def stitchInput : List Nat :=
  [5, 5, 1, 2, 1, 3, 1, 2, 3, 4, 1, 2, 3, 1, 6, 6, 6, 6, 6, 6, 11, 11, 11, 11, 22, 22, 33, 33, 100]

/-- The table of `test_stitches`, src/lookup/permute.rs 54-58. -/
def stitchTable : List Nat :=
  [1, 2, 45, 9, 5, 21, 99, 2, 3, 4, 1, 2, 3, 11, 19, 2, 3, 1, 2, 13, 22, 1, 3, 5, 100, 100, 22, 33, 6, 6, 611, 87, 37, 27, 28, 100, 33,
    22, 11]

/-- `test_stitches`, src/lookup/permute.rs 49-88. -/
def stitchTest {ε : Type} [LinearOrder F] : Res ε Unit :=
  stitchProgram (stitchInput.map fun v : Nat => (v : F)) (stitchTable.map fun v : Nat => (v : F)) ((99 : Nat) : F)

/-- `x_in_coset`, src/permutation/grand_product.rs 206-229: the lines it prints in its three loops. -/
def xInCoset [FftParams F] (d : Domain F) : List F × List F × List F :=
  (d.elements.map (peval [0, 1]), d.cosetFft [0, 1], (List.range d.size).map fun i => (FftParams.gen : F) * d.element i)

/-- `works` for the Lagrange polynomial of row `i` of a domain of `n` rows, src/tests/simple.rs 13-21: the value it prints. -/
def lagrangeValue {ε : Type} [DecidableEq F] [FftParams F] (n i : Nat) (ch : F) : Res ε F := do
  let d ← Res.unwrap (Domain.new (F := F) n)
  let l ← lagrangeRow d n i
  pure (peval l ch)

/-- `works`, src/tests/simple.rs 10-22. -/
def worksTest {ε : Type} [DecidableEq F] [FftParams F] : Res ε F := lagrangeValue 8 1 ((1231 : Nat) : F)

section
variable {W I X Y : Type} [ConcreteOracle W] [ConcreteOracle I] [ConcreteOracle X] [ConcreteOracle Y]

variable (F) in
/-- `test_simple_lookup_configuration` for arbitrary oracles, src/vo/precompiled_lookups/simple_3_arith.rs 119-136: the configured lookup. -/
def lookupConfigurationProgram {ε : Type} (s : Oracles W I X) (ts : List Y) : Res ε (GenericLookupVO F) := do
  let r := (GenericLookupVO.init (F := F) Gates.simple3).configure s ts
  r.result.expect
  pure r.vo
end

/-- An oracle of `test_simple_lookup_configuration`, src/vo/precompiled_lookups/simple_3_arith.rs 68-117. -/
def bareOracle (kind : OracleType) (label : Label) : ProverOracle F := ⟨kind, label, [], [], none, [], false⟩

/-- `test_simple_lookup_configuration`, src/vo/precompiled_lookups/simple_3_arith.rs 66-137. -/
def lookupConfigurationTest {ε : Type} : Res ε (GenericLookupVO F) :=
  lookupConfigurationProgram F (⟨[bareOracle .witness (bytes "a"), bareOracle .witness (bytes "b"), bareOracle .witness (bytes "c")], [], []⟩ :
      Oracles (ProverOracle F) (ProverOracle F) (ProverOracle F))
    ([bareOracle .fixed (bytes "t1"), bareOracle .fixed (bytes "t2"), bareOracle .fixed (bytes "t3")] : List (ProverOracle F))

variable {G G2 GT : Type} [AddCommGroup G] [Module F G] [AddCommGroup G2] [Module F G2] [AddCommGroup GT] [Module F GT] [DecidableEq GT]

/-- `test_rands_homomorphism` from the commitments on, src/piop/prover.rs 485-528: the commitments are combined with `x1` and
the randomness with `y`, and the opening is checked against the value `v`. In the source `y` is `x1` and `v` is the value of the combination.

Simplification: `open` and `check` get a generator, which they do not use for one polynomial; the opening challenge is one. -/
def randsChecks {ε : Type} [DecidableEq F] (e : G →ₗ[F] G2 →ₗ[F] GT) (ck : KzgKey G) (vk : KzgVk G G2) (p q : List F) (c c' : G × List F)
    (x1 y challenge v : F) : Res ε Unit := do
  let r := dadd p (dscale x1 q)
  let rComm := kzgAdd c.1 (kzgScale c'.1 x1)
  let rRand := kzgAddRands c.2 (kzgScaleRand c'.2 y)
  let proof ← (kzgOpen ck r challenge rRand).expect
  Res.assert (kzgCheck e vk rComm challenge v proof)

/-- `test_rands_homomorphism`, src/piop/prover.rs 465-529. The secrets of the setup and the two polynomials are arguments, the other random
values come from `next` in the order of the source: the blinds of `p` and of `q`, the challenge, `x1`. -/
def randsTest {ε Z : Type} [DecidableEq F] (e : G →ₗ[F] G2 →ₗ[F] GT) (next : Z → F × Z) (maxDegree : Nat) (beta : F) (g gammaG : G) (h : G2)
    (p q : List F) (z : Z) : Res ε Unit := do
  let srs ← (kzgSetup maxDegree beta g gammaG h).expect
  let keys ← (kzgTrim srs srs.maxDegree 1).expect
  let committed ← (kzgCommit next keys.1 [⟨bytes "p", p, true⟩, ⟨bytes "q", q, true⟩] z).expect
  let c ← Res.idx committed.1 0
  let c' ← Res.idx committed.1 1
  let challenge := next committed.2
  let x1 := next challenge.2
  randsChecks e keys.1 keys.2 p q c c' x1.1 x1.1 challenge.1 (peval (dadd p (dscale x1.1 q)) challenge.1)

end
end ZK
