import Verif.Model.TurboPlonk
import Verif.Model.TestInputs
/-!
The tests of the permutation argument on its own: `copy_simple` (src/tests/with_copy.rs 58-730) and
`test_chunked_permutation` (src/permutation/mod.rs 359-768). Both are one program run on different columns:
construct the grand products, evaluate the argument on the extended coset, divide by the vanishing
polynomial, and compare the quotient with `open_argument` at a random point.
A failed `assert_eq!` or `unwrap` panics.
-/
set_option autoImplicit false
namespace ZK
section
variable {F : Type} [Field F]

/-- A `WitnessProverOracle` or `FixedProverOracle` written down field by field from its values on the domain
(src/tests/with_copy.rs 364-439, 481-493; src/permutation/mod.rs 473-549). -/
def testOracle [DecidableEq F] [FftParams F] (d ext : Domain F) (kind : OracleType) (copied : Bool)
    (c : Label × List F) : ProverOracle F :=
  ⟨kind, c.1, trim (d.ifft c.2), c.2, some (ext.cosetFft (trim (d.ifft c.2))), setExtend [] [Rotation.curr], copied⟩

/-- A `WitnessVerifierOracle` or `FixedVerifierOracle` written down field by field with the values of `poly` at
`points`: `BTreeMap::from([..])` keeps the last of several equal keys
(src/tests/with_copy.rs 570-706; src/permutation/mod.rs 643-745). -/
def testVerifierOracle {C : Type} (kind : OracleType) (label : Label) (rotations : List Rotation) (copied : Bool)
    (poly points : List F) : VerifierOracle F C :=
  ⟨kind, label, setExtend [] rotations, (points.map (fun x => (x, peval poly x))).reverse, none, copied⟩

/-- The verifier's oracle of one column, known at the challenge only. -/
def testColumn {C : Type} (xi : F) (o : ProverOracle F) : VerifierOracle F C :=
  testVerifierOracle o.kind o.label [Rotation.curr] o.shouldPermute o.poly [xi]

/-- The verifier's oracle of grand product `j` of `m`: known at the challenge, at the next point and, unless it
is the last one, `u` points further (src/tests/with_copy.rs 617-706, src/permutation/mod.rs 697-745). -/
def testProduct {C : Type} (d : Domain F) (u m : Nat) (xi : F) (o : ProverOracle F × Nat) : VerifierOracle F C :=
  if o.2 + 1 = m then
    testVerifierOracle .witness (bytes "agg_poly_" ++ natBytes o.2) [Rotation.curr, Rotation.next] false o.1.poly
      [xi, xi * d.element 1]
  else
    testVerifierOracle .witness (bytes "agg_poly_" ++ natBytes o.2) [Rotation.curr, Rotation.next, ⟨u, .plus⟩] false
      o.1.poly [xi, xi * d.element 1, xi * d.element u]

/-- The values of the selector of the blinding rows: ones of which the first `u + 1` are overwritten by zeros
(src/tests/with_copy.rs 472-475; written out in src/permutation/mod.rs 395-404). -/
def testBlinding (n u : Nat) : List F := (List.range n).map (fun i => if i < u + 1 then 0 else 1)

/-- The values on the extended coset divided by those of the vanishing polynomial, interpolated
(src/tests/with_copy.rs 541-556, src/permutation/mod.rs 617-631). `batch_inversion` leaves zeros as they are,
as `⁻¹` does. -/
def testQuotient {ε : Type} [DecidableEq F] [FftParams F] (ext : Domain F) (n : Nat) (nums : List F) :
    Res ε (List F) := do
  let zh ← vanishingOverCoset ext n
  pure (trim (ext.cosetIfft (List.zipWith (· * ·) nums (zh.map (·⁻¹)))))

/-- The data of a test of the permutation argument. -/
structure PermutationTest (F : Type) where
  size : Nat
  scaling : Nat
  u : Nat
  deltas : List F
  /-- labels and values of the copied columns -/
  columns : List (Label × List F)
  sigmas : List (Label × List F)

/-- The product over all columns computed by hand, `z_evals[u]` in src/tests/with_copy.rs 293-318. -/
def productByHand {ε : Type} [DecidableEq F] (t : PermutationTest F) (d : Domain F) (beta gamma : F) : Res ε F := do
  let zs ← zRun (gpFactor (t.columns.map (·.2)) (t.sigmas.map (·.2)) t.deltas beta gamma d) 1 (List.range t.u)
  Res.idx zs t.u

/-- The tests from the grand products on, src/tests/with_copy.rs 457-730, src/permutation/mod.rs 576-768. The commitments
of the verifier's oracles are `None`, so their type `C` plays no role. -/
def permutationChecks (C : Type) [DecidableEq F] [FftParams F] (t : PermutationTest F) (p : PermutationArgument F)
    (d ext : Domain F) (ws sigmas agg : List (ProverOracle F)) (beta gamma alpha xi : F) : Res PiopErr Unit := do
  let l0 ← lagrangeRow d t.size 0
  let lu ← lagrangeRow d t.size t.u
  let qBlind := testOracle d ext .fixed false (bytes "q_blind", testBlinding d.size t.u)
  let alphas := powersFrom 1 alpha (2 * agg.length + 1 + 1 - 1)
  let nums ← Res.mapM (fun i =>
      (p.instantiate (ext.cosetFft l0) (ext.cosetFft lu) qBlind ws sigmas agg i (ext.element i) beta gamma alphas).expect)
    (List.range ext.size)
  let quotient ← testQuotient ext t.size nums
  let opened ← (p.open_ (C := C) (peval l0 xi) (peval lu xi) (testColumn xi qBlind)
    (agg.zipIdx.map (testProduct d t.u agg.length xi)) (sigmas.map (testColumn xi)) (ws.map (testColumn xi))
    beta gamma d xi alphas).expect
  Res.assert (decide (opened = peval quotient xi * peval d.vanishing xi))

/-- `copy_simple`, src/tests/with_copy.rs 132-730, with `byHand`, and `test_chunked_permutation`,
src/permutation/mod.rs 386-768, without. The random values come from `next`, in the order of the source.

Simplification: the check of the gates at src/tests/with_copy.rs 196-205 involves none of the crate's code and is left out. -/
def permutationTest {Z : Type} (C : Type) [DecidableEq F] [FftParams F] (byHand : Bool) (t : PermutationTest F)
    (next : Z → F × Z) (z : Z) : Res PiopErr Unit := do
  let d ← Res.unwrap (Domain.new (F := F) t.size)
  let b := next z
  let g := next b.2
  if byHand then
    let zu ← productByHand t d b.1 g.1
    Res.assert (decide (zu = 1))
  let ext ← Res.unwrap (Domain.new (F := F) (t.scaling * t.size))
  let ws := t.columns.map (testOracle d ext .witness true)
  let sigmas := t.sigmas.map (testOracle d ext .fixed false)
  let p ← PermutationArgument.new t.scaling ⟨t.u, t.deltas⟩
  let r ← p.constructAggPolys next ws sigmas b.1 g.1 d ext g.2
  let a := next r.2
  let x := next a.2
  permutationChecks C t p d ext ws sigmas r.1 b.1 g.1 a.1 x.1

/-- The data of `copy_simple`, src/tests/with_copy.rs 125-319: the columns and sigmas are those of `copy_plonk`. The rows from the ninth on
are blinded with `blindA`, `blindB` and `blindC`, which have eight entries. In the source `x` is `-2`. -/
def copySimple (d : Domain F) (x : F) (blindA blindB blindC : List F) : PermutationTest F :=
  let t := copyPlonkAt d x blindA blindB blindC
  ⟨16, 2, 8, [1, 7, 13], t.columns.witness, t.sigmas⟩

/-- The data of `test_chunked_permutation`, src/permutation/mod.rs 386-572. `blindA` and `blindB` have three entries. -/
def chunkedPermutation (d : Domain F) (a0 a1 a2 b0 dummy : F) (blindA blindB : List F) : PermutationTest F :=
  let delta : F := 13
  ⟨8, 2, 8 - 2 - 1, [1, 13],
    [(bytes "a", [a0, a1, a2, a1, a0] ++ blindA), (bytes "b", [b0, a0, a0, a1, a1] ++ blindB)],
    [(bytes "sigma_1", [delta * d.element 1, delta * d.element 3, d.element 2, delta * d.element 4, d.element 0, dummy, dummy, dummy]),
      (bytes "sigma_2", [delta, delta * d.element 2, d.element 4, d.element 3, d.element 1, dummy, dummy, dummy])]⟩

end
end ZK
