import Verif.Model.ArgumentTest
/-!
The test of the multi-point opening: `test_halo2_book_example` (src/multiproof/piop/mod.rs 325-502). Polynomials are
committed to, opened at the rotations of a point and the proof is checked.
-/
set_option autoImplicit false
namespace ZK
section
variable {F : Type} [Field F]

/-- One polynomial of the test with its rotations, and the points at which the verifier's oracle knows it. -/
structure OpenedColumn (F : Type) where
  label : Label
  poly : List F
  rotations : List Rotation
  points : List F

/-- The data of the test. -/
structure OpeningTest (F : Type) where
  size : Nat
  xi : F
  columns : List (OpenedColumn F)
  /-- the vector `evals` the Fiat-Shamir generator is initialised with -/
  evals : List F

/-- A `WitnessProverOracle` written down field by field, src/multiproof/piop/mod.rs 344-384. -/
def OpenedColumn.oracle [FftParams F] (d : Domain F) (c : OpenedColumn F) : ProverOracle F :=
  ⟨.witness, c.label, c.poly, d.fft c.poly, none, setExtend [] c.rotations, false⟩

/-- A `WitnessVerifierOracle` written down field by field, src/multiproof/piop/mod.rs 422-464. -/
def OpenedColumn.verifierOracle {C : Type} (c : OpenedColumn F) (commitment : C) : VerifierOracle F C :=
  (testVerifierOracle .witness c.label c.rotations false c.poly c.points).registerCommitment commitment

/-- `FS::initialize(&to_bytes![&oracles_commitments, &evals, &xi])`, src/multiproof/piop/mod.rs 473-475 and 488-490. -/
def OpeningTest.start (S : Scheme F) (t : OpeningTest F) (comms : List S.Comm) : S.T :=
  S.fsInit (comms.flatMap S.encComm ++ t.evals.flatMap S.encF ++ S.encF t.xi)

/-- `test_halo2_book_example`, src/multiproof/piop/mod.rs 325-502, from the keys on. The failed `unwrap` of a commitment or a
proof panics, and so does `assert!(res.is_ok())` if the verifier returns an error.

Simplification: the random polynomials are data. -/
def openingTest (S : Scheme F) [LinearOrder F] [FftParams F] (ck : S.CK) (vk : S.VK) (t : OpeningTest F) (z : S.Z) :
    Res Unit Unit := do
  let d ← Res.unwrap (Domain.new (F := F) t.size)
  let oracles := t.columns.map (·.oracle d)
  let committed ← (S.commit ck (oracles.map (·.toLabeled)) z).expect
  let comms := committed.1.map Prod.fst
  let vs ← Res.mapM (fun (c : OpenedColumn F × Nat) => do
      let comm ← Res.idx comms c.2
      pure (c.1.verifierOracle comm)) t.columns.zipIdx
  let proof ← (mpProve S ck oracles (committed.1.map Prod.snd) t.xi t.size (t.start S comms) committed.2).expect
  (mpVerify S vk proof vs t.xi t.size (t.start S comms)).expect

/-- The data of `test_halo2_book_example` for four polynomials, src/multiproof/piop/mod.rs 329-464: two are opened at `xi` and two at
`xi` and the next point. The vector `evals` has the value of `c` at the next point twice. -/
def halo2Book (d : Domain F) (xi : F) (a b c e : List F) : OpeningTest F where
  size := 16
  xi := xi
  columns := [⟨bytes "a", a, [Rotation.curr], [xi]⟩, ⟨bytes "b", b, [Rotation.curr], [xi]⟩,
    ⟨bytes "c", c, [Rotation.curr, Rotation.next], [xi, d.element 1 * xi]⟩,
    ⟨bytes "d", e, [Rotation.curr, Rotation.next], [xi, d.element 1 * xi]⟩]
  evals := [peval a xi, peval b xi, peval c xi, peval e xi, peval c (d.element 1 * xi), peval c (d.element 1 * xi),
    peval e (d.element 1 * xi)]

end
end ZK
