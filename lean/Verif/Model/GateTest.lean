import Verif.Model.Precompiled
import Verif.Model.TurboPlonk
/-!
The program the crate's tests of single gates consist of: `test_simple_mul` (src/vo/precompiled/mul.rs 73-240) for an arbitrary
gate and arbitrary columns, as `run_prover` and `run_verifier` do it (src/vo/precompiled/tests.rs 65-255, which call the mock prover
instead of `TurboPlonk`).
-/
set_option autoImplicit false
namespace ZK

section
variable {F : Type} [Field F] [LinearOrder F] [FftParams F]

/-- The columns of a test: a label and the values of every column (`Vec<(impl Into<String>, &[F])>`). -/
structure TestColumns (F : Type) where
  witness : List (Label × List F)
  inst : List (Label × List F)
  fixed : List (Label × List F)

/-- `Result::unwrap`. -/
def Res.orPanic {ε ε' α : Type} : Res ε α → Res ε' α
  | .ok a => .ok a
  | .err _ => .panic
  | .panic => .panic

/-- The prover's oracles, src/vo/precompiled/tests.rs 75-101. -/
def TestColumns.prover (d : Domain F) (t : TestColumns F) : Oracles (ProverOracle F) (ProverOracle F) (ProverOracle F) :=
  ⟨t.witness.map (fun c => ProverOracle.newWitness c.1 (trim (d.ifft c.2)) c.2 false),
    t.inst.map (fun c => ProverOracle.newInstance c.1 (trim (d.ifft c.2)) c.2),
    t.fixed.map (fun c => ProverOracle.newFixed c.1 (trim (d.ifft c.2)) c.2)⟩

/-- What the prover holds before it calls `prove`. -/
structure TestProver (S : Scheme F) where
  key : VerifierKey S
  vo : GenericVO F
  oracles : Oracles (ProverOracle F) (ProverOracle F) (ProverOracle F)

/-- Steps 1 to 3 of the prover, src/vo/precompiled/tests.rs 75-129, mul.rs 108-141. -/
def testProver (S : Scheme F) (vk : S.VK) (d : Domain F) (t : TestColumns F) (gate : VExpr F × List VirtualQuery) :
    Res (Err S.E) (TestProver S) := do
  let (vo, s) ← ((GenericVO.init gate).configure (t.prover d)).orPanic
  let key ← (indexer (fun o => o.shouldPermute) vk [vo] [] s.witness s.inst s.fixed d d.vanishing PermutationInfo.empty 0 (S := S)).orPanic
  pure ⟨key, vo, s⟩

/-- The selector, src/vo/precompiled/tests.rs 133-134, mul.rs 143-149. -/
def testSelector : ProverOracle F := ProverOracle.newFixed (bytes "q_blind") [] []

/-- The prover, src/vo/precompiled/tests.rs 65-164, mul.rs 108-168. -/
def runProver (S : Scheme F) (ck : S.CK) (vk : S.VK) (d : Domain F) (t : TestColumns F) (gate : VExpr F × List VirtualQuery) (z : S.Z) :
    Res (Err S.E) (TPProof S) := do
  let p ← testProver S vk d t gate
  (prove S ⟨p.key, ck⟩ (.new S p.oracles.fixed [] [] testSelector p.key.index) p.oracles.witness p.oracles.inst [p.vo] d.size z).orPanic

/-- The rounds of the prover in `runProver`, with the challenges that are drawn. -/
def runRounds (S : Scheme F) (ck : S.CK) (vk : S.VK) (d : Domain F) (t : TestColumns F) (gate : VExpr F × List VirtualQuery) (z : S.Z) :
    Res (Err S.E) (ProverTrace S) := do
  let p ← testProver S vk d t gate
  proveRounds S ⟨p.key, ck⟩ (.new S p.oracles.fixed [] [] testSelector p.key.index) p.oracles.witness p.oracles.inst [p.vo] d.size z

/-- The verifier's handle of a fixed column, src/vo/precompiled/tests.rs 194-208: `PC::commit` without randomness, and
`FixedVerifierOracle::from_commitment` (src/oracles/fixed.rs 161-163). The columns are committed to one by one here. -/
def fixedHandle (S : Scheme F) (ck : S.CK) (d : Domain F) (c : Label × List F) : Res (Err S.E) (VerifierOracle F S.Comm) := do
  let cs ← (S.commitPlain ck ⟨c.1, trim (d.ifft c.2), false⟩).orPanic
  let comm ← Res.idx cs 0
  pure (VerifierOracle.newFixed c.1 (some comm))

/-- The verifier, src/vo/precompiled/tests.rs 168-255, mul.rs 175-239. It knows the labels of the witness columns. -/
def runVerifier (S : Scheme F) (ck : S.CK) (vk : S.VK) (d : Domain F) (t : TestColumns F) (gate : VExpr F × List VirtualQuery)
    (proof : TPProof S) : Res (Err S.E) Unit := do
  let fixed ← Res.mapM (fixedHandle S ck d) t.fixed
  let start : Oracles (VerifierOracle F S.Comm) (InstanceVerifierOracle F) (VerifierOracle F S.Comm) :=
    ⟨t.witness.map (fun c => VerifierOracle.newWitness c.1 false),
      t.inst.map (fun c => (⟨c.1, trim (d.ifft c.2), []⟩ : InstanceVerifierOracle F)), fixed⟩
  let (vo, s) ← ((GenericVO.init gate).configure start).orPanic
  let key ← (indexer (fun o => o.shouldPermute) vk [vo] [] s.witness s.inst s.fixed d d.vanishing PermutationInfo.empty 0 (S := S)).orPanic
  verify S key (.newWoBlind S s.fixed [] []) proof s.witness s.inst [vo] d.size d.vanishing

/-! ### With the mock prover, as in src/vo/precompiled/tests.rs -/

/-- `run_prover` with `MockProver` for `PilInstance`, src/vo/precompiled/tests.rs 45, 65-164. The proof is `MockProof::new()`, which has no
contents. -/
def runMockProver (S : Scheme F) (vk : S.VK) (d : Domain F) (t : TestColumns F) (gate : VExpr F × List VirtualQuery) : Res (Err S.E) Unit := do
  let p ← testProver S vk d t gate
  mockProve ⟨p.oracles.witness, p.oracles.inst, (ProverPreprocessed.new S p.oracles.fixed [] [] testSelector p.key.index).fixed, []⟩ [p.vo] d.size

/-- `run_verifier` with `MockProver` for `PilInstance`, src/vo/precompiled/tests.rs 45, 168-255. -/
def runMockVerifier (S : Scheme F) (ck : S.CK) (vk : S.VK) (d : Domain F) (t : TestColumns F) (gate : VExpr F × List VirtualQuery)
    (proof : Unit) : Res (Err S.E) Unit := do
  let fixed ← Res.mapM (fixedHandle S ck d) t.fixed
  let start : Oracles (VerifierOracle F S.Comm) (InstanceVerifierOracle F) (VerifierOracle F S.Comm) :=
    ⟨t.witness.map (fun c => VerifierOracle.newWitness c.1 false),
      t.inst.map (fun c => (⟨c.1, trim (d.ifft c.2), []⟩ : InstanceVerifierOracle F)), fixed⟩
  let (vo, s) ← ((GenericVO.init gate).configure start).orPanic
  let key ← (indexer (fun o => o.shouldPermute) vk [vo] [] s.witness s.inst s.fixed d d.vanishing PermutationInfo.empty 0 (S := S)).orPanic
  mockVerify key (.newWoBlind S s.fixed [] []) proof s.witness s.inst [vo] d.size d.vanishing

end
end ZK
