import Verif.Model.GateTest
import Verif.Spec.Configure
/-!
The program the crate's tests of whole circuits consist of, for arbitrary columns and calls: `test_full_circuit_simple_lookup`
(src/tests/with_lookup.rs 83-479) and `copy_plonk` (src/tests/with_copy.rs 732-1362). Both make a prover's side and a verifier's side
from the same values, one after the other.
-/
set_option autoImplicit false
namespace ZK

section
variable {F : Type} [Field F] [LinearOrder F] [FftParams F]

/-- What a test is made from. `copied` is the copy flag, which is the same for all witness columns in both tests. `rows` and `rows'` are
the numbers of usable rows the prover's side and the verifier's side pass to the indexer. -/
structure CircuitTest (F : Type) where
  columns : TestColumns F
  copied : Bool
  tables : List (Label × List F)
  sigmas : List (Label × List F)
  selector : List F
  calls : List (Call F)
  info : PermutationInfo F
  rows : Nat
  rows' : Nat

/-- The prover's oracles, src/tests/with_lookup.rs 191-233, with_copy.rs 1049-1125. -/
def CircuitTest.prover (d : Domain F) (t : CircuitTest F) : Oracles (ProverOracle F) (ProverOracle F) (ProverOracle F) :=
  ⟨t.columns.witness.map (fun c => ProverOracle.newWitness c.1 (trim (d.ifft c.2)) c.2 t.copied),
    t.columns.inst.map (fun c => ProverOracle.newInstance c.1 (trim (d.ifft c.2)) c.2),
    t.columns.fixed.map (fun c => ProverOracle.newFixed c.1 (trim (d.ifft c.2)) c.2)⟩

/-- The prover's tables, src/tests/with_lookup.rs 249-258. -/
def CircuitTest.proverTables (d : Domain F) (t : CircuitTest F) : List (ProverOracle F) :=
  t.tables.map (fun c => ProverOracle.newFixed c.1 (trim (d.ifft c.2)) c.2)

/-- The sigmas, src/tests/with_copy.rs 1127-1150. -/
def CircuitTest.proverSigmas (d : Domain F) (t : CircuitTest F) : List (ProverOracle F) :=
  t.sigmas.map (fun c => { ProverOracle.newFixed c.1 (trim (d.ifft c.2)) c.2 with rotations := [.curr] })

/-- The blinding selector, src/tests/with_lookup.rs 235-247, with_copy.rs 1152-1167. The evaluations on the coset, which with_lookup.rs
supplies, are computed by `ProverPreprocessedInput::new` again, so that they are left out here. -/
def CircuitTest.proverSelector (d : Domain F) (t : CircuitTest F) : ProverOracle F :=
  { ProverOracle.newFixed (bytes "q_blind") (trim (d.ifft t.selector)) t.selector with rotations := [.curr] }

/-- What the prover holds before it calls `prove`. -/
structure CircuitProver (S : Scheme F) where
  key : VerifierKey S
  made : Configured F (ProverOracle F) (ProverOracle F) (ProverOracle F) (ProverOracle F)

/-- The calls of `configure` and the indexer, src/tests/with_lookup.rs 260-300, with_copy.rs 1169-1203. -/
def circuitProver (S : Scheme F) (vk : S.VK) (d : Domain F) (t : CircuitTest F) : Res (Err S.E) (CircuitProver S) := do
  let c ← (configureAll t.calls (t.prover d) (t.proverTables d)).orPanic
  let key ← (indexer (fun o => o.shouldPermute) vk c.vos c.lookups c.oracles.witness c.oracles.inst c.oracles.fixed d d.vanishing t.info t.rows
    (S := S)).orPanic
  pure ⟨key, c⟩

/-- The prover, src/tests/with_lookup.rs 260-321, with_copy.rs 1169-1224. -/
def runCircuitProver (S : Scheme F) (ck : S.CK) (vk : S.VK) (d : Domain F) (t : CircuitTest F) (z : S.Z) : Res (Err S.E) (TPProof S) := do
  let p ← circuitProver S vk d t
  (prove S ⟨p.key, ck⟩ (.new S p.made.oracles.fixed (t.proverSigmas d) p.made.tables (t.proverSelector d) p.key.index) p.made.oracles.witness
    p.made.oracles.inst p.made.vos d.size z).orPanic

/-- The rounds of the prover in `runCircuitProver`, with the challenges that are drawn. -/
def runCircuitRounds (S : Scheme F) (ck : S.CK) (vk : S.VK) (d : Domain F) (t : CircuitTest F) (z : S.Z) :
    Res (Err S.E) (ProverTrace S) := do
  let p ← circuitProver S vk d t
  proveRounds S ⟨p.key, ck⟩ (.new S p.made.oracles.fixed (t.proverSigmas d) p.made.tables (t.proverSelector d) p.key.index)
    p.made.oracles.witness p.made.oracles.inst p.made.vos d.size z

/-- The verifier, src/tests/with_lookup.rs 326-476, with_copy.rs 1226-1359. It knows the labels of the witness columns. Sigmas and the
selector are opened at the current row. -/
def runCircuitVerifier (S : Scheme F) (ck : S.CK) (vk : S.VK) (d : Domain F) (t : CircuitTest F) (proof : TPProof S) :
    Res (Err S.E) Unit := do
  let fixed ← Res.mapM (fixedHandle S ck d) t.columns.fixed
  let tables ← Res.mapM (fixedHandle S ck d) t.tables
  let sigmas ← Res.mapM (fixedHandle S ck d) t.sigmas
  let blind ← fixedHandle S ck d (bytes "q_blind", t.selector)
  let start : Oracles (VerifierOracle F S.Comm) (InstanceVerifierOracle F) (VerifierOracle F S.Comm) :=
    ⟨t.columns.witness.map (fun c => VerifierOracle.newWitness c.1 t.copied),
      t.columns.inst.map (fun c => (⟨c.1, trim (d.ifft c.2), []⟩ : InstanceVerifierOracle F)), fixed⟩
  let c ← (configureAll t.calls start tables).orPanic
  let key ← (indexer (fun o => o.shouldPermute) vk c.vos c.lookups c.oracles.witness c.oracles.inst c.oracles.fixed d d.vanishing t.info t.rows'
    (S := S)).orPanic
  verify S key ⟨c.oracles.fixed, c.tables, sigmas.map (fun o => { o with rotations := [.curr] }), { blind with rotations := [.curr] }⟩ proof
    c.oracles.witness c.oracles.inst c.vos d.size d.vanishing

/-! ### The circuit of src/tests/with_lookup.rs -/

/-- `get_vo_expression_and_queries`, src/tests/with_lookup.rs 62-80: `q * (a * b - c)`. -/
def lookupTestGate : VExpr F × List VirtualQuery :=
  let a : VirtualQuery := ⟨0, .curr, .witness⟩
  let b : VirtualQuery := ⟨1, .curr, .witness⟩
  let c : VirtualQuery := ⟨2, .curr, .witness⟩
  let q : VirtualQuery := ⟨0, .curr, .fixed⟩
  (.prod (.oracle q) (.sum (.prod (.oracle a) (.oracle b)) (.neg (.oracle c))), [a, b, c, q])

/-- `get_lookup_expressions_and_queries`, src/tests/with_lookup.rs 44-60: the first witness column is looked up in the first table. -/
def lookupTestLookup : List (VExpr F) × List VirtualQuery × List VirtualQuery :=
  ([.oracle ⟨0, .curr, .witness⟩], [⟨0, .curr, .witness⟩], [⟨0, .curr, .fixed⟩])

/-- `test_full_circuit_simple_lookup`, src/tests/with_lookup.rs 83-479, for arbitrary values of its columns and any number of usable rows. -/
def lookupTest (a b c q table selector : List F) (rows : Nat) : CircuitTest F where
  columns := ⟨[(bytes "a", a), (bytes "b", b), (bytes "c", c)], [], [(bytes "q", q)]⟩
  copied := false
  tables := [(bytes "t", table)]
  sigmas := []
  selector := selector
  calls := [.gate (lookupTestGate (F := F)).1 (lookupTestGate (F := F)).2,
    .lookup (lookupTestLookup (F := F)).1 (lookupTestLookup (F := F)).2.1 (lookupTestLookup (F := F)).2.2]
  info := PermutationInfo.empty
  rows := rows
  rows' := 0

/-! ### The circuit of src/tests/with_copy.rs -/

/-- `copy_plonk`, src/tests/with_copy.rs 732-1362, for arbitrary values of its columns: the precompiled gate `PrecompiledPlonkArith`
over three copied columns. The last fixed column `qc` is zero there. -/
def copyTest (a b c pi qm ql qr qo qc sigma1 sigma2 sigma3 : List F) (selector deltas : List F) (u : Nat) : CircuitTest F where
  columns := ⟨[(bytes "a", a), (bytes "b", b), (bytes "c", c)], [(bytes "pi", pi)],
    [(bytes "qm", qm), (bytes "ql", ql), (bytes "qr", qr), (bytes "qo", qo), (bytes "qc", qc)]⟩
  copied := true
  tables := []
  sigmas := [(bytes "sigma_1", sigma1), (bytes "sigma_2", sigma2), (bytes "sigma_3", sigma3)]
  selector := selector
  calls := [.gate (Gates.plonkArith (F := F)).1 (Gates.plonkArith (F := F)).2]
  info := ⟨u, deltas⟩
  rows := u
  rows' := u

end
end ZK
