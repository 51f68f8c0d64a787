import Verif.Model.Scheme
/-!
The indexer (src/indexer.rs), `util.rs` and the key types (src/data_structures.rs).
-/
set_option autoImplicit false
namespace ZK

section
variable {F : Type} [Field F]

/-- src/data_structures.rs 48-54. -/
structure Index (F : Type) where
  quotientDegree : Nat
  ext : Domain F
  perm : PermutationArgument F
  lookups : List (GenericLookupVO F)
  usableRows : Nat

/-- src/data_structures.rs 168-172. -/
structure VerifierKey (S : Scheme F) where
  vk : S.VK
  index : Index F
  zhInverses : List F

/-- src/data_structures.rs 186-189. -/
structure ProverKey (S : Scheme F) where
  vk : VerifierKey S
  ck : S.CK

/-- `compute_vanishing_poly_over_coset`, src/util.rs 10-33. -/
def vanishingOverCoset {ε : Type} [FftParams F] (d : Domain F) (deg : Nat) : Res ε (List F) :=
  if deg < d.size then
    .ok ((List.range d.size).map
      (fun i => (FftParams.gen : F) ^ deg * (d.element 1) ^ (deg * i) - 1))
  else .panic

/-- The degree closure of `compute_quotient_degree`, src/indexer.rs 61-90. -/
def degreeOf {W I X : Type} [ConcreteOracle W] [ConcreteOracle I] [ConcreteOracle X]
    (ws : List W) (is : List I) (fs : List X) (n : Nat) (q : OracleQuery) : Res PiopErr Nat :=
  match q.oracleType with
  | .witness => withOracle ws q.label (.missingWitnessOracle q.label) (fun _ => oracleDegree n)
  | .instance_ => withOracle is q.label (.missingInstanceOracle q.label) (fun _ => oracleDegree n)
  | .fixed => withOracle fs q.label (.missingFixedOracle q.label) (fun _ => oracleDegree n)

/-- `compute_quotient_degree`, src/indexer.rs 47-96 (the final subtraction underflows). -/
def quotientDegree {E W I X : Type} [ConcreteOracle W] [ConcreteOracle I] [ConcreteOracle X]
    (ws : List W) (is : List I) (fs : List X) (vos : List (GenericVO F)) (n zhDegree : Nat) :
    Res (Err E) Nat := do
  let m ← Res.foldM (fun (m : Nat) (vo : GenericVO F) => do
      let e ← (vo.getExpression).mapErr Err.vo
      let d ← (e.degree (degreeOf ws is fs n)).mapErr Err.iop
      pure (max m d)) 0 vos
  if zhDegree ≤ m then pure (m - zhDegree) else .panic

/-- `compute_zh_evals`, src/indexer.rs 98-131. `batch_inversion` leaves zeros as they are, as `⁻¹` does. -/
def zhEvals {ε : Type} [DecidableEq F] [FftParams F] (d ext : Domain F) (zh : List F) :
    Res ε (List F) := do
  Res.assert (decide (d.size ≤ ext.size))
  if d.vanishing = trim zh ∧ d.size = ext.size then do
    -- `evaluate_vanishing_polynomial(g) = g^n - 1`
    let v := (FftParams.gen : F) ^ d.size - 1
    Res.assert (decide (v ≠ 0))
    pure (List.replicate d.size v⁻¹)
  else if d.vanishing = trim zh then do
    let v ← vanishingOverCoset ext d.size
    pure (v.map (·⁻¹))
  else
    pure ((ext.cosetFft zh).map (·⁻¹))

/-- `LookupArgument::MINIMAL_SCALING_FACTOR`, src/lookup/mod.rs 68. -/
def lookupMinimalScalingFactor : Nat := 4

/-- `Indexer::index`, src/indexer.rs 134-240. `toPermute` is the list of `should_include_in_copy()` flags
of the witness oracles. -/
def indexer {S : Scheme F} [DecidableEq F] [FftParams F] {W I X : Type} [ConcreteOracle W]
    [ConcreteOracle I] [ConcreteOracle X] (copyFlag : W → Bool) (vk : S.VK) (vos : List (GenericVO F))
    (lookups : List (GenericLookupVO F)) (ws : List W) (is : List I) (fs : List X)
    (domain : Domain F) (zh : List F) (info : PermutationInfo F) (usableRows : Nat) :
    Res (Err S.E) (VerifierKey S) := do
  let qd ← quotientDegree ws is fs vos domain.size (pdegree zh)
  let ext0 ← Res.unwrap (Domain.new (F := F) qd)
  if ext0.size < domain.size then .err .quotientTooSmall else do
  let numPermute := (ws.filter copyFlag).length
  -- `domain.size()` is never zero for an arkworks domain
  let sf := ext0.size / domain.size
  let sf := if 0 < numPermute then max sf PermutationArgument.minimalScalingFactor else sf
  let sf := if lookups.length ≠ 0 then max sf lookupMinimalScalingFactor else sf
  let perm ← PermutationArgument.new sf info
  let ext ← Res.unwrap (Domain.new (F := F) (sf * domain.size))
  let inv ← zhEvals domain ext zh
  pure ⟨vk, ⟨qd, ext, perm, lookups, usableRows⟩, inv⟩

/-- src/data_structures.rs 56-63. -/
structure ProverPreprocessed (S : Scheme F) where
  fixed : List (ProverOracle F)
  perm : List (ProverOracle F)
  table : List (ProverOracle F)
  qBlind : ProverOracle F
  emptyRands : List S.Rand

/-- `ProverPreprocessedInput::new`, src/data_structures.rs 68-107. -/
def ProverPreprocessed.new (S : Scheme F) [FftParams F] (fixed perm table : List (ProverOracle F))
    (qBlind : ProverOracle F) (index : Index F) : ProverPreprocessed S :=
  ⟨fixed.map (·.computeExtended index.ext), perm.map (·.computeExtended index.ext),
    table.map (·.computeExtended index.ext), qBlind.computeExtended index.ext,
    List.replicate (fixed.length + perm.length + table.length + 1) S.emptyRand⟩

/-- src/data_structures.rs 110-118. -/
structure VerifierPreprocessed (S : Scheme F) where
  fixed : List (VerifierOracle F S.Comm)
  table : List (VerifierOracle F S.Comm)
  perm : List (VerifierOracle F S.Comm)
  qBlind : VerifierOracle F S.Comm

/-- `VerifierPreprocessedInput::new_wo_blind`, src/data_structures.rs 139-152. -/
def VerifierPreprocessed.newWoBlind (S : Scheme F) (fixed table perm : List (VerifierOracle F S.Comm)) :
    VerifierPreprocessed S :=
  ⟨fixed, table, perm, VerifierOracle.newFixed (bytes "q_blind") (some S.zero)⟩

end
end ZK
