import Mathlib.Order.Lattice
import Mathlib.Order.RelClasses
import Verif.Model.Domain
/-!
Rotations and concrete oracles (src/oracles).
-/
set_option autoImplicit false
namespace ZK

/-- Key realising the derived `Ord` of `Rotation` (src/oracles/rotation.rs 4-15): degree first, then
`Plus < Minus`. -/
def Rotation.key (r : Rotation) : Nat :=
  2 * r.degree + (match r.sign with | .plus => 0 | .minus => 1)

theorem Rotation.key_injective : Function.Injective Rotation.key := by
  rintro ⟨d, s⟩ ⟨d', s'⟩ h
  cases s <;> cases s' <;> simp [Rotation.key] at h ⊢ <;> omega

instance : LinearOrder Rotation := LinearOrder.lift' Rotation.key Rotation.key_injective

namespace Rotation

/-- src/oracles/rotation.rs 23-28. -/
def curr : Rotation := ⟨0, .plus⟩
/-- src/oracles/rotation.rs 30-35. -/
def next : Rotation := ⟨1, .plus⟩
/-- src/oracles/rotation.rs 37-42. -/
def prev : Rotation := ⟨1, .minus⟩

variable {F : Type} [Field F]

/-- `omegas[degree]` or its `inverse().unwrap()` (src/oracles/rotation.rs 53-56, 70-87). -/
def omega {ε : Type} [DecidableEq F] (r : Rotation) (omegas : List F) : Res ε F :=
  match omegas[r.degree]? with
  | none => .panic
  | some w =>
    match r.sign with
    | .plus => .ok w
    | .minus => if w = 0 then .panic else .ok w⁻¹

/-- `compute_evaluation_point`, src/oracles/rotation.rs 44-59. -/
def point {ε : Type} [DecidableEq F] (r : Rotation) (x : F) (omegas : List F) : Res ε F :=
  if r.degree = 0 then .ok x
  else (r.omega omegas).map1 (fun w => x * w)

/-- The label `get_point_info` gives to the point (src/oracles/rotation.rs 67-87). -/
def pointLabel (r : Rotation) (l : Label) : Label :=
  if r.degree = 0 then l
  else
    match r.sign with
    | .plus => bytes "omega_" ++ natBytes r.degree ++ bytes "_" ++ l
    | .minus => bytes "omega_-" ++ natBytes r.degree ++ bytes "_" ++ l

/-- `get_point_info`, src/oracles/rotation.rs 61-92. -/
def pointInfo {ε : Type} [DecidableEq F] (r : Rotation) (l : Label) (x : F) (omegas : List F) :
    Res ε (Label × F) :=
  if r.degree = 0 then .ok (l, x)
  else (r.omega omegas).map1 (fun w => (r.pointLabel l, w * x))

end Rotation

/-- src/oracles/query.rs 5-10. -/
inductive OracleType where
  | witness
  | instance_
  | fixed
  deriving DecidableEq, Repr

/-- src/oracles/query.rs 23-27. -/
structure OracleQuery where
  label : Label
  rotation : Rotation
  oracleType : OracleType
  deriving DecidableEq, Repr

/-- The three prover-side oracles (src/oracles/witness.rs 20-28, fixed.rs 21-29, instance.rs 17-23) have
the same fields except for `should_permute`, which only witness oracles have (`false` for the others);
`kind` tells which of the three Rust types is meant. -/
structure ProverOracle (F : Type) where
  kind : OracleType
  label : Label
  poly : List F
  evals : List F
  coset : Option (List F)
  rotations : List Rotation
  shouldPermute : Bool
  deriving DecidableEq, Repr

/-- Verifier-side witness and fixed oracles (src/oracles/witness.rs 109-115, fixed.rs 139-144).
`evals_at_challenges` is an association list (newest first) as only `insert` and `get` are used. -/
structure VerifierOracle (F C : Type) where
  kind : OracleType
  label : Label
  rotations : List Rotation
  evals : List (F × F)
  commitment : Option C
  shouldPermute : Bool
  deriving DecidableEq, Repr

/-- src/oracles/instance.rs 96-100. -/
structure InstanceVerifierOracle (F : Type) where
  label : Label
  poly : List F
  rotations : List Rotation
  deriving DecidableEq, Repr

/-- The part of `ConcreteOracle` used by `configure` and the batching code
(src/oracles/traits.rs 14-25). -/
class ConcreteOracle (O : Type) where
  label : O → Label
  rotations : O → List Rotation
  /-- `register_rotation` -/
  register : O → Rotation → O

/-- `get_degree`, src/oracles/traits.rs 22-24; `domain_size - 1` underflows for 0. -/
def oracleDegree {ε : Type} (domainSize : Nat) : Res ε Nat :=
  if domainSize = 0 then .panic else .ok (domainSize - 1)

/-- src/oracles/witness.rs 55-71, fixed.rs 85-101, instance.rs 44-60. -/
instance {F : Type} : ConcreteOracle (ProverOracle F) where
  label o := o.label
  rotations o := o.rotations
  register o r := { o with rotations := setInsert r o.rotations }

/-- src/oracles/witness.rs 158-179, fixed.rs 200-221. -/
instance {F C : Type} : ConcreteOracle (VerifierOracle F C) where
  label o := o.label
  rotations o := o.rotations
  register o r := { o with rotations := setInsert r o.rotations }

/-- src/oracles/instance.rs 115-131. -/
instance {F : Type} : ConcreteOracle (InstanceVerifierOracle F) where
  label o := o.label
  rotations o := o.rotations
  register o r := { o with rotations := setInsert r o.rotations }

section
variable {F : Type} [Field F]

/-- `WitnessProverOracle::new`, src/oracles/witness.rs 32-46. -/
def ProverOracle.newWitness (label : Label) (poly evals : List F) (shouldPermute : Bool) :
    ProverOracle F :=
  ⟨.witness, label, poly, evals, none, [], shouldPermute⟩

/-- `InstanceProverOracle::new`, src/oracles/instance.rs 27-39. -/
def ProverOracle.newInstance (label : Label) (poly evals : List F) : ProverOracle F :=
  ⟨.instance_, label, poly, evals, none, [], false⟩

/-- `FixedProverOracle::new`, src/oracles/fixed.rs 33-45. -/
def ProverOracle.newFixed (label : Label) (poly evals : List F) : ProverOracle F :=
  ⟨.fixed, label, poly, evals, none, [], false⟩

/-- `FixedProverOracle::from_evals_and_domains`, src/oracles/fixed.rs 47-64. -/
def ProverOracle.fromEvalsAndDomains [DecidableEq F] [FftParams F] (label : Label) (evals : List F)
    (domain ext : Domain F) : ProverOracle F :=
  let poly := trim (domain.ifft evals)
  ⟨.fixed, label, poly, evals, some (ext.cosetFft poly), [], false⟩

/-- `ConcreteOracle::query` of prover oracles: src/oracles/witness.rs 60-62 and the same in fixed.rs and
instance.rs. -/
def ProverOracle.query (o : ProverOracle F) (x : F) : F := peval o.poly x

/-- `compute_extended_evals`, src/oracles/witness.rs 74-80. -/
def ProverOracle.computeExtended [FftParams F] (o : ProverOracle F) (ext : Domain F) : ProverOracle F :=
  { o with coset := some (ext.cosetFft o.poly) }

/-- `get_extended_coset_evals`, src/oracles/witness.rs 95-100, fixed.rs 129-134, instance.rs 84-89. -/
def ProverOracle.cosetEvals (o : ProverOracle F) : Res PiopErr (List F) :=
  match o.coset with
  | some v => .ok v
  | none => .err (match o.kind with
      | .witness => .missingCosetWitnessEval o.label
      | .fixed => .missingCosetFixedEval o.label
      | .instance_ => .missingCosetInstanceEval o.label)

/-- `query_in_evals_form`, src/oracles/traits.rs 37-44. -/
def ProverOracle.queryEvalsForm (o : ProverOracle F) (lagrange : List F) : F :=
  (List.zip o.evals lagrange).foldl (fun acc p => acc + p.1 * p.2) 0

/-- The index arithmetic shared by `query_in_coset` (src/oracles/traits.rs 58-78, `size` the extended
size and `shift = degree * scaling_ratio`) and `query_at_omega_in_original_domain` (lines 91-105,
`shift = degree`). -/
def rotatedAt {ε : Type} (v : List F) (i shift : Nat) (sign : Sign) : Res ε F :=
  match sign with
  | .plus => if v.length = 0 then .panic else Res.idx v ((i + shift) % v.length)
  | .minus =>
    if shift ≤ i then Res.idx v (i - shift)
    else if v.length = 0 then .panic
    else Res.idx v (v.length - (shift - i) % v.length)

/-- `query_in_coset`, src/oracles/traits.rs 46-79. -/
def ProverOracle.queryInCoset (o : ProverOracle F) (i : Nat) (r : Rotation) : Res PiopErr F :=
  match o.cosetEvals with
  | .err e => .err e
  | .panic => .panic
  | .ok v =>
    if r.degree = 0 then Res.idx v i
    else if o.evals.length = 0 then .panic
    else rotatedAt v i (r.degree * (v.length / o.evals.length)) r.sign

/-- `query_at_omega_in_original_domain`, src/oracles/traits.rs 81-106. -/
def ProverOracle.queryAtOmega {ε : Type} (o : ProverOracle F) (i : Nat) (r : Rotation) : Res ε F :=
  if r.degree = 0 then Res.idx o.evals i else rotatedAt o.evals i r.degree r.sign

/-! ### Verifier oracles -/

variable {C : Type}

/-- `WitnessVerifierOracle::new`, src/oracles/witness.rs 119-127. -/
def VerifierOracle.newWitness (label : Label) (shouldPermute : Bool) : VerifierOracle F C :=
  ⟨.witness, label, [], [], none, shouldPermute⟩

/-- `FixedVerifierOracle::new`, src/oracles/fixed.rs 148-158. -/
def VerifierOracle.newFixed (label : Label) (c : Option C) : VerifierOracle F C :=
  ⟨.fixed, label, [], [], c, false⟩

/-- `register_eval_at_challenge`, src/oracles/witness.rs 131-133, fixed.rs 190-192. -/
def VerifierOracle.registerEval (o : VerifierOracle F C) (x e : F) : VerifierOracle F C :=
  { o with evals := (x, e) :: o.evals }

/-- `register_commitment`, src/oracles/witness.rs 184-186, fixed.rs 226-228. -/
def VerifierOracle.registerCommitment (o : VerifierOracle F C) (c : C) : VerifierOracle F C :=
  { o with commitment := some c }

/-- `query`, src/oracles/witness.rs 165-170, fixed.rs 207-212. -/
def VerifierOracle.query [DecidableEq F] (o : VerifierOracle F C) (x : F) : Res PiopErr F :=
  match assocGet x o.evals with
  | some e => .ok e
  | none => .err (.missingConcreteEval o.label)

/-- `get_commitment`, src/oracles/witness.rs 188-193, fixed.rs 230-235. -/
def VerifierOracle.getCommitment (o : VerifierOracle F C) : Res PiopErr C :=
  match o.commitment with
  | some c => .ok c
  | none => .err (match o.kind with
      | .witness => .missingWitnessCommitment o.label
      | _ => .missingFixedCommitment o.label)

/-- `InstanceVerifierOracle::query`, src/oracles/instance.rs 120-122. -/
def InstanceVerifierOracle.query (o : InstanceVerifierOracle F) (x : F) : F := peval o.poly x

/-- One query of a `QuerySet`: polynomial label, point label, point. -/
abbrev Query (F : Type) := Label ×ₗ Label ×ₗ F

/-- `QuerySetProvider::get_query_set`, src/oracles/traits.rs 124-142: a `BTreeSet` of
`(label, (point label, point))`. -/
def querySetOf {O : Type} [LinearOrder F] [ConcreteOracle O] {ε : Type} (o : O) (l : Label) (x : F)
    (omegas : List F) : Res ε (List (Query F)) :=
  (Res.mapM (fun r : Rotation => r.pointInfo l x omegas) (ConcreteOracle.rotations o)).map1
    (fun ps => setExtend [] (ps.map (fun p => toLex (ConcreteOracle.label o, toLex (p.1, p.2)))))

end
end ZK
