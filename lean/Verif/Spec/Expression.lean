import Verif.Spec.Basic
/-! Meaning of expressions and the data of an oracle other than its registered rotations. -/
set_option autoImplicit false
namespace ZK

/-- Meaning of an expression in a ring, given the meaning of constants and of oracle queries. -/
def Expr.denote {F R : Type} [CommRing R] (c : F → R) (v : OracleQuery → R) : Expr F → R
  | .const a => c a
  | .oracle q => v q
  | .neg a => -a.denote c v
  | .sum a b => a.denote c v + b.denote c v
  | .prod a b => a.denote c v * b.denote c v
  | .scaled a k => a.denote c v * c k

/-- Oracle queries occurring in an expression, left to right. -/
def Expr.queries {F : Type} : Expr F → List OracleQuery
  | .const _ => []
  | .oracle q => [q]
  | .neg a => a.queries
  | .sum a b => a.queries ++ b.queries
  | .prod a b => a.queries ++ b.queries
  | .scaled a _ => a.queries

/-- Meaning of a virtual expression, given the meaning of virtual queries. -/
def VExpr.denote {F R : Type} [CommRing R] (c : F → R) (v : VirtualQuery → R) : VExpr F → R
  | .const a => c a
  | .oracle q => v q
  | .neg a => -a.denote c v
  | .sum a b => a.denote c v + b.denote c v
  | .prod a b => a.denote c v * b.denote c v
  | .scaled a k => a.denote c v * c k

/-- Virtual queries occurring in a virtual expression, left to right. -/
def VExpr.queries {F : Type} : VExpr F → List VirtualQuery
  | .const _ => []
  | .oracle q => [q]
  | .neg a => a.queries
  | .sum a b => a.queries ++ b.queries
  | .prod a b => a.queries ++ b.queries
  | .scaled a _ => a.queries

/-- Oracle types whose only mutable part under `register_rotation` is the set of rotations. `erase` is
the oracle with its set of rotations emptied: all its other data. -/
class OracleData (O : Type) extends ConcreteOracle O where
  erase : O → O
  erase_register : ∀ o r, erase (register o r) = erase o
  label_erase : ∀ o, label (erase o) = label o
  rotations_register : ∀ o r, rotations (register o r) = setInsert r (rotations o)
  ext' : ∀ o o', erase o = erase o' → rotations o = rotations o' → o = o'

instance {F : Type} : OracleData (ProverOracle F) where
  erase o := { o with rotations := [] }
  erase_register _ _ := rfl
  label_erase _ := rfl
  rotations_register _ _ := rfl
  ext' := by
    rintro ⟨⟩ ⟨⟩ h1 h2
    simp_all [ConcreteOracle.rotations]

instance {F C : Type} : OracleData (VerifierOracle F C) where
  erase o := { o with rotations := [] }
  erase_register _ _ := rfl
  label_erase _ := rfl
  rotations_register _ _ := rfl
  ext' := by
    rintro ⟨⟩ ⟨⟩ h1 h2
    simp_all [ConcreteOracle.rotations]

instance {F : Type} : OracleData (InstanceVerifierOracle F) where
  erase o := { o with rotations := [] }
  erase_register _ _ := rfl
  label_erase _ := rfl
  rotations_register _ _ := rfl
  ext' := by
    rintro ⟨⟩ ⟨⟩ h1 h2
    simp_all [ConcreteOracle.rotations]

/-- `os'` is `os` where the oracle at index `i` has additionally been asked, for every query `(ty, i, r)`
of `qs`, for the rotation `r`; nothing else differs. -/
def Registered {O : Type} [OracleData O] (ty : OracleType) (qs : List VirtualQuery) (os os' : List O) :
    Prop :=
  os'.length = os.length ∧ ∀ i o, os[i]? = some o → ∃ o', os'[i]? = some o' ∧
    OracleData.erase o' = OracleData.erase o ∧
    ∀ r, r ∈ ConcreteOracle.rotations o' ↔
      r ∈ ConcreteOracle.rotations o ∨ (⟨i, r, ty⟩ : VirtualQuery) ∈ qs

/-- The number of oracles of a type. -/
def Oracles.count {W I X : Type} (s : Oracles W I X) : OracleType → Nat
  | .witness => s.witness.length
  | .instance_ => s.inst.length
  | .fixed => s.fixed.length

/-- All three lists after registering `qs`. -/
def Oracles.Registered {W I X : Type} [OracleData W] [OracleData I] [OracleData X] (qs : List VirtualQuery) (s s' : Oracles W I X) : Prop :=
  ZK.Registered .witness qs s.witness s'.witness ∧ ZK.Registered .instance_ qs s.inst s'.inst ∧
    ZK.Registered .fixed qs s.fixed s'.fixed

/-- Every set of rotations is stored as a `BTreeSet` is: strictly increasing. -/
def Oracles.Sorted {W I X : Type} [OracleData W] [OracleData I] [OracleData X] (s : Oracles W I X) :
    Prop :=
  (∀ o ∈ s.witness, (ConcreteOracle.rotations o).Pairwise (· < ·)) ∧
  (∀ o ∈ s.inst, (ConcreteOracle.rotations o).Pairwise (· < ·)) ∧
  (∀ o ∈ s.fixed, (ConcreteOracle.rotations o).Pairwise (· < ·))

/-- Label of the oracle a virtual query points at by type and index. -/
def Oracles.labelAt {W I X : Type} [ConcreteOracle W] [ConcreteOracle I] [ConcreteOracle X]
    (s : Oracles W I X) (ty : OracleType) (i : Nat) : Option Label :=
  match ty with
  | .witness => (s.witness[i]?).map ConcreteOracle.label
  | .instance_ => (s.inst[i]?).map ConcreteOracle.label
  | .fixed => (s.fixed[i]?).map ConcreteOracle.label

/-- The three lists of labels agree. -/
def Oracles.SameLabels {W I X W' I' X' : Type} [ConcreteOracle W] [ConcreteOracle I] [ConcreteOracle X]
    [ConcreteOracle W'] [ConcreteOracle I'] [ConcreteOracle X'] (s : Oracles W I X)
    (s' : Oracles W' I' X') : Prop :=
  s'.witness.map ConcreteOracle.label = s.witness.map ConcreteOracle.label ∧
  s'.inst.map ConcreteOracle.label = s.inst.map ConcreteOracle.label ∧
  s'.fixed.map ConcreteOracle.label = s.fixed.map ConcreteOracle.label

/-- Labels are distinct inside each list. -/
def Oracles.DistinctLabels {W I X : Type} [ConcreteOracle W] [ConcreteOracle I] [ConcreteOracle X]
    (s : Oracles W I X) : Prop :=
  (s.witness.map ConcreteOracle.label).Nodup ∧ (s.inst.map ConcreteOracle.label).Nodup ∧
    (s.fixed.map ConcreteOracle.label).Nodup

/-- The answer to a virtual query: ask the oracle at that index of the list of that type. -/
def Oracles.answerAt {F W I X : Type} (s : Oracles W I X) (gw : W → Rotation → Res PiopErr F)
    (gi : I → Rotation → Res PiopErr F) (gx : X → Rotation → Res PiopErr F) (q : VirtualQuery) :
    Res PiopErr F :=
  match q.oracleType with
  | .witness => match s.witness[q.index]? with
    | some o => gw o q.rotation
    | none => .panic
  | .instance_ => match s.inst[q.index]? with
    | some o => gi o q.rotation
    | none => .panic
  | .fixed => match s.fixed[q.index]? with
    | some o => gx o q.rotation
    | none => .panic

end ZK
