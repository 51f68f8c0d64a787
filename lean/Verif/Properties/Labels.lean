import Verif.Lemmas.System
import Verif.Lemmas.F97
/-! C50: resolving labels. -/
set_option autoImplicit false
namespace ZK

/-- The error for a label that is not among the oracles of a type. -/
def unknownLabel : OracleType → Label → PiopErr
  | .witness => .missingWitnessOracle
  | .instance_ => .missingInstanceOracle
  | .fixed => .missingFixedOracle

section
variable {F : Type} [Field F]

/-- **C50** A label that occurs among the labels of a list of oracles stands for exactly one of them, the last
one carrying it. -/
theorem C50_last_wins {O : Type} [ConcreteOracle O] (os : List O) (l : Label) :
    (l ∈ os.map ConcreteOracle.label → ∃! o, Resolves os l o) ∧
    ∀ o, Resolves os l o ↔ ∃ pre post, os = pre ++ o :: post ∧ ConcreteOracle.label o = l ∧
      l ∉ post.map ConcreteOracle.label := by
  constructor
  · intro h
    obtain ⟨o, ho, hl⟩ := List.mem_map.1 h
    obtain ⟨o', ho'⟩ := exists_resolves ho hl
    exact ⟨o', ho', fun o'' h'' => Resolves.unique h'' ho'⟩
  · intro o
    constructor
    · rintro ⟨i, hi, hl, hlast⟩
      have hlt := getElem?_some_lt hi
      refine ⟨os.take i, os.drop (i + 1), ?_, hl, ?_⟩
      · rw [List.getElem?_eq_getElem hlt] at hi
        rw [← Option.some.inj hi, List.cons_getElem_drop_succ, List.take_append_drop]
      · intro hm
        obtain ⟨o', ho', hl'⟩ := List.mem_map.1 hm
        obtain ⟨k, hk, rfl⟩ := List.getElem_of_mem ho'
        refine hlast (i + 1 + k) _ (by omega) ?_ hl'
        rw [List.getElem_drop]
        exact List.getElem?_eq_getElem _
    · rintro ⟨pre, post, rfl, hl, hn⟩
      refine ⟨pre.length, by simp, hl, ?_⟩
      intro j o' hj ho' hl'
      obtain ⟨k, rfl⟩ : ∃ k, j = pre.length + (k + 1) := ⟨j - pre.length - 1, by omega⟩
      rw [List.getElem?_append_right (by omega), Nat.add_sub_cancel_left, List.getElem?_cons_succ] at ho'
      exact hn (List.mem_map.2 ⟨o', List.mem_of_getElem? ho', hl'⟩)

/-- **C50**, prover: rows, extended coset and mock prover. A known label is answered by the oracle it stands
for, an unknown one gives the missing-oracle error of its type. -/
theorem C50_prover (v : ProverView F) (i : Nat) (q : OracleQuery) :
    (∀ o, Resolves (v.oracles q.oracleType) q.label o →
      v.atRow i q = o.queryAtOmega i q.rotation ∧ v.atCoset i q = o.queryInCoset i q.rotation ∧
      ∀ [DecidableEq F] omegas c x, q.rotation.point (ε := PiopErr) c omegas = .ok x →
        v.mockQuery omegas c q = .ok (o.query x)) ∧
    (q.label ∉ (v.oracles q.oracleType).map ConcreteOracle.label →
      v.atRow i q = .err (unknownLabel q.oracleType q.label) ∧
      v.atCoset i q = .err (unknownLabel q.oracleType q.label) ∧
      ∀ [DecidableEq F] omegas c x, q.rotation.point (ε := PiopErr) c omegas = .ok x →
        v.mockQuery omegas c q = .err (unknownLabel q.oracleType q.label)) := by
  constructor
  · intro o ho
    unfold ProverView.atRow ProverView.atCoset ProverView.mockQuery
    cases hty : q.oracleType <;> rw [hty] at ho <;> simp only [ProverView.oracles] at ho ⊢ <;>
      refine ⟨withOracle_of ho .., withOracle_of ho .., ?_⟩ <;> intro _ om c x hx <;>
      rw [hx, Res.bind_ok, withOracle_of ho]
  · intro hn
    unfold ProverView.atRow ProverView.atCoset ProverView.mockQuery
    cases hty : q.oracleType <;> rw [hty] at hn <;> simp only [ProverView.oracles, unknownLabel] at hn ⊢ <;>
      have hn' := fun o ho he => hn (List.mem_map.2 ⟨o, ho, he⟩) <;>
      refine ⟨withOracle_none hn' .., withOracle_none hn' .., ?_⟩ <;> intro _ om c x hx <;>
      rw [hx, Res.bind_ok, withOracle_none hn']

/-- **C50**, verifier: gates and lookup expressions (which ignore the rotation of fixed and instance queries). -/
theorem C50_verifier {C : Type} [DecidableEq F] (v : VerifierView F C) (xi : F) (omegas : List F)
    (q : OracleQuery) (x : F) (hx : q.rotation.point (ε := PiopErr) xi omegas = .ok x) :
    (q.oracleType = .witness → (∀ o, Resolves v.witness q.label o →
        v.gateAt xi omegas q = o.query x ∧ v.lookupAt xi omegas q = o.query x) ∧
      (q.label ∉ v.witness.map ConcreteOracle.label →
        v.gateAt xi omegas q = .err (.missingWitnessOracle q.label) ∧
        v.lookupAt xi omegas q = .err (.missingWitnessOracle q.label))) ∧
    (q.oracleType = .instance_ → (∀ o, Resolves v.inst q.label o →
        v.gateAt xi omegas q = .ok (o.query x) ∧ v.lookupAt xi omegas q = .ok (o.query xi)) ∧
      (q.label ∉ v.inst.map ConcreteOracle.label →
        v.gateAt xi omegas q = .err (.missingInstanceOracle q.label) ∧
        v.lookupAt xi omegas q = .err (.missingInstanceOracle q.label))) ∧
    (q.oracleType = .fixed → (∀ o, Resolves v.fixed q.label o →
        v.gateAt xi omegas q = o.query x ∧ v.lookupAt xi omegas q = o.query xi) ∧
      (q.label ∉ v.fixed.map ConcreteOracle.label →
        v.gateAt xi omegas q = .err (.missingFixedOracle q.label) ∧
        v.lookupAt xi omegas q = .err (.missingFixedOracle q.label))) := by
  unfold VerifierView.gateAt VerifierView.lookupAt
  rw [hx]
  simp only [Res.bind_ok]
  refine ⟨fun hty => ?_, fun hty => ?_, fun hty => ?_⟩ <;> rw [hty] <;>
    refine ⟨fun o ho => ⟨withOracle_of ho .., withOracle_of ho ..⟩, fun hn => ?_⟩ <;>
    have hn' := fun o ho he => hn (List.mem_map.2 ⟨o, ho, he⟩) <;>
    exact ⟨withOracle_none hn' .., withOracle_none hn' ..⟩

/-- **C50**, indexer: the degree of a query with a known label is `n - 1`, an unknown label gives the
missing-oracle error of its type. -/
theorem C50_indexer {W I X : Type} [ConcreteOracle W] [ConcreteOracle I] [ConcreteOracle X]
    (ws : List W) (is : List I) (fs : List X) (n : Nat) (hn : 0 < n) (q : OracleQuery) :
    let labels := match q.oracleType with
      | .witness => ws.map ConcreteOracle.label
      | .instance_ => is.map ConcreteOracle.label
      | .fixed => fs.map ConcreteOracle.label
    (q.label ∈ labels → degreeOf ws is fs n q = .ok (n - 1)) ∧
    (q.label ∉ labels → degreeOf ws is fs n q = .err (unknownLabel q.oracleType q.label)) := by
  have hd : (oracleDegree n : Res PiopErr Nat) = .ok (n - 1) := by simp [oracleDegree]; omega
  have key : ∀ {O : Type} [ConcreteOracle O] (os : List O) (e : PiopErr),
      (q.label ∈ os.map ConcreteOracle.label →
        withOracle os q.label e (fun _ => oracleDegree n) = .ok (n - 1)) ∧
      (q.label ∉ os.map ConcreteOracle.label → withOracle os q.label e (fun _ => oracleDegree n) = .err e) := by
    intro O _ os e
    constructor
    · intro h
      obtain ⟨o, ho, hl⟩ := List.mem_map.1 h
      obtain ⟨o', ho'⟩ := exists_resolves ho hl
      rw [withOracle_of ho', hd]
    · intro h
      exact withOracle_none (fun o ho he => h (List.mem_map.2 ⟨o, ho, he⟩)) _ _
  unfold degreeOf unknownLabel
  cases q.oracleType
  · exact key ws _
  · exact key is _
  · exact key fs _

end

/-- With a duplicated label the second oracle answers. -/
example : (⟨[], [], [.newFixed [1] [3] [3], .newFixed [1] [4] [4], .newFixed [2] [5] [5]], []⟩ :
    ProverView F97).atRow 0 ⟨[1], .curr, .fixed⟩ = .ok 4 := by decide +kernel

end ZK
