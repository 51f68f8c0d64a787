import Verif.Properties.Configure
import Verif.Properties.SuccessExamples
/-! C74: the toy circuit, made with calls of `configure`. -/
set_option autoImplicit false
set_option linter.unusedSectionVars false
namespace ZK
open Polynomial
namespace Toy

def vA : VirtualQuery := ⟨0, .curr, .witness⟩
def vB : VirtualQuery := ⟨1, .curr, .witness⟩
def vBnext : VirtualQuery := ⟨1, .next, .witness⟩
def vC : VirtualQuery := ⟨2, .curr, .witness⟩
def vI : VirtualQuery := ⟨0, .curr, .instance_⟩
def vS : VirtualQuery := ⟨0, .curr, .fixed⟩
def vS' : VirtualQuery := ⟨1, .curr, .fixed⟩
def vT : VirtualQuery := ⟨0, .curr, .fixed⟩

/-- `q * (a * b - c + i)`, by index. -/
def vgate : VExpr F97 := .prod (.oracle vS) (.sum (.sum (.prod (.oracle vA) (.oracle vB)) (.neg (.oracle vC))) (.oracle vI))
/-- `q * (b(next row) - 7)`, by index. -/
def vgateNext : VExpr F97 := .prod (.oracle vS') (.sum (.oracle vBnext) (.neg (.const 7)))

/-- The calls: the two gates, then the lookup. -/
def calls : List (Call F97) :=
  [.gate vgate [vS, vA, vB, vC, vI], .gate vgateNext [vS', vBnext], .lookup [.oracle vC] [vC] [vT]]

/-- The columns as the client makes them, without rotations. -/
def start : Oracles (ProverOracle F97) (ProverOracle F97) (ProverOracle F97) :=
  ⟨[column .witness [1] [7, 3, 11, 4] [] true, column .witness [2] [8, 7, 2, 6] [] true, column .witness [3] [56, 26, 9, 2] [] false],
    [column .instance_ [4] [0, 5, 0, 0] [] false],
    [column .fixed [5] [1, 1, 0, 0] [] false, column .fixed [7] [1, 0, 0, 0] [] false]⟩
def startTable : List (ProverOracle F97) := [column .fixed [6] [26, 56, 0, 0] [] false]

/-- The verifier starts from handles without rotations. -/
def vstart : Oracles (VerifierOracle F97 (List F97)) (InstanceVerifierOracle F97) (VerifierOracle F97 (List F97)) :=
  ⟨start.witness.map blank, start.inst.map (fun o => ⟨o.label, o.poly, o.rotations⟩), start.fixed.map published⟩
def vstartTable : List (VerifierOracle F97 (List F97)) := startTable.map published

theorem goodCalls : GoodCalls 4 calls := by
  constructor
  · decide +kernel
  · decide +kernel
  · decide +kernel
  · intro es qs ts h
    simp only [calls, List.mem_cons, List.not_mem_nil, or_false, reduceCtorEq, false_or, Call.lookup.injEq] at h
    obtain ⟨rfl, rfl, rfl⟩ := h
    decide +kernel

theorem goodCircuit : GoodCircuit dom dom.size start startTable calls sigma qBlind info 2 := by
  have hs := dom_size
  constructor
  · constructor
    · intro o ho
      simp only [start, startTable, List.cons_append, List.nil_append, List.mem_cons, List.not_mem_nil, or_false] at ho
      rcases ho with rfl | rfl | rfl | rfl | rfl | rfl | rfl <;> exact ⟨column_isColumn _ _ rfl [] _, rfl⟩
    · unfold Oracles.DistinctLabels
      decide +kernel
  · rw [hs]; exact goodCalls
  · exact ⟨_, _, List.mem_cons_self⟩
  · intro i o ho hp
    match i, ho with
    | 0, ho => exact ⟨_, List.mem_cons_self, .curr, rfl, by decide⟩
    | 1, ho => exact ⟨_, List.mem_cons_self, .curr, rfl, by decide⟩
    | 2, ho =>
      obtain rfl := Option.some.inj ho
      cases hp
    | i + 3, ho => cases ho
  · intro o ho
    simp only [sigma, List.mem_cons, List.not_mem_nil, or_false] at ho
    rcases ho with rfl | rfl <;> exact ⟨column_isColumn _ _ rfl _ _, rfl⟩
  · exact ⟨(column_isColumn _ _ rfl _ _).2, .inr rfl⟩
  · intro _; decide +kernel
  · intro _
    refine ⟨⟨(column_isColumn _ _ rfl _ _).1, rfl⟩, ?_⟩
    rw [hs]
    decide +kernel
  · rw [hs]; decide
  · intro _
    refine lookupRows_of (column_isColumn _ _ rfl _ _).1 ?_ rfl (by decide) (by rw [hs]; decide)
    rw [hs]
    decide +kernel

theorem freshVerifier : FreshVerifier S (fun p _ => coeffs p) start startTable vstart vstartTable := by
  have key : ∀ os : List (ProverOracle F97), (∀ o ∈ os, o.poly = trim o.poly) →
      List.Forall₂ (fun (o : ProverOracle F97) (p : VerifierOracle F97 (List F97)) => SameConfig o p ∧
        p.commitment = some (coeffs (toPoly o.poly))) os (os.map published) := by
    intro os h
    rw [List.forall₂_map_right_iff]
    refine List.forall₂_same.2 (fun o ho => ⟨⟨rfl, rfl, rfl⟩, ?_⟩)
    rw [coeffs_toPoly, ← h o ho]
    rfl
  refine ⟨blank_same _, ?_, key _ ?_, key _ ?_⟩
  · unfold vstart
    rw [List.forall₂_map_right_iff]
    refine List.forall₂_same.2 (fun o ho => ⟨rfl, ?_, rfl⟩)
    simp only [start, List.mem_singleton] at ho
    subst ho
    rfl
  all_goals decide +kernel

/-- The cell a query reads. -/
def readCell (i : Nat) (q : VirtualQuery) : F97 :=
  match (start.ofType q.oracleType)[q.index]? with
  | some o => o.evals.getD (((i : ℤ) + q.rotation.signed) % 4).toNat 0
  | none => 0

theorem readCell_eq {i : Nat} {q : VirtualQuery} {y : F97} (h : VReads 4 start i q y) : y = readCell i q := by
  obtain ⟨o, ho, j, hj, hy⟩ := h
  unfold readCell
  rw [ho]
  have : (((i : ℤ) + q.rotation.signed) % 4).toNat = j := by
    have hj' : (j : ℤ) = ((i : ℤ) + q.rotation.signed) % 4 := hj
    rw [← hj', Int.toNat_natCast]
  simp only [this, List.getD_eq_getElem?_getD, hy, Option.getD_some]

theorem gateCallsHold (zh : F97[X]) : GateCallsHold dom start calls zh := by
  intro e qs h i hi _ y hy
  rw [dom_size] at hi hy
  have h1 : ∀ i < 4, vgate.denote id (readCell i) = 0 ∧ vgateNext.denote id (readCell i) = 0 := by decide +kernel
  have h2 : e.denote id y = e.denote id (readCell i) := VExpr.denote_congr id e fun q hq => readCell_eq (hy q hq)
  rw [h2]
  simp only [calls, List.mem_cons, List.not_mem_nil, or_false, reduceCtorEq, Call.gate.injEq] at h
  rcases h with ⟨rfl, -⟩ | ⟨rfl, -⟩
  · exact (h1 i hi).1
  · exact (h1 i hi).2

theorem lookupCallsHold : LookupCallsHold dom.size 2 start startTable calls := by
  intro es qs ts h i hi
  rw [dom_size]
  simp only [calls, List.mem_cons, List.not_mem_nil, or_false, reduceCtorEq, false_or, Call.lookup.injEq] at h
  obtain ⟨rfl, rfl, rfl⟩ := h
  refine ⟨1 - i, by omega, .cons ⟨fun _ => if i = 0 then 56 else 26, ?_, column .fixed [6] [26, 56, 0, 0] [] false, rfl, ?_⟩ .nil⟩
  · intro q hq
    obtain rfl := List.mem_singleton.1 hq
    refine ⟨_, rfl, i, ?_, ?_⟩ <;> interval_cases i <;> rfl
  · interval_cases i <;> rfl

/-- The sigmas swap `a[0]` and `b[1]`, whose values agree. -/
theorem startCopies : ∃ tau : Equiv.Perm (Fin (start.witness.filter (·.shouldPermute)).length × Fin info.u),
    MadeFrom dom info.deltas sigma tau ∧
      ∀ x, cell (start.witness.filter (·.shouldPermute)) (tau x) = cell (start.witness.filter (·.shouldPermute)) x := by
  refine ⟨Equiv.swap (⟨0, by decide +kernel⟩, ⟨0, by decide⟩) (⟨1, by decide +kernel⟩, ⟨1, by decide⟩), ?_⟩
  unfold MadeFrom
  decide +kernel

/-- The hypotheses of C74 are met by the toy circuit made with `configure`: the prover and the verifier make the three calls, the
indexer makes the key, and the proof is accepted. -/
theorem configured_and_proved : ∃ c c' k, configureAll calls start startTable = .ok c ∧ configureAll calls vstart vstartTable = .ok c' ∧
    indexer (S := S) (fun o => o.shouldPermute) () c.vos c.lookups c.oracles.witness c.oracles.inst c.oracles.fixed dom dom.vanishing
      info 2 = .ok k ∧ ∃ theta beta gamma,
      FirstMessages S ⟨k, ()⟩ ⟨c.oracles.witness, c.oracles.inst, c.oracles.fixed, c.tables⟩ dom () theta beta gamma ∧
      (GoodDraw dom k.index ⟨c.oracles.witness, c.oracles.inst, c.oracles.fixed, c.tables⟩ sigma theta beta gamma →
        ∃ tr, proveRounds S ⟨k, ()⟩ (.new S c.oracles.fixed sigma c.tables qBlind k.index) c.oracles.witness c.oracles.inst c.vos dom.size
            () = .ok tr ∧ tr.chal.theta = theta ∧ tr.chal.beta = beta ∧ tr.chal.gamma = gamma ∧
          (tr.chal.xi ≠ 0 →
            ∃ proof, prove S ⟨k, ()⟩ (.new S c.oracles.fixed sigma c.tables qBlind k.index) c.oracles.witness c.oracles.inst c.vos dom.size
                () = .ok proof ∧ (verifierChallenges S proof).1 = tr.chal ∧
              ((∀ k : ℤ, (mpChallenges S proof.multiopen (verifierChallenges S proof).2).2.2.1 ≠ tr.chal.xi * dom.omega ^ k) →
                verify S k ⟨c'.oracles.fixed, c'.tables, sigma.map published, published qBlind⟩ proof c'.oracles.witness c'.oracles.inst
                  c'.vos dom.size dom.vanishing = .ok ()))) := by
  have hrun : (match configureAll calls start startTable with
    | .ok c => match indexer (S := S) (fun o => o.shouldPermute) () c.vos c.lookups c.oracles.witness c.oracles.inst c.oracles.fixed dom
        dom.vanishing info 2 with
      | .ok k => decide (k.index.quotientDegree ≠ k.index.ext.size)
      | _ => false
    | _ => false) = true := by decide +kernel
  split at hrun
  swap; · cases hrun
  rename_i c hc
  split at hrun
  swap; · cases hrun
  rename_i k hk
  have hsz := dom_size
  have hz : toPoly dom.vanishing = X ^ dom.size - 1 := toPoly_vanishing dom dom_Ok.size_pos
  have hdeg : (X ^ dom.size - 1 : F97[X]).natDegree = dom.size := natDegree_X_pow_sub_C (r := (1 : F97))
  obtain ⟨tau, henc, hcop⟩ := startCopies
  have hC := configureAll_ok hc
  obtain ⟨c', hc', h⟩ := C74_end_to_end (pk := ⟨k, ()⟩) (ideal_homomorphic _ _) dom_Ok (by rw [hsz]; norm_num) (supports _) goodCircuit henc hc
    freshVerifier setUp.perm setUp.qBlind (fun ⟨o, ho, hp⟩ => by
      obtain ⟨o', ho', he⟩ := mem_forall₂' hC.oracles.1.erased ho
      exact ⟨o', ho', (erase_copied he).trans hp⟩) hk (by decide +kernel) (by rw [hz]) (Or.inl hz) (of_decide_eq_true hrun)
    (fun _ => by rw [hz, hdeg]; omega) (gateCallsHold _) lookupCallsHold hcop ()
  exact ⟨c, c', k, hc, hc', hk, h⟩

end Toy
end ZK
