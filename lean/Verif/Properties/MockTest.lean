import Verif.Properties.GateTest
import Verif.Properties.MockAgrees
import Verif.Properties.ClientExamples
/-! C79: the crate's tests of single gates with the mock prover. -/
set_option autoImplicit false
set_option linter.unusedSectionVars false
namespace ZK
open Polynomial

section
variable {F : Type} [Field F] [LinearOrder F] [FftParams F] [LawfulFft F]

theorem findOracle_computeExtended (os : List (ProverOracle F)) (ext : Domain F) (l : Label) :
    findOracle (os.map (·.computeExtended ext)) l = (findOracle os l).map (·.computeExtended ext) := by
  unfold findOracle
  have : (os.map (·.computeExtended ext)).map ConcreteOracle.label = os.map ConcreteOracle.label := by
    rw [List.map_map]
    rfl
  rw [this]
  cases lastIndexOf (os.map ConcreteOracle.label) l with
  | none => rfl
  | some i => exact List.getElem?_map ..

/-- The mock prover reads polynomials only. -/
theorem mockProve_extended {ε : Type} (ws is fixed ts : List (ProverOracle F)) (ext : Domain F) (vos : List (GenericVO F)) (n : Nat) :
    mockProve (ε := ε) ⟨ws, is, fixed.map (·.computeExtended ext), ts⟩ vos n = mockProve ⟨ws, is, fixed, ts⟩ vos n := by
  have h : ∀ omegas c, (⟨ws, is, fixed.map (·.computeExtended ext), ts⟩ : ProverView F).mockQuery omegas c =
      (⟨ws, is, fixed, ts⟩ : ProverView F).mockQuery omegas c := by
    intro omegas c
    funext q
    unfold ProverView.mockQuery
    congr 1
    funext x
    cases q.oracleType
    · rfl
    · rfl
    · dsimp only [withOracle]
      rw [findOracle_computeExtended]
      cases findOracle fixed q.label <;> rfl
  unfold mockProve mockRun mockAt
  simp only [h]

variable {d : Domain F} {t : TestColumns F} {gate : VExpr F × List VirtualQuery} {m : Nat}

/-- A gate that fits is a circuit. -/
theorem GateFits.goodCircuit (hd : d.Ok) (ht : t.Wellformed d.size)
    (hfits : GateFits d.size (FftParams.adicity F) m (fun ty => (t.ofType ty).length) gate) :
    GoodCircuit d d.size (t.prover d) [] [.gate gate.1 gate.2] [] testSelector PermutationInfo.empty 0 ∧
    InRange (t.prover d).count 0 [.gate gate.1 gate.2] ∧ GateDegrees d.size (FftParams.adicity F) m [.gate gate.1 gate.2] := by
  have hmem : ∀ {call : Call F}, call ∈ [Call.gate gate.1 gate.2] → call = .gate gate.1 gate.2 := fun h => List.mem_singleton.1 h
  have hcount : ∀ ty, (t.prover d).count ty = (t.ofType ty).length := by
    intro ty
    cases ty <;> exact List.length_map ..
  have hnocopy : ¬ ∃ o ∈ (t.prover d).witness, o.shouldPermute = true := by
    rintro ⟨o, ho, h⟩
    obtain ⟨c, -, rfl⟩ := List.mem_map.1 ho
    cases h
  have hnolook : ¬ ∃ es qs ts, Call.lookup es qs ts ∈ [Call.gate gate.1 gate.2] := fun ⟨es, qs, ts, h⟩ => by cases hmem h
  refine ⟨⟨test_fresh hd ht, ?_, ⟨_, _, List.mem_singleton.2 rfl⟩, ?_, ?_, ⟨Nat.zero_le _, .inl rfl⟩, ?_, ?_, hd.size_pos, ?_⟩, ?_, ?_⟩
  · constructor
    · intro c hc e he q hq
      obtain rfl := hmem hc
      obtain rfl := List.mem_singleton.1 he
      exact hfits.listed q hq
    · intro c hc q hq
      obtain rfl := hmem hc
      exact hfits.small q (by simpa [Call.queries, Call.tables] using hq)
    · intro c hc c' hc' q hq q' hq'
      obtain rfl := hmem hc
      obtain rfl := hmem hc'
      exact hfits.distinct q (by simpa [Call.queries, Call.tables] using hq) q' (by simpa [Call.queries, Call.tables] using hq')
    · intro es qs ts h
      cases hmem h
  · intro i o ho h
    exact absurd ⟨o, List.mem_of_getElem? ho, h⟩ hnocopy
  · intro o ho; cases ho
  · intro h; exact absurd h hnocopy
  · intro h; exact absurd h hnocopy
  · intro h; exact absurd h hnolook
  · intro call hcall
    obtain rfl := hmem hcall
    refine ⟨fun q hq => by rw [hcount]; exact hfits.range q hq, fun e he q hq => ?_, fun t ht => by cases ht⟩
    obtain rfl := List.mem_singleton.1 he
    rw [hcount]
    exact hfits.range q (hfits.listed q hq)
  · exact ⟨fun e qs h => by cases hmem h; exact hfits.degree.le, ⟨_, _, List.mem_singleton.2 rfl, hfits.degree⟩, hfits.two, hfits.rows,
      hfits.field⟩

/-- Every query of a gate that fits reads a cell. -/
theorem GateFits.vreads (ht : t.Wellformed d.size) (hpos : 0 < d.size)
    (hfits : GateFits d.size (FftParams.adicity F) m (fun ty => (t.ofType ty).length) gate) {q : VirtualQuery} (hq : q ∈ gate.1.queries) (i : Nat) :
    VReads d.size (t.prover d) i q (t.cell d.size i q) := by
  have hr := hfits.range q (hfits.listed q hq)
  obtain ⟨c, hc⟩ : ∃ c, (t.ofType q.oracleType)[q.index]? = some c := ⟨_, List.getElem?_eq_getElem hr⟩
  have hlen := (ht q.oracleType).1 c (List.mem_of_getElem? hc)
  have hpos' : (0 : ℤ) < d.size := by exact_mod_cast hpos
  have hj := Int.emod_nonneg ((i : ℤ) + q.rotation.signed) hpos'.ne'
  have hj' := Int.emod_lt_of_pos ((i : ℤ) + q.rotation.signed) hpos'
  have key : ∃ o : ProverOracle F, ((t.prover d).ofType q.oracleType)[q.index]? = some o ∧ o.evals = c.2 := by
    revert hc
    cases q.oracleType <;> intro hc <;> simp only [TestColumns.prover, Oracles.ofType, List.getElem?_map] <;>
      simp only [TestColumns.ofType] at hc <;> rw [hc] <;> exact ⟨_, rfl, rfl⟩
  obtain ⟨o, ho, he⟩ := key
  refine ⟨o, ho, (((i : ℤ) + q.rotation.signed) % d.size).toNat, Int.toNat_of_nonneg hj, ?_⟩
  unfold TestColumns.cell
  rw [hc, he]
  have hlt : (((i : ℤ) + q.rotation.signed) % d.size).toNat < c.2.length := by omega
  simp only [List.getD_eq_getElem?_getD, List.getElem?_eq_getElem hlt, Option.getD_some]

/-- **C79** The prover of a single-gate test with the mock prover, for every gate, all columns and every number of rows: it succeeds if
the gate is zero on every row, and panics otherwise. -/
theorem C79_mock_prover {S : Scheme F} (vk : S.VK) (hd : d.Ok) (ht : t.Wellformed d.size)
    (hfits : GateFits d.size (FftParams.adicity F) m (fun ty => (t.ofType ty).length) gate) :
    (runMockProver S vk d t gate = .ok () ↔ ∀ i < d.size, gate.1.denote id (t.cell d.size i) = 0) ∧
    (runMockProver S vk d t gate = .panic ↔ ¬ ∀ i < d.size, gate.1.denote id (t.cell d.size i) = 0) := by
  obtain ⟨hgood, hrange, hdeg⟩ := hfits.goodCircuit hd ht
  obtain ⟨c, hc⟩ := (C74_configure_succeeds [.gate gate.1 gate.2] (t.prover d) ([] : List (ProverOracle F))).2 hrange
  obtain ⟨key, hkey, -, -, -⟩ := C76_key (S := S) hd hgood hdeg hc vk
  obtain ⟨-, -, -, -, -, hle, -, -, -, hu, hdl, hlk, hur, -⟩ := indexer_ok hd hkey
  have hs := (C74_supported hc hgood hlk hu hur hdl hle (fun ⟨o, ho, h⟩ => by
    obtain ⟨c, -, rfl⟩ := List.mem_map.1 ho
    cases h)).1
  have hmean := (C74_meaning hc hgood.fresh hgood.good).1 (X ^ d.size - 1)
  have hiff : GateCallsHold d (t.prover d) [.gate gate.1 gate.2] (X ^ d.size - 1) ↔ ∀ i < d.size, gate.1.denote id (t.cell d.size i) = 0 := by
    constructor
    · intro h i hi
      refine h gate.1 gate.2 (List.mem_singleton.2 rfl) i hi ?_ _ (fun q hq => hfits.vreads ht hd.size_pos hq i)
      rw [eval_sub, eval_pow, eval_X, eval_one, ← pow_mul, mul_comm, pow_mul, hd.prim.pow_eq_one, one_pow, sub_self]
    · intro h e qs hm i hi _ y hy
      cases List.mem_singleton.1 hm
      rw [VExpr.denote_congr id _ fun q hq => test_reads (hy q hq)]
      exact h i hi
  obtain ⟨hm1, hm2⟩ := C72_mock_gates (ε := Err S.E) hd hs
  rw [hmean, hiff] at hm1 hm2
  obtain ⟨vo, s1, g1, rfl⟩ := configureAll_single hc
  have htest : testProver S vk d t gate = .ok ⟨key, vo, s1⟩ := by
    unfold testProver
    rw [g1]
    exact Res.bind_eq_ok.2 ⟨_, rfl, Res.bind_eq_ok.2 ⟨_, by rw [hkey]; rfl, rfl⟩⟩
  have hrun : runMockProver S vk d t gate = mockProve ⟨s1.witness, s1.inst, s1.fixed, []⟩ [vo] d.size := by
    unfold runMockProver
    rw [htest]
    exact mockProve_extended ..
  rw [hrun]
  exact ⟨hm1, hm2⟩

/-- **C79** The verifier of a single-gate test with the mock prover succeeds for every gate and all columns. -/
theorem C79_mock_verifier {S : Scheme F} {ck : S.CK} (vk : S.VK) {com : F[X] → S.Rand → S.Comm}
    (hplain : ∀ p cs, S.commitPlain ck p = .ok cs → cs = [com (toPoly p.poly) S.emptyRand]) (hd : d.Ok) (hn : SupportsDegree S ck d.size)
    (ht : t.Wellformed d.size) (hfits : GateFits d.size (FftParams.adicity F) m (fun ty => (t.ofType ty).length) gate) :
    runMockVerifier S ck vk d t gate () = .ok () := by
  obtain ⟨hgood, hrange, hdeg⟩ := hfits.goodCircuit hd ht
  obtain ⟨c, c', key, hc, hc', -, hkey, hkey', -⟩ := C76_both_sides (S := S) vk hd hgood hrange hdeg (com := com)
    (s' := ⟨t.witness.map (fun c => VerifierOracle.newWitness c.1 false),
      t.inst.map (fun c => (⟨c.1, trim (d.ifft c.2), []⟩ : InstanceVerifierOracle F)),
      t.fixed.map (fun c => VerifierOracle.newFixed c.1 (some (com (toPoly (trim (d.ifft c.2))) S.emptyRand)))⟩) (ts' := []) (by
      refine ⟨?_, ?_, ?_, .nil⟩
      · exact List.forall₂_map_left_iff.2 (List.forall₂_map_right_iff.2 (List.forall₂_same.2 fun c _ => ⟨rfl, rfl, rfl⟩))
      · exact List.forall₂_map_left_iff.2 (List.forall₂_map_right_iff.2 (List.forall₂_same.2 fun c _ => ⟨rfl, rfl, rfl⟩))
      · exact List.forall₂_map_left_iff.2 (List.forall₂_map_right_iff.2 (List.forall₂_same.2 fun c _ => ⟨⟨rfl, rfl, rfl⟩, rfl⟩)))
  obtain ⟨vo', s1', g1', rfl⟩ := configureAll_single hc'
  refine Res.bind_eq_ok.2 ⟨_, test_fixed hn hplain t.fixed, Res.bind_eq_ok.2 ⟨(vo', s1'), by rw [g1']; rfl, Res.bind_eq_ok.2 ⟨key, ?_, rfl⟩⟩⟩
  show (indexer _ _ _ _ _ _ _ _ _ _ _).orPanic = _
  rw [hkey']
  rfl

/-- **C79** What passes with the mock prover passes with `TurboPlonk`: if the prover of a single-gate test succeeds with the mock prover,
then it reaches the evaluation challenge with `TurboPlonk`, returns a proof unless this challenge is zero, and the verifier accepts it
unless `x3` meets an opening point. -/
theorem C79_mock_then_accepted {S : Scheme F} {ck : S.CK} {vk : S.VK} {com : F[X] → S.Rand → S.Comm} (hS : HomomorphicScheme S ck vk com)
    (hplain : ∀ p cs, S.commitPlain ck p = .ok cs → cs = [com (toPoly p.poly) S.emptyRand]) (hd : d.Ok) (hn : SupportsDegree S ck d.size)
    (ht : t.Wellformed d.size) (hfits : GateFits d.size (FftParams.adicity F) m (fun ty => (t.ofType ty).length) gate)
    (hmock : runMockProver S vk d t gate = .ok ()) (z : S.Z) :
    ∃ tr, runRounds S ck vk d t gate z = .ok tr ∧
      (tr.chal.xi ≠ 0 → ∃ proof, runProver S ck vk d t gate z = .ok proof ∧ (verifierChallenges S proof).1 = tr.chal ∧
        ((∀ k : ℤ, (mpChallenges S proof.multiopen (verifierChallenges S proof).2).2.2.1 ≠ tr.chal.xi * d.omega ^ k) →
          runVerifier S ck vk d t gate proof = .ok ())) :=
  C77_gate hS hplain hd hn ht hfits ((C79_mock_prover vk hd ht hfits).1.1 hmock) z

end

namespace Toy8

/-- The product with the mock prover: it succeeds. With a wrong product it panics, and the verifier would still accept. -/
theorem mock_mul_runs :
    (match runMockProver S () dom mulColumns Gates.mul with
      | .ok () => true
      | _ => false) = true ∧
    (match runMockProver S () dom ⟨mulColumns.witness, [(bytes "c", [57, 21, 22, 24, 1, 2, 3, 4])], []⟩ Gates.mul with
      | .panic => true
      | _ => false) = true ∧
    (match runMockVerifier S () () dom ⟨mulColumns.witness, [(bytes "c", [57, 21, 22, 24, 1, 2, 3, 4])], []⟩ Gates.mul () with
      | .ok () => true
      | _ => false) = true := by
  refine ⟨?_, ?_, ?_⟩ <;> decide +kernel

/-- The hypotheses of `C79_mock_prover` are met. -/
example : runMockProver S () dom mulColumns Gates.mul = .ok () ↔ ∀ i < dom.size, (Gates.mul (F := F97)).1.denote id (mulColumns.cell dom.size i) = 0 := by
  have h1 : mulColumns.Wellformed dom.size := by
    rw [dom_size]
    intro ty
    cases ty <;> decide +kernel
  have h2 : GateFits dom.size (FftParams.adicity F97) 2 (fun ty => (mulColumns.ofType ty).length) (Gates.mul (F := F97)) :=
    (C77_precompiled (by rw [dom_size]) _).1 (by intro ty; cases ty <;> decide) (by rw [dom_size]; decide)
  have hd := dom_Ok
  generalize dom = d at h1 h2 hd ⊢
  exact (C79_mock_prover (S := S) () hd h1 h2).1

end Toy8
end ZK
