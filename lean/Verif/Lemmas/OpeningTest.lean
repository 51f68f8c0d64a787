import Verif.Spec.OpeningTest
import Verif.Lemmas.Outcome
import Verif.Lemmas.ArgumentTest
import Verif.Lemmas.RandomOracle
/-! The run of the test of the multi-point opening. -/
set_option autoImplicit false
set_option linter.unusedSectionVars false
namespace ZK
open Polynomial MeasureTheory

section
variable {F : Type} [Field F] [FftParams F] [LawfulFft F] [LinearOrder F] {S : Scheme F} {d : Domain F}

theorem setPoints_nodup {xi : F} {rs : List Rotation} (h : ∀ r ∈ rs, ∀ r' ∈ rs, xi * d.omega ^ r.signed = xi * d.omega ^ r'.signed → r = r') :
    ((setExtend [] rs).map (fun r => xi * d.omega ^ r.signed)).Nodup := by
  refine List.Nodup.map_on (fun r hr r' hr' he => ?_) (setExtend_sorted List.Pairwise.nil).nodup
  have h1 := mem_setExtend.1 hr
  have h2 := mem_setExtend.1 hr'
  exact h r (by simpa using h1) r' (by simpa using h2) he

theorem mem_oracle_rotations {c : OpenedColumn F} {r : Rotation} : r ∈ (c.oracle d).rotations ↔ r ∈ c.rotations := by
  show r ∈ setExtend [] c.rotations ↔ _
  rw [mem_setExtend]
  simp

/-- The commitments of the test and the oracles of its verifier. -/
theorem openingTest_committed {ck : S.CK} {vk : S.VK} {com : F[X] → S.Rand → S.Comm} (hS : HomomorphicScheme S ck vk com)
    {n : Nat} (hn : SupportsDegree S ck n) {t : OpeningTest F} (ht : t.Wellformed d n) (z : S.Z) :
    ∃ cs z1 vs, S.commit ck ((t.columns.map (·.oracle d)).map (·.toLabeled)) z = .ok (cs, z1) ∧ cs.length = t.columns.length ∧
      Res.mapM (ε := Unit) (fun (c : OpenedColumn F × Nat) => do
        let comm ← Res.idx (cs.map Prod.fst) c.2
        pure (c.1.verifierOracle comm)) t.columns.zipIdx = .ok vs ∧
      List.Forall₂ (OpeningPair S com d t.xi) (List.zip (t.columns.map (·.oracle d)) (cs.map Prod.snd)) vs := by
  obtain ⟨⟨cs, z1⟩, h1⟩ := hn.commit ((t.columns.map (·.oracle d)).map (·.toLabeled)) z (by
    intro p hp
    obtain ⟨o, ho, rfl⟩ := List.mem_map.1 hp
    obtain ⟨c, hc, rfl⟩ := List.mem_map.1 ho
    exact ht.coefficients c hc)
  have h2 := hS.commit _ _ _ _ h1
  have hlen : cs.length = t.columns.length := by simpa using h2.length_eq.symm
  obtain ⟨vs, hvs⟩ := Res.mapM_ok_of (ε := Unit) (f := fun (c : OpenedColumn F × Nat) => do
        let comm ← Res.idx (cs.map Prod.fst) c.2
        pure (c.1.verifierOracle comm)) (l := t.columns.zipIdx) (by
    rintro ⟨c, i⟩ hc
    obtain ⟨-, hi, -⟩ := List.mem_zipIdx hc
    have hi' : i < (cs.map Prod.fst).length := by simp; omega
    refine ⟨_, Res.bind_eq_ok.2 ⟨(cs.map Prod.fst)[i], Res.idx_eq_ok.2 (List.getElem?_eq_getElem hi'), rfl⟩⟩)
  refine ⟨cs, z1, vs, h1, hlen, hvs, ?_⟩
  have hvl : vs.length = t.columns.length := by simpa using Res.mapM_length hvs
  rw [List.forall₂_iff_get]
  refine ⟨by simp; omega, fun i hi hi' => ?_⟩
  have hit : i < t.columns.length := by omega
  have hic : i < cs.length := by omega
  have h3 := Res.mapM_getElem hvs i (by simpa using hit)
  simp only [List.getElem_zipIdx, Nat.zero_add] at h3
  obtain ⟨cm, h4, h5⟩ := Res.bind_eq_ok.1 h3
  have h4 := Res.idx_eq_ok.1 h4
  rw [List.getElem?_map, List.getElem?_eq_getElem hic] at h4
  have h4 : cs[i].1 = cm := Option.some.inj h4
  have h5 : t.columns[i].verifierOracle cm = vs[i] := Res.ok.inj h5
  have h6 := List.Forall₂.get h2 (i := i) (by simpa using hit) hic
  simp only [List.get_eq_getElem, List.getElem_map] at h6
  simp only [List.get_eq_getElem, List.getElem_zip, List.getElem_map]
  rw [← h5, ← h4]
  refine ⟨rfl, congrArg some h6, fun r hr => ?_⟩
  have hr : r ∈ t.columns[i].rotations := mem_oracle_rotations.1 hr
  refine (testVerifierOracle_query (C := S.Comm) .witness t.columns[i].label t.columns[i].rotations false t.columns[i].poly
    t.columns[i].points (ht.points _ (List.getElem_mem hit) r hr)).trans ?_
  rw [peval_eq_eval]
  rfl

theorem openingTest_run {ck : S.CK} {vk : S.VK} (hd : d.Ok) {t : OpeningTest F} (hsize : t.size = d.size) {z : S.Z}
    {cs : List (S.Comm × S.Rand)} {z1 : S.Z} {vs : List (VerifierOracle F S.Comm)}
    (h1 : S.commit ck ((t.columns.map (·.oracle d)).map (·.toLabeled)) z = .ok (cs, z1))
    (h2 : Res.mapM (ε := Unit) (fun (c : OpenedColumn F × Nat) => do
        let comm ← Res.idx (cs.map Prod.fst) c.2
        pure (c.1.verifierOracle comm)) t.columns.zipIdx = .ok vs) :
    openingTest S ck vk t z =
      ((mpProve S ck (t.columns.map (·.oracle d)) (cs.map Prod.snd) t.xi d.size (t.start S (cs.map Prod.fst)) z1).expect >>= fun proof =>
        (mpVerify S vk proof vs t.xi d.size (t.start S (cs.map Prod.fst))).expect) := by
  unfold openingTest
  rw [hsize, hd.new_self]
  simp only [Res.unwrap_some, Res.bind_ok, h1, Res.expect, h2]

/-- The first round of the prover in the test. -/
def OpeningTest.FirstRound (S : Scheme F) (ck : S.CK) (d : Domain F) (t : OpeningTest F) (cs : List (S.Comm × S.Rand)) (z1 : S.Z)
    (x1 x2 : F) (f : List F) (c : S.Comm) (r : S.Rand) : Prop :=
  ∃ qs z2, mpFirstRound (S := S) (openingSets (fun (o : OracleRand S) => o.1.rotations)
      (List.zip (t.columns.map (·.oracle d)) (cs.map Prod.snd))) (t.columns.map (·.oracle d)).length d t.xi x1 x2 = .ok (qs, f) ∧
    S.commit ck [⟨bytes "f_aggregated", f, true⟩] z1 = .ok ([(c, r)], z2)

/-- The outcome of the test. -/
theorem openingTest_outcome {ck : S.CK} {vk : S.VK} {com : F[X] → S.Rand → S.Comm} (hS : HomomorphicScheme S ck vk com)
    (hd : d.Ok) {n : Nat} (hn : SupportsDegree S ck n) {t : OpeningTest F} (ht : t.Wellformed d n) (hsep : t.Separated d) {z : S.Z}
    {cs : List (S.Comm × S.Rand)} {z1 : S.Z} (h1 : S.commit ck ((t.columns.map (·.oracle d)).map (·.toLabeled)) z = .ok (cs, z1)) :
    ∃ f c r, t.FirstRound S ck d cs z1 (S.fsRand (t.start S (cs.map Prod.fst))).1
        (S.fsRand (S.fsRand (t.start S (cs.map Prod.fst))).2).1 f c r ∧
      ((S.fsRand (S.absorbComms (S.fsRand (S.fsRand (t.start S (cs.map Prod.fst))).2).2 [c])).1 ∉ t.opened d →
        openingTest S ck vk t z = .ok ()) ∧
      ((S.fsRand (S.absorbComms (S.fsRand (S.fsRand (t.start S (cs.map Prod.fst))).2).2 [c])).1 ∈ t.opened d →
        openingTest S ck vk t z = .panic) := by
  obtain ⟨cs', z1', vs, h1', hlen, h2, hpair⟩ := openingTest_committed hS hn ht z
  obtain ⟨rfl, rfl⟩ := Prod.mk.inj (Res.ok.inj (h1'.symm.trans h1))
  rw [openingTest_run hd ht.size h1 h2]
  have hone : ∀ (p : LPoly F) (z z' : S.Z) cs, S.commit ck [p] z = .ok (cs, z') → cs.length = 1 :=
    fun p z z' cs h => (hS.commit _ _ _ _ h).length_eq.symm
  have hl : (t.columns.map (·.oracle d)).length = (cs'.map Prod.snd).length := by simp [hlen]
  obtain ⟨proof, hp⟩ := mpProve_succeeds hd hn hone hl (by
      intro o ho
      obtain ⟨c, hc, rfl⟩ := List.mem_map.1 ho
      exact ht.coefficients c hc) (xi := t.xi) (by
      intro o ho
      obtain ⟨c, hc, rfl⟩ := List.mem_map.1 ho
      exact ⟨fun r hr => ht.rotations c hc r (mem_oracle_rotations.1 hr), setPoints_nodup (hsep c hc)⟩)
    (t.start S (cs'.map Prod.fst)) z1'
  have hopen := mpProve_inv S hd.new_self hone hp
  have hfirst : ∃ f r, t.FirstRound S ck d cs' z1' (S.fsRand (t.start S (cs'.map Prod.fst))).1
        (S.fsRand (S.fsRand (t.start S (cs'.map Prod.fst))).2).1 f proof.fCommit r := by
    unfold mpProve at hp
    simp only [Res.bind_eq_ok, Res.mapErr_eq_ok, Res.unwrap_eq_ok] at hp
    obtain ⟨domain', g1, ⟨qs, f⟩, g2, ⟨fc, z'⟩, g3, f0, g4, fin, -, fc', -, pr, -, g8⟩ := hp
    obtain rfl := Option.some.inj (g1.symm.trans hd.new_self)
    cases g8
    obtain ⟨c, rfl⟩ := List.length_eq_one_iff.1 (hone _ _ _ _ g3)
    obtain rfl := Option.some.inj (Res.idx_eq_ok.1 g4)
    exact ⟨f, _, qs, z', g2, g3⟩
  obtain ⟨f, r, hf⟩ := hfirst
  refine ⟨f, proof.fCommit, r, hf, fun hx => ?_, fun hx => ?_⟩
  · rw [hp]
    have := mpVerify_of_opened hS d.size d hd.new_self _ _ vs t.xi (t.start S (cs'.map Prod.fst)) proof hl hpair hopen (by
      intro o ho r hr he
      obtain ⟨c, hc, rfl⟩ := List.mem_map.1 ho
      exact hx ⟨c, hc, r, mem_oracle_rotations.1 hr, he⟩)
    simp only [Res.expect, Res.bind_ok, this]
  · rw [hp]
    obtain ⟨c, hc, r, hr, he⟩ := hx
    have := mpVerify_panics hS hd _ _ vs t.xi (t.start S (cs'.map Prod.fst)) proof hl hpair hopen
      ⟨c.oracle d, List.mem_map_of_mem hc, r, mem_oracle_rotations.2 hr, he⟩
    simp only [Res.expect, Res.bind_ok, this]

end
end ZK
