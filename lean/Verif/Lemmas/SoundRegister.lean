import Verif.Lemmas.Sound
import Verif.Lemmas.Registered
/-!
What the verifier has registered after reading a proof made from arbitrary polynomials: every oracle holds a commitment to
one of them, and if the claimed evaluations are true, the oracles answer with their values.
-/
set_option autoImplicit false
set_option linter.unusedSectionVars false
namespace ZK
open Polynomial

section
variable {F : Type} [Field F] [LinearOrder F] [FftParams F] [LawfulFft F]

/-- The polynomial of the compressed input of a lookup. -/
noncomputable def lookupInput (d : Domain F) (v : ProverView F) (theta : F) (l : GenericLookupVO F) : F[X] :=
  match l.getExpressions with
  | .ok es => compress (C theta) (es.map (Expr.denote C (v.polyOf d)))
  | _ => 0

/-- The polynomial of the compressed table of a lookup. -/
noncomputable def lookupTable (v : ProverView F) (theta : F) (l : GenericLookupVO F) : F[X] :=
  match l.getTableQueries with
  | .ok ts => compress (C theta) (ts.map v.tablePolyOf)
  | _ => 0

/-- The polynomials of one lookup, the permuted columns taken from a chunk of the sent polynomials. -/
noncomputable def sentLookup (d : Domain F) (v : ProverView F) (theta : F) (l : GenericLookupVO F) (c : List F[X]) : LookupPolys F :=
  ⟨lookupInput d v theta l, lookupTable v theta l, c.getD 0 0, c.getD 1 0⟩

/-- The polynomials a proof is about. -/
noncomputable def sentPolys (d : Domain F) (v : ProverView F) (vos : List (GenericVO F)) (sigmas : List (ProverOracle F))
    (qBlind : ProverOracle F) (lookups : List (GenericLookupVO F)) (theta : F) (ls zs lzs : List F[X]) : CircuitPolys F :=
  ⟨vos.map (gatePoly d v), (v.witness.filter (·.shouldPermute)).map (fun o => toPoly o.poly),
    sigmas.map (fun o => toPoly o.poly), zs,
    List.zip (List.zipWith (sentLookup d v theta) lookups (chunks 2 ls)) lzs, toPoly qBlind.poly⟩

/-- The verifier's oracle of a column: configured like it and holding its commitment. -/
def Linked {S : Scheme F} (com : F[X] → S.Rand → S.Comm) (o : ProverOracle F) (w : VerifierOracle F S.Comm) : Prop :=
  SameConfig o w ∧ ∃ r, w.commitment = some (com (toPoly o.poly) r)

omit [FftParams F] [LawfulFft F] in
theorem Linked.of_config {S : Scheme F} {com : F[X] → S.Rand → S.Comm} {os : List (ProverOracle F)}
    {ws ws' : List (VerifierOracle F S.Comm)} (hc : ws'.map (·.config) = ws.map (·.config))
    (h : List.Forall₂ (Linked com) os ws) : List.Forall₂ (Linked com) os ws' := by
  have hl := congrArg List.length hc
  simp only [List.length_map] at hl
  refine forall₂_of_getElem? (by rw [h.length_eq, hl]) ?_
  intro i o w' ho hw'
  obtain ⟨w, hw, g⟩ := Forall₂.left h ho
  have he := congrArg (fun l => l[i]?) hc
  simp only [List.getElem?_map, hw, hw', Option.map_some, Option.some.injEq] at he
  have e1 := congrArg VerifierOracle.label he
  have e2 := congrArg VerifierOracle.rotations he
  have e3 := congrArg VerifierOracle.shouldPermute he
  have e4 := congrArg VerifierOracle.commitment he
  simp only [VerifierOracle.config] at e1 e2 e3 e4
  obtain ⟨⟨g1, g2, g3⟩, g4⟩ := g
  exact ⟨⟨e1.trans g1, e2.trans g2, e3.trans g3⟩, by rw [e4]; exact g4⟩

omit [LinearOrder F] [FftParams F] [LawfulFft F] in
theorem Linked.commitments {S : Scheme F} {com : F[X] → S.Rand → S.Comm} {os : List (ProverOracle F)}
    {ws : List (VerifierOracle F S.Comm)} {cs : List S.Comm} (h1 : List.Forall₂ SameConfig os ws)
    (h2 : CommitsTo com (os.map (fun o => toPoly o.poly)) cs) : List.Forall₂ (Linked com) os (registerCommitments ws cs) := by
  unfold CommitsTo at h2
  rw [List.forall₂_map_left_iff] at h2
  induction h1 generalizing cs with
  | nil => cases h2; exact List.Forall₂.nil
  | cons h h1 ih =>
    cases h2 with
    | cons hq h2 =>
      obtain ⟨r, rfl⟩ := hq
      exact List.Forall₂.cons ⟨h, r, rfl⟩ (ih h2)

omit [LawfulFft F] in
theorem Linked.told {S : Scheme F} {com : F[X] → S.Rand → S.Comm} {d : Domain F} {xi : F} {o : ProverOracle F}
    {w : VerifierOracle F S.Comm} (h : Linked com o w) (ht : TrueClaims com d xi w) : ∃ rr, Told S com d xi (o, rr) w := by
  obtain ⟨⟨h1, h2, h3⟩, r, h4⟩ := h
  exact ⟨r, ⟨h2, h4, fun ro hro => ht _ r h4 ro (by rw [h2]; exact hro)⟩, h1, h3⟩

variable {S : Scheme F} {com : F[X] → S.Rand → S.Comm} {vk : VerifierKey S} {pre : VerifierPreprocessed S} {proof : TPProof S}
  {ws : List (VerifierOracle F S.Comm)} {is : List (InstanceVerifierOracle F)} {domainSize : Nat} {ch : Challenges F}
  {d : Domain F} {st : VState S} {v : ProverView F} {sigmas : List (ProverOracle F)} {qBlind : ProverOracle F}
  {ls zs lzs qs : List F[X]}

/-- The columns of the verifier after registration. -/
structure LinkedView (com : F[X] → S.Rand → S.Comm) (v : ProverView F) (sigmas : List (ProverOracle F)) (qBlind : ProverOracle F)
    (st : VState S) : Prop where
  witness : List.Forall₂ (Linked com) v.witness st.witness
  fixed : List.Forall₂ (Linked com) v.fixed st.pre.fixed
  table : List.Forall₂ (Linked com) v.table st.pre.table
  perm : List.Forall₂ (Linked com) sigmas st.pre.perm
  qBlind : Linked com qBlind st.pre.qBlind

theorem Registration.view (h : Registration S vk pre proof ws is domainSize ch d st)
    (hsu : SetUp S com v sigmas qBlind ws is pre) (hm : MadeOf com (v.witness.map (fun o => toPoly o.poly)) ls zs lzs qs proof) :
    LinkedView com v sigmas qBlind st := by
  have hd := Domain.new_ok h.dom
  refine ⟨?_, ?_, ?_, ?_, ?_⟩
  · exact Linked.of_config (registerAll_inv hd h.witness).2 (Linked.commitments hsu.witness hm.witness)
  · exact Linked.of_config (registerAll_inv hd h.fixed).2 (hsu.fixed.imp (fun _ _ g => ⟨g.1, _, g.2⟩))
  · exact Linked.of_config (registerAll_inv hd h.table).2 (hsu.table.imp (fun _ _ g => ⟨g.1, _, g.2⟩))
  · rw [h.perm]
    refine forall₂_of_getElem? (by rw [List.length_zipWith, hsu.perm.length_eq, h.permLength, Nat.min_self]) ?_
    intro i o w ho hw
    obtain ⟨w0, e, g1, g2, rfl⟩ := List.getElem?_zipWith_eq_some.1 hw
    obtain ⟨w', g3, g4, g5⟩ := Forall₂.left hsu.perm ho
    obtain rfl := Option.some.inj (g1.symm.trans g3)
    exact ⟨g4, _, g5⟩
  · rw [h.qBlind]
    exact ⟨hsu.qBlind.1, _, hsu.qBlind.2⟩

/-- The lookup oracles. -/
theorem Registration.lookup_inv (h : Registration S vk pre proof ws is domainSize ch d st) {i : Nat} {l : GenericLookupVO F}
    {o : LookupOracles (VerifierOracle F S.Comm)} (hl : vk.index.lookups[i]? = some l) (ho : st.lookups[i]? = some o) :
    ∃ es ts a s cc c0 c1, l.getExpressions = .ok es ∧ l.getTableQueries = .ok ts ∧
      lookupUnpermuted ⟨st.witness, is, st.pre.fixed, st.pre.table⟩ i es ts ch.theta ch.xi d.elements = .ok (a, s) ∧
      (chunks 2 proof.lookupCommitments)[i]? = some cc ∧ cc[0]? = some c0 ∧ cc[1]? = some c1 ∧
      o.a = a ∧ o.s = s ∧ o.aPrime.commitment = some c0 ∧ o.sPrime.commitment = some c1 ∧
      o.aPrime.rotations = setExtend [] [Rotation.curr, Rotation.prev] ∧ o.sPrime.rotations = setExtend [] [Rotation.curr] := by
  have hF := Res.mapM_eq_ok.1 h.lookups
  obtain ⟨p, hp, hf⟩ := Forall₂.right hF ho
  obtain ⟨⟨⟨l', cc⟩, ev⟩, j⟩ := p
  rw [List.getElem?_zipIdx, Option.map_eq_some_iff] at hp
  obtain ⟨t, ht, hte⟩ := hp
  rw [Prod.mk.injEq] at hte
  obtain ⟨rfl, hj⟩ := hte
  rw [Nat.zero_add] at hj
  subst hj
  rw [List.getElem?_zip_eq_some, List.getElem?_zip_eq_some] at ht
  simp only at ht
  obtain ⟨⟨h1, h2⟩, h3⟩ := ht
  obtain rfl := Option.some.inj (hl.symm.trans h1)
  unfold verifierLookup at hf
  simp only [Res.bind_eq_ok, Res.mapErr_eq_ok, Res.idx_eq_ok, Prod.exists] at hf
  obtain ⟨es, g1, ts, g2, a, s, g3, e0, g4, e1, g5, c0, g6, e2, g7, c1, g8, g9⟩ := hf
  obtain ⟨⟩ := Res.ok.inj g9
  exact ⟨es, ts, a, s, cc, c0, c1, g1, g2, g3, h2, g6, g8, rfl, rfl, rfl, rfl, rfl, rfl⟩

theorem Registration.lookups_length (h : Registration S vk pre proof ws is domainSize ch d st) :
    st.lookups.length = vk.index.lookups.length := by
  have hF := (Res.mapM_eq_ok.1 h.lookups).length_eq
  rw [List.length_zipIdx, List.length_zip, List.length_zip, h.lookupComms, h.lookupEvals] at hF
  omega

/-- The grand product of a lookup. -/
theorem Registration.lookupZ_inv (h : Registration S vk pre proof ws is domainSize ch d st) {i : Nat}
    {o : VerifierOracle F S.Comm} (ho : st.lookupZs[i]? = some o) :
    ∃ c, proof.lookupZCommitments[i]? = some c ∧ o.commitment = some c ∧
      o.rotations = setExtend [] [Rotation.curr, Rotation.next] := by
  have hF := Res.mapM_eq_ok.1 h.lookupZs
  obtain ⟨p, hp, hf⟩ := Forall₂.right hF ho
  obtain ⟨⟨c, ev⟩, j⟩ := p
  rw [List.getElem?_zipIdx, Option.map_eq_some_iff] at hp
  obtain ⟨t, ht, hte⟩ := hp
  rw [Prod.mk.injEq] at hte
  obtain ⟨rfl, hj⟩ := hte
  rw [List.getElem?_zip_eq_some] at ht
  simp only at ht
  unfold verifierLookupZ at hf
  simp only [Res.bind_eq_ok] at hf
  obtain ⟨e0, g1, e1, g2, g3⟩ := hf
  obtain ⟨⟩ := Res.ok.inj g3
  exact ⟨c, ht.1, rfl, rfl⟩

theorem Registration.lookupZs_length (h : Registration S vk pre proof ws is domainSize ch d st) :
    st.lookupZs.length = vk.index.lookups.length := by
  have hF := (Res.mapM_eq_ok.1 h.lookupZs).length_eq
  rw [List.length_zipIdx, List.length_zip, h.lookupZComms, h.lookupZEvals] at hF
  omega

/-- A part of the quotient. -/
theorem Registration.quotient_inv (h : Registration S vk pre proof ws is domainSize ch d st) {i : Nat}
    {o : VerifierOracle F S.Comm} (ho : st.quotient[i]? = some o) :
    ∃ c, proof.quotientCommitments[i]? = some c ∧ o.commitment = some c ∧ o.rotations = setExtend [] [Rotation.curr] := by
  have hF := Res.mapM_eq_ok.1 h.quotient
  obtain ⟨p, hp, hf⟩ := Forall₂.right hF ho
  obtain ⟨c, j⟩ := p
  rw [List.getElem?_zipIdx, Option.map_eq_some_iff] at hp
  obtain ⟨t, ht, hte⟩ := hp
  rw [Prod.mk.injEq] at hte
  obtain ⟨rfl, hj⟩ := hte
  simp only [Res.bind_eq_ok] at hf
  obtain ⟨e, g1, g3⟩ := hf
  obtain ⟨⟩ := Res.ok.inj g3
  exact ⟨t, ht, rfl, rfl⟩

theorem Registration.quotient_length (h : Registration S vk pre proof ws is domainSize ch d st) :
    st.quotient.length = proof.quotientCommitments.length := by
  have hF := (Res.mapM_eq_ok.1 h.quotient).length_eq
  rw [List.length_zipIdx] at hF
  exact hF.symm

/-- A grand product of the permutation argument. -/
theorem Registration.z_inv (h : Registration S vk pre proof ws is domainSize ch d st) {i : Nat}
    {o : VerifierOracle F S.Comm} (ho : st.zs[i]? = some o) :
    ∃ c, proof.zCommitments[i]? = some c ∧ o.commitment = some c ∧
      o.rotations = (verifierZ (S := S) vk.index.perm.usableRows proof.zCommitments.length (c, i)).rotations := by
  have hc := (registerAll_inv (Domain.new_ok h.dom) h.zs).2
  have he := congrArg (fun l => l[i]?) hc
  simp only [List.getElem?_map, ho, Option.map_some, List.getElem?_zipIdx, Option.map_map] at he
  obtain ⟨c, hcc, hcfg⟩ := Option.map_eq_some_iff.1 he.symm
  simp only [Function.comp, Nat.zero_add] at hcfg
  have e2 := congrArg VerifierOracle.rotations hcfg
  have e4 := congrArg VerifierOracle.commitment hcfg
  simp only [VerifierOracle.config] at e2 e4
  exact ⟨c, hcc, e4.symm, e2.symm⟩

theorem Registration.zs_length (h : Registration S vk pre proof ws is domainSize ch d st) :
    st.zs.length = proof.zCommitments.length := by
  have hc := congrArg List.length (registerAll_inv (Domain.new_ok h.dom) h.zs).2
  simpa using hc

end
end ZK
