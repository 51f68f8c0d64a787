import Verif.Lemmas.Total
import Verif.Properties.Opened
/-! After registration the verifier can compute the value it compares with zero. -/
set_option autoImplicit false
set_option linter.unusedSectionVars false
namespace ZK
open Polynomial

section
variable {F : Type} [Field F] [LinearOrder F] [FftParams F] [LawfulFft F]

/-- A polynomial through the registered evaluations of an oracle. -/
noncomputable def VerifierOracle.through {C : Type} (o : VerifierOracle F C) : F[X] :=
  Lagrange.interpolate (o.evals.map Prod.fst).toFinset id (fun x => (assocGet x o.evals).getD 0)

theorem VerifierOracle.query_through {C : Type} {o : VerifierOracle F C} {x : F} (h : ∃ y, o.query x = .ok y) :
    o.query x = .ok (o.through.eval x) := by
  obtain ⟨y, h⟩ := h
  rw [h]
  have hm := VerifierOracle.query_mem h
  unfold VerifierOracle.query at h
  cases ha : assocGet x o.evals with
  | none => rw [ha] at h; simp at h
  | some z =>
    rw [ha] at h
    simp only [Res.ok.injEq] at h
    subst h
    unfold VerifierOracle.through
    have := Lagrange.eval_interpolate_at_node (s := (o.evals.map Prod.fst).toFinset) (v := id)
      (fun x => (assocGet x o.evals).getD 0) (Function.injective_id.injOn) (List.mem_toFinset.2 hm)
    rw [id] at this
    rw [this, ha]
    rfl

omit [FftParams F] [LawfulFft F] [LinearOrder F] [Field F] in
theorem exists_forall₂ {α β : Type} {R : α → β → Prop} {l : List α} (h : ∀ a ∈ l, ∃ b, R a b) : ∃ l', List.Forall₂ R l l' := by
  induction l with
  | nil => exact ⟨[], .nil⟩
  | cons a l ih =>
    obtain ⟨b, hb⟩ := h a (by simp)
    obtain ⟨l', hl⟩ := ih (fun a ha => h a (by simp [ha]))
    exact ⟨b :: l', .cons hb hl⟩

theorem query_through_all {C : Type} {os : List (VerifierOracle F C)} {x : F} (h : ∀ o ∈ os, ∃ y, o.query x = .ok y) :
    List.Forall₂ (fun (o : VerifierOracle F C) (p : F[X]) => o.query x = .ok (p.eval x)) os (os.map (·.through)) := by
  rw [List.forall₂_map_right_iff, List.forall₂_same]
  exact fun o ho => VerifierOracle.query_through (h o ho)

variable {S : Scheme F} {vk : VerifierKey S} {pre : VerifierPreprocessed S} {ws : List (VerifierOracle F S.Comm)}
  {is : List (InstanceVerifierOracle F)} {vos : List (GenericVO F)} {d : Domain F} {proof : TPProof S} {ch : Challenges F} {st : VState S}

omit [LawfulFft F] in
theorem lookups_answer (h : Registration S vk pre proof ws is d.size ch d st) : ∀ o ∈ st.lookups,
    (∃ y, o.a.query ch.xi = .ok y) ∧ (∃ y, o.s.query ch.xi = .ok y) ∧ (∃ y, o.aPrime.query ch.xi = .ok y) ∧
      (∃ y, o.aPrime.query (d.omega⁻¹ * ch.xi) = .ok y) ∧ ∃ y, o.sPrime.query ch.xi = .ok y := by
  intro o ho
  obtain ⟨i, hi, rfl⟩ := List.getElem_of_mem ho
  have hF := Res.mapM_eq_ok.1 h.lookups
  obtain ⟨p, hp, hf⟩ := Forall₂.right hF (List.getElem?_eq_getElem hi)
  unfold verifierLookup at hf
  simp only [Res.bind_eq_ok, Res.mapErr_eq_ok, Res.idx_eq_ok, Prod.exists] at hf
  obtain ⟨es, g1, ts, g2, a, s, g3, e0, g4, e1, g5, c0, g6, e2, g7, c1, g8, g9⟩ := hf
  rw [← Res.ok.inj g9]
  unfold lookupUnpermuted at g3
  simp only [Res.bind_eq_ok] at g3
  obtain ⟨_, _, va, _, vs, _, g3⟩ := g3
  have g3 := Res.ok.inj g3
  rw [Prod.mk.injEq] at g3
  rw [← g3.1, ← g3.2]
  have hω : d.element 1 = d.omega := by simp [Domain.element]
  refine ⟨⟨va, by simp [VerifierOracle.query, assocGet]⟩, ⟨vs, by simp [VerifierOracle.query, assocGet]⟩, ?_,
    ⟨e1, by simp [VerifierOracle.query, assocGet, hω, mul_comm]⟩, ⟨e2, by simp [VerifierOracle.query, assocGet]⟩⟩
  by_cases hx : ch.xi = ch.xi * (d.element 1)⁻¹
  · exact ⟨e1, by simp [VerifierOracle.query, assocGet, ← hx]⟩
  · exact ⟨e0, by simp [VerifierOracle.query, assocGet, hx]⟩

omit [LawfulFft F] in
theorem lookupZs_answer (h : Registration S vk pre proof ws is d.size ch d st) : ∀ o ∈ st.lookupZs,
    (∃ y, o.query ch.xi = .ok y) ∧ ∃ y, o.query (d.omega * ch.xi) = .ok y := by
  intro o ho
  obtain ⟨i, hi, rfl⟩ := List.getElem_of_mem ho
  have hF := Res.mapM_eq_ok.1 h.lookupZs
  obtain ⟨p, hp, hf⟩ := Forall₂.right hF (List.getElem?_eq_getElem hi)
  unfold verifierLookupZ at hf
  simp only [Res.bind_eq_ok] at hf
  obtain ⟨e0, g1, e1, g2, g3⟩ := hf
  rw [← Res.ok.inj g3]
  have hω : d.element 1 = d.omega := by simp [Domain.element]
  refine ⟨?_, ⟨e1, by simp [VerifierOracle.query, assocGet, hω, mul_comm]⟩⟩
  by_cases hx : ch.xi = ch.xi * d.element 1
  · exact ⟨e1, by simp [VerifierOracle.query, assocGet, ← hx]⟩
  · exact ⟨e0, by simp [VerifierOracle.query, assocGet, hx]⟩

omit [LawfulFft F] in
theorem quotient_answer (h : Registration S vk pre proof ws is d.size ch d st) : ∀ o ∈ st.quotient, ∃ y, o.query ch.xi = .ok y := by
  intro o ho
  obtain ⟨i, hi, rfl⟩ := List.getElem_of_mem ho
  have hF := Res.mapM_eq_ok.1 h.quotient
  obtain ⟨p, hp, hf⟩ := Forall₂.right hF (List.getElem?_eq_getElem hi)
  simp only [Res.bind_eq_ok] at hf
  obtain ⟨e0, g1, g3⟩ := hf
  rw [← Res.ok.inj g3]
  exact ⟨e0, by simp [VerifierOracle.query, assocGet]⟩

omit [FftParams F] [LawfulFft F] in
theorem registerEval_answer {C : Type} (o : VerifierOracle F C) (x e : F) : (o.registerEval x e).query x = .ok e := by
  simp [VerifierOracle.query, VerifierOracle.registerEval, assocGet]

/-- The verifier can compute the value it compares with zero. -/
theorem Ready.quotient_ok (hR : Ready d.size vk.index pre ws is vos) (hd : d.Ok) (hreg : verifyRegister S vk pre proof ws is d.size ch = .ok st)
    (vanishing : List F) : ∃ q, quotientCheckValue S vk st is vos d.size vanishing ch = .ok q := by
  obtain ⟨d', h⟩ := verifyRegister_iff.1 hreg
  obtain rfl := Option.some.inj (hd.new_self.symm.trans h.dom)
  have hcom := hR.commitments proof.witnessCommitments
  have hrf : ∀ o ∈ pre.fixed, ∀ r ∈ o.rotations, r.degree < d.size := fun o ho => hR.rotations o (by simp [ho])
  have hw := filled_of_commitments (registerAll_filled hd hcom.1 hcom.2 h.witness)
  have hf := registerAll_filled hd hR.labels.2.1 hrf h.fixed
  have hz := registerAll_filled hd (zs_labels _ _) (zs_rotations hR.rows hR.usable _ _) h.zs
  have hcopy := Filled.copied hw
  obtain ⟨gs, hgs⟩ : ∃ gs : List F[X], List.Forall₂ (fun (vo : GenericVO F) g => ∃ e P, vo.getExpression = .ok e ∧
      VerifierAnswers d ⟨st.witness, is, st.pre.fixed, st.pre.table⟩ ch.xi e.queries P ∧ g = e.denote C P) vos gs := by
    refine exists_forall₂ (fun vo hvo => ?_)
    obtain ⟨e, h1, h2⟩ := hR.gates vo hvo
    obtain ⟨P, hP⟩ := Known.answers (table := st.pre.table) hw hf h2
    exact ⟨_, e, P, h1, hP, rfl⟩
  have hzrot : setExtend [] [Rotation.curr, Rotation.next] = [Rotation.curr, Rotation.next] := by decide
  have hzcn : ∀ o ∈ st.zs, (∃ y, o.query ch.xi = .ok y) ∧ ∃ y, o.query (d.omega * ch.xi) = .ok y := by
    intro o ho
    obtain ⟨i, hi, rfl⟩ := List.getElem_of_mem ho
    obtain ⟨o', ho', g⟩ := Forall₂.right hz (List.getElem?_eq_getElem hi)
    obtain ⟨p, _, rfl⟩ := List.mem_map.1 (List.mem_of_getElem? ho')
    have hmem : ∀ r ∈ [Rotation.curr, Rotation.next], r ∈ (verifierZ (S := S) vk.index.perm.usableRows proof.zCommitments.length p).rotations := by
      intro r hr
      unfold verifierZ
      simp only [hzrot]
      split
      · exact mem_setInsert.2 (Or.inr hr)
      · exact hr
    have h0 := g.answers .curr (hmem _ (by simp))
    have h1 := g.answers .next (hmem _ (by simp))
    rw [show Rotation.curr.signed = 0 from rfl, zpow_zero, mul_one] at h0
    rw [show Rotation.next.signed = 1 from rfl, zpow_one, mul_comm] at h1
    exact ⟨h0, h1⟩
  have hz0 : st.zs.length = proof.zCommitments.length := h.zs_length
  have hnum := h.numZ
  have hclen : (st.witness.filter (·.shouldPermute)).length = (ws.filter (·.shouldPermute)).length := hcopy.length_eq.symm
  have hV : VerifierPolys d st is vos ch.xi vk.index.perm.usableRows
      ⟨gs, (st.witness.filter (·.shouldPermute)).map (·.through), st.pre.perm.map (·.through), st.zs.map (·.through),
        (List.zip st.lookups st.lookupZs).map (fun p => (⟨p.1.a.through, p.1.s.through, p.1.aPrime.through, p.1.sPrime.through⟩, p.2.through)),
        st.pre.qBlind.through⟩ (st.quotient.map (·.through)) := by
    have hll : st.lookups.length = st.lookupZs.length := by rw [h.lookups_length, h.lookupZs_length]
    refine ⟨hgs, query_through_all ?_, query_through_all ?_, ?_, ?_, ?_, ?_, ?_, query_through_all (quotient_answer h)⟩
    · intro o ho
      obtain ⟨i, hi, rfl⟩ := List.getElem_of_mem ho
      obtain ⟨o', ho', g⟩ := Forall₂.right hcopy (List.getElem?_eq_getElem hi)
      have hm := List.mem_filter.1 (List.mem_of_getElem? ho')
      obtain ⟨r, hr, hr0⟩ := hR.copied o' hm.1 hm.2
      have := g.answers r hr
      rwa [signed_of_degree hr0, zpow_zero, mul_one] at this
    · rw [h.perm]
      intro o ho
      obtain ⟨i, hi, rfl⟩ := List.getElem_of_mem ho
      rw [List.getElem_zipWith]
      exact ⟨_, registerEval_answer _ _ _⟩
    · rw [List.forall₂_map_right_iff, List.forall₂_same]
      exact fun o ho => ⟨VerifierOracle.query_through (hzcn o ho).1, VerifierOracle.query_through (hzcn o ho).2⟩
    · intro j o p hj ho hp
      rw [List.length_map, hz0] at hj
      rw [List.getElem?_map, ho, Option.map_some, Option.some.injEq] at hp
      subst hp
      refine VerifierOracle.query_through ?_
      obtain ⟨o', ho', g⟩ := Forall₂.right hz ho
      rw [List.getElem?_map, List.getElem?_zipIdx, Option.map_map, Option.map_eq_some_iff] at ho'
      obtain ⟨c, hc, rfl⟩ := ho'
      have := g.answers ⟨vk.index.perm.usableRows, .plus⟩ (by
        simp only [Function.comp, verifierZ, Nat.zero_add]
        rw [if_pos (by omega)]
        exact mem_setInsert.2 (Or.inl rfl))
      rw [show (⟨vk.index.perm.usableRows, .plus⟩ : Rotation).signed = (vk.index.perm.usableRows : ℤ) from rfl, zpow_natCast, mul_comm] at this
      exact this
    · rw [List.forall₂_map_right_iff]
      refine forall₂_of_getElem? (by rw [List.length_zip]; omega) ?_
      intro i l p hl hp
      rw [List.getElem?_zip_eq_some] at hp
      obtain rfl := Option.some.inj (hl.symm.trans hp.1)
      obtain ⟨g1, g2, g3, g4, g5⟩ := lookups_answer h p.1 (List.mem_of_getElem? hl)
      exact ⟨VerifierOracle.query_through g1, VerifierOracle.query_through g2, VerifierOracle.query_through g3,
        VerifierOracle.query_through g4, VerifierOracle.query_through g5⟩
    · rw [List.forall₂_map_right_iff]
      refine forall₂_of_getElem? (by rw [List.length_zip]; omega) ?_
      intro i l p hl hp
      rw [List.getElem?_zip_eq_some] at hp
      obtain rfl := Option.some.inj (hl.symm.trans hp.2)
      obtain ⟨g1, g2⟩ := lookupZs_answer h p.2 (List.mem_of_getElem? hl)
      exact ⟨VerifierOracle.query_through g1, VerifierOracle.query_through g2⟩
    · intro _
      rw [h.qBlind]
      exact VerifierOracle.query_through ⟨_, registerEval_answer _ _ _⟩
  refine ⟨_, quotientCheckValue_eq hd hV ⟨hR.usable, ?_, ?_, ?_⟩ ?_ vanishing⟩
  · intro h0
    have h0 : gs = [] := h0
    subst h0
    exact hR.nonempty (List.forall₂_nil_right_iff.1 hgs)
  · intro h0
    have h0 : (st.witness.filter (·.shouldPermute)).length = 0 := by rw [List.map_eq_nil_iff.1 h0]; rfl
    rw [h0] at hnum
    have : proof.zCommitments.length = 0 := (Res.ok.inj hnum).symm
    show st.zs.map _ = []
    rw [List.map_eq_nil_iff, ← List.length_eq_zero_iff, hz0, this]
  · intro h0
    have h0 : (ws.filter (·.shouldPermute)).length ≠ 0 := by
      rw [← hclen]
      exact fun h => h0 (List.map_eq_nil_iff.2 (List.length_eq_zero_iff.1 h))
    obtain ⟨o, ho⟩ := List.exists_mem_of_length_pos (Nat.pos_of_ne_zero h0)
    rw [List.mem_filter] at ho
    obtain ⟨s1, s2, s3⟩ := hR.shape ⟨o, ho.1, ho.2⟩
    refine ⟨s3, ?_, ?_, ?_⟩
    · simp only [List.length_map, hclen, h.perm, List.length_zipWith, ← h.permLength, Nat.min_self, s1]
    · simp only [List.length_map, hclen, s2]
    · simp only [List.length_map, hz0]
      rw [chunks_length s3, List.length_map, hclen]
      rw [hclen] at hnum
      unfold PermutationArgument.numberOfZPolys at hnum
      rw [if_neg h0, if_neg s3.ne'] at hnum
      rw [← Res.ok.inj hnum]
      set c := (ws.filter (·.shouldPermute)).length
      set k := vk.index.perm.maxCols
      have hdm := Nat.div_add_mod c k
      have hml := Nat.mod_lt c s3
      symm
      split
      · rename_i hne
        rw [show c + k - 1 = (c % k - 1) + k * (c / k + 1) from by rw [Nat.mul_add]; omega, Nat.add_mul_div_left _ _ s3,
          Nat.div_eq_of_lt (by omega)]
        omega
      · rename_i he
        simp only [ne_eq, not_not] at he
        rw [show c + k - 1 = (k - 1) + k * (c / k) from by omega, Nat.add_mul_div_left _ _ s3, Nat.div_eq_of_lt (by omega)]
        omega
  · simp only [List.length_map, List.length_zip, h.lookups_length, h.lookupZs_length, Nat.min_self]

end
end ZK
