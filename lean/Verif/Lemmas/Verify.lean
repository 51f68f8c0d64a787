import Verif.Spec.Verifier
import Verif.Lemmas.Registry
import Verif.Lemmas.Labels
import Verif.Lemmas.Chunks
/-! Taking an accepting run of the verifier apart. -/
set_option autoImplicit false
set_option linter.unusedSectionVars false
namespace ZK

section
variable {F : Type} [Field F] [LinearOrder F] [FftParams F]

theorem verify_inv {S : Scheme F} {vk : VerifierKey S}
    {pre : VerifierPreprocessed S} {proof : TPProof S} {ws : List (VerifierOracle F S.Comm)}
    {is : List (InstanceVerifierOracle F)} {vos : List (GenericVO F)} {domainSize : Nat}
    {vanishing : List F} :
    verify S vk pre proof ws is vos domainSize vanishing = .ok () ↔
      ∃ st, verifyRegister S vk pre proof ws is domainSize (verifierChallenges S proof).1 = .ok st ∧
        quotientCheckValue S vk st is vos domainSize vanishing (verifierChallenges S proof).1 = .ok 0 ∧
        mpVerify S vk.vk proof.multiopen st.oracles (verifierChallenges S proof).1.xi domainSize
          (verifierChallenges S proof).2 = .ok () := by
  unfold verify
  simp only [Res.bind_eq_ok]
  constructor
  · rintro ⟨st, h1, q, h2, h3⟩
    by_cases hq : q = 0
    · subst hq
      rw [if_neg (by simp), Res.mapErr_eq_ok] at h3
      exact ⟨st, h1, h2, h3⟩
    · rw [if_pos hq] at h3; simp at h3
  · rintro ⟨st, h1, h2, h3⟩
    exact ⟨st, h1, 0, h2, by rw [if_neg (by simp), Res.mapErr_eq_ok]; exact h3⟩

/-- A run of the identity check up to its value. -/
theorem quotientCheckValue_iff {S : Scheme F} {vk : VerifierKey S} {st : VState S} {is : List (InstanceVerifierOracle F)}
    {vos : List (GenericVO F)} {domainSize : Nat} {vanishing : List F} {ch : Challenges F} {v : F} :
    quotientCheckValue S vk st is vos domainSize vanishing ch = .ok v ↔
      ∃ (d : Domain F) (al : Alphas F) (l0 lu : List F) (e1 pe e2 tp : F), Domain.new (F := F) domainSize = some d ∧
        (mkAlphas vk.index.perm ch.alpha vos.length st.zs.length vk.index.lookups.length : Res (Err S.E) _) = .ok al ∧
        (lagrangeRow d domainSize 0 : Res (Err S.E) _) = .ok l0 ∧
        (lagrangeRow d domainSize vk.index.perm.usableRows : Res (Err S.E) _) = .ok lu ∧
        Res.foldM (fun (acc : F) (p : GenericVO F × Nat) => do
          let ex ← (p.1.getExpression).mapErr (Err.vo (E := S.E))
          let val ← (ex.evalR ((⟨st.witness, is, st.pre.fixed, st.pre.table⟩ : VerifierView F S.Comm).gateAt ch.xi
            d.elements)).mapErr Err.iop
          let a ← Res.idx al.gates p.2
          pure (acc + a * val)) 0 vos.zipIdx = .ok e1 ∧
        (if (st.witness.filter (·.shouldPermute)).length ≠ 0 then
          vk.index.perm.open_ (peval l0 ch.xi) (peval lu ch.xi) st.pre.qBlind st.zs st.pre.perm
            (st.witness.filter (·.shouldPermute)) ch.beta ch.gamma d ch.xi al.perm = .ok pe
        else pe = 0) ∧
        Res.foldM (fun (acc : F)
          (p : (LookupOracles (VerifierOracle F S.Comm) × VerifierOracle F S.Comm) × List F) => do
          let le ← (lookupOpen (peval l0 ch.xi) (peval lu ch.xi) st.pre.qBlind p.1.1 p.1.2 ch.beta ch.gamma ch.xi d
            p.2).mapErr (Err.iop (E := S.E))
          pure (acc + le)) (e1 + pe) (List.zip (List.zip st.lookups st.lookupZs) al.lookups) = .ok e2 ∧
        Res.foldM (fun (acc : F) (p : F × VerifierOracle F S.Comm) => do
          let v ← (p.2.query ch.xi).mapErr (Err.iop (E := S.E))
          pure (acc + p.1 * v)) 0 (List.zip (powersFrom 1 (ch.xi ^ domainSize) st.quotient.length) st.quotient) = .ok tp ∧
        v = e2 - tp * peval vanishing ch.xi := by
  unfold quotientCheckValue
  simp only [Res.bind_eq_ok, Res.unwrap_eq_ok]
  constructor
  · rintro ⟨d, a1, al, a2, l0, a3, lu, a4, e1, a5, h⟩
    split at h
    · rename_i hc
      simp only [Res.bind_eq_ok, Res.mapErr_eq_ok] at h
      obtain ⟨pe, a6, e2, a7, tp, a8, a9⟩ := h
      exact ⟨d, al, l0, lu, e1, pe, e2, tp, a1, a2, a3, a4, a5, by rw [if_pos hc]; exact a6, a7, a8, (Res.ok.inj a9).symm⟩
    · rename_i hc
      simp only [Res.bind_eq_ok] at h
      obtain ⟨pe, a6, e2, a7, tp, a8, a9⟩ := h
      exact ⟨d, al, l0, lu, e1, pe, e2, tp, a1, a2, a3, a4, a5, by rw [if_neg hc]; exact (Res.ok.inj a6).symm, a7, a8,
        (Res.ok.inj a9).symm⟩
  · rintro ⟨d, al, l0, lu, e1, pe, e2, tp, a1, a2, a3, a4, a5, a6, a7, a8, a9⟩
    refine ⟨d, a1, al, a2, l0, a3, lu, a4, e1, a5, ?_⟩
    split
    · rename_i hc
      rw [if_pos hc] at a6
      simp only [Res.bind_eq_ok, Res.mapErr_eq_ok]
      exact ⟨pe, a6, e2, a7, tp, a8, by rw [a9]; rfl⟩
    · rename_i hc
      rw [if_neg hc] at a6
      simp only [Res.bind_eq_ok]
      exact ⟨pe, by rw [a6]; rfl, e2, a7, tp, a8, by rw [a9]; rfl⟩

/-- A successful run of `verifyRegister`. -/
structure Registration (S : Scheme F) (vk : VerifierKey S) (pre : VerifierPreprocessed S) (proof : TPProof S)
    (ws : List (VerifierOracle F S.Comm)) (is : List (InstanceVerifierOracle F)) (domainSize : Nat)
    (ch : Challenges F) (domain : Domain F) (st : VState S) : Prop where
  dom : Domain.new (F := F) domainSize = some domain
  quotient : Res.mapM (fun (p : S.Comm × Nat) => do
      let e ← Res.idx proof.quotientEvals p.2
      pure (⟨.witness, bytes "quotient_chunk_" ++ natBytes p.2, setExtend [] [Rotation.curr],
        [(ch.xi, e)], some p.1, false⟩ : VerifierOracle F S.Comm)) proof.quotientCommitments.zipIdx
      = (.ok st.quotient : Res (Err S.E) _)
  witness : registerAll .missingWitnessOracle (registerCommitments ws proof.witnessCommitments) ch.xi
    domain.elements proof.witnessEvals = .ok st.witness
  fixed : registerAll .missingFixedOracle pre.fixed ch.xi domain.elements proof.fixedEvals = .ok st.pre.fixed
  table : registerAll .missingLookupTableOracle pre.table ch.xi domain.elements proof.tableEvals
    = .ok st.pre.table
  permLength : pre.perm.length = proof.permEvals.length
  perm : st.pre.perm = List.zipWith (fun (o : VerifierOracle F S.Comm) e => o.registerEval ch.xi e) pre.perm
    proof.permEvals
  omega : domain.element 1 ≠ 0
  lookupComms : (chunks 2 proof.lookupCommitments).length = vk.index.lookups.length
  lookupEvals : (chunks 3 proof.lookupEvals).length = vk.index.lookups.length
  lookups : Res.mapM (verifierLookup ⟨st.witness, is, st.pre.fixed, st.pre.table⟩ ch domain.elements
      (domain.element 1)⁻¹)
    (List.zip (List.zip vk.index.lookups (chunks 2 proof.lookupCommitments)) (chunks 3 proof.lookupEvals)).zipIdx
      = .ok st.lookups
  lookupZComms : proof.lookupZCommitments.length = vk.index.lookups.length
  lookupZEvals : (chunks 2 proof.lookupZEvals).length = vk.index.lookups.length
  lookupZs : Res.mapM (verifierLookupZ ch.xi (domain.element 1))
    (List.zip proof.lookupZCommitments (chunks 2 proof.lookupZEvals)).zipIdx
      = (.ok st.lookupZs : Res (Err S.E) _)
  numZ : vk.index.perm.numberOfZPolys (st.witness.filter (·.shouldPermute)).length
    = (.ok proof.zCommitments.length : Res (Err S.E) _)
  zs : registerAll .missingPermutationOracle (proof.zCommitments.zipIdx.map
    (verifierZ vk.index.perm.usableRows proof.zCommitments.length)) ch.xi domain.elements proof.zEvals = .ok st.zs
  qBlind : st.pre.qBlind = pre.qBlind.registerEval ch.xi proof.qBlindEval

theorem verifyRegister_iff {S : Scheme F} {vk : VerifierKey S}
    {pre : VerifierPreprocessed S} {proof : TPProof S} {ws : List (VerifierOracle F S.Comm)}
    {is : List (InstanceVerifierOracle F)} {domainSize : Nat} {ch : Challenges F} {st : VState S} :
    verifyRegister S vk pre proof ws is domainSize ch = .ok st ↔
      ∃ domain, Registration S vk pre proof ws is domainSize ch domain st := by
  unfold verifyRegister
  simp only [Res.bind_eq_ok, Res.mapErr_eq_ok, Res.unwrap_eq_ok, Res.assert_eq_ok, decide_eq_true_eq]
  constructor
  · rintro ⟨q, hq, d, hd, w, hw, f, hf, t, ht, _, hp, _, ho, _, hlc, _, hle, l, hl, _, hzc, _, hze, lz, hlz, nz, hnz,
      _, hz, z, hzs, h⟩
    obtain ⟨⟩ := Res.ok.inj h
    subst hz
    exact ⟨d, hd, hq, hw, hf, ht, hp, rfl, ho, hlc, hle, hl, hzc, hze, hlz, hnz, hzs, rfl⟩
  · rintro ⟨d, hd, hq, hw, hf, ht, hp, hperm, ho, hlc, hle, hl, hzc, hze, hlz, hnz, hzs, hb⟩
    refine ⟨_, hq, d, hd, _, hw, _, hf, _, ht, (), hp, (), ho, (), hlc, (), hle, _, hl, (), hzc, (), hze, _, hlz, _,
      hnz, (), rfl, _, hzs, ?_⟩
    obtain ⟨w, ⟨f, t, pm, qb⟩, q, l, lz, z⟩ := st
    simp only at hperm hb
    subst hperm hb
    rfl

omit [FftParams F] in
/-- Registering evaluations changes nothing else. -/
theorem registerEvals_config {C : Type} {missing : Label → PiopErr} {os os' : List (VerifierOracle F C)}
    {qs : List (Query F)} {evals : List F} (h : registerEvals missing os qs evals = .ok os') :
    os'.map (·.config) = os.map (·.config) := by
  unfold registerEvals at h
  refine Res.foldM_inv (fun os' : List (VerifierOracle F C) =>
    os'.map (·.config) = os.map (·.config)) rfl ?_ h
  intro a p _ b ha hb
  split at hb
  · rw [← Res.ok.inj hb, ← ha]
    apply List.ext_getElem (by simp)
    intro k _ _
    rw [List.getElem_map, List.getElem_modify, List.getElem_map]
    split <;> rfl
  · simp at hb

variable [LawfulFft F]

/-- The number of queries of a list of oracles. -/
theorem getQuerySet_length {ε O : Type} [ConcreteOracle O] {d : Domain F} (hd : d.Ok) {os : List O} {x : F}
    {qs : List (Query F)} (h : getQuerySet (ε := ε) os xiLabel x d.elements = .ok qs) :
    qs.length = expectedEvals os := by
  have hr := getQuerySet_range hd h
  obtain ⟨qs', h1, h2, h3⟩ := getQuerySet_ok (ε := ε) hd os xiLabel x hr
  rw [h] at h1
  cases h1
  have hnd : qs.Nodup := h2.imp (fun h => h.ne)
  rw [← List.toFinset_card_of_nodup hnd]
  unfold expectedEvals
  symm
  apply Finset.card_bij (fun p _ => (toLex (p.1, toLex
    ((⟨p.2.natAbs, if 0 ≤ p.2 then .plus else .minus⟩ : Rotation).pointLabel xiLabel, x * d.omega ^ p.2)) : Query F))
  · rintro ⟨l, s⟩ hp
    simp only [List.mem_toFinset, List.mem_flatMap, List.mem_map, Prod.mk.injEq] at hp
    obtain ⟨o, ho, r, hr', rfl, rfl⟩ := hp
    rw [List.mem_toFinset, h3]
    refine ⟨o, ho, r, hr', ?_⟩
    unfold queryOf
    congr 3
    obtain ⟨dg, sg⟩ := r
    cases sg
    · simp [Rotation.signed]
    · by_cases h0 : dg = 0
      · subst h0; simp [Rotation.signed, Rotation.pointLabel]
      · simp [Rotation.signed, h0]
  · rintro ⟨l, s⟩ _ ⟨l', s'⟩ _ he
    have he' := congrArg (fun q : Query F => ((ofLex q).1, (ofLex (ofLex q).2).1)) he
    simp only [ofLex_toLex, Prod.mk.injEq] at he'
    have hs := Rotation.pointLabel_inj he'.2
    have hsg : ∀ s : ℤ, (⟨s.natAbs, if 0 ≤ s then .plus else .minus⟩ : Rotation).signed = s := by
      intro s
      unfold Rotation.signed
      by_cases h0 : 0 ≤ s
      · simp [h0]
      · simp only [h0, if_false]; omega
    rw [hsg, hsg] at hs
    rw [he'.1, hs]
  · intro q hq
    rw [List.mem_toFinset, h3] at hq
    obtain ⟨o, ho, r, hr', rfl⟩ := hq
    refine ⟨(ConcreteOracle.label o, r.signed), ?_, ?_⟩
    · rw [List.mem_toFinset]
      exact List.mem_flatMap.2 ⟨o, ho, List.mem_map.2 ⟨r, hr', rfl⟩⟩
    · unfold queryOf
      congr 3
      obtain ⟨dg, sg⟩ := r
      cases sg
      · simp [Rotation.signed]
      · by_cases h0 : dg = 0
        · subst h0; simp [Rotation.signed, Rotation.pointLabel]
        · simp [Rotation.signed, h0]

theorem registerAll_inv {C : Type} {d : Domain F} (hd : d.Ok) {missing : Label → PiopErr}
    {os os' : List (VerifierOracle F C)} {xi : F} {evals : List F}
    (h : registerAll missing os xi d.elements evals = .ok os') :
    evals.length = expectedEvals os ∧
      os'.map (·.config) = os.map (·.config) := by
  unfold registerAll at h
  simp only [Res.bind_eq_ok, Res.assert_eq_ok, decide_eq_true_eq] at h
  obtain ⟨qs, h1, _, h2, h3⟩ := h
  exact ⟨by rw [← h2, getQuerySet_length hd h1], registerEvals_config h3⟩

end
end ZK
