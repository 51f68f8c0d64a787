import Verif.Lemmas.TotalQuotient
/-! The verifier of the multi-opening does not panic when its points are distinct and `x3` is none of them. -/
set_option autoImplicit false
set_option linter.unusedSectionVars false
namespace ZK
open Polynomial

section
variable {F : Type} [Field F] [LinearOrder F] [FftParams F] [LawfulFft F]

omit [FftParams F] [LawfulFft F] [LinearOrder F] [Field F] in
theorem zipEvalM_no_panic {ε α β γ δ : Type} {f : α → Res ε β} {g : β → γ → Res ε δ} {as : List α} {cs : List γ}
    (hf : ∀ a ∈ as, f a ≠ .panic) (hg : ∀ a ∈ as, ∀ b, f a = .ok b → ∀ c, g b c ≠ .panic) : zipEvalM f g as cs ≠ .panic := by
  induction as generalizing cs with
  | nil => simp [zipEvalM]
  | cons a as ih =>
    cases cs with
    | nil =>
      rw [zipEvalM]
      have := hf a (by simp)
      split <;> simp_all
    | cons c cs =>
      rw [zipEvalM, ne_eq, Res.bind_eq_panic]
      rintro (h | ⟨b, hb, h⟩)
      · exact hf a (by simp) h
      · rw [Res.bind_eq_panic] at h
        rcases h with h | ⟨x, _, h⟩
        · exact hg a (by simp) b hb c h
        · rw [Res.bind_eq_panic] at h
          rcases h with h | ⟨_, _, h⟩
          · exact ih (fun a ha => hf a (by simp [ha])) (fun a ha => hg a (by simp [ha])) h
          · simp at h

theorem fEval_no_panic {ε : Type} {x3 qe : F} {es : List (F × F)} (hnd : (es.map Prod.fst).Nodup) (hx : x3 ∉ es.map Prod.fst) :
    (fEval x3 es qe : Res ε F) ≠ .panic := by
  unfold fEval
  set ks := es.map Prod.fst
  obtain ⟨bs, hbs⟩ := Res.mapM_ok_of (f := fun (p : F × Nat) => lagrangeOne (ε := ε) ks p.1 p.2) (l := ks.zipIdx) (by
    intro p hp
    have hp' := List.mem_zipIdx_iff_getElem?.1 hp
    have hlt := getElem?_some_lt hp'
    rw [List.getElem?_eq_getElem hlt] at hp'
    obtain ⟨l, hl, _⟩ := lagrangeOne_ok (ε := ε) ks hnd p.2 hlt
    exact ⟨l, by rw [← Option.some.inj hp']; exact hl⟩)
  have hb : lagrangeBasis (ε := ε) ks = .ok bs := hbs
  simp only [hb, Res.bind_ok]
  unfold mulInv
  rw [if_neg]
  · simp
  · rw [← eval_toPoly, toPoly_constructVanishing, eval_prod_sub_eq_zero]
    exact hx

variable {S : Scheme F}

/-- The verifier of the multi-opening panics at most inside the commitment scheme. -/
theorem mpVerifyWith_no_panic {d : Domain F} (hd : d.Ok) (vk : S.VK) (proof : MpProof S) (vs : List (VerifierOracle F S.Comm)) (xi x1 x2 x3 x4 : F)
    (hr : ∀ v ∈ vs, ∀ r ∈ v.rotations, r.degree < d.size)
    (hnd : ∀ v ∈ vs, (v.rotations.map (fun r => xi * d.omega ^ r.signed)).Nodup)
    (hx3 : ∀ v ∈ vs, ∀ r ∈ v.rotations, x3 ≠ xi * d.omega ^ r.signed)
    (hcheck : ∀ c y, S.check vk c x3 y proof.opening ≠ .panic) :
    mpVerifyWith S vk proof vs xi d x1 x2 x3 x4 ≠ .panic := by
  have hpart := (C39_partition (fun (o : VerifierOracle F S.Comm) => o.rotations) vs).2.1
  have hset : ∀ s ∈ openingSets (fun (o : VerifierOracle F S.Comm) => o.rotations) vs,
      s.2.length ≤ vs.length ∧ ∃ o ∈ vs, o.rotations = s.1 := by
    intro s hs
    obtain ⟨h1, h2⟩ := hpart _ hs
    obtain ⟨o, ho⟩ := List.exists_mem_of_ne_nil _ h2
    rw [h1] at ho
    obtain ⟨ho1, ho2⟩ := List.mem_filter.1 ho
    exact ⟨by rw [h1]; exact List.length_filter_le _ _, o, ho1, by simpa using ho2⟩
  have hf : ∀ s ∈ openingSets (fun (o : VerifierOracle F S.Comm) => o.rotations) vs,
      mpVerifierSet (S := S) (powersFrom 1 x1 vs.length) xi d.elements s ≠ .panic := by
    rintro ⟨rots, set⟩ hs
    obtain ⟨h1, o, ho, h2⟩ := hset _ hs
    simp only at h1 h2
    exact verifierSet_no_panic hd h1 (by rw [← h2]; exact hr o ho) (by rw [← h2]; exact hnd o ho)
  have hes : ∀ s ∈ openingSets (fun (o : VerifierOracle F S.Comm) => o.rotations) vs, ∀ b,
      mpVerifierSet (S := S) (powersFrom 1 x1 vs.length) xi d.elements s = .ok b → ∀ qe : F, (fEval x3 b.2 qe : Res PiopErr F) ≠ .panic := by
    intro s hs b hb qe
    obtain ⟨_, o, ho, h2⟩ := hset _ hs
    unfold mpVerifierSet at hb
    simp only [Res.bind_eq_ok] at hb
    obtain ⟨q, _, es, he, hb⟩ := hb
    obtain ⟨_, g2, g, _, rfl⟩ := (evalSet_iff hd (by simp)).1 he
    rw [← Res.ok.inj hb]
    have hmap : ((setExtend [] (points d xi s.1)).map (fun p => (p, g p))).map Prod.fst = setExtend [] (points d xi s.1) := by
      rw [List.map_map]
      exact List.map_id _
    refine fEval_no_panic ?_ ?_
    · simp only [hmap]
      exact (setExtend_sorted List.Pairwise.nil).imp (fun h => ne_of_lt h)
    · simp only [hmap]
      rw [mem_setExtend]
      simp only [List.not_mem_nil, false_or]
      intro hm
      obtain ⟨r, hr1, hr2⟩ := List.mem_map.1 hm
      exact hx3 o ho r (by rw [h2]; exact hr1) hr2.symm
  have hmapErr : ∀ {ε ε' α : Type} {x : Res ε α} {f : ε → ε'}, x.mapErr f = .panic → x = .panic := by
    intro ε ε' α x f h
    cases x <;> simp_all [Res.mapErr]
  have hzlen : ∀ {ε α β γ δ : Type} {f : α → Res ε β} {g : β → γ → Res ε δ} {as : List α} {cs : List γ} {ds : List δ},
      zipEvalM f g as cs = .ok ds → ds.length ≤ as.length ∧ ds.length ≤ cs.length := by
    intro ε α β γ δ f g as
    induction as with
    | nil => intro cs ds h; simp only [zipEvalM, Res.ok.injEq] at h; subst h; simp
    | cons a as ih =>
      intro cs ds h
      cases cs with
      | nil =>
        rw [zipEvalM] at h
        split at h
        · simp at h
        · obtain rfl := Res.ok.inj h
          simp
      | cons c cs =>
        rw [zipEvalM] at h
        simp only [Res.bind_eq_ok] at h
        obtain ⟨b, _, x, _, xs, hxs, h⟩ := h
        rw [← Res.ok.inj h]
        have := ih hxs
        simp only [List.length_cons]
        omega
  unfold mpVerifyWith
  intro h
  simp only [Res.bind_eq_panic] at h
  rcases h with h | ⟨fe, hfe, h⟩
  · exact zipEvalM_no_panic hf hes (hmapErr h)
  have hfl := hzlen (Res.mapErr_eq_ok.1 hfe)
  have hsl := openingSets_length_le (fun (o : VerifierOracle F S.Comm) => o.rotations) vs
  rcases h with h | ⟨e0, _, h⟩
  · refine foldM_no_panic (fun b a ha => ?_) _ h
    rw [powersFrom_idx _ _ _ _ (lt_of_lt_of_le (snd_lt_of_mem_zipIdx ha) (by omega))]
    simp
  rcases h with h | ⟨qc, hqc, h⟩
  · exact zipEvalM_no_panic hf (by simp) (hmapErr h)
  have hql := hzlen (Res.mapErr_eq_ok.1 hqc)
  rcases h with h | ⟨fin, _, h⟩
  · refine foldM_no_panic (fun b a ha => ?_) _ h
    rw [powersFrom_idx _ _ _ _ (lt_of_lt_of_le (snd_lt_of_mem_zipIdx ha) (by omega))]
    simp
  rcases h with h | ⟨ok, _, h⟩
  · exact hcheck _ _ (hmapErr h)
  · split at h <;> simp at h

variable {vk : VerifierKey S} {pre : VerifierPreprocessed S} {ws : List (VerifierOracle F S.Comm)}
  {is : List (InstanceVerifierOracle F)} {vos : List (GenericVO F)} {d : Domain F} {proof : TPProof S} {ch : Challenges F} {st : VState S}

theorem config_rotations {C : Type} {os os' : List (VerifierOracle F C)}
    (h : os'.map (fun o => (o.label, o.rotations, o.shouldPermute)) = os.map (fun o => (o.label, o.rotations, o.shouldPermute))) :
    ∀ o ∈ os', ∃ o0 ∈ os, o.rotations = o0.rotations := by
  intro o ho
  have hm : (o.label, o.rotations, o.shouldPermute) ∈ os.map (fun o => (o.label, o.rotations, o.shouldPermute)) := by
    rw [← h]
    exact List.mem_map.2 ⟨o, ho, rfl⟩
  obtain ⟨o', ho', he⟩ := List.mem_map.1 hm
  simp only [Prod.mk.injEq] at he
  exact ⟨o', ho', he.2.1.symm⟩

/-- The rotations of the opened oracles move by less than `n` rows, to different rows. -/
theorem Ready.rotations_ok (hR : Ready d.size vk.index pre ws is vos) (hd : d.Ok) (hreg : verifyRegister S vk pre proof ws is d.size ch = .ok st) :
    ∀ o ∈ st.oracles, (∀ r ∈ o.rotations, r.degree < d.size) ∧
      o.rotations.Pairwise (fun r r' => ¬ r.signed ≡ r'.signed [ZMOD d.size]) := by
  obtain ⟨d', h⟩ := verifyRegister_iff.1 hreg
  obtain rfl := Option.some.inj (hd.new_self.symm.trans h.dom)
  have hn := hR.rows
  have hold : ∀ o : VerifierOracle F S.Comm, (∃ o0 ∈ ws ++ pre.fixed ++ pre.table ++ pre.perm ++ [pre.qBlind], o.rotations = o0.rotations) →
      (∀ r ∈ o.rotations, r.degree < d.size) ∧ o.rotations.Pairwise (fun r r' => ¬ r.signed ≡ r'.signed [ZMOD d.size]) := by
    rintro o ⟨o0, ho0, he⟩
    rw [he]
    exact ⟨hR.rotations o0 ho0, hR.distinct o0 ho0⟩
  have hmod : ∀ {a b : ℤ}, 0 < |a - b| → |a - b| < d.size → ¬ a ≡ b [ZMOD d.size] := by
    intro a b h1 h2 h3
    have := Int.ModEq.dvd h3
    have h4 := Int.le_of_dvd (by rw [abs_sub_comm] at h1; exact h1) ((dvd_abs _ _).2 this)
    rw [abs_sub_comm] at h2
    omega
  have hcurr : setExtend [] [Rotation.curr] = [Rotation.curr] := by decide
  have hcn : setExtend [] [Rotation.curr, Rotation.next] = [Rotation.curr, Rotation.next] := by decide
  have hcp : ∀ r ∈ setExtend [] [Rotation.curr, Rotation.prev], r = .curr ∨ r = .prev := by decide
  have hcpn : (setExtend [] [Rotation.curr, Rotation.prev]).Nodup := by decide
  have ncn : ¬ Rotation.curr.signed ≡ Rotation.next.signed [ZMOD d.size] :=
    hmod (by simp [Rotation.curr, Rotation.next, Rotation.signed]) (by simp [Rotation.curr, Rotation.next, Rotation.signed]; omega)
  have ncp : ¬ Rotation.curr.signed ≡ Rotation.prev.signed [ZMOD d.size] :=
    hmod (by simp [Rotation.curr, Rotation.prev, Rotation.signed]) (by simp [Rotation.curr, Rotation.prev, Rotation.signed]; omega)
  have okCurr : (∀ r ∈ [Rotation.curr], r.degree < d.size) ∧
      [Rotation.curr].Pairwise (fun r r' => ¬ r.signed ≡ r'.signed [ZMOD d.size]) := by
    refine ⟨?_, List.pairwise_singleton _ _⟩
    intro r hr
    rw [List.mem_singleton] at hr
    subst hr
    simp only [Rotation.curr]; omega
  have okCN : (∀ r ∈ [Rotation.curr, Rotation.next], r.degree < d.size) ∧
      [Rotation.curr, Rotation.next].Pairwise (fun r r' => ¬ r.signed ≡ r'.signed [ZMOD d.size]) := by
    constructor
    · intro r hr
      simp only [List.mem_cons, List.not_mem_nil, or_false] at hr
      rcases hr with rfl | rfl <;> simp only [Rotation.curr, Rotation.next] <;> omega
    · exact List.pairwise_pair.2 ncn
  have okCP : (∀ r ∈ setExtend [] [Rotation.curr, Rotation.prev], r.degree < d.size) ∧
      (setExtend [] [Rotation.curr, Rotation.prev]).Pairwise (fun r r' => ¬ r.signed ≡ r'.signed [ZMOD d.size]) := by
    constructor
    · intro r hr
      rcases hcp r hr with rfl | rfl <;> simp only [Rotation.curr, Rotation.prev] <;> omega
    · refine List.Pairwise.imp_of_mem ?_ hcpn
      intro a b ha hb hab
      rcases hcp a ha with rfl | rfl <;> rcases hcp b hb with rfl | rfl
      · exact absurd rfl hab
      · exact ncp
      · exact fun h => ncp h.symm
      · exact absurd rfl hab
  intro o ho
  unfold VState.oracles openingOrder at ho
  simp only [List.mem_append, List.mem_singleton] at ho
  rcases ho with ((((ho | ho) | ho) | ho) | ho) | (((ho | ho) | ho) | ho)
  · obtain ⟨o0, h0, e⟩ := config_rotations ((config_of_config (registerAll_inv hd h.witness).2).trans (registerCommitments_config ws proof.witnessCommitments)) o ho
    exact hold o ⟨o0, by simp [h0], e⟩
  · unfold primes at ho
    rw [List.mem_flatMap] at ho
    obtain ⟨l, hl, ho⟩ := ho
    obtain ⟨i, hi, rfl⟩ := List.getElem_of_mem hl
    have hi' : i < vk.index.lookups.length := by rw [← h.lookups_length]; exact hi
    obtain ⟨_, _, _, _, _, _, _, _, _, _, _, _, _, _, _, _, _, g1, g2⟩ := h.lookup_inv (List.getElem?_eq_getElem hi') (List.getElem?_eq_getElem hi)
    simp only [List.mem_cons, List.not_mem_nil, or_false] at ho
    rcases ho with rfl | rfl
    · rw [g1]; exact okCP
    · rw [g2, hcurr]; exact okCurr
  · obtain ⟨i, hi, rfl⟩ := List.getElem_of_mem ho
    obtain ⟨_, _, _, g⟩ := h.lookupZ_inv (List.getElem?_eq_getElem hi)
    rw [g, hcn]; exact okCN
  · obtain ⟨i, hi, rfl⟩ := List.getElem_of_mem ho
    obtain ⟨_, _, _, g⟩ := h.quotient_inv (List.getElem?_eq_getElem hi)
    rw [g, hcurr]; exact okCurr
  · obtain ⟨i, hi, rfl⟩ := List.getElem_of_mem ho
    obtain ⟨c, hc, _, g⟩ := h.z_inv (List.getElem?_eq_getElem hi)
    refine ⟨?_, ?_⟩
    · intro r hr
      rw [g] at hr
      exact zs_rotations (S := S) hn hR.usable proof.zCommitments proof.zCommitments.length _
        (List.mem_map.2 ⟨(c, i), List.mem_zipIdx_iff_getElem?.2 hc, rfl⟩) r hr
    · rw [g]
      unfold verifierZ
      simp only [hcn]
      split
      · have hmem : ∀ r ∈ setInsert (⟨vk.index.perm.usableRows, .plus⟩ : Rotation) [Rotation.curr, Rotation.next],
            ∃ k : Nat, k < d.size ∧ r = ⟨k, .plus⟩ := by
          intro r hr
          rw [mem_setInsert] at hr
          rcases hr with rfl | hr
          · exact ⟨_, hR.usable, rfl⟩
          · simp only [List.mem_cons, List.not_mem_nil, or_false] at hr
            rcases hr with rfl | rfl
            · exact ⟨0, by omega, rfl⟩
            · exact ⟨1, hn, rfl⟩
        have hs : (setInsert (⟨vk.index.perm.usableRows, .plus⟩ : Rotation) [Rotation.curr, Rotation.next]).Pairwise (· < ·) :=
          setInsert_sorted (by decide)
        refine List.Pairwise.imp_of_mem ?_ hs
        intro a b ha hb hab
        obtain ⟨k, hk, rfl⟩ := hmem a ha
        obtain ⟨l, hl, rfl⟩ := hmem b hb
        have hkl : k ≠ l := fun h => by subst h; exact lt_irrefl _ hab
        show ¬ (k : ℤ) ≡ (l : ℤ) [ZMOD d.size]
        refine hmod (abs_pos.2 (sub_ne_zero.2 (by exact_mod_cast hkl))) ?_
        rw [abs_lt]
        omega
      · exact okCN.2
  · obtain ⟨o0, h0, e⟩ := config_rotations (config_of_config (registerAll_inv hd h.fixed).2) o ho
    exact hold o ⟨o0, by simp [h0], e⟩
  · obtain ⟨o0, h0, e⟩ := config_rotations (config_of_config (registerAll_inv hd h.table).2) o ho
    exact hold o ⟨o0, by simp [h0], e⟩
  · rw [h.perm] at ho
    obtain ⟨i, hi, rfl⟩ := List.getElem_of_mem ho
    rw [List.getElem_zipWith]
    rw [List.length_zipWith] at hi
    exact hold _ ⟨pre.perm[i]'(by omega), by simp, rfl⟩
  · subst ho
    rw [h.qBlind]
    exact hold _ ⟨pre.qBlind, by simp, rfl⟩

end
end ZK
