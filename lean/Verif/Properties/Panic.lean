import Verif.Lemmas.TotalOpening
import Verif.Spec.Success
/-!
C65: which proofs make the verifier panic.
-/
set_option autoImplicit false
set_option linter.unusedSectionVars false
namespace ZK
open Polynomial

section
variable {F : Type} [Field F] [LinearOrder F] [FftParams F] [LawfulFft F]
variable {S : Scheme F} {vk : VerifierKey S} {pre : VerifierPreprocessed S} {ws : List (VerifierOracle F S.Comm)}
  {is : List (InstanceVerifierOracle F)} {vos : List (GenericVO F)} {d : Domain F}

/-- **C65** is false: a verifier that is ready for the proofs of a circuit panics on every proof in which some list does not
have the length it expects, whatever the proof contains otherwise and whatever the challenges are. -/
theorem C65_malformed_proof_panics (hd : d.Ok) (hR : Ready d.size vk.index pre ws is vos) (proof : TPProof S) (vanishing : List F)
    (hW : ¬ WellShaped vk.index pre ws proof) : verify S vk pre proof ws is vos d.size vanishing = .panic := by
  have h := hR.register_reads hd proof (verifierChallenges S proof).1
  have hp : verifyRegister S vk pre proof ws is d.size (verifierChallenges S proof).1 = .panic := by
    cases hr : verifyRegister S vk pre proof ws is d.size (verifierChallenges S proof).1 with
    | ok st => exact absurd (wellShaped_of_register hr) hW
    | err e => exact absurd hr (h.1 e)
    | panic => rfl
  unfold verify
  simp only [hp, Res.bind_panic]

/-- **C65** (for proofs whose lists have the expected lengths) A verifier that is ready for the proofs of a circuit does not
panic on a proof of the right shape, whatever field elements, commitments and openings it contains: it accepts, or finds
that the quotient does not match, or the multi-opening returns an error. This needs that the challenge `xi` is not zero, that
`x3` is not a rotation of `xi`, and that the commitment scheme does not panic. -/
theorem C65_no_panic_partial (hd : d.Ok) (hR : Ready d.size vk.index pre ws is vos) (proof : TPProof S) (vanishing : List F)
    (hW : WellShaped vk.index pre ws proof) {ch : Challenges F} {t : S.T} (hch : verifierChallenges S proof = (ch, t))
    (hxi : ch.xi ≠ 0) {x1 x2 x3 x4 : F} (hx : mpChallenges S proof.multiopen t = (x1, x2, x3, x4))
    (hx3 : ∀ k : ℤ, x3 ≠ ch.xi * d.omega ^ k) (hcheck : ∀ c x y pf, S.check vk.vk c x y pf ≠ .panic) :
    verify S vk pre proof ws is vos d.size vanishing = .ok () ∨
    verify S vk pre proof ws is vos d.size vanishing = .err .quotientNotZero ∨
    ∃ e, verify S vk pre proof ws is vos d.size vanishing = .err (.multiproof e) := by
  obtain ⟨st, hst⟩ := (hR.register_reads hd proof ch).exists_ok hW
  obtain ⟨q, hq⟩ := hR.quotient_ok hd hst vanishing
  have hrot := hR.rotations_ok hd hst
  unfold verify
  simp only [hch, hst, hq, Res.bind_ok]
  by_cases h0 : q = 0
  · rw [if_neg (by simpa using h0)]
    have hmp : mpVerify S vk.vk proof.multiopen st.oracles ch.xi d.size t ≠ .panic := by
      unfold mpVerify
      rw [hd.new_self, Res.unwrap_some, Res.bind_ok, hx]
      refine mpVerifyWith_no_panic hd _ _ _ _ _ _ _ _ (fun v hv => (hrot v hv).1) (fun v hv => ?_)
        (fun v hv r hr => hx3 _) (fun c y => hcheck c _ y _)
      rw [List.nodup_iff_pairwise_ne, List.pairwise_map]
      obtain ⟨hr, hp⟩ := hrot v hv
      refine hp.imp_of_mem ?_
      intro a b ha hb hab he
      refine hab (((C03_rotated_points hd ch.xi).2.2.2 hxi a b (hr a ha) (hr b hb)).1 ?_)
      rw [(C03_rotated_points hd ch.xi).1 a (hr a ha), (C03_rotated_points hd ch.xi).1 b (hr b hb), he]
    cases hm : mpVerify S vk.vk proof.multiopen st.oracles ch.xi d.size t with
    | ok u => exact .inl rfl
    | err e => exact .inr (.inr ⟨e, rfl⟩)
    | panic => exact absurd hm hmp
  · rw [if_pos h0]
    exact .inr (.inl rfl)

/-- A verifier set up for a circuit that completeness is about is ready. -/
theorem Ready.of_setUp {com : F[X] → S.Rand → S.Comm} {v : ProverView F} {sigmas : List (ProverOracle F)} {qBlind : ProverOracle F}
    {index : Index F} (hs : Supported d index v sigmas qBlind vos) (hp : Provable d index v sigmas qBlind vos)
    (hu : SetUp S com v sigmas qBlind ws is pre) (hn : 1 < d.size) : Ready d.size index pre ws is vos := by
  have hfix : List.Forall₂ SameConfig v.fixed pre.fixed := hu.fixed.imp fun _ _ g => g.1
  have htab : List.Forall₂ SameConfig v.table pre.table := hu.table.imp fun _ _ g => g.1
  have hperm : List.Forall₂ SameConfig sigmas pre.perm := hu.perm.imp fun _ _ g => g.1
  have hall : List.Forall₂ SameConfig (v.witness ++ v.fixed ++ v.table ++ sigmas ++ [qBlind])
      (ws ++ pre.fixed ++ pre.table ++ pre.perm ++ [pre.qBlind]) :=
    List.rel_append (List.rel_append (List.rel_append (List.rel_append hu.witness hfix) htab) hperm) (.cons hu.qBlind.1 .nil)
  have hlab : ∀ {os : List (ProverOracle F)} {ps : List (VerifierOracle F S.Comm)}, List.Forall₂ SameConfig os ps →
      ps.map (·.label) = os.map (·.label) := by
    intro os ps h
    induction h with
    | nil => rfl
    | cons h _ ih => rw [List.map_cons, List.map_cons, h.1, ih]
  have hfilter : ∀ {os : List (ProverOracle F)} {ps : List (VerifierOracle F S.Comm)}, List.Forall₂ SameConfig os ps →
      (ps.filter (·.shouldPermute)).length = (os.filter (·.shouldPermute)).length := by
    intro os ps h
    induction h with
    | nil => rfl
    | cons h _ ih =>
      rw [List.filter_cons, List.filter_cons, h.2.2]
      split
      · rw [List.length_cons, List.length_cons, ih]
      · exact ih
  have hback : ∀ {os : List (ProverOracle F)} {ps : List (VerifierOracle F S.Comm)}, List.Forall₂ SameConfig os ps →
      ∀ p ∈ ps, ∃ o ∈ os, SameConfig o p := by
    intro os ps h p hp
    obtain ⟨i, hi, rfl⟩ := List.getElem_of_mem hp
    obtain ⟨o, ho, g⟩ := Forall₂.right h (List.getElem?_eq_getElem hi)
    exact ⟨o, List.mem_of_getElem? ho, g⟩
  have hres : ∀ {os : List (ProverOracle F)} {ps : List (VerifierOracle F S.Comm)}, List.Forall₂ SameConfig os ps →
      ∀ {l : Label} {o : ProverOracle F}, Resolves os l o → ∃ p, Resolves ps l p ∧ SameConfig o p := by
    intro os ps h l o ho
    exact Resolves.of_forall₂ h (fun _ _ g => g.1) ho
  have hknown : ∀ q, Answerable d.size v q → Known d.size ws is pre.fixed q := by
    rintro q ⟨h1, o, h2, h3⟩
    refine ⟨h1, fun hty => ?_, fun hty => ?_, fun hty => ?_⟩
    · rw [hty] at h2 h3
      obtain ⟨p, g1, g2⟩ := hres hu.witness h2
      exact ⟨p, g1, by rw [g2.2.1]; exact h3 (by simp)⟩
    · rw [hty] at h2 h3
      obtain ⟨p, g1, g2⟩ := hres hfix h2
      exact ⟨p, g1, by rw [g2.2.1]; exact h3 (by simp)⟩
    · rw [hty] at h2
      obtain ⟨p, g1, _⟩ := Resolves.of_forall₂ hu.inst (fun _ _ g => g.1) h2
      exact ⟨p, g1⟩
  refine ⟨hn, hp.gates, ?_, ?_, ?_, ?_, ?_, hp.usable, ?_, ?_⟩
  · intro vo hvo
    obtain ⟨e, h1, h2⟩ := hs.gates vo hvo
    exact ⟨e, h1, fun q hq => hknown q (h2 q hq)⟩
  · rw [hlab hu.witness, hlab hfix, hlab htab]
    exact hs.labels
  · intro p hpm r hr
    obtain ⟨o, ho, g⟩ := hback hall p hpm
    rw [g.2.1] at hr
    simp only [List.mem_append, List.mem_singleton, or_assoc] at ho
    have hs1 := hs.rotations o
    have hs2 := hs.unrotated o
    simp only [List.mem_append, List.mem_singleton, or_assoc] at hs1 hs2
    rcases ho with ho | ho | ho | ho
    · exact hs1 (.inl ho) r hr
    · exact hs1 (.inr (.inl ho)) r hr
    · exact hs1 (.inr (.inr ho)) r hr
    · rw [hs2 ho r hr]; omega
  · intro p hpm
    obtain ⟨o, ho, g⟩ := hback hall p hpm
    rw [g.2.1]
    exact hp.distinct o ho
  · intro p hpm hc
    obtain ⟨o, ho, g⟩ := hback hu.witness p hpm
    rw [g.2.1]
    exact hs.copied o ho (g.2.2.symm.trans hc)
  · rintro ⟨p, hpm, hc⟩
    obtain ⟨o, ho, g⟩ := hback hu.witness p hpm
    have := hp.shape ⟨o, ho, g.2.2.symm.trans hc⟩
    rw [hfilter hu.witness, ← hperm.length_eq]
    exact this
  · intro l hl
    obtain ⟨es, ts, h1, h2, h3, h4⟩ := hs.lookups l hl
    refine ⟨es, ts, h1, h2, (hp.lookups l hl es ts h1 h2).1, ?_, ?_⟩
    · intro e he q hq
      exact ⟨hknown q ((h3 e he).1 q hq).1, ((h3 e he).1 q hq).2⟩
    · intro t ht
      obtain ⟨g1, o, g2, r, g3, g4⟩ := h4 t ht
      obtain ⟨p, k1, k2⟩ := hres htab g2
      exact ⟨g1, p, k1, r, by rw [k2.2.1]; exact g3, g4⟩

end
end ZK
