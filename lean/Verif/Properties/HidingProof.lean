import Verif.Lemmas.RerunCount
import Verif.Lemmas.Verify
/-! C63: the group elements of a proof reveal nothing beyond the values of the polynomials. -/
set_option autoImplicit false
set_option linter.unusedSectionVars false
namespace ZK
open Polynomial

section
variable {F : Type} [Field F] [LinearOrder F] [FftParams F] [LawfulFft F] {G : Type} [AddCommGroup G] [Module F G]
variable {G2 GT : Type} [AddCommGroup G2] [Module F G2] [AddCommGroup GT] [Module F GT] [DecidableEq GT]

theorem zipWith_length_eq {A B C : Type} (f : A → B → C) (l : List A) (m : List B) (h : m.length = l.length) :
    (List.zipWith f l m).length = l.length := by
  rw [List.length_zipWith, h, min_self]

theorem draw_popFirst (s : Nat → F) (i : Nat) : draw popFirst s i = s i := by
  have h : ∀ k : Nat, ∀ s : Nat → F, after popFirst k s = fun i => s (i + k) := by
    intro k
    induction k with
    | zero => intro s; rfl
    | succ k ih =>
      intro s
      have : after popFirst (k + 1) s = after popFirst k (popFirst s).2 := rfl
      rw [this, ih]
      rfl
  unfold draw
  rw [h]
  simp [popFirst]

theorem draw_sequence {N : Nat} (r : Fin N → F) (i : Nat) (h : i < N) : draw popFirst (sequence r) i = r ⟨i, h⟩ := by
  rw [draw_popFirst, sequence, dif_pos h]

/-- The number of draws giving each combination is the same, so it is the number of all divided by the number of combinations. -/
theorem fiber_count [Finite F] (e : G →ₗ[F] G2 →ₗ[F] GT) (env : KzgEnv F G) (habs : ∀ t b, env.fsAbsorb t b = t)
    {pk : ProverKey (kzgScheme e env)} {beta : F} {vk : KzgVk G G2} (hs : KzgSetup beta pk.ck vk)
    (h3 : 3 ≤ (KzgKey.gammaPowers (G := G) pk.ck).length) (hg : Function.Surjective (fun k : F => k • vk.gammaG))
    {pre : ProverPreprocessed (kzgScheme e env)} {ws is : List (ProverOracle F)}
    {vos : List (GenericVO F)} {domainSize : Nat} {d : Domain F} (hd : Domain.new domainSize = some d) (hok : d.Ok) {lay : Layout}
    (hlay : lay = layout pk.vk.index d ws.length (ws.filter (·.shouldPermute)).length)
    (hx : draw env.fsRand (env.fsInit (bytes "TurboPlonk-0.0.1")) 7 ≠ beta)
    {N : Nat} (hN : lay.o6 + 3 ≤ N) {seed : (Fin N → F) → env.Z} (hseed : ∀ r i (h : i < N), draw env.next (seed r) i = r ⟨i, h⟩)
    (v : List (List F)) {gs : List G} (rv : F) (hgs : gs.length = lay.positions.length) :
    (fiber e env pk pre ws is vos domainSize seed v gs rv).ncard * (Nat.card G ^ lay.positions.length * Nat.card F) =
      {r | ∃ π, prove (kzgScheme e env) pk pre ws is vos domainSize (seed r) = .ok π ∧ π.values = v}.ncard := by
  classical
  have : Fintype F := Fintype.ofFinite F
  have : Finite G := Finite.of_surjective _ hg
  have : Fintype G := Fintype.ofFinite G
  let φ : (Fin N → F) → (Fin lay.positions.length → G) × F := fun r =>
    match prove (kzgScheme e env) pk pre ws is vos domainSize (seed r) with
    | .ok π => (fun c => (show List G from TPProof.commitments π).getD c 0, KzgProof.randomV (G := G) π.multiopen.opening)
    | _ => (fun _ => 0, 0)
  let H : Finset (Fin N → F) := Finset.univ.filter (fun r => ∃ π, prove (kzgScheme e env) pk pre ws is vos domainSize (seed r) = .ok π ∧
    π.values = v)
  have h1 : H.card = ∑ b : (Fin lay.positions.length → G) × F, (H.filter (fun r => φ r = b)).card :=
    Finset.card_eq_sum_card_fiberwise (fun _ _ => Finset.mem_coe.2 (Finset.mem_univ _))
  have h2 : ∀ b : (Fin lay.positions.length → G) × F,
      (H.filter (fun r => φ r = b)).card = (fiber e env pk pre ws is vos domainSize seed v (List.ofFn b.1) b.2).ncard := by
    intro b
    rw [← Set.ncard_coe_finset]
    congr 1
    ext r
    simp only [Finset.coe_filter, Finset.mem_filter, Finset.mem_univ, true_and, Set.mem_setOf_eq, H, fiber]
    constructor
    · rintro ⟨⟨π, a1, a2⟩, a3⟩
      obtain ⟨polys, p1, p2, -⟩ := prove_rerun e env habs hs h3 hd hok hlay rfl a1
      have hl : (show List G from TPProof.commitments π).length = lay.positions.length :=
        (congrArg List.length p2).trans (zipWith_length_eq _ _ _ p1)
      simp only [φ] at a3
      rw [a1] at a3
      simp only at a3
      refine ⟨π, a1, a2, ?_, by rw [← a3]⟩
      rw [← a3]
      refine (List.ext_getElem ?_ ?_ : (show List G from TPProof.commitments π) = _)
      · rw [hl, List.length_ofFn]
      · intro i hi hi'
        rw [List.getElem_ofFn]
        exact (List.getD_eq_getElem _ _ hi).symm
    · rintro ⟨π, a1, a2, a3, a4⟩
      refine ⟨⟨π, a1, a2⟩, ?_⟩
      simp only [φ]
      rw [a1]
      refine Prod.ext ?_ a4
      funext c
      have a3' : (show List G from TPProof.commitments π) = List.ofFn b.1 := a3
      show (show List G from TPProof.commitments π).getD c 0 = b.1 c
      rw [a3', List.getD_eq_getElem _ _ (by simp)]
      simp
  have h3' : ∀ b : (Fin lay.positions.length → G) × F, (fiber e env pk pre ws is vos domainSize seed v (List.ofFn b.1) b.2).ncard
      = (fiber e env pk pre ws is vos domainSize seed v gs rv).ncard := by
    intro b
    exact le_antisymm
      (fiber_le e env habs hs h3 hg hd hok hlay rfl hx hN hseed v _ _ (by simp) hgs)
      (fiber_le e env habs hs h3 hg hd hok hlay rfl hx hN hseed v _ _ hgs (by simp))
  simp only [h2, h3', Finset.sum_const, Finset.card_univ, Fintype.card_prod, Fintype.card_pi, Finset.prod_const, Fintype.card_fin,
    smul_eq_mul] at h1
  rw [Nat.card_eq_fintype_card, Nat.card_eq_fintype_card, mul_comm, ← h1, ← Set.ncard_coe_finset]
  simp [H]

/-- **C63** (the group elements are uniform) In the interactive argument with an honest verifier, with commitments of SonicKZG10: among the
draws of the prover that give a proof with given values of the polynomials, every list of commitments of the right length together with every blinding value
of the opening is given by the same number of draws. -/
theorem C63_group_elements_uniform [Finite F] (e : G →ₗ[F] G2 →ₗ[F] GT) (cs : Nat → F)
    {pk : ProverKey (kzgScheme e (honestEnv cs : KzgEnv F G))} {beta : F} {vk : KzgVk G G2} (hs : KzgSetup beta pk.ck vk)
    (h3 : 3 ≤ (KzgKey.gammaPowers (G := G) pk.ck).length) (hg : Function.Surjective (fun k : F => k • vk.gammaG))
    (pre : ProverPreprocessed (kzgScheme e (honestEnv cs : KzgEnv F G))) (ws is : List (ProverOracle F))
    (vos : List (GenericVO F)) {d : Domain F} (hd : d.Ok) (hx3 : cs 7 ≠ beta) :
    ∃ draws M, (∀ z π, prove (kzgScheme e (honestEnv cs : KzgEnv F G)) pk pre ws is vos d.size z = .ok π → π.commitments.length = M) ∧
      ∀ N, draws ≤ N → ∀ (v : List (List F)) (gs : List G) (rv : F), gs.length = M →
        {r : Fin N → F | ∃ π, prove (kzgScheme e (honestEnv cs : KzgEnv F G)) pk pre ws is vos d.size (sequence r) = .ok π ∧
          π.values = v ∧ TPProof.commitments π = gs ∧ KzgProof.randomV (G := G) π.multiopen.opening = rv}.ncard
            * (Nat.card G ^ M * Nat.card F)
        = {r : Fin N → F | ∃ π, prove (kzgScheme e (honestEnv cs : KzgEnv F G)) pk pre ws is vos d.size (sequence r) = .ok π ∧
          π.values = v}.ncard := by
  obtain ⟨lay, hlay⟩ : ∃ lay, lay = layout pk.vk.index d ws.length (ws.filter (·.shouldPermute)).length := ⟨_, rfl⟩
  refine ⟨lay.o6 + 3, lay.positions.length, ?_, ?_⟩
  · intro z π h
    obtain ⟨polys, p1, p2, -⟩ := prove_rerun e (honestEnv cs : KzgEnv F G) (fun _ _ => rfl) hs h3 hd.new_self hd hlay rfl h
    exact (congrArg List.length p2).trans (zipWith_length_eq _ _ _ p1)
  · intro N hN v gs rv hgs
    exact fiber_count e (honestEnv cs : KzgEnv F G) (fun _ _ => rfl) hs h3 hg hd.new_self hd hlay
      (fun h => hx3 ((draw_popFirst cs 7).symm.trans h)) hN
      (fun r i h => draw_sequence r i h) v rv hgs

theorem mpVerifyWith_opening (S : Scheme F) {vk : S.VK} {mp : MpProof S} {o : S.Proof} {oracles : List (VerifierOracle F S.Comm)} {xi : F}
    {domain : Domain F} {x1 x2 x3 x4 : F} (h : mpVerifyWith S vk mp oracles xi domain x1 x2 x3 x4 = .ok ())
    (h' : mpVerifyWith S vk { mp with opening := o } oracles xi domain x1 x2 x3 x4 = .ok ()) :
    ∃ c v, S.check vk c x3 v mp.opening = .ok true ∧ S.check vk c x3 v o = .ok true := by
  unfold mpVerifyWith at h h'
  simp only [Res.bind_eq_ok, Res.mapErr_eq_ok] at h h'
  obtain ⟨fe, a1, e0, a2, qc, a3, fin, a4, ok, a5, a6⟩ := h
  obtain ⟨fe', b1, e0', b2, qc', b3, fin', b4, ok', b5, b6⟩ := h'
  obtain rfl := Res.ok.inj (a1.symm.trans b1)
  obtain rfl := Res.ok.inj (a2.symm.trans b2)
  obtain rfl := Res.ok.inj (a3.symm.trans b3)
  obtain rfl := Res.ok.inj (a4.symm.trans b4)
  cases ok with
  | false => simp at a6
  | true =>
    cases ok' with
    | false => simp at b6
    | true => exact ⟨_, _, a5, b5⟩

/-- **C63** (the rest is determined) The verifier accepts at most one group element of the opening: it is determined by the rest of the proof. -/
theorem C63_opening_determined (e : G →ₗ[F] G2 →ₗ[F] GT) (env : KzgEnv F G) {vk : VerifierKey (kzgScheme e env)} {beta : F}
    {ck : KzgKey G} (hs : KzgSetup beta ck vk.vk) (hnd : Function.Injective (fun g : G => e g (KzgVk.h (G := G) vk.vk)))
    {vpre : VerifierPreprocessed (kzgScheme e env)} {π : TPProof (kzgScheme e env)} {vws : List (VerifierOracle F G)}
    {vis : List (InstanceVerifierOracle F)} {vos : List (GenericVO F)} {domainSize : Nat} {zh : List F} {pf : KzgProof F G}
    (h : verify (kzgScheme e env) vk vpre π vws vis vos domainSize zh = .ok ())
    (h' : verify (kzgScheme e env) vk vpre { π with multiopen := { π.multiopen with opening := pf } } vws vis vos domainSize zh = .ok ())
    (hx3 : (mpChallenges (kzgScheme e env) π.multiopen (verifierChallenges (kzgScheme e env) π).2).2.2.1 ≠ beta)
    (hr : pf.randomV = KzgProof.randomV (G := G) π.multiopen.opening) : pf = π.multiopen.opening := by
  obtain ⟨st, a1, -, a3⟩ := verify_inv.1 h
  obtain ⟨st', b1, -, b3⟩ := verify_inv.1 h'
  obtain rfl : st = st' := Res.ok.inj (a1.symm.trans b1)
  obtain ⟨d, c1, c2⟩ := Res.bind_eq_ok.1 a3
  obtain ⟨d', c1', c2'⟩ := Res.bind_eq_ok.1 b3
  obtain rfl : d = d' := Res.ok.inj (c1.symm.trans c1')
  obtain ⟨c, v, e1, e2⟩ := mpVerifyWith_opening (kzgScheme e env) (o := pf) c2 c2'
  exact C54_witness_determined e hs hnd hx3 (Res.ok.inj e2) (Res.ok.inj e1) hr

/-- The lengths of the lists of commitments. -/
def HasLengths {S : Scheme F} (lay : Layout) (π : TPProof S) : Prop :=
  π.witnessCommitments.length = lay.w ∧ π.lookupCommitments.length = 2 * lay.l ∧ π.zCommitments.length = lay.p ∧
    π.lookupZCommitments.length = lay.l ∧ π.quotientCommitments.length = lay.q

theorem comsAt_length {Z : Type} (beta : F) (vk : KzgVk G G2) (next : Z → F × Z) (z : Z) (o : Nat) (ps : List (List F)) :
    (comsAt beta vk next z o ps).length = ps.length := by
  simp [comsAt]

theorem prove_lengths (e : G →ₗ[F] G2 →ₗ[F] GT) (env : KzgEnv F G) (habs : ∀ t b, env.fsAbsorb t b = t)
    {pk : ProverKey (kzgScheme e env)} {beta : F} {vk : KzgVk G G2} (hs : KzgSetup beta pk.ck vk)
    (h3 : 3 ≤ (KzgKey.gammaPowers (G := G) pk.ck).length) {pre : ProverPreprocessed (kzgScheme e env)} {ws is : List (ProverOracle F)}
    {vos : List (GenericVO F)} {domainSize : Nat} {d : Domain F} (hd : Domain.new domainSize = some d) (hok : d.Ok) {z : env.Z}
    {π : TPProof (kzgScheme e env)} (h : prove (kzgScheme e env) pk pre ws is vos domainSize z = .ok π) :
    HasLengths (layout pk.vk.index d ws.length (ws.filter (·.shouldPermute)).length) π := by
  unfold prove at h
  simp only [Res.bind_eq_ok, Res.mapErr_eq_ok, Res.unwrap_eq_ok, Res.assert_eq_ok] at h
  obtain ⟨tr, h1, d', h2, wq, k1, we, k2, fq, k3, fe, k4, tq, k5, te, k6, _, k7, zq, k8, ze, k9, _, k10, mp, k11, k12⟩ := h
  cases k12
  have hat := (proveRounds_rerun e env habs hs h3 hd hok h1).1
  obtain ⟨l1, l2, l3, l4, l5⟩ := hat.lengths
  have key : ∀ (c : List G) (o : Nat) (ps : List (ProverOracle F)) (n : Nat), c = comsAt beta vk env.next z o (ps.map (·.poly)) →
      ps.length = n → c.length = n := by
    intro c o ps n h h'
    rw [h, comsAt_length, List.length_map, h']
  exact ⟨key _ _ _ _ hat.witness.1 l1, key _ _ _ _ hat.lookups.1 l2, key _ _ _ _ hat.products.1 l3, key _ _ _ _ hat.lookupProducts.1 l4,
    key _ _ _ _ hat.quotient.1 l5⟩

theorem proof_parts {S : Scheme F} {lay : Layout} {π π' : TPProof S} (hl : HasLengths lay π) (hl' : HasLengths lay π')
    (hv : π'.values = π.values) (hc : π'.commitments = π.commitments) :
    π' = { π with multiopen := { π.multiopen with opening := π'.multiopen.opening } } := by
  obtain ⟨a1, a2, a3, a4, a5⟩ := hl
  obtain ⟨b1, b2, b3, b4, b5⟩ := hl'
  simp only [TPProof.values, List.cons.injEq, and_true] at hv
  obtain ⟨v1, v2, v3, v4, v5, v6, v7, v8, v9, v10⟩ := hv
  unfold TPProof.commitments at hc
  obtain ⟨hc, c6⟩ := List.append_inj' hc rfl
  obtain ⟨hc, c5⟩ := List.append_inj' hc (by omega)
  obtain ⟨hc, c4⟩ := List.append_inj' hc (by omega)
  obtain ⟨hc, c3⟩ := List.append_inj' hc (by omega)
  obtain ⟨c1, c2⟩ := List.append_inj' hc (by omega)
  have c6 := (List.cons.inj c6).1
  obtain ⟨p1, p2, p3, p4, p5, p6, p7, p8, p9, p10, p11, p12, p13, p14, ⟨m1, m2, m3⟩⟩ := π
  obtain ⟨q1, q2, q3, q4, q5, q6, q7, q8, q9, q10, q11, q12, q13, q14, ⟨n1, n2, n3⟩⟩ := π'
  simp only at *
  subst_vars
  rfl

/-- **C63** (the values decide) If the values of the polynomials have the same distribution for two witnesses, then the whole proofs
have. The witnesses are for the same circuit and the same public inputs, and the verifier accepts the proofs (C46). -/
theorem C63_same_distribution [Finite F] (e : G →ₗ[F] G2 →ₗ[F] GT) (cs : Nat → F)
    {pk : ProverKey (kzgScheme e (honestEnv cs : KzgEnv F G))} {beta : F} (hs : KzgSetup beta pk.ck pk.vk.vk)
    (h3 : 3 ≤ (KzgKey.gammaPowers (G := G) pk.ck).length)
    (hg : Function.Surjective (fun k : F => k • KzgVk.gammaG (G := G) (G2 := G2) pk.vk.vk))
    (hnd : Function.Injective (fun g : G => e g (KzgVk.h (G := G) pk.vk.vk)))
    (pre : ProverPreprocessed (kzgScheme e (honestEnv cs : KzgEnv F G))) {ws ws' is : List (ProverOracle F)}
    (hlen : ws'.length = ws.length) (hcopied : (ws'.filter (·.shouldPermute)).length = (ws.filter (·.shouldPermute)).length)
    (vos : List (GenericVO F)) {d : Domain F} (hd : d.Ok) (hx3 : cs 7 ≠ beta)
    {vpre : VerifierPreprocessed (kzgScheme e (honestEnv cs : KzgEnv F G))} {vws : List (VerifierOracle F G)}
    {vis : List (InstanceVerifierOracle F)} {zh : List F}
    (hacc : ∀ z π, prove (kzgScheme e (honestEnv cs : KzgEnv F G)) pk pre ws is vos d.size z = .ok π →
      verify _ pk.vk vpre π vws vis vos d.size zh = .ok ())
    (hacc' : ∀ z π, prove (kzgScheme e (honestEnv cs : KzgEnv F G)) pk pre ws' is vos d.size z = .ok π →
      verify _ pk.vk vpre π vws vis vos d.size zh = .ok ()) :
    ∃ draws, ∀ N, draws ≤ N →
      (∀ v, {r : Fin N → F | ∃ π, prove (kzgScheme e (honestEnv cs : KzgEnv F G)) pk pre ws is vos d.size (sequence r) = .ok π ∧
          π.values = v}.ncard
        = {r : Fin N → F | ∃ π, prove (kzgScheme e (honestEnv cs : KzgEnv F G)) pk pre ws' is vos d.size (sequence r) = .ok π ∧
          π.values = v}.ncard) →
      ∀ π, {r : Fin N → F | prove (kzgScheme e (honestEnv cs : KzgEnv F G)) pk pre ws is vos d.size (sequence r) = .ok π}.ncard
        = {r : Fin N → F | prove (kzgScheme e (honestEnv cs : KzgEnv F G)) pk pre ws' is vos d.size (sequence r) = .ok π}.ncard := by
  obtain ⟨lay, hlay⟩ : ∃ lay, lay = layout pk.vk.index d ws.length (ws.filter (·.shouldPermute)).length := ⟨_, rfl⟩
  have hlay' : lay = layout pk.vk.index d ws'.length (ws'.filter (·.shouldPermute)).length := by rw [hlen, hcopied, hlay]
  refine ⟨lay.o6 + 3, fun N hN hv π => ?_⟩
  have habs : ∀ t b, (honestEnv cs : KzgEnv F G).fsAbsorb t b = t := fun _ _ => rfl
  have hx : draw (honestEnv cs : KzgEnv F G).fsRand ((honestEnv cs : KzgEnv F G).fsInit (bytes "TurboPlonk-0.0.1")) 7 ≠ beta :=
    fun h => hx3 ((draw_popFirst cs 7).symm.trans h)
  -- a proof is determined by its values, its commitments and the blinding value
  have huniq : ∀ π π' : TPProof (kzgScheme e (honestEnv cs : KzgEnv F G)), HasLengths lay π → HasLengths lay π' →
      verify _ pk.vk vpre π vws vis vos d.size zh = .ok () → verify _ pk.vk vpre π' vws vis vos d.size zh = .ok () →
      π'.values = π.values → π'.commitments = π.commitments →
      KzgProof.randomV (G := G) π'.multiopen.opening = KzgProof.randomV (G := G) π.multiopen.opening → π' = π := by
    intro π π' l l' a a' hv hc hr
    have hp := proof_parts l l' hv hc
    have ho := C63_opening_determined e (honestEnv cs : KzgEnv F G) (pf := π'.multiopen.opening) hs hnd a (by rw [← hp]; exact a')
      (fun h => hx3 ((draw_popFirst cs 7).symm.trans h)) hr
    rw [hp, ho]
  -- so the draws for a proof are a fibre, for either witness
  have hfib : ∀ us, lay = layout pk.vk.index d us.length (us.filter (·.shouldPermute)).length →
      (∀ z π, prove (kzgScheme e (honestEnv cs : KzgEnv F G)) pk pre us is vos d.size z = .ok π →
        verify _ pk.vk vpre π vws vis vos d.size zh = .ok ()) → HasLengths lay π →
      verify _ pk.vk vpre π vws vis vos d.size zh = .ok () →
      {r : Fin N → F | prove (kzgScheme e (honestEnv cs : KzgEnv F G)) pk pre us is vos d.size (sequence r) = .ok π}
        = fiber e (honestEnv cs : KzgEnv F G) pk pre us is vos d.size sequence π.values π.commitments
            (KzgProof.randomV (G := G) π.multiopen.opening) := by
    intro us hus hu l a
    ext r
    constructor
    · intro h
      exact ⟨π, h, rfl, rfl, rfl⟩
    · rintro ⟨π', h1, h2, h4, h5⟩
      have l' := prove_lengths e (honestEnv cs : KzgEnv F G) habs hs h3 hd.new_self hd h1
      rw [← hus] at l'
      have := huniq π π' l l' a (hu _ _ h1) h2 h4 h5
      exact (show prove _ pk pre us is vos d.size (sequence r) = .ok π from this ▸ h1)
  by_cases hπ : HasLengths lay π ∧ verify _ pk.vk vpre π vws vis vos d.size zh = .ok ()
  · rw [hfib ws hlay hacc hπ.1 hπ.2, hfib ws' hlay' hacc' hπ.1 hπ.2]
    have hlen : (show List G from π.commitments).length = lay.positions.length := by
      obtain ⟨a1, a2, a3, a4, a5⟩ := hπ.1
      show (TPProof.commitments π).length = _
      simp [TPProof.commitments, Layout.positions, triples_length, a1, a2, a3, a4, a5]
    have e1 := fiber_count e (honestEnv cs : KzgEnv F G) habs hs h3 hg (pre := pre) (is := is) (vos := vos) hd.new_self hd hlay hx hN
      (fun r i h => draw_sequence r i h) π.values (KzgProof.randomV (G := G) π.multiopen.opening) hlen
    have e2 := fiber_count e (honestEnv cs : KzgEnv F G) habs hs h3 hg (pre := pre) (is := is) (vos := vos) hd.new_self hd hlay' hx hN
      (fun r i h => draw_sequence r i h) π.values (KzgProof.randomV (G := G) π.multiopen.opening) hlen
    have : Finite G := Finite.of_surjective _ hg
    have hpos : 0 < Nat.card G ^ lay.positions.length * Nat.card F := Nat.mul_pos (Nat.pow_pos Nat.card_pos) Nat.card_pos
    exact Nat.eq_of_mul_eq_mul_right hpos (e1.trans ((hv _).trans e2.symm))
  · have hempty : ∀ us, lay = layout pk.vk.index d us.length (us.filter (·.shouldPermute)).length →
        (∀ z π, prove (kzgScheme e (honestEnv cs : KzgEnv F G)) pk pre us is vos d.size z = .ok π →
          verify _ pk.vk vpre π vws vis vos d.size zh = .ok ()) →
        {r : Fin N → F | prove (kzgScheme e (honestEnv cs : KzgEnv F G)) pk pre us is vos d.size (sequence r) = .ok π} = ∅ := by
      intro us hus hu
      rw [Set.eq_empty_iff_forall_notMem]
      intro r h
      have l := prove_lengths e (honestEnv cs : KzgEnv F G) habs hs h3 hd.new_self hd h
      rw [← hus] at l
      exact hπ ⟨l, hu _ _ h⟩
    rw [hempty ws hlay hacc, hempty ws' hlay' hacc']

end
end ZK
