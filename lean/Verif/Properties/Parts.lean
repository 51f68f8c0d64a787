import Verif.Properties.Adjust
import Verif.Properties.ForgeAll
import Verif.Properties.Success
/-! C71: the verifier accepts any number of parts of the quotient, which gives a proof for every circuit. -/
set_option autoImplicit false
set_option linter.unusedSectionVars false
namespace ZK
open Polynomial

section
variable {F : Type} [Field F] [LinearOrder F] [FftParams F] [LawfulFft F]
variable {S : Scheme F} {com : F[X] → S.Rand → S.Comm} {d : Domain F} {xi : F}

/-- The zero polynomial, opened where the verifier's oracle is opened. -/
def zeroOf {C : Type} (v : VerifierOracle F C) : ProverOracle F := ⟨.witness, v.label, [], [], none, v.rotations, v.shouldPermute⟩

/-- The verifier holds the zero commitment and has been told zeros. -/
structure ZeroClaim (S : Scheme F) (d : Domain F) (xi : F) (v : VerifierOracle F S.Comm) : Prop where
  commitment : v.commitment = some S.zero
  evals : ∀ r ∈ v.rotations, v.query (xi * d.omega ^ r.signed) = .ok 0

theorem ZeroClaim.pair {ck : S.CK} {vk : S.VK} (hS : HomomorphicScheme S ck vk com) {v : VerifierOracle F S.Comm}
    (h : ZeroClaim S d xi v) : OpeningPair S com d xi (zeroOf v, S.emptyRand) v := by
  refine ⟨rfl, ?_, ?_⟩
  · rw [h.commitment, hS.zero]
    rfl
  · intro r hr
    rw [h.evals r hr]
    simp [zeroOf, toPoly]

theorem ZeroClaim.pairs {ck : S.CK} {vk : S.VK} (hS : HomomorphicScheme S ck vk com) {vs : List (VerifierOracle F S.Comm)}
    (h : ∀ v ∈ vs, ZeroClaim S d xi v) :
    List.Forall₂ (OpeningPair S com d xi) (List.zip (vs.map zeroOf) (List.replicate vs.length S.emptyRand)) vs := by
  induction vs with
  | nil => exact .nil
  | cons v vs ih => exact .cons ((h v (by simp)).pair hS) (ih fun w hw => h w (by simp [hw]))

/-- Zeros can be registered for any oracles. -/
theorem zero_registered {ck : S.CK} {vk : S.VK} (hS : HomomorphicScheme S ck vk com) (hd : d.Ok) (missing : Label → PiopErr)
    {vs : List (VerifierOracle F S.Comm)} (hc : ∀ v ∈ vs, v.commitment = some S.zero) (hnd : (vs.map (·.label)).Nodup)
    (hr : ∀ v ∈ vs, ∀ r ∈ v.rotations, r.degree < d.size) (xi : F) :
    ∃ evs, evs.length = expectedEvals vs ∧ ∃ vs', registerAll missing vs xi d.elements evs = .ok vs' ∧
      ∀ v ∈ vs', ZeroClaim S d xi v := by
  have hr' : ∀ o ∈ vs.map (zeroOf (F := F)), ∀ r ∈ o.rotations, r.degree < d.size := by
    intro o ho
    obtain ⟨v, hv, rfl⟩ := List.mem_map.1 ho
    exact hr v hv
  obtain ⟨qs, evs, h1, h2⟩ := evaluations_succeed (ε := PiopErr) hd (vs.map (zeroOf (F := F))) xi hr'
  have hlen : (vs.map (zeroOf (F := F))).length = (List.replicate vs.length S.emptyRand).length := by simp
  obtain ⟨vs', h3, h4⟩ := register_told (S := S) (com := com) hd missing (os := vs.map zeroOf) (rs := List.replicate vs.length S.emptyRand)
    (vs := vs) (xi := xi) hlen (by
      clear hnd hr hr' h1 h2 hlen
      induction vs with
      | nil => exact .nil
      | cons v vs ih =>
        refine .cons ⟨⟨rfl, rfl, rfl⟩, ?_⟩ (ih fun w hw => hc w (by simp [hw]))
        rw [hc v (by simp), hS.zero]
        rfl) (by
      rw [List.map_map]
      exact hnd) hr' ⟨qs, h1, h2⟩
  refine ⟨evs, ?_, vs', h3, ?_⟩
  · rw [evaluateQuerySet_length h2, getQuerySet_length hd h1]
    refine expectedEvals_forall₂ ?_
    clear hc hnd hr hr' h1 h2 hlen h3 h4
    induction vs with
    | nil => exact .nil
    | cons v vs ih => exact .cons ⟨rfl, rfl⟩ ih
  · intro v hv
    obtain ⟨i, hi⟩ := List.getElem?_of_mem hv
    obtain ⟨⟨o, rr⟩, hp, g⟩ := Forall₂.right h4 hi
    rw [List.getElem?_zip_eq_some, List.getElem?_map, Option.map_eq_some_iff] at hp
    obtain ⟨⟨v0, -, rfl⟩, hrr⟩ := hp
    have hrr := List.eq_of_mem_replicate (List.mem_of_getElem? hrr)
    simp only at hrr
    subst hrr
    refine ⟨?_, ?_⟩
    · rw [g.commitment, hS.zero]
      rfl
    · intro r hr
      rw [g.evals r (by rw [← g.rotations]; exact hr)]
      simp [zeroOf, toPoly]

/-- The forged proof: all commitments are zero, all claims about them as well. The other claims are about columns the verifier
holds commitments of. There are `m` parts of the quotient. -/
def forgedProof (S : Scheme F) (index : Index F) (ws : List (VerifierOracle F S.Comm)) (m : Nat) (we fe te pe ze : List F) (qb : F)
    (mp : MpProof S) : TPProof S where
  witnessCommitments := ws.map (fun _ => S.zero)
  witnessEvals := we
  fixedEvals := fe
  tableEvals := te
  permEvals := pe
  qBlindEval := qb
  lookupCommitments := List.replicate (2 * index.lookups.length) S.zero
  lookupZCommitments := List.replicate index.lookups.length S.zero
  lookupEvals := List.replicate (3 * index.lookups.length) 0
  lookupZEvals := List.replicate (2 * index.lookups.length) 0
  zCommitments := List.replicate (((ws.filter (·.shouldPermute)).length + index.perm.maxCols - 1) / index.perm.maxCols) S.zero
  zEvals := ze
  quotientCommitments := List.replicate m S.zero
  quotientEvals := List.replicate m 0
  multiopen := mp

theorem mem_chunks {α : Type} {k : Nat} (hk : 0 < k) {l c : List α} (hc : c ∈ chunks k l) : ∀ a ∈ c, a ∈ l := by
  obtain ⟨i, hi⟩ := List.getElem?_of_mem hc
  rw [chunks_getElem? hk] at hi
  split at hi
  · rw [← Option.some.inj hi]
    intro a ha
    exact List.mem_of_mem_drop (List.mem_of_mem_take ha)
  · simp at hi

theorem mem_zip_right {α β : Type} {l : List α} {l' : List β} {p : α × β} (h : p ∈ List.zip l l') : p.1 ∈ l ∧ p.2 ∈ l' := by
  obtain ⟨a, b⟩ := p
  exact ⟨(List.of_mem_zip h).1, (List.of_mem_zip h).2⟩

section
variable {vk : VerifierKey S} {pre : VerifierPreprocessed S} {proof : TPProof S} {ws : List (VerifierOracle F S.Comm)}
  {is : List (InstanceVerifierOracle F)} {ch : Challenges F} {st : VState S}
  (R : Registration S vk pre proof ws is d.size ch d st)

include R in
theorem Registration.zero_lookups (hc : ∀ c ∈ proof.lookupCommitments, c = S.zero) (he : ∀ e ∈ proof.lookupEvals, e = 0) :
    ∀ o ∈ primes st.lookups, ZeroClaim S d ch.xi o := by
  intro o ho
  obtain ⟨l, hl, ho⟩ := List.mem_flatMap.1 ho
  obtain ⟨i, hi⟩ := List.getElem?_of_mem hl
  obtain ⟨p, hp, h⟩ := Forall₂.right (Res.mapM_eq_ok.1 R.lookups) hi
  have hm := List.mem_of_getElem? hp
  obtain ⟨hm1, hm2⟩ := mem_zip_right (List.fst_mem_of_mem_zipIdx hm)
  obtain ⟨-, hm1⟩ := mem_zip_right hm1
  have hcs : ∀ c ∈ p.1.1.2, c = S.zero := fun c h => hc c (mem_chunks (by norm_num) hm1 c h)
  have hes : ∀ e ∈ p.1.2, e = 0 := fun e h => he e (mem_chunks (by norm_num) hm2 e h)
  unfold verifierLookup at h
  simp only [Res.bind_eq_ok, Res.idx_eq_ok] at h
  obtain ⟨es, -, ts, -, ⟨a, s⟩, -, e0, h0, e1, h1, c0, hc0, e2, h2, c1, hc1, h⟩ := h
  obtain rfl := hes _ (List.mem_of_getElem? h0)
  obtain rfl := hes _ (List.mem_of_getElem? h1)
  obtain rfl := hes _ (List.mem_of_getElem? h2)
  obtain rfl := hcs _ (List.mem_of_getElem? hc0)
  obtain rfl := hcs _ (List.mem_of_getElem? hc1)
  have h := (Res.ok.inj h).symm
  subst h
  have hel : d.element 1 = d.omega := by simp [Domain.element]
  simp only [List.mem_cons, List.not_mem_nil, or_false] at ho
  rcases ho with rfl | rfl
  · refine ⟨rfl, fun r hr => ?_⟩
    refine query_two (a := ch.xi * (d.element 1)⁻¹) (b := ch.xi) (fun _ => 0) rfl ?_
    rcases (curr_prev_rotations r).1 hr with rfl | rfl
    · right
      rw [signed_curr, zpow_zero, mul_one]
    · left
      rw [signed_prev, zpow_neg, zpow_one, hel]
  · refine ⟨rfl, fun r hr => ?_⟩
    rw [curr_rotations, List.mem_singleton] at hr
    subst hr
    rw [signed_curr, zpow_zero, mul_one]
    simp [VerifierOracle.query, assocGet]

include R in
theorem Registration.zero_lookupZs (hc : ∀ c ∈ proof.lookupZCommitments, c = S.zero) (he : ∀ e ∈ proof.lookupZEvals, e = 0) :
    ∀ o ∈ st.lookupZs, ZeroClaim S d ch.xi o := by
  intro o ho
  obtain ⟨i, hi⟩ := List.getElem?_of_mem ho
  obtain ⟨p, hp, h⟩ := Forall₂.right (Res.mapM_eq_ok.1 R.lookupZs) hi
  have hm := List.mem_of_getElem? hp
  obtain ⟨hm1, hm2⟩ := mem_zip_right (List.fst_mem_of_mem_zipIdx hm)
  have hes : ∀ e ∈ p.1.2, e = 0 := fun e h => he e (mem_chunks (by norm_num) hm2 e h)
  unfold verifierLookupZ at h
  simp only [Res.bind_eq_ok, Res.idx_eq_ok] at h
  obtain ⟨e0, h0, e1, h1, h⟩ := h
  obtain rfl := hes _ (List.mem_of_getElem? h0)
  obtain rfl := hes _ (List.mem_of_getElem? h1)
  have h := (Res.ok.inj h).symm
  subst h
  have hel : d.element 1 = d.omega := by simp [Domain.element]
  refine ⟨by rw [hc _ hm1], fun r hr => ?_⟩
  refine query_two (a := ch.xi * d.element 1) (b := ch.xi) (fun _ => 0) rfl ?_
  rcases (curr_next_rotations r).1 hr with rfl | rfl
  · right
    rw [signed_curr, zpow_zero, mul_one]
  · left
    rw [signed_next, zpow_one, hel]

include R in
theorem Registration.zero_quotient (hc : ∀ c ∈ proof.quotientCommitments, c = S.zero) (he : ∀ e ∈ proof.quotientEvals, e = 0) :
    ∀ o ∈ st.quotient, ZeroClaim S d ch.xi o := by
  intro o ho
  obtain ⟨i, hi⟩ := List.getElem?_of_mem ho
  obtain ⟨p, hp, h⟩ := Forall₂.right (Res.mapM_eq_ok.1 R.quotient) hi
  have hm := List.fst_mem_of_mem_zipIdx (List.mem_of_getElem? hp)
  simp only [Res.bind_eq_ok, Res.idx_eq_ok] at h
  obtain ⟨e0, h0, h⟩ := h
  obtain rfl := he _ (List.mem_of_getElem? h0)
  have h := (Res.ok.inj h).symm
  subst h
  refine ⟨by rw [hc _ hm], fun r hr => ?_⟩
  rw [curr_rotations, List.mem_singleton] at hr
  subst hr
  rw [signed_curr, zpow_zero, mul_one]
  simp [VerifierOracle.query, assocGet]

end

theorem replicate_zip {α β : Type} {as : List α} {b : β} {γ : Type} {R : α × β → γ → Prop} {cs : List γ}
    (h : List.Forall₂ (fun a c => R (a, b) c) as cs) : List.Forall₂ R (List.zip as (List.replicate as.length b)) cs :=
  rel_replicate h (fun _ _ g => g)

/-- The preprocessed columns after registration of their true values. -/
theorem preprocessed_told {v : ProverView F} {sigmas : List (ProverOracle F)} {qBlind : ProverOracle F} {ws : List (VerifierOracle F S.Comm)}
    {is : List (InstanceVerifierOracle F)} {pre : VerifierPreprocessed S} (hsu : SetUp S com v sigmas qBlind ws is pre)
    (hun : ∀ o ∈ sigmas ++ [qBlind], ∀ r ∈ o.rotations, r.degree = 0) (xi : F) :
    List.Forall₂ (fun o w => OpeningPair S com d xi (o, S.emptyRand) w) sigmas
      (List.zipWith (fun (o : VerifierOracle F S.Comm) e => o.registerEval xi e) pre.perm (sigmas.map (·.query xi))) ∧
    OpeningPair S com d xi (qBlind, S.emptyRand) (pre.qBlind.registerEval xi (peval qBlind.poly xi)) := by
  have hperm0 : ∀ (o : ProverOracle F) (w : VerifierOracle F S.Comm), (∀ ro ∈ o.rotations, ro.degree = 0) →
      SameConfig o w → w.commitment = some (com (toPoly o.poly) S.emptyRand) →
      OpeningPair S com d xi (o, S.emptyRand) (w.registerEval xi (o.query xi)) := by
    intro o w hro hc hcm
    have hq : (w.registerEval xi (o.query xi)).query xi = .ok ((toPoly o.poly).eval xi) := by
      rw [query_head, eval_toPoly]; rfl
    refine ⟨hc.2.1, hcm, ?_⟩
    intro ro hr0
    have hsg : ro.signed = 0 := by unfold Rotation.signed; cases ro.sign <;> simp [hro ro hr0]
    rw [hsg, zpow_zero, mul_one]
    exact hq
  refine ⟨?_, hperm0 qBlind pre.qBlind (hun _ (by simp)) hsu.qBlind.1 hsu.qBlind.2⟩
  refine forall₂_of_getElem? (by simp [hsu.perm.length_eq]) ?_
  intro i o w ho hw
  obtain ⟨w0, e, g1, g2, rfl⟩ := List.getElem?_zipWith_eq_some.1 hw
  rw [List.getElem?_map, ho] at g2
  obtain ⟨⟩ := Option.some.inj g2
  obtain ⟨w', g3, g4, g5⟩ := Forall₂.left hsu.perm ho
  obtain rfl := Option.some.inj (g1.symm.trans g3)
  exact hperm0 o w0 (hun o (by simp [List.mem_of_getElem? ho])) g4 g5

/-- **C71** The number of parts of the quotient is not checked, and with two parts or more there is an accepted proof for every
circuit. Whatever the gates, lookups, copies and public columns of the circuit are, satisfiable or not, and for every number
`m` of parts from two on: a proof with only zero commitments, `m` of them for the quotient, and with one `q` evaluation for each
opening set is accepted, once two claimed evaluations of the quotient have been adapted to the challenge `x1`. The values in
the columns `v.witness` play no role. Excepted are challenges that are zero, roots of the vanishing polynomial, or collide. -/
theorem C71_every_circuit {ck : S.CK} {vk : VerifierKey S} (hS : HomomorphicScheme S ck vk.vk com) (hd : d.Ok)
    (hn : SupportsDegree S ck d.size) {pre : VerifierPreprocessed S} {ws : List (VerifierOracle F S.Comm)}
    {is : List (InstanceVerifierOracle F)} {vos : List (GenericVO F)} (hR : Ready d.size vk.index pre ws is vos)
    {v : ProverView F} {sigmas : List (ProverOracle F)} {qBlind : ProverOracle F} (hsu : SetUp S com v sigmas qBlind ws is pre)
    (hlen : ∀ o ∈ v.fixed ++ v.table ++ sigmas ++ [qBlind], o.poly.length ≤ d.size)
    (hun : ∀ o ∈ sigmas ++ [qBlind], ∀ r ∈ o.rotations, r.degree = 0)
    (vanishing : List F) {m : Nat} (hm : 2 ≤ m) (z : S.Z) :
    ∃ we fe te pe ze qb ch t, (∀ mp, verifierChallenges S (forgedProof S vk.index ws m we fe te pe ze qb mp) = (ch, t)) ∧
      (ch.xi ≠ 0 → ∃ mp : MpProof S, peval vanishing ch.xi ≠ 0 → (mpChallenges S mp t).1 ≠ ch.xi ^ d.size →
        (∀ k : ℤ, (mpChallenges S mp t).2.2.1 ≠ ch.xi * d.omega ^ k) →
        ∃ b st, verifyRegister S vk pre (adjust (forgedProof S vk.index ws m we fe te pe ze qb mp) (mpChallenges S mp t).1 b) ws is
            d.size ch = .ok st ∧
          mp.qEvals.length = distinctRotations st.oracles ∧
          verify S vk pre (adjust (forgedProof S vk.index ws m we fe te pe ze qb mp) (mpChallenges S mp t).1 b) ws is vos d.size
            vanishing = .ok ()) := by
  have hself := hd.new_self
  obtain ⟨pf0⟩ : Nonempty S.Proof := by
    obtain ⟨cs, h1⟩ := hn.commitPlain ⟨[], [], false⟩ (by simp)
    obtain ⟨pf, -⟩ := hn.open_ ⟨[], [], false⟩ cs 0 S.emptyRand (by simp) h1
    exact ⟨pf⟩
  -- the challenges depend on the commitments only
  obtain ⟨ch, t, hcht⟩ : ∃ ch t, ∀ we fe te pe ze qb mp,
      verifierChallenges S (forgedProof S vk.index ws m we fe te pe ze qb mp) = (ch, t) :=
    ⟨(verifierChallenges S (forgedProof S vk.index ws m [] [] [] [] [] 0 ⟨[], S.zero, pf0⟩)).1,
      (verifierChallenges S (forgedProof S vk.index ws m [] [] [] [] [] 0 ⟨[], S.zero, pf0⟩)).2, fun _ _ _ _ _ _ _ => rfl⟩
  -- the claims
  have hcom := hR.commitments (ws.map (fun _ => S.zero))
  have hcz : ∀ o ∈ registerCommitments ws (ws.map (fun _ => S.zero)), o.commitment = some S.zero := by
    clear hcom hR hsu hcht
    induction ws with
    | nil => simp [registerCommitments]
    | cons w ws ih =>
      intro o ho
      simp only [List.map_cons, registerCommitments, List.mem_cons] at ho
      rcases ho with rfl | ho
      · rfl
      · exact ih o ho
  obtain ⟨we, hwe, vw, hvw, hvwZ⟩ := zero_registered hS hd .missingWitnessOracle hcz hcom.1 hcom.2 ch.xi
  have hfr : ∀ {os : List (ProverOracle F)} {ps : List (VerifierOracle F S.Comm)},
      List.Forall₂ (fun o p => SameConfig o p ∧ p.commitment = some (com (toPoly o.poly) S.emptyRand)) os ps →
      (∀ p ∈ ps, ∀ r ∈ p.rotations, r.degree < d.size) → (ps.map (·.label)).Nodup →
      (∀ o ∈ os, ∀ r ∈ o.rotations, r.degree < d.size) ∧ (os.map (·.label)).Nodup ∧ expectedEvals os = expectedEvals ps := by
    intro os ps h h1 h2
    refine ⟨fun o ho r hr => ?_, ?_, expectedEvals_forall₂ (h.imp fun o p g => ⟨g.1.1.symm, g.1.2.1.symm⟩)⟩
    · obtain ⟨i, hi⟩ := List.getElem?_of_mem ho
      obtain ⟨p, hp, g⟩ := Forall₂.left h hi
      exact h1 p (List.mem_of_getElem? hp) r (by rw [g.1.2.1]; exact hr)
    · have : os.map (·.label) = ps.map (·.label) := by
        clear h1 h2
        induction h with
        | nil => rfl
        | cons h _ ih => rw [List.map_cons, List.map_cons, h.1.1, ih]
      rw [this]
      exact h2
  obtain ⟨f1, f2, f3⟩ := hfr hsu.fixed (fun p hp => hR.rotations p (by simp [hp])) hR.labels.2.1
  obtain ⟨t1, t2, t3⟩ := hfr hsu.table (fun p hp => hR.rotations p (by simp [hp])) hR.labels.2.2
  obtain ⟨fq, fe, hfq, hfe⟩ := evaluations_succeed (ε := PiopErr) hd v.fixed ch.xi f1
  obtain ⟨tq, te, htq, hte⟩ := evaluations_succeed (ε := PiopErr) hd v.table ch.xi t1
  obtain ⟨vf, hvf, hvfT⟩ := register_told (S := S) (com := com) hd .missingFixedOracle (xi := ch.xi)
    (rs := List.replicate v.fixed.length S.emptyRand) (by simp) (rel_replicate hsu.fixed (fun _ _ h => h)) f2 f1 ⟨fq, hfq, hfe⟩
  obtain ⟨vt, hvt, hvtT⟩ := register_told (S := S) (com := com) hd .missingLookupTableOracle (xi := ch.xi)
    (rs := List.replicate v.table.length S.emptyRand) (by simp) (rel_replicate hsu.table (fun _ _ h => h)) t2 t1 ⟨tq, htq, hte⟩
  obtain ⟨hperm, hqb⟩ := preprocessed_told (d := d) hsu hun ch.xi
  -- the grand products
  obtain ⟨Z, hZ⟩ : ∃ Z, Z = ((ws.filter (·.shouldPermute)).length + vk.index.perm.maxCols - 1) / vk.index.perm.maxCols := ⟨_, rfl⟩
  obtain ⟨zv, hzv⟩ : ∃ zv : List (VerifierOracle F S.Comm), zv = (List.replicate Z S.zero).zipIdx.map
    (verifierZ vk.index.perm.usableRows (List.replicate Z S.zero).length) := ⟨_, rfl⟩
  have hzi : ∀ {i : Nat} {o : VerifierOracle F S.Comm}, zv[i]? = some o →
      o = verifierZ vk.index.perm.usableRows (List.replicate Z S.zero).length (S.zero, i) := by
    intro i o ho
    rw [hzv, List.getElem?_map, List.getElem?_zipIdx, Option.map_map, Option.map_eq_some_iff] at ho
    obtain ⟨c, hc, rfl⟩ := ho
    obtain rfl := List.eq_of_mem_replicate (List.mem_of_getElem? hc)
    simp
  obtain ⟨ze, hze, vz, hvz, hvzZ⟩ := zero_registered hS hd .missingPermutationOracle (vs := zv) (by
      intro o ho
      obtain ⟨i, hi⟩ := List.getElem?_of_mem ho
      rw [hzi hi]
      rfl) (by
      rw [List.nodup_iff_injective_getElem]
      intro ⟨i, hi⟩ ⟨j, hj⟩ hij
      simp only [List.getElem_map, List.length_map] at hij hi hj
      rw [hzi (List.getElem?_eq_getElem hi), hzi (List.getElem?_eq_getElem hj)] at hij
      simpa using natBytes_inj (List.append_cancel_left hij)) (by
      intro o ho r hr
      obtain ⟨i, hi⟩ := List.getElem?_of_mem ho
      rw [hzi hi] at hr
      have hu := hR.usable
      have h1 := hR.rows
      have h01 : ∀ ro, ro ∈ setExtend [] [Rotation.curr, Rotation.next] → ro.degree < d.size := by
        intro ro hro
        rcases (curr_next_rotations ro).1 hro with rfl | rfl
        · exact hd.size_pos
        · exact h1
      simp only [verifierZ] at hr
      split at hr
      · rcases mem_setInsert.1 hr with rfl | hr
        · exact hu
        · exact h01 _ hr
      · exact h01 _ hr) ch.xi
  refine ⟨we, fe, te, sigmas.map (·.query ch.xi), ze, peval qBlind.poly ch.xi, ch, t, fun mp => hcht _ _ _ _ _ _ mp, fun hxi => ?_⟩
  -- the verifier reads the proof
  have hW : ∀ mp, WellShaped vk.index pre ws (forgedProof S vk.index ws m we fe te (sigmas.map (·.query ch.xi)) ze
      (peval qBlind.poly ch.xi) mp) := by
    intro mp
    have h0 := (zeroProof_wellShaped hR mp.opening 0).zCommitments
    refine ⟨?_, ?_, ?_, ?_, by simp [forgedProof], by simp [forgedProof], by simp [forgedProof], by simp [forgedProof], h0, ?_,
      by simp [forgedProof]⟩
    · exact hwe.trans (expectedEvals_congr (registerCommitments_config _ _))
    · show fe.length = _
      rw [evaluateQuerySet_length hfe, getQuerySet_length hd hfq, f3]
    · show te.length = _
      rw [evaluateQuerySet_length hte, getQuerySet_length hd htq, t3]
    · simp [forgedProof, hsu.perm.length_eq]
    · show ze.length = _
      rw [hze, hzv, expectedEvals_zs]
      simp only [forgedProof, ← hZ]
      rfl
  obtain ⟨st, hst0⟩ := (hR.register_reads hd _ ch).exists_ok (hW ⟨[], S.zero, pf0⟩)
  have hst : ∀ mp, verifyRegister S vk pre (forgedProof S vk.index ws m we fe te (sigmas.map (·.query ch.xi)) ze
      (peval qBlind.poly ch.xi) mp) ws is d.size ch = .ok st := fun _ => hst0
  obtain ⟨d', R⟩ := verifyRegister_iff.1 hst0
  obtain rfl := Option.some.inj (hself.symm.trans R.dom)
  obtain rfl := Res.ok.inj (hvw.symm.trans R.witness)
  obtain rfl := Res.ok.inj (hvf.symm.trans R.fixed)
  obtain rfl := Res.ok.inj (hvt.symm.trans R.table)
  have hzs : vz = st.zs := by
    have h := R.zs
    simp only [forgedProof, ← hZ] at h
    rw [hzv] at hvz
    exact Res.ok.inj (hvz.symm.trans h)
  subst hzs
  have hperm : List.Forall₂ (fun o w => OpeningPair S com d ch.xi (o, S.emptyRand) w) sigmas st.pre.perm := by
    rw [R.perm]
    exact hperm
  have hqb : OpeningPair S com d ch.xi (qBlind, S.emptyRand) st.pre.qBlind := by
    rw [R.qBlind]
    exact hqb
  have hlk := R.zero_lookups (fun c hc => List.eq_of_mem_replicate hc) (fun c hc => List.eq_of_mem_replicate hc)
  have hlz := R.zero_lookupZs (fun c hc => List.eq_of_mem_replicate hc) (fun c hc => List.eq_of_mem_replicate hc)
  have hq := R.zero_quotient (fun c hc => List.eq_of_mem_replicate hc) (fun c hc => List.eq_of_mem_replicate hc)
  -- what is opened
  have hzero : ∀ o ∈ st.witness ++ primes st.lookups ++ st.lookupZs ++ st.quotient ++ st.zs, ZeroClaim S d ch.xi o := by
    intro o ho
    simp only [List.mem_append] at ho
    rcases ho with (((ho | ho) | ho) | ho) | ho
    · exact hvwZ o ho
    · exact hlk o ho
    · exact hlz o ho
    · exact hq o ho
    · exact hvzZ o ho
  obtain ⟨os0, hos0⟩ : ∃ os0, os0 = (st.witness ++ primes st.lookups ++ st.lookupZs ++ st.quotient ++ st.zs).map zeroOf := ⟨_, rfl⟩
  obtain ⟨os1, hos1⟩ : ∃ os1, os1 = v.fixed ++ v.table ++ sigmas ++ [qBlind] := ⟨_, rfl⟩
  have hpub : List.Forall₂ (fun o w => OpeningPair S com d ch.xi (o, S.emptyRand) w) os1
      (st.pre.fixed ++ st.pre.table ++ st.pre.perm ++ [st.pre.qBlind]) := by
    rw [hos1]
    have hun2 : ∀ {os : List (ProverOracle F)} {vs : List (VerifierOracle F S.Comm)},
        List.Forall₂ (Told S com d ch.xi) (List.zip os (List.replicate os.length S.emptyRand)) vs →
        List.Forall₂ (fun o w => OpeningPair S com d ch.xi (o, S.emptyRand) w) os vs := by
      intro os vs h
      rw [zip_replicate, List.forall₂_map_left_iff] at h
      exact h.imp (fun _ _ g => g.toOpeningPair)
    exact List.rel_append (List.rel_append (List.rel_append (hun2 hvfT) (hun2 hvtT)) hperm) (.cons hqb .nil)
  have hopen : List.Forall₂ (OpeningPair S com d ch.xi) (List.zip (os0 ++ os1) (List.replicate os0.length S.emptyRand ++
      List.replicate os1.length S.emptyRand)) st.oracles := by
    refine forall₂_append_zip ?_ (replicate_zip hpub) (by simp)
    have := ZeroClaim.pairs hS hzero
    rw [hos0, List.length_map]
    exact this
  have hlenO : (os0 ++ os1).length = (List.replicate os0.length S.emptyRand ++ List.replicate os1.length S.emptyRand).length := by simp
  have hrots : ∀ o ∈ os0 ++ os1, ∃ w ∈ st.oracles, o.rotations = w.rotations := by
    intro o ho
    obtain ⟨i, hi⟩ := List.getElem?_of_mem ho
    obtain ⟨hi', -⟩ := List.getElem?_eq_some_iff.1 hi
    obtain ⟨w, hw, g⟩ := Forall₂.left hopen (i := i) (a := (o, _)) (List.getElem?_zip_eq_some.2 ⟨hi,
      List.getElem?_eq_getElem (by rw [← hlenO]; exact hi')⟩)
    exact ⟨w, List.mem_of_getElem? hw, g.rotations.symm⟩
  have hone : ∀ (p : LPoly F) (z z' : S.Z) cs, S.commit ck [p] z = .ok (cs, z') → cs.length = 1 :=
    fun p z z' cs h => (hS.commit _ _ _ _ h).length_eq.symm
  have hro := hR.rotations_ok hd hst0
  obtain ⟨mp, hmp⟩ := mpProve_succeeds hd hn hone hlenO (by
      intro o ho
      rcases List.mem_append.1 ho with ho | ho
      · rw [hos0] at ho
        obtain ⟨w, -, rfl⟩ := List.mem_map.1 ho
        simp [zeroOf]
      · exact hlen o (by rw [← hos1]; exact ho))
    (xi := ch.xi) (by
      intro o ho
      obtain ⟨w, hw, he⟩ := hrots o ho
      rw [he]
      exact ⟨(hro w hw).1, points_nodup hd hxi (hro w hw).2⟩) t z
  have hopened := mpProve_inv S hself hone hmp
  refine ⟨mp, fun hv hx1 hx3 => ?_⟩
  obtain ⟨e, he⟩ := hR.quotient_ok hd hst0 vanishing
  have hc := hcht we fe te (sigmas.map (·.query ch.xi)) ze (peval qBlind.poly ch.xi) mp
  obtain ⟨b, st', b1, b2, b3⟩ := C61_adjusted S vk pre (forgedProof S vk.index ws m we fe te (sigmas.map (·.query ch.xi)) ze
      (peval qBlind.poly ch.xi) mp) ws is vos d.size vanishing st (by rw [hc]; exact hst mp) e (by rw [hc]; exact he)
      (by
        rw [hc]
        exact mpVerify_of_opened hS d.size d hself _ _ st.oracles _ _ mp hlenO hopen hopened (fun o _ r _ => hx3 _))
      (by simpa [forgedProof] using hm) (by rw [hc]; exact hv) (by rw [hc]; exact hx1)
  rw [hc] at b1 b3
  refine ⟨b, st', b1, ?_, b3⟩
  rw [hopened.qEvals_length hlenO]
  have hmap : ∀ {l : List (ProverOracle F × S.Rand)} {vs : List (VerifierOracle F S.Comm)},
      List.Forall₂ (OpeningPair S com d ch.xi) l vs → vs.map (·.rotations) = l.map (fun o => o.1.rotations) := by
    intro l vs h
    induction h with
    | nil => rfl
    | cons h _ ih => rw [List.map_cons, List.map_cons, ih, h.rotations]
  have h2 := hmap hopen
  have h3 := List.map_fst_zip (l₁ := os0 ++ os1) (l₂ := _) hlenO.le
  show (List.map (fun (o : ProverOracle F) => o.rotations) _).toFinset.card
    = (List.map (fun (o : VerifierOracle F S.Comm) => o.rotations) _).toFinset.card
  rw [b2, h2]
  conv_lhs => rw [← h3, List.map_map]
  rfl

end
end ZK
