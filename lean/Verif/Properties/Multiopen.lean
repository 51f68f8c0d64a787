import Verif.Lemmas.Multiopen
import Verif.Lemmas.Prove
import Mathlib.LinearAlgebra.Lagrange
import Verif.Lemmas.Toy
import Verif.Lemmas.Ideal
import Verif.Lemmas.Verify
import Mathlib.Data.List.Perm.Basic
/-! C35, C36, C39: the multi-point opening. -/
set_option autoImplicit false
set_option linter.unusedSectionVars false
namespace ZK
open Polynomial

/-! ### C39 -/

theorem mapPush_flat {κ β : Type} [LinearOrder κ] (k : κ) (v : β) (m : List (κ × List β)) :
    ((mapPush k v m).flatMap Prod.snd).Perm (v :: m.flatMap Prod.snd) := by
  induction m with
  | nil => simp [mapPush]
  | cons p m ih =>
    obtain ⟨a, l⟩ := p
    simp only [mapPush]
    split
    · simp
    · split
      · simp only [List.flatMap_cons]
        exact (List.Perm.append_left l ih).trans List.perm_middle
      · simp only [List.flatMap_cons, List.append_assoc, List.singleton_append]
        exact List.perm_middle

/-- **C39** The opening sets partition the oracles: they have pairwise different (increasing) rotation sets, each
is the nonempty list of the oracles with this rotation set in input order, and together they are the given oracles. -/
theorem C39_partition {α : Type} (rot : α → List Rotation) (os : List α) :
    ((openingSets rot os).map Prod.fst).Pairwise (· < ·) ∧
    (∀ s ∈ openingSets rot os, s.2 = os.filter (fun o => decide (rot o = s.1)) ∧ s.2 ≠ []) ∧
    ((openingSets rot os).flatMap Prod.snd).Perm os ∧
    ∀ o ∈ os, ∃! s, s ∈ openingSets rot os ∧ o ∈ s.2 := by
  have hkeys : (openingSets rot os).map Prod.fst = setExtend [] (os.map rot) := by
    rw [openingSets_eq, List.map_map]
    exact List.map_id _
  refine ⟨?_, ?_, ?_, ?_⟩
  · rw [hkeys]
    exact setExtend_sorted List.Pairwise.nil
  · intro s hs
    rw [openingSets_eq] at hs
    obtain ⟨k, hk, rfl⟩ := List.mem_map.1 hs
    refine ⟨rfl, ?_⟩
    rw [mem_setExtend] at hk
    simp only [List.not_mem_nil, false_or, List.mem_map] at hk
    obtain ⟨o, ho, rfl⟩ := hk
    intro he
    have : o ∈ os.filter (fun o' => decide (rot o' = rot o)) := List.mem_filter.2 ⟨ho, by simp⟩
    have he : os.filter (fun o' => decide (rot o' = rot o)) = [] := he
    rw [he] at this
    simp at this
  · unfold openingSets
    have key : ∀ (os : List α) (m : List (List Rotation × List α)),
        ((os.foldl (fun m o => mapPush (rot o) o m) m).flatMap Prod.snd).Perm (m.flatMap Prod.snd ++ os) := by
      intro os
      induction os with
      | nil => intro m; simp
      | cons o os ih =>
        intro m
        rw [List.foldl_cons]
        refine (ih _).trans ?_
        refine ((mapPush_flat (rot o) o m).append_right os).trans ?_
        exact List.perm_middle.symm
    simpa using key os []
  · intro o ho
    rw [openingSets_eq]
    refine ⟨(rot o, os.filter (fun o' => decide (rot o' = rot o))), ⟨?_, ?_⟩, ?_⟩
    · exact List.mem_map.2 ⟨rot o, by rw [mem_setExtend]; simp only [List.mem_map]; exact .inr ⟨o, ho, rfl⟩, rfl⟩
    · exact List.mem_filter.2 ⟨ho, by simp⟩
    · rintro s ⟨hs, hos⟩
      obtain ⟨k, hk, rfl⟩ := List.mem_map.1 hs
      have : rot o = k := by simpa using (List.mem_filter.1 hos).2
      rw [this]

/-- **C39** Prover and verifier compute the same opening sets: for lists of oracles which agree in their rotation
sets, the sets come in the same order with the same rotation sets, and inside a set the oracles correspond. -/
theorem C39_agree {α β : Type} (rotP : α → List Rotation) (rotV : β → List Rotation) (R : α → β → Prop)
    (hR : ∀ a b, R a b → rotV b = rotP a) (os : List α) (vs : List β) (h : List.Forall₂ R os vs) :
    List.Forall₂ (fun s t => t.1 = s.1 ∧ List.Forall₂ R s.2 t.2) (openingSets rotP os) (openingSets rotV vs) := by
  rw [openingSets_eq, openingSets_eq]
  have hm : vs.map rotV = os.map rotP := by
    induction h with
    | nil => rfl
    | cons h _ ih => rw [List.map_cons, List.map_cons, ih, hR _ _ h]
  rw [hm]
  have hf : ∀ k, List.Forall₂ R (os.filter (fun o => decide (rotP o = k))) (vs.filter (fun o => decide (rotV o = k))) := by
    intro k
    clear hm
    induction h with
    | nil => exact List.Forall₂.nil
    | cons h ht ih =>
      rename_i a b as bs
      by_cases hk : rotP a = k
      · rw [List.filter_cons_of_pos (by simpa using hk), List.filter_cons_of_pos (by simpa [hR _ _ h] using hk)]
        exact List.Forall₂.cons h ih
      · rw [List.filter_cons_of_neg (by simpa using hk), List.filter_cons_of_neg (by simpa [hR _ _ h] using hk)]
        exact ih
  induction (setExtend [] (os.map rotP)) with
  | nil => exact List.Forall₂.nil
  | cons k ks ih => exact List.Forall₂.cons ⟨rfl, hf k⟩ ih

/-- Three oracles with two rotation sets. -/
example : openingSets (fun o : Nat × List Rotation => o.2)
      [(0, [.curr, .next]), (1, [.curr]), (2, [.curr, .next])]
    = [([.curr], [(1, [.curr])]), ([.curr, .next], [(0, [.curr, .next]), (2, [.curr, .next])])] := by decide

section
variable {F : Type} [Field F] [LinearOrder F] [FftParams F] [LawfulFft F]

/-! ### C35 -/

variable {S : Scheme F} {ck : S.CK} {vk : S.VK} {com : F[X] → S.Rand → S.Comm}

/-- What the prover keeps of a set of oracles, and the verifier's aggregated commitment. -/
theorem setCommitments (hS : HomomorphicScheme S ck vk com) {d : Domain F} {xi x1 : F} {n : Nat}
    {os : List (OracleRand S)} {vs : List (VerifierOracle F S.Comm)} (h : List.Forall₂ (OpeningPair S com d xi) os vs)
    {q : List F × S.Rand} (hq : Res.foldM (ε := PiopErr) (fun (acc : List F × S.Rand) (o : OracleRand S × Nat) => do
      let x ← Res.idx (powersFrom 1 x1 n) o.2
      pure (dadd acc.1 (dscale x o.1.1.poly), S.addRand acc.2 (S.scaleRand o.1.2 x)))
      ([], S.emptyRand) os.zipIdx = .ok q) :
    toPoly q.1 = horner x1 (os.map (fun o => toPoly o.1.poly)) ∧
    Res.foldM (ε := PiopErr) (fun (acc : S.Comm) (o : VerifierOracle F S.Comm × Nat) => do
      let c ← o.1.getCommitment
      let x ← Res.idx (powersFrom 1 x1 n) o.2
      pure (S.add acc (S.scale c x))) S.zero vs.zipIdx = .ok (com (toPoly q.1) q.2) := by
  have key : ∀ (k : Nat) (acc : List F × S.Rand), Res.foldM (ε := PiopErr) (fun (acc : List F × S.Rand) (o : OracleRand S × Nat) => do
      let x ← Res.idx (powersFrom 1 x1 n) o.2
      pure (dadd acc.1 (dscale x o.1.1.poly), S.addRand acc.2 (S.scaleRand o.1.2 x)))
      acc (os.zipIdx k) = .ok q →
    toPoly q.1 = toPoly acc.1 + C (x1 ^ k) * horner x1 (os.map (fun o => toPoly o.1.poly)) ∧
    Res.foldM (ε := PiopErr) (fun (acc : S.Comm) (o : VerifierOracle F S.Comm × Nat) => do
      let c ← o.1.getCommitment
      let x ← Res.idx (powersFrom 1 x1 n) o.2
      pure (S.add acc (S.scale c x))) (com (toPoly acc.1) acc.2) (vs.zipIdx k) = .ok (com (toPoly q.1) q.2) := by
    clear hq
    induction h with
    | nil => intro k acc h; simp only [List.zipIdx_nil, Res.foldM_nil, Res.ok.injEq] at h; subst h; simp [horner]
    | cons h ht ih =>
      rename_i o v os vs
      intro k acc hq
      rw [List.zipIdx_cons, Res.foldM_eq_ok_cons] at hq
      obtain ⟨b, hb, hq⟩ := hq
      obtain ⟨x, hx, hb⟩ := Res.bind_eq_ok.1 hb
      have hx' := Res.idx_eq_ok.1 hx
      rw [powersFrom_getElem?] at hx'
      split at hx'
      · have hxk : x = x1 ^ k := by rw [← Option.some.inj hx', one_mul]
        have hb := Res.ok.inj hb
        obtain ⟨h1, h2⟩ := ih (k + 1) b hq
        rw [← hb] at h1 h2
        simp only [toPoly_dadd, toPoly_dscale] at h1 h2
        constructor
        · rw [h1, hxk, List.map_cons, horner, pow_succ, C_mul]; ring
        · rw [List.zipIdx_cons, Res.foldM_eq_ok_cons]
          refine ⟨S.add (com (toPoly acc.1) acc.2) (S.scale (com (toPoly o.1.poly) o.2) x), ?_, ?_⟩
          · simp only [VerifierOracle.getCommitment, h.commitment, hx, Res.bind_ok, Res.pure_eq]
          · rw [hS.scale, hS.add]; exact h2
      · simp at hx'
  have := key 0 _ hq
  simpa [hS.zero] using this

theorem setEvals {d : Domain F} {xi x1 : F} {n : Nat} {os : List (OracleRand S)}
    {vs : List (VerifierOracle F S.Comm)} (h : List.Forall₂ (OpeningPair S com d xi) os vs) {rots : List Rotation}
    (hrot : ∀ o ∈ os, o.1.rotations = rots) {p : F} (hp : p ∈ points d xi rots) :
    aggQuery (fun (o : VerifierOracle F S.Comm) p => o.query p) (powersFrom 1 x1 n) vs p
      = aggQuery (fun (o : OracleRand S) p => .ok (o.1.query p)) (powersFrom 1 x1 n) os p := by
  unfold aggQuery
  generalize hk : 0 = k
  generalize (0 : F) = acc
  clear hk
  induction h generalizing k acc with
  | nil => rfl
  | cons h ht ih =>
    rename_i o v os vs
    rw [List.zipIdx_cons, List.zipIdx_cons, Res.foldM_cons, Res.foldM_cons]
    obtain ⟨r, hr, rfl⟩ := List.mem_map.1 hp
    rw [← hrot o (by simp)] at hr
    have := h.evals r hr
    simp only [this]
    have h2 : ((toPoly o.1.poly).eval (xi * d.omega ^ r.signed)) = o.1.query (xi * d.omega ^ r.signed) := by
      rw [← peval_eq_eval]; rfl
    rw [h2]
    congr 1
    funext b
    exact ih (fun o ho => hrot o (by simp [ho])) _ _

/-- One opening set: the verifier computes the commitment of the prover's `q` and the same values. -/
theorem openSet_commitment (hS : HomomorphicScheme S ck vk com) {d : Domain F} (hd : d.Ok) {xi x1 : F} {n : Nat}
    {rots : List Rotation} {os : List (OracleRand S)} {vs : List (VerifierOracle F S.Comm)}
    (h : List.Forall₂ (OpeningPair S com d xi) os vs) (hrot : ∀ o ∈ os, o.1.rotations = rots)
    {q : List F × S.Rand} {es : List (F × F)}
    (hq : mpProverSet (S := S) (powersFrom 1 x1 n) xi d.elements (rots, os) = .ok (q, es)) :
    mpVerifierSet (S := S) (powersFrom 1 x1 n) xi d.elements (rots, vs) = .ok (com (toPoly q.1) q.2, es) := by
  unfold mpProverSet at hq
  obtain ⟨q', hq1, hq⟩ := Res.bind_eq_ok.1 hq
  obtain ⟨es', hes, hq⟩ := Res.bind_eq_ok.1 hq
  obtain ⟨rfl, rfl⟩ := Prod.mk.inj (Res.ok.inj hq)
  obtain ⟨-, hcom⟩ := setCommitments hS h hq1
  obtain ⟨hdeg, hnd, g, hg, rfl⟩ := (evalSet_iff hd (by simp)).1 hes
  unfold mpVerifierSet
  refine Res.bind_eq_ok.2 ⟨_, hcom, Res.bind_eq_ok.2 ⟨_, (evalSet_iff hd (by simp)).2 ⟨hdeg, hnd, g, ?_, rfl⟩, rfl⟩⟩
  intro p hp
  have := setEvals (n := n) (x1 := x1) h hrot hp
  exact this.trans (hg p hp)

/-- One opening set: the verifier computes the commitment of the prover's `q` and the value of `q`'s quotient. -/
theorem openSet (hS : HomomorphicScheme S ck vk com) {d : Domain F} (hd : d.Ok) {xi x1 x3 : F} {n : Nat}
    {rots : List Rotation} {os : List (OracleRand S)} {vs : List (VerifierOracle F S.Comm)}
    (h : List.Forall₂ (OpeningPair S com d xi) os vs) (hrot : ∀ o ∈ os, o.1.rotations = rots)
    (hx3 : x3 ∉ points d xi rots) {q : List F × S.Rand} {es : List (F × F)}
    (hq : mpProverSet (S := S) (powersFrom 1 x1 n) xi d.elements (rots, os) = .ok (q, es)) {f : List F}
    (hf : pdiv (ε := PiopErr) q.1 (constructVanishing (es.map Prod.fst)) = .ok f) :
    mpVerifierSet (S := S) (powersFrom 1 x1 n) xi d.elements (rots, vs) = .ok (com (toPoly q.1) q.2, es) ∧
    fEval (ε := PiopErr) x3 es (peval q.1 x3) = .ok ((toPoly f).eval x3) := by
  have hcommit := openSet_commitment hS hd h hrot hq
  unfold mpProverSet at hq
  obtain ⟨q', hq1, hq⟩ := Res.bind_eq_ok.1 hq
  obtain ⟨es', hes, hq⟩ := Res.bind_eq_ok.1 hq
  obtain ⟨rfl, rfl⟩ := Prod.mk.inj (Res.ok.inj hq)
  obtain ⟨hpoly, -⟩ := setCommitments hS h hq1
  obtain ⟨hdeg, hnd, g, hg, rfl⟩ := (evalSet_iff hd (by simp)).1 hes
  constructor
  · exact hcommit
  · have hks : ((setExtend [] (points d xi rots)).map (fun p => (p, g p))).map Prod.fst = setExtend [] (points d xi rots) := by
      simp [Function.comp_def]
    rw [hks] at hf
    have hsort := setExtend_sorted (s := []) (l := points d xi rots) List.Pairwise.nil
    have hnd' : (setExtend [] (points d xi rots)).Nodup := hsort.imp (fun h => h.ne)
    obtain ⟨R, hR, hRd⟩ := pdiv_spec hf
    rw [toPoly_constructVanishing] at hR hRd
    rw [degree_prod_sub] at hRd
    have hmem : ∀ k, k ∈ setExtend [] (points d xi rots) ↔ k ∈ points d xi rots := by
      intro k; rw [mem_setExtend]; simp
    refine (fEval_iff x3 _ hnd' g _ _ R hRd ?_).2 ⟨fun h => hx3 ((hmem _).1 h), ?_⟩
    · intro k hk
      have h1 := hg k ((hmem k).1 hk)
      obtain ⟨_, vals, hv, hgk⟩ := aggQuery_iff.1 h1
      have h2 := congrArg (eval k) hR
      rw [eval_add, eval_mul, (eval_prod_sub_eq_zero _ _).2 hk, mul_zero, zero_add] at h2
      rw [hgk, ← h2, hpoly, eval_horner, List.map_map, forall2_ok_eq hv]
      congr 1
      apply List.map_congr_left
      intro o _
      simp only [Function.comp]
      rw [← peval_eq_eval]; rfl
    · have h2 := congrArg (eval x3) hR
      rw [eval_add, eval_mul, eval_prod_sub] at h2
      rw [peval_eq_eval, h2, add_sub_cancel_right, mul_assoc, mul_inv_cancel₀, mul_one]
      rw [← eval_prod_sub]
      intro h0
      rw [eval_prod_sub_eq_zero] at h0
      exact hx3 ((hmem _).1 h0)

theorem foldM_horner (x : F) (fs : List (List F)) (f : List F)
    (h : Res.foldM (ε := PiopErr) (fun (acc : List F) (p : List F × Nat) => do
      let x ← Res.idx (powersFrom 1 x fs.length) p.2
      pure (dadd acc (dscale x p.1))) [] fs.zipIdx = .ok f) :
    toPoly f = horner x (fs.map toPoly) := by
  have key : ∀ (n : Nat) (fs : List (List F)) (k : Nat) (acc : List F), Res.foldM (ε := PiopErr) (fun (acc : List F) (p : List F × Nat) => do
      let x ← Res.idx (powersFrom 1 x n) p.2
      pure (dadd acc (dscale x p.1))) acc (fs.zipIdx k) = .ok f →
      toPoly f = toPoly acc + C (x ^ k) * horner x (fs.map toPoly) := by
    intro n fs
    induction fs with
    | nil => intro k acc h; simp only [List.zipIdx_nil, Res.foldM_nil, Res.ok.injEq] at h; subst h; simp [horner]
    | cons p fs ih =>
      intro k acc h
      rw [List.zipIdx_cons, Res.foldM_eq_ok_cons] at h
      obtain ⟨b, hb, h⟩ := h
      obtain ⟨y, hy, hb⟩ := Res.bind_eq_ok.1 hb
      have hy := Res.idx_eq_ok.1 hy
      rw [powersFrom_getElem?] at hy
      split at hy
      · have hyk : y = x ^ k := by rw [← Option.some.inj hy, one_mul]
        rw [ih _ _ h, ← Res.ok.inj hb, toPoly_dadd, toPoly_dscale, hyk, List.map_cons, horner, pow_succ, C_mul]; ring
      · simp at hy
  simpa using key _ _ _ _ h

theorem thirdRound (hS : HomomorphicScheme S ck vk com) {x4 : F} {qs : List (List F × S.Rand)} {f : List F} {fr : S.Rand}
    {fin : List F × S.Rand} (h : mpThirdRound (S := S) qs f fr x4 = .ok fin) :
    toPoly fin.1 = toPoly f + C x4 * horner x4 (qs.map (fun q => toPoly q.1)) ∧
    finalComm S (com (toPoly f) fr) x4 (qs.map (fun q => com (toPoly q.1) q.2)) = com (toPoly fin.1) fin.2 := by
  unfold mpThirdRound at h
  unfold finalComm
  have key : ∀ (n : Nat) (qs : List (List F × S.Rand)) (k : Nat) (acc : List F × S.Rand),
      Res.foldM (ε := PiopErr) (fun (acc : List F × S.Rand) (q : (List F × S.Rand) × Nat) => do
        let x ← Res.idx (powersFrom x4 x4 n) q.2
        pure (dadd acc.1 (dscale x q.1.1), S.addRand acc.2 (S.scaleRand q.1.2 x))) acc (qs.zipIdx k) = .ok fin →
      toPoly fin.1 = toPoly acc.1 + C (x4 * x4 ^ k) * horner x4 (qs.map (fun q => toPoly q.1)) ∧
      ((qs.map (fun q => com (toPoly q.1) q.2)).zipIdx k).foldl (fun acc p => S.add acc (S.scale p.1 (x4 * x4 ^ p.2)))
        (com (toPoly acc.1) acc.2) = com (toPoly fin.1) fin.2 := by
    intro n qs
    induction qs with
    | nil => intro k acc h; simp only [List.zipIdx_nil, Res.foldM_nil, Res.ok.injEq] at h; subst h; simp [horner]
    | cons q qs ih =>
      intro k acc h
      rw [List.zipIdx_cons, Res.foldM_eq_ok_cons] at h
      obtain ⟨b, hb, h⟩ := h
      obtain ⟨y, hy, hb⟩ := Res.bind_eq_ok.1 hb
      have hy := Res.idx_eq_ok.1 hy
      rw [powersFrom_getElem?] at hy
      split at hy
      · have hyk := (Option.some.inj hy).symm
        obtain ⟨h1, h2⟩ := ih _ _ h
        rw [← Res.ok.inj hb] at h1 h2
        simp only [toPoly_dadd, toPoly_dscale, hyk] at h1 h2
        constructor
        · rw [h1, List.map_cons, horner, pow_succ]; simp only [C_mul]; ring
        · rw [List.map_cons, List.zipIdx_cons, List.foldl_cons, hS.scale, hS.add]; exact h2
      · simp at hy
  simpa using key _ _ _ _ h

/-- What was opened with the right challenges is accepted, see `C35_completeness`. -/
theorem mpVerify_of_opened (hS : HomomorphicScheme S ck vk com) (domainSize : Nat) (d : Domain F)
    (hd : Domain.new (F := F) domainSize = some d) (os : List (ProverOracle F)) (rands : List S.Rand)
    (vs : List (VerifierOracle F S.Comm)) (xi : F) (t : S.T) (proof : MpProof S)
    (hlen : os.length = rands.length) (hc : List.Forall₂ (OpeningPair S com d xi) (List.zip os rands) vs)
    (hp : OpenedWith S ck os rands xi d (mpChallenges S proof t).1 (mpChallenges S proof t).2.1
      (mpChallenges S proof t).2.2.1 (mpChallenges S proof t).2.2.2 proof)
    (hx3 : ∀ o ∈ os, ∀ r ∈ o.rotations, (mpChallenges S proof t).2.2.1 ≠ xi * d.omega ^ r.signed) :
    mpVerify S vk proof vs xi domainSize t = .ok () := by
  obtain ⟨qs, f, fc, z0, z1, fr, fin, h1, h2, h3, h4, h5, fc', h6, h7⟩ := hp.run
  unfold mpVerify
  rw [hd]
  simp only [Res.unwrap_some, Res.bind_ok]
  revert hx3 h1 h4 h5 h7
  generalize mpChallenges S proof t = x
  obtain ⟨x1, x2, x3, x4⟩ := x
  intro hx3 h1 h4 h5 h7
  simp only at *
  have hdok := Domain.new_ok hd
  unfold mpFirstRound at h1
  simp only [Res.bind_eq_ok] at h1
  obtain ⟨qes, hqes, fs, hfs, f', hf', he⟩ := h1
  obtain ⟨he1, he2⟩ := Prod.mk.inj (Res.ok.inj he)
  subst he2
  have hzl : (List.zip os rands).length = os.length := by rw [List.length_zip, hlen, min_self]
  have hvl : vs.length = os.length := by rw [← hc.length_eq, hzl]
  have hagree := C39_agree (fun (o : OracleRand S) => o.1.rotations) (fun (o : VerifierOracle F S.Comm) => o.rotations)
    (OpeningPair S com d xi) (fun _ _ h => h.rotations) _ _ hc
  have hpart := (C39_partition (fun (o : OracleRand S) => o.1.rotations) (List.zip os rands)).2.1
  have hset : ∀ s ∈ openingSets (fun (o : OracleRand S) => o.1.rotations) (List.zip os rands),
      (∀ o ∈ s.2, o.1.rotations = s.1) ∧ x3 ∉ points d xi s.1 := by
    intro s hs
    have hin : ∀ o ∈ s.2, o ∈ List.zip os rands ∧ o.1.rotations = s.1 := by
      intro o ho
      rw [(hpart s hs).1] at ho
      simpa using List.mem_filter.1 ho
    refine ⟨fun o ho => (hin o ho).2, ?_⟩
    intro hx
    obtain ⟨o, ho⟩ := List.exists_mem_of_ne_nil _ (hpart s hs).2
    obtain ⟨h1, h2⟩ := hin o ho
    obtain ⟨r, hr, he⟩ := List.mem_map.1 hx
    rw [← h2] at hr
    exact hx3 o.1 (List.of_mem_zip (a := o.1) (b := o.2) h1).1 r hr he.symm
  have hmain : ∀ (ss : List (List Rotation × List (OracleRand S))) (ts : List (List Rotation × List (VerifierOracle F S.Comm))),
      List.Forall₂ (fun s t => t.1 = s.1 ∧ List.Forall₂ (OpeningPair S com d xi) s.2 t.2) ss ts →
      (∀ s ∈ ss, (∀ o ∈ s.2, o.1.rotations = s.1) ∧ x3 ∉ points d xi s.1) →
      ∀ qes fs, Res.mapM (mpProverSet (S := S) (powersFrom 1 x1 os.length) xi d.elements) ss = .ok qes →
      Res.mapM (fun (q : (List F × S.Rand) × List (F × F)) =>
        pdiv (ε := PiopErr) q.1.1 (constructVanishing (q.2.map Prod.fst))) qes = .ok fs →
      Res.mapM (mpVerifierSet (S := S) (powersFrom 1 x1 os.length) xi d.elements) ts
        = .ok (qes.map (fun q => (com (toPoly q.1.1) q.1.2, q.2))) ∧
      List.Forall₂ (fun (p : (S.Comm × List (F × F)) × F) v => fEval (ε := PiopErr) x3 p.1.2 p.2 = .ok v)
        (List.zip (qes.map (fun q => (com (toPoly q.1.1) q.1.2, q.2))) (qes.map (fun q => peval q.1.1 x3)))
        (fs.map (fun f => (toPoly f).eval x3)) := by
    intro ss ts hst
    induction hst with
    | nil =>
      intro _ qes fs hq hf
      simp only [Res.mapM_nil, Res.ok.injEq] at hq
      subst hq
      simp only [Res.mapM_nil, Res.ok.injEq] at hf
      subst hf
      exact ⟨rfl, List.Forall₂.nil⟩
    | cons hst hst' ih =>
      rename_i s t ss ts
      intro hset qes fs hq hf
      rw [Res.mapM_cons] at hq
      obtain ⟨q, hq1, hq⟩ := Res.bind_eq_ok.1 hq
      obtain ⟨qes', hq2, hq⟩ := Res.bind_eq_ok.1 hq
      obtain rfl := Res.ok.inj hq
      rw [Res.mapM_cons] at hf
      obtain ⟨f, hf1, hf⟩ := Res.bind_eq_ok.1 hf
      obtain ⟨fs', hf2, hf⟩ := Res.bind_eq_ok.1 hf
      obtain rfl := Res.ok.inj hf
      obtain ⟨i1, i2⟩ := ih (fun s hs => hset s (by simp [hs])) _ _ hq2 hf2
      obtain ⟨hs1, hs2⟩ := hset s (by simp)
      obtain ⟨tr, tvs⟩ := t
      obtain ⟨rfl, hst⟩ := hst
      obtain ⟨o1, o2⟩ := openSet hS hdok hst hs1 hs2 (q := q.1) (es := q.2) hq1 hf1
      refine ⟨?_, List.Forall₂.cons o2 i2⟩
      rw [Res.mapM_cons]
      exact Res.bind_eq_ok.2 ⟨_, o1, Res.bind_eq_ok.2 ⟨_, i1, rfl⟩⟩
  obtain ⟨m1, m2⟩ := hmain _ _ hagree hset _ _ hqes hfs
  have hql : proof.qEvals.length = (openingSets (fun (o : VerifierOracle F S.Comm) => o.rotations) vs).length := by
    rw [h4, List.length_map, ← he1, List.length_map, Res.mapM_length hqes, hagree.length_eq]
  have hqe : proof.qEvals = qes.map (fun q => peval q.1.1 x3) := by
    rw [h4, ← he1, List.map_map]; rfl
  rw [mpVerifyWith_iff, hql, List.getElem?_eq_none le_rfl, List.take_length, hvl]
  refine ⟨by simp, _, _, m1, by rw [hqe]; exact m2, ?_⟩
  obtain ⟨t1, t2⟩ := thirdRound hS h5
  have hfc : proof.fCommit = com (toPoly f') fr := by
    have h8 := hS.commit _ _ _ _ h2
    cases h8 with
    | cons h9 h10 =>
      cases h10
      cases h3
      exact h9
  have hfin : (toPoly fin.1).eval x3 = peval (fs.map (fun f => (toPoly f).eval x3)) x2
      + x4 * peval (proof.qEvals.take (qes.map (fun q => (com (toPoly q.1.1) q.1.2, q.2))).length) x4 := by
    rw [t1, eval_add, eval_mul, eval_C, eval_horner, foldM_horner x2 fs f' hf', eval_horner, List.map_map, List.map_map,
      List.length_map, hqe, List.take_of_length_le (by simp), ← he1, List.map_map]
    congr 3
    apply List.map_congr_left
    intro q _
    simp only [Function.comp]
    rw [peval_eq_eval]
  rw [← hfin, hfc, List.map_map]
  have hcs : qes.map (Prod.fst ∘ fun q => (com (toPoly q.1.1) q.1.2, q.2)) = qs.map (fun q => com (toPoly q.1) q.2) := by
    rw [← he1, List.map_map]; rfl
  rw [hcs, t2]
  exact hS.opens _ _ _ _ _ h6 h7

/-- **C35** Completeness of the multi-point opening for every correct homomorphic commitment scheme: the proof
`Multiopen::prove` makes for any oracles (whatever their polynomials, rotation sets and number) is accepted by
`Multiopen::verify` with the corresponding verifier oracles, unless the challenge `x3` is one of the opening points.
(When two rotated points of a set coincide the prover returns an error, so that case is excluded by the existence of
a proof, see `C35_prover_succeeds_iff`.) -/
theorem C35_completeness (hS : HomomorphicScheme S ck vk com) (domainSize : Nat) (d : Domain F)
    (hd : Domain.new (F := F) domainSize = some d) (os : List (ProverOracle F)) (rands : List S.Rand)
    (vs : List (VerifierOracle F S.Comm)) (xi : F) (t : S.T) (z : S.Z) (proof : MpProof S)
    (hlen : os.length = rands.length) (hc : List.Forall₂ (OpeningPair S com d xi) (List.zip os rands) vs)
    (hp : mpProve S ck os rands xi domainSize t z = .ok proof)
    (hx3 : ∀ o ∈ os, ∀ r ∈ o.rotations, (mpChallenges S proof t).2.2.1 ≠ xi * d.omega ^ r.signed) :
    mpVerify S vk proof vs xi domainSize t = .ok () := by
  have hone : ∀ (p : LPoly F) (z z' : S.Z) cs, S.commit ck [p] z = .ok (cs, z') → cs.length = 1 :=
    fun p z z' cs h => (hS.commit _ _ _ _ h).length_eq.symm
  exact mpVerify_of_opened hS domainSize d hd os rands vs xi t proof hlen hc (mpProve_inv S hd hone hp) hx3

/-- **C35** (first exception) The first round of the prover succeeds exactly when the rotations of every oracle are
within the domain and give distinct points. -/
theorem C35_prover_succeeds_iff {d : Domain F} (hd : d.Ok) (os : List (ProverOracle F)) (rands : List S.Rand)
    (hlen : os.length = rands.length) (xi x1 x2 : F) :
    (∃ r, mpFirstRound (S := S) (openingSets (fun (o : OracleRand S) => o.1.rotations) (List.zip os rands)) os.length d
        xi x1 x2 = .ok r) ↔
      ∀ o ∈ os, (∀ r ∈ o.rotations, r.degree < d.size) ∧
        (o.rotations.map (fun r => xi * d.omega ^ r.signed)).Nodup := by
  have hpart := (C39_partition (fun (o : OracleRand S) => o.1.rotations) (List.zip os rands))
  constructor
  · rintro ⟨r, hr⟩ o ho
    unfold mpFirstRound at hr
    obtain ⟨qes, hqes, hr⟩ := Res.bind_eq_ok.1 hr
    obtain ⟨i, hi, rfl⟩ := List.getElem_of_mem ho
    have hz : (os[i], rands[i]'(by omega)) ∈ List.zip os rands := by
      rw [← List.getElem_zip (h := by simp; omega)]
      exact List.getElem_mem _
    obtain ⟨s, ⟨hs, hos⟩, _⟩ := hpart.2.2.2 _ hz
    have hrot : os[i].rotations = s.1 := by
      rw [(hpart.2.1 s hs).1] at hos
      simpa using (List.mem_filter.1 hos).2
    obtain ⟨j, hj, rfl⟩ := List.getElem_of_mem hs
    have h1 := Res.mapM_getElem hqes j hj
    unfold mpProverSet at h1
    obtain ⟨q, _, h1⟩ := Res.bind_eq_ok.1 h1
    obtain ⟨es, h2, h1⟩ := Res.bind_eq_ok.1 h1
    obtain ⟨h3, h4, _⟩ := (evalSet_iff hd (by simp)).1 h2
    rw [hrot]
    exact ⟨h3, h4⟩
  · intro h
    have hlz : (List.zip os rands).length = os.length := by simp [hlen]
    have hqs : ∃ qes, Res.mapM (mpProverSet (S := S) (powersFrom 1 x1 os.length) xi d.elements)
        (openingSets (fun (o : OracleRand S) => o.1.rotations) (List.zip os rands)) = .ok qes := by
      apply Res.mapM_ok_of
      rintro ⟨rots, set⟩ hs
      obtain ⟨hs1, hs2⟩ := hpart.2.1 _ hs
      simp only at hs1 hs2
      have hle : set.length ≤ os.length := by
        rw [hs1, ← hlz]; exact List.length_filter_le _ _
      obtain ⟨o, ho⟩ := List.exists_mem_of_ne_nil _ hs2
      have ho' := ho
      rw [hs1] at ho'
      have ho1 := List.mem_filter.1 ho'
      have ho2 : o.1.rotations = rots := by simpa using ho1.2
      obtain ⟨g1, g2⟩ := h o.1 (List.of_mem_zip (a := o.1) (b := o.2) ho1.1).1
      rw [ho2] at g1 g2
      have hq : ∃ q, Res.foldM (ε := PiopErr) (fun (acc : List F × S.Rand) (o : OracleRand S × Nat) => do
          let x ← Res.idx (powersFrom 1 x1 os.length) o.2
          pure (dadd acc.1 (dscale x o.1.1.poly), S.addRand acc.2 (S.scaleRand o.1.2 x)))
          ([], S.emptyRand) set.zipIdx = .ok q :=
        ⟨_, Res.foldM_ok_foldl (g := fun (acc : List F × S.Rand) (o : OracleRand S × Nat) =>
          (dadd acc.1 (dscale (1 * x1 ^ o.2) o.1.1.poly), S.addRand acc.2 (S.scaleRand o.1.2 (1 * x1 ^ o.2)))) (by
            intro b a ha
            rw [powersFrom_idx _ _ _ _ (lt_of_lt_of_le (snd_lt_of_mem_zipIdx ha) hle)]
            rfl) _⟩
      obtain ⟨q, hq⟩ := hq
      unfold mpProverSet
      refine ⟨_, Res.bind_eq_ok.2 ⟨q, hq, Res.bind_eq_ok.2 ⟨_, (evalSet_iff hd (by simp)).2 ⟨g1, g2,
        fun p => peval (set.map (fun o => o.1.query p)) x1, ?_, rfl⟩, rfl⟩⟩⟩
      intro p _
      refine aggQuery_iff.2 ⟨hle, _, ?_, rfl⟩
      have hself : ∀ l : List (OracleRand S), List.Forall₂ (fun o y => (.ok (o.1.query p) : Res PiopErr F) = .ok y) l
          (l.map (fun o => o.1.query p)) := by
        intro l
        induction l with
        | nil => exact List.Forall₂.nil
        | cons a l ih => exact List.Forall₂.cons rfl ih
      exact hself set
    obtain ⟨qes, hqes⟩ := hqs
    have hdiv : ∃ fs, Res.mapM (fun (q : (List F × S.Rand) × List (F × F)) =>
        pdiv (ε := PiopErr) q.1.1 (constructVanishing (q.2.map Prod.fst))) qes = .ok fs := by
      apply Res.mapM_ok_of
      intro q _
      unfold pdiv
      cases hl : (trim (constructVanishing (q.2.map Prod.fst))).getLast? with
      | none =>
        exfalso
        have h0 : trim (constructVanishing (q.2.map Prod.fst)) = [] := List.getLast?_eq_none_iff.1 hl
        have h1 : toPoly (constructVanishing (q.2.map Prod.fst)) = 0 := by rw [← toPoly_trim, h0]; rfl
        rw [toPoly_constructVanishing] at h1
        exact (prod_sub_monic _).ne_zero h1
      | some l => exact ⟨_, rfl⟩
    obtain ⟨fs, hfs⟩ := hdiv
    unfold mpFirstRound
    refine ⟨_, Res.bind_eq_ok.2 ⟨_, hqes, Res.bind_eq_ok.2 ⟨_, hfs, Res.bind_eq_ok.2 ⟨_,
      Res.foldM_ok_foldl (g := fun (acc : List F) (p : List F × Nat) => dadd acc (dscale (1 * x2 ^ p.2) p.1)) ?_ _, rfl⟩⟩⟩⟩
    intro b a ha
    rw [powersFrom_idx _ _ _ _ (snd_lt_of_mem_zipIdx ha)]
    rfl

/-- When the verifier computes the values of the quotients, `x3` is no opening point. -/
theorem x3_of_fEvals {d : Domain F} (hd : d.Ok) (qEvals : List F)
    (vs : List (VerifierOracle F S.Comm)) (xi x1 x3 : F)
    (hfull : (openingSets (fun (o : VerifierOracle F S.Comm) => o.rotations) vs).length ≤ qEvals.length)
    {qs : List (S.Comm × List (F × F))} {fs : List F}
    (h1 : Res.mapM (mpVerifierSet (S := S) (powersFrom 1 x1 vs.length) xi d.elements)
      (openingSets (fun (o : VerifierOracle F S.Comm) => o.rotations) vs) = .ok qs)
    (h2 : List.Forall₂ (fun (p : (S.Comm × List (F × F)) × F) v => fEval (ε := PiopErr) x3 p.1.2 p.2 = .ok v)
      (List.zip qs qEvals) fs) :
    ∀ v ∈ vs, ∀ r ∈ v.rotations, x3 ≠ xi * d.omega ^ r.signed := by
  intro v hv r hr he
  have hpart := C39_partition (fun (o : VerifierOracle F S.Comm) => o.rotations) vs
  obtain ⟨s, ⟨hs, hvs⟩, _⟩ := hpart.2.2.2 v hv
  have hrot : v.rotations = s.1 := by
    rw [(hpart.2.1 s hs).1] at hvs
    simpa using (List.mem_filter.1 hvs).2
  obtain ⟨j, hj, rfl⟩ := List.getElem_of_mem hs
  have h3 := Res.mapM_getElem h1 j hj
  have hlq := Res.mapM_length h1
  unfold mpVerifierSet at h3
  obtain ⟨c, _, h3⟩ := Res.bind_eq_ok.1 h3
  obtain ⟨es, h4, h3⟩ := Res.bind_eq_ok.1 h3
  obtain ⟨_, h5, g, _, h6⟩ := (evalSet_iff hd (by simp)).1 h4
  have h3 := Res.ok.inj h3
  have hjz : j < (List.zip qs qEvals).length := by rw [List.length_zip]; omega
  have h7 := (List.forall₂_iff_get.1 h2).2 j hjz (by rw [← h2.length_eq]; exact hjz)
  simp only [List.get_eq_getElem, List.getElem_zip] at h7
  rw [← h3, h6] at h7
  have hsort := setExtend_sorted (s := []) (l := points d xi (openingSets (fun (o : VerifierOracle F S.Comm) => o.rotations) vs)[j].1)
    List.Pairwise.nil
  have hnd' := hsort.imp (fun h => h.ne)
  obtain ⟨R, hR1, hR2⟩ : ∃ R : F[X], R.degree < (setExtend [] (points d xi (openingSets
      (fun (o : VerifierOracle F S.Comm) => o.rotations) vs)[j].1)).length ∧
      ∀ k ∈ setExtend [] (points d xi (openingSets (fun (o : VerifierOracle F S.Comm) => o.rotations) vs)[j].1), R.eval k = g k := by
    refine ⟨Lagrange.interpolate (setExtend [] (points d xi (openingSets
      (fun (o : VerifierOracle F S.Comm) => o.rotations) vs)[j].1)).toFinset id g, ?_, ?_⟩
    · have := Lagrange.degree_interpolate_lt (s := (setExtend [] (points d xi (openingSets
        (fun (o : VerifierOracle F S.Comm) => o.rotations) vs)[j].1)).toFinset) (v := id) g (fun _ _ _ _ h => h)
      rwa [List.toFinset_card_of_nodup hnd'] at this
    · intro k hk
      exact Lagrange.eval_interpolate_at_node (v := id) g (fun _ _ _ _ h => h) (List.mem_toFinset.2 hk)
  have h8 := ((fEval_iff x3 _ hnd' g _ _ R hR1 hR2).1 h7).1
  apply h8
  rw [mem_setExtend]
  refine .inr (List.mem_map.2 ⟨r, ?_, he.symm⟩)
  rw [← hrot]; exact hr

/-- **C35** (second exception) With a full list of values the verifier never accepts when `x3` is an opening point. -/
theorem C35_x3_never_an_opening_point {d : Domain F} (hd : d.Ok) (proof : MpProof S)
    (vs : List (VerifierOracle F S.Comm)) (xi x1 x2 x3 x4 : F)
    (hfull : (openingSets (fun (o : VerifierOracle F S.Comm) => o.rotations) vs).length ≤ proof.qEvals.length)
    (h : mpVerifyWith S vk proof vs xi d x1 x2 x3 x4 = .ok ()) :
    ∀ v ∈ vs, ∀ r ∈ v.rotations, x3 ≠ xi * d.omega ^ r.signed := by
  obtain ⟨_, qs, fs, h1, h2, _⟩ := mpVerifyWith_iff.1 h
  rw [List.take_of_length_le hfull] at h1
  exact x3_of_fEvals hd proof.qEvals vs xi x1 x3 hfull h1 h2

/-! ### C36 -/

theorem mapInsert_fresh {κ β : Type} [LinearOrder κ] (k : κ) (v : β) (m : List (κ × β)) (h : k ∉ m.map Prod.fst) :
    ∃ m', mapInsert k v m = (m', none) ∧ ∀ a ∈ m'.map Prod.fst, a = k ∨ a ∈ m.map Prod.fst := by
  induction m with
  | nil => exact ⟨_, rfl, by simp⟩
  | cons p m ih =>
    obtain ⟨a, b⟩ := p
    simp only [List.map_cons, List.mem_cons, not_or] at h
    simp only [mapInsert]
    split
    · exact ⟨_, rfl, by simp⟩
    · split
      · obtain ⟨m', h1, h2⟩ := ih h.2
        rw [h1]
        refine ⟨_, rfl, ?_⟩
        intro c hc
        simp only [List.map_cons, List.mem_cons] at hc ⊢
        rcases hc with rfl | hc
        · exact .inr (.inl rfl)
        · rcases h2 c hc with h | h
          · exact .inl h
          · exact .inr (.inr h)
      · rename_i h1 h2
        exact absurd (le_antisymm (not_lt.1 h2) (not_lt.1 h1)) h.1

theorem foldM_no_panic {ε α β : Type} {f : β → α → Res ε β} {l : List α} (h : ∀ b, ∀ a ∈ l, f b a ≠ .panic) (b : β) :
    Res.foldM f b l ≠ .panic := by
  induction l generalizing b with
  | nil => simp
  | cons a l ih =>
    rw [Res.foldM_cons, ne_eq, Res.bind_eq_panic]
    rintro (h1 | ⟨c, _, h1⟩)
    · exact h b a (by simp) h1
    · exact ih (fun b a ha => h b a (by simp [ha])) c h1

theorem verifierSet_no_panic {d : Domain F} (hd : d.Ok) {xi x1 : F} {n : Nat} {rots : List Rotation}
    {vs : List (VerifierOracle F S.Comm)} (hn : vs.length ≤ n) (hr : ∀ r ∈ rots, r.degree < d.size)
    (hnd : (rots.map (fun r => xi * d.omega ^ r.signed)).Nodup) :
    mpVerifierSet (S := S) (powersFrom 1 x1 n) xi d.elements (rots, vs) ≠ .panic := by
  unfold mpVerifierSet
  have hidx : ∀ (o : VerifierOracle F S.Comm × Nat), o ∈ vs.zipIdx →
      (Res.idx (powersFrom 1 x1 n) o.2 : Res PiopErr F) = .ok (1 * x1 ^ o.2) := fun o ho =>
    powersFrom_idx _ _ _ _ (lt_of_lt_of_le (snd_lt_of_mem_zipIdx ho) hn)
  have hagg : ∀ p, aggQuery (fun (o : VerifierOracle F S.Comm) p => o.query p) (powersFrom 1 x1 n) vs p ≠ .panic := by
    intro p
    unfold aggQuery
    apply foldM_no_panic
    intro b a ha
    simp only [hidx a ha, Res.bind_ok]
    unfold VerifierOracle.query
    split <;> simp
  rw [ne_eq, Res.bind_eq_panic, not_or]
  constructor
  · apply foldM_no_panic
    intro b a ha
    simp only [hidx a ha]
    unfold VerifierOracle.getCommitment
    split <;> simp
  · rintro ⟨q, _, h⟩
    rw [Res.bind_eq_panic] at h
    rcases h with h | ⟨es, _, h⟩
    · have key : ∀ (rots : List Rotation) (m : List (F × F)), (∀ r ∈ rots, r.degree < d.size) →
          (rots.map (fun r => xi * d.omega ^ r.signed)).Nodup →
          (∀ r ∈ rots, xi * d.omega ^ r.signed ∉ m.map Prod.fst) →
          Res.foldM (fun (m : List (F × F)) (r : Rotation) => do
            let p ← r.point xi d.elements
            let v ← aggQuery (fun (o : VerifierOracle F S.Comm) p => o.query p) (powersFrom 1 x1 n) vs p
            match mapInsert p v m with
            | (m', none) => .ok m'
            | (_, some _) => .panic) m rots ≠ .panic := by
        intro rots
        induction rots with
        | nil => intro m _ _ _; simp
        | cons r rots ih =>
          intro m h1 h2 h3
          rw [List.map_cons, List.nodup_cons] at h2
          rw [Res.foldM_cons, Rotation.point_ok hd r xi (h1 r (by simp))]
          simp only [Res.bind_ok, ne_eq, Res.bind_eq_panic, not_or]
          refine ⟨⟨hagg _, ?_⟩, ?_⟩
          · rintro ⟨v, _, hv⟩
            obtain ⟨m', e, _⟩ := mapInsert_fresh _ v m (h3 r (by simp))
            rw [e] at hv
            simp at hv
          · rintro ⟨m1, hm1, hm2⟩
            obtain ⟨v, _, hv⟩ := Res.bind_eq_ok.1 hm1
            obtain ⟨m', e, he⟩ := mapInsert_fresh _ v m (h3 r (by simp))
            rw [e] at hv
            obtain rfl := Res.ok.inj hv
            refine ih m' (fun r' hr' => h1 r' (by simp [hr'])) h2.2 ?_ hm2
            intro r' hr' hm
            rcases he _ hm with h | h
            · exact h2.1 (List.mem_map.2 ⟨r', hr', h⟩)
            · exact h3 r' (by simp [hr']) h
      exact key rots [] hr hnd (by simp) h
    · simp at h

/-- **C36** is false: a proof without any `q` evaluation is accepted for every list of oracles, whatever their
commitments (which may even be missing) and claimed evaluations, as soon as the scheme accepts that the committed
`f` is zero at `x3`. No opening set is checked. -/
theorem C36_empty_proof_accepted {d : Domain F} (hd : d.Ok) (vs : List (VerifierOracle F S.Comm)) (xi x1 x2 x3 x4 : F)
    (hr : ∀ v ∈ vs, ∀ r ∈ v.rotations, r.degree < d.size)
    (hnd : ∀ v ∈ vs, (v.rotations.map (fun r => xi * d.omega ^ r.signed)).Nodup) (f : S.Comm) (pf : S.Proof) :
    mpVerifyWith S vk ⟨[], f, pf⟩ vs xi d x1 x2 x3 x4 = .ok () ↔ S.check vk f x3 0 pf = .ok true := by
  rw [mpVerifyWith_iff]
  have hpart := (C39_partition (fun (o : VerifierOracle F S.Comm) => o.rotations) vs).2.1
  constructor
  · rintro ⟨_, qs, fs, h1, h2, h3⟩
    simp only [List.length_nil, List.take_zero, Res.mapM_nil, Res.ok.injEq] at h1
    subst h1
    cases h2
    simpa [finalComm] using h3
  · intro h
    refine ⟨?_, [], [], rfl, List.Forall₂.nil, by simpa [finalComm] using h⟩
    rintro ⟨rots, set⟩ hs
    obtain ⟨h1, h2⟩ := hpart _ (List.mem_of_getElem? hs)
    obtain ⟨o, ho⟩ := List.exists_mem_of_ne_nil _ h2
    rw [h1] at ho
    obtain ⟨ho1, ho2⟩ := List.mem_filter.1 ho
    have ho2 : o.rotations = rots := by simpa using ho2
    apply verifierSet_no_panic hd
    · simp only at h1
      rw [h1]; exact List.length_filter_le _ _
    · rw [← ho2]; exact hr o ho1
    · rw [← ho2]; exact hnd o ho1

end

/-! A concrete case: two polynomials with different rotation sets over `F97`. -/
namespace Toy

def open1 : ProverOracle F97 := ⟨.witness, [1], [3, 1, 4, 1], [], none, [.curr, .next], false⟩
def open2 : ProverOracle F97 := ⟨.witness, [2], [5, 9, 2], [], none, [.curr], false⟩
def openXi : F97 := 17
def openV (o : ProverOracle F97) : VerifierOracle F97 (List F97) :=
  ⟨.witness, o.label, o.rotations, o.rotations.map (fun r =>
    let x := if r = .next then openXi * dom.omega else openXi
    (x, peval o.poly x)), some (trim o.poly), false⟩

def openAccepted (q : MpProof S → Bool) : Bool :=
  match mpProve S () [open1, open2] [(), ()] openXi 4 [1] () with
  | .ok p => q p
  | _ => false

/-- The hypotheses of C35 hold and its conclusion is about an existing proof. -/
theorem open_example : Domain.new (F := F97) 4 = some dom ∧
    List.Forall₂ (OpeningPair S (fun p _ => coeffs p) dom openXi) (List.zip [open1, open2] [(), ()]) [openV open1, openV open2] ∧
    ∃ p, mpProve S () [open1, open2] [(), ()] openXi 4 [1] () = .ok p ∧
      (∀ o ∈ [open1, open2], ∀ r ∈ o.rotations, (mpChallenges S p [1]).2.2.1 ≠ openXi * dom.omega ^ r.signed) ∧
      mpVerify S () p [openV open1, openV open2] openXi 4 [1] = .ok () := by
  have hd : Domain.new (F := F97) 4 = some dom := by decide +kernel
  have hpt : ∀ r : Rotation, r = .curr ∨ r = .next →
      openXi * dom.omega ^ r.signed = if r = .next then openXi * dom.omega else openXi := by
    rintro r (rfl | rfl) <;> simp [Rotation.signed, Rotation.curr, Rotation.next]
  have hpair : ∀ o : ProverOracle F97, (∀ r ∈ o.rotations, r = .curr ∨ r = .next) →
      (∀ r ∈ o.rotations, (openV o).query (if r = .next then openXi * dom.omega else openXi)
        = .ok (peval o.poly (if r = .next then openXi * dom.omega else openXi))) →
      OpeningPair S (fun p _ => coeffs p) dom openXi (o, ()) (openV o) := by
    intro o ho he
    refine ⟨rfl, ?_, ?_⟩
    · simp only [coeffs_toPoly]; rfl
    · intro r hr
      rw [hpt r (ho r hr), ← peval_eq_eval]
      exact he r hr
  have hc : List.Forall₂ (OpeningPair S (fun p _ => coeffs p) dom openXi) (List.zip [open1, open2] [(), ()])
      [openV open1, openV open2] :=
    List.Forall₂.cons (hpair _ (by decide) (by decide +kernel))
      (List.Forall₂.cons (hpair _ (by decide) (by decide +kernel)) List.Forall₂.nil)
  have hx : openAccepted (fun p => decide (∀ o ∈ [open1, open2], ∀ r ∈ o.rotations, (mpChallenges S p [1]).2.2.1
      ≠ if r = .next then openXi * dom.omega else openXi)) = true := by decide +kernel
  unfold openAccepted at hx
  split at hx
  · rename_i p hp
    have hx := of_decide_eq_true hx
    have hx3 : ∀ o ∈ [open1, open2], ∀ r ∈ o.rotations, (mpChallenges S p [1]).2.2.1 ≠ openXi * dom.omega ^ r.signed := by
      intro o ho r hr
      have : r = .curr ∨ r = .next := by
        revert r
        have : ∀ o ∈ [open1, open2], ∀ r ∈ o.rotations, r = .curr ∨ r = .next := by decide
        exact fun r hr => this o ho r hr
      rw [hpt r this]
      exact hx o ho r hr
    exact ⟨hd, hc, p, hp, hx3, C35_completeness (ideal_homomorphic _ _) 4 dom hd _ _ _ openXi [1] () p rfl hc hp hx3⟩
  · simp at hx

end Toy
end ZK
