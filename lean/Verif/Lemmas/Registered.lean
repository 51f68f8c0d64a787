import Verif.Lemmas.Complete
import Verif.Lemmas.Verify
import Verif.Properties.Registry
import Verif.Properties.Transcript
/-! What the verifier has registered after reading an honest proof. -/
set_option autoImplicit false
set_option linter.unusedSectionVars false
namespace ZK
open Polynomial

section
variable {F : Type} [Field F] [LinearOrder F] [FftParams F] [LawfulFft F]

omit [LawfulFft F] [FftParams F] in
theorem evaluateQuerySet_eps {ε ε' : Type} {os : List (ProverOracle F)} {qs : List (Query F)} {evs : List F}
    (h : evaluateQuerySet (ε := ε) os qs = .ok evs) : evaluateQuerySet (ε := ε') os qs = .ok evs := by
  unfold evaluateQuerySet at h ⊢
  rw [Res.mapM_eq_ok] at h ⊢
  refine h.imp ?_
  intro q e
  cases findOracle os (ofLex q).1 <;> simp

theorem getQuerySet_eps {ε ε' O : Type} [ConcreteOracle O] {d : Domain F} (hd : d.Ok) {os : List O} {l : Label} {x : F}
    (hr : ∀ o ∈ os, ∀ r ∈ ConcreteOracle.rotations o, r.degree < d.size) {qs : List (Query F)}
    (h : getQuerySet (ε := ε) os l x d.elements = .ok qs) : getQuerySet (ε := ε') os l x d.elements = .ok qs := by
  obtain ⟨q1, h1, h2, h3⟩ := getQuerySet_ok (ε := ε) hd os l x hr
  obtain ⟨q2, h4, h5, h6⟩ := getQuerySet_ok (ε := ε') hd os l x hr
  rw [h1] at h
  obtain ⟨⟩ := Res.ok.inj h
  rw [h4, sorted_ext h5 h2 (fun a => (h6 a).trans (h3 a).symm)]

/-- A prover oracle with its randomness, and the verifier's oracle after registration. -/
structure Told (S : Scheme F) (com : F[X] → S.Rand → S.Comm) (d : Domain F) (xi : F)
    (o : ProverOracle F × S.Rand) (v : VerifierOracle F S.Comm) : Prop extends OpeningPair S com d xi o v where
  label : v.label = o.1.label
  permute : v.shouldPermute = o.1.shouldPermute

omit [LawfulFft F] in
theorem Told.unrotated {S : Scheme F} {com : F[X] → S.Rand → S.Comm} {d : Domain F} {xi : F}
    {o : ProverOracle F × S.Rand} {v : VerifierOracle F S.Comm} (h : Told S com d xi o v) (hu : OpenedUnrotated o.1) :
    v.query xi = .ok ((toPoly o.1.poly).eval xi) := by
  obtain ⟨r, hr, h0⟩ := hu
  have := h.evals r hr
  have hs : r.signed = 0 := by unfold Rotation.signed; cases r.sign <;> simp [h0]
  rwa [hs, zpow_zero, mul_one] at this

omit [LinearOrder F] [FftParams F] [LawfulFft F] in
theorem forall₂_zip {α β γ : Type} {R : α × β → γ → Prop} {as : List α} {bs : List β} {cs : List γ}
    (h : List.Forall₂ R (List.zip as bs) cs) (hlen : as.length = bs.length) :
    cs.length = as.length ∧ ∀ (i : Nat) (a : α) (b : β) (c : γ), as[i]? = some a → bs[i]? = some b → cs[i]? = some c → R (a, b) c := by
  have h1 := h.length_eq
  rw [List.length_zip, ← hlen, Nat.min_self] at h1
  refine ⟨h1.symm, ?_⟩
  intro i a b c ha hb hc
  obtain ⟨p, hp, hr⟩ := Forall₂.right h hc
  rw [List.getElem?_zip_eq_some] at hp
  obtain ⟨hp1, hp2⟩ := hp
  rw [ha] at hp1; rw [hb] at hp2
  obtain ⟨x, y⟩ := p
  simp only [Option.some.injEq] at hp1 hp2
  rw [hp1, hp2]; exact hr

/-- Registering the prover's evaluations. -/
theorem register_told {S : Scheme F} {com : F[X] → S.Rand → S.Comm} {d : Domain F} (hd : d.Ok) (missing : Label → PiopErr)
    {os : List (ProverOracle F)} {rs : List S.Rand} {vs : List (VerifierOracle F S.Comm)} {xi : F}
    (hlen : os.length = rs.length)
    (hR : List.Forall₂ (fun (p : ProverOracle F × S.Rand) v => SameConfig p.1 v ∧
      v.commitment = some (com (toPoly p.1.poly) p.2)) (List.zip os rs) vs)
    (hnd : (os.map (·.label)).Nodup) (hr : ∀ o ∈ os, ∀ r ∈ o.rotations, r.degree < d.size) {ε : Type} {evs : List F}
    (hev : ∃ qs, getQuerySet (ε := ε) os xiLabel xi d.elements = .ok qs ∧ evaluateQuerySet (ε := ε) os qs = .ok evs) :
    ∃ vs', registerAll missing vs xi d.elements evs = .ok vs' ∧ List.Forall₂ (Told S com d xi) (List.zip os rs) vs' := by
  obtain ⟨hvl, hR'⟩ := forall₂_zip hR hlen
  have hc : List.Forall₂ Corresponds os vs := by
    refine forall₂_of_getElem? hvl.symm ?_
    intro i o v ho hv
    have hi := getElem?_some_lt ho
    have := (hR' i o _ v ho (List.getElem?_eq_getElem (by omega)) hv).1
    exact ⟨this.1, this.2.1⟩
  obtain ⟨qs, evs', vs', h1, h2, h3, h4, h5⟩ := C34_evaluations d hd missing os vs xi hc hnd hr
  obtain ⟨qs', h6, h7⟩ := hev
  rw [getQuerySet_eps hd hr h6] at h1
  obtain ⟨⟩ := Res.ok.inj h1
  rw [evaluateQuerySet_eps h7] at h2
  obtain ⟨⟩ := Res.ok.inj h2
  refine ⟨vs', h3, forall₂_of_getElem? ?_ ?_⟩
  · rw [List.length_zip, h4, hvl]; omega
  · rintro i ⟨o, r⟩ v' hp hv'
    rw [List.getElem?_zip_eq_some] at hp
    have hi := getElem?_some_lt hp.1
    have hv : vs[i]? = some vs[i] := List.getElem?_eq_getElem (by omega)
    obtain ⟨h8, h9⟩ := h5 i o _ v' hp.1 hv hv'
    obtain ⟨⟨c1, c2, c3⟩, c4⟩ := hR' i o r _ hp.1 hp.2 hv
    have e1 := congrArg VerifierOracle.label h8
    have e2 := congrArg VerifierOracle.rotations h8
    have e3 := congrArg VerifierOracle.shouldPermute h8
    have e4 := congrArg VerifierOracle.commitment h8
    simp only at e1 e2 e3 e4
    refine ⟨⟨e2.trans c2, e4.trans c4, ?_⟩, e1.trans c1, e3.trans c3⟩
    intro rot hrot
    rw [h9, if_pos (List.mem_map_of_mem hrot)]

omit [LinearOrder F] [FftParams F] [LawfulFft F] in
theorem registerCommitments_forall₂ {C α : Type} {os : List (ProverOracle F)} {vs : List (VerifierOracle F C)}
    {cs : List (C × α)} {Q : ProverOracle F → C × α → Prop} (h1 : List.Forall₂ SameConfig os vs) (h2 : List.Forall₂ Q os cs) :
    List.Forall₂ (fun (p : ProverOracle F × α) v => SameConfig p.1 v ∧ ∃ c, v.commitment = some c ∧ Q p.1 (c, p.2))
      (List.zip os (cs.map Prod.snd)) (registerCommitments vs (cs.map Prod.fst)) := by
  induction h1 generalizing cs with
  | nil => cases h2; exact List.Forall₂.nil
  | cons h h1 ih =>
    cases h2 with
    | cons hq h2 => exact List.Forall₂.cons ⟨h, _, rfl, hq⟩ (ih h2)

omit [LinearOrder F] [FftParams F] [LawfulFft F] in
theorem forall₂_filter {α β : Type} {R : α → β → Prop} {p : α → Bool} {q : β → Bool} {l : List α} {m : List β}
    (h : List.Forall₂ R l m) (hR : ∀ a b, R a b → q b = p a) : List.Forall₂ R (l.filter p) (m.filter q) := by
  induction h with
  | nil => exact List.Forall₂.nil
  | cons h _ ih =>
    rw [List.filter_cons, List.filter_cons, hR _ _ h]
    split
    · exact List.Forall₂.cons h ih
    · exact ih

omit [LinearOrder F] [FftParams F] [LawfulFft F] in
/-- Dropping the randomness. -/
theorem forall₂_unzip {α β γ : Type} {R : α × β → γ → Prop} {Q : α → γ → Prop} {as : List α} {bs : List β} {cs : List γ}
    (h : List.Forall₂ R (List.zip as bs) cs) (hlen : as.length = bs.length) (hQ : ∀ a b c, R (a, b) c → Q a c) :
    List.Forall₂ Q as cs := by
  obtain ⟨h1, h2⟩ := forall₂_zip h hlen
  refine forall₂_of_getElem? h1.symm ?_
  intro i a c ha hc
  have hi := getElem?_some_lt ha
  exact hQ _ _ _ (h2 i a _ c ha (List.getElem?_eq_getElem (by omega)) hc)

omit [LinearOrder F] [FftParams F] [LawfulFft F] in
theorem zip_replicate {α β : Type} (as : List α) (b : β) : List.zip as (List.replicate as.length b) = as.map (·, b) := by
  induction as with
  | nil => rfl
  | cons a as ih => simp [List.replicate_succ, ih]

omit [LinearOrder F] [FftParams F] [LawfulFft F] in
/-- Commitments of pairs of oracles come in pairs. -/
theorem forall₂_pairs {α β : Type} {R : β → α → Prop} {ls : List (LookupOracles β)} {cs : List α}
    (h : List.Forall₂ R (primes ls) cs) : ∃ ps : List (α × α), cs = ps.flatMap (fun p => [p.1, p.2]) ∧
      List.Forall₂ (fun l p => R l.aPrime p.1 ∧ R l.sPrime p.2) ls ps := by
  induction ls generalizing cs with
  | nil =>
    cases h
    exact ⟨[], rfl, List.Forall₂.nil⟩
  | cons l ls ih =>
    unfold primes at h
    rw [List.flatMap_cons] at h
    cases h with
    | cons h1 h =>
      cases h with
      | cons h2 h =>
        obtain ⟨ps, rfl, hps⟩ := ih h
        exact ⟨(_, _) :: ps, rfl, List.Forall₂.cons ⟨h1, h2⟩ hps⟩

omit [Field F] [LinearOrder F] [FftParams F] [LawfulFft F] in
theorem forall₂_primes {S' α β γ : Type} {R : β × α → γ → Prop} {rl : List (LookupOracles β)} {cs : List ((S' × α) × (S' × α))}
    {ls : List (LookupOracles γ)}
    (h : List.Forall₂ (fun (pc : LookupOracles β × ((S' × α) × (S' × α))) l => R (pc.1.aPrime, pc.2.1.2) l.aPrime ∧
      R (pc.1.sPrime, pc.2.2.2) l.sPrime) (List.zip rl cs) ls) (hlen : rl.length = cs.length) :
    List.Forall₂ R (List.zip (primes rl) ((cs.flatMap (fun p => [p.1, p.2])).map Prod.snd)) (primes ls) := by
  induction rl generalizing cs ls with
  | nil => cases h; exact List.Forall₂.nil
  | cons p rl ih =>
    cases cs with
    | nil => simp at hlen
    | cons c cs =>
      rw [List.zip_cons_cons] at h
      cases h with
      | cons h1 h2 => exact List.Forall₂.cons h1.1 (List.Forall₂.cons h1.2 (ih h2 (by simpa using hlen)))

/-- An honest run of the prover and the proof made from it. -/
structure HonestProof (S : Scheme F) (com : F[X] → S.Rand → S.Comm) (d : Domain F) (index : Index F) (v : ProverView F)
    (pre : ProverPreprocessed S) (ch : Challenges F) (r : ProverRounds F) (quotient : List (ProverOracle F))
    (wc lc zc lzc qc : List (S.Comm × S.Rand)) (proof : TPProof S) : Prop where
  fixed : v.fixed = pre.fixed
  table : v.table = pre.table
  ran : RoundsRan S d index v pre.perm ch.theta ch.beta ch.gamma r
  wcOk : List.Forall₂ (fun (o : ProverOracle F) (c : S.Comm × S.Rand) => c.1 = com (toPoly o.poly) c.2) v.witness wc
  lcOk : List.Forall₂ (fun (o : ProverOracle F) (c : S.Comm × S.Rand) => c.1 = com (toPoly o.poly) c.2) (primes r.lookups) lc
  zcOk : List.Forall₂ (fun (o : ProverOracle F) (c : S.Comm × S.Rand) => c.1 = com (toPoly o.poly) c.2) r.zs zc
  lzcOk : List.Forall₂ (fun (o : ProverOracle F) (c : S.Comm × S.Rand) => c.1 = com (toPoly o.poly) c.2) r.lookupZs lzc
  qcOk : List.Forall₂ (fun (o : ProverOracle F) (c : S.Comm × S.Rand) => c.1 = com (toPoly o.poly) c.2) quotient qc
  witnessCommitments : proof.witnessCommitments = wc.map Prod.fst
  lookupCommitments : proof.lookupCommitments = lc.map Prod.fst
  zCommitments : proof.zCommitments = zc.map Prod.fst
  lookupZCommitments : proof.lookupZCommitments = lzc.map Prod.fst
  quotientCommitments : proof.quotientCommitments = qc.map Prod.fst
  evals : EvaluatedAt S pre d ch.xi v r quotient proof
  quotient : ∀ o ∈ quotient, o.rotations = setExtend [] [Rotation.curr]
  usable : index.perm.usableRows < d.size

omit [LinearOrder F] [FftParams F] [LawfulFft F] in
theorem query_head [DecidableEq F] {C : Type} (o : VerifierOracle F C) (x e : F) : (o.registerEval x e).query x = .ok e := by
  simp [VerifierOracle.registerEval, VerifierOracle.query, assocGet]

omit [LinearOrder F] [FftParams F] [LawfulFft F] in
theorem query_two [DecidableEq F] {C : Type} {o : VerifierOracle F C} {a b x : F} (f : F → F)
    (h : o.evals = [(a, f a), (b, f b)]) (hx : x = a ∨ x = b) : o.query x = .ok (f x) := by
  unfold VerifierOracle.query
  rw [h]
  simp only [assocGet]
  by_cases h1 : x = a
  · subst h1; simp
  · rcases hx with hx | hx
    · exact absurd hx h1
    · subst hx; simp [h1]

theorem curr_rotations : setExtend [] [Rotation.curr] = [Rotation.curr] := rfl

theorem curr_next_rotations : ∀ r, r ∈ setExtend [] [Rotation.curr, Rotation.next] ↔ r = Rotation.curr ∨ r = Rotation.next := by
  intro r; simp [mem_setExtend]

theorem curr_prev_rotations : ∀ r, r ∈ setExtend [] [Rotation.curr, Rotation.prev] ↔ r = Rotation.curr ∨ r = Rotation.prev := by
  intro r; simp [mem_setExtend]

theorem signed_curr : Rotation.curr.signed = 0 := rfl
theorem signed_next : Rotation.next.signed = 1 := rfl
theorem signed_prev : Rotation.prev.signed = -1 := rfl

section
variable {S : Scheme F} {com : F[X] → S.Rand → S.Comm} {d : Domain F} {index : Index F} {v : ProverView F}
    {pre : ProverPreprocessed S} {ch : Challenges F} {r : ProverRounds F} {quotient : List (ProverOracle F)}
    {wc lc zc lzc qc : List (S.Comm × S.Rand)} {proof : TPProof S} {vos : List (GenericVO F)}
    (h : HonestProof S com d index v pre ch r quotient wc lc zc lzc qc proof)

include h in
omit [LawfulFft F] in
/-- The quotient oracles of the verifier. -/
theorem HonestProof.quotient_ok : ∃ qs, Res.mapM (fun (p : S.Comm × Nat) => do
      let e ← Res.idx proof.quotientEvals p.2
      pure (⟨.witness, bytes "quotient_chunk_" ++ natBytes p.2, setExtend [] [Rotation.curr],
        [(ch.xi, e)], some p.1, false⟩ : VerifierOracle F S.Comm)) proof.quotientCommitments.zipIdx
      = (.ok qs : Res (Err S.E) _) ∧
    List.Forall₂ (fun (o : ProverOracle F × S.Rand) (v : VerifierOracle F S.Comm) => OpeningPair S com d ch.xi o v ∧
      v.query ch.xi = .ok ((toPoly o.1.poly).eval ch.xi)) (List.zip quotient (qc.map Prod.snd)) qs := by
  have hl := h.qcOk.length_eq
  have hstep : ∀ (i : Nat) (o : ProverOracle F) (c : S.Comm × S.Rand), quotient[i]? = some o → qc[i]? = some c →
      (Res.idx proof.quotientEvals i : Res (Err S.E) F) = .ok ((toPoly o.poly).eval ch.xi) := by
    intro i o c ho hc
    rw [h.evals.quotient, Res.idx_eq_ok, List.getElem?_map, ho, eval_toPoly]
    rfl
  obtain ⟨qs, hqs⟩ := Res.mapM_ok_of (f := (fun (p : S.Comm × Nat) => do
      let e ← Res.idx proof.quotientEvals p.2
      (pure (⟨.witness, bytes "quotient_chunk_" ++ natBytes p.2, setExtend [] [Rotation.curr],
        [(ch.xi, e)], some p.1, false⟩ : VerifierOracle F S.Comm) : Res (Err S.E) _)))
      (l := proof.quotientCommitments.zipIdx) (by
    intro p hp
    rw [h.quotientCommitments] at hp
    obtain ⟨i, hi⟩ := List.getElem?_of_mem hp
    rw [List.getElem?_zipIdx, List.getElem?_map, Option.map_map, Option.map_eq_some_iff] at hi
    obtain ⟨c, hc, rfl⟩ := hi
    obtain ⟨o, ho, -⟩ := Forall₂.right h.qcOk hc
    simp only [Function.comp, Nat.zero_add]
    rw [hstep i o c ho hc]
    exact ⟨_, rfl⟩)
  refine ⟨qs, hqs, ?_⟩
  rw [Res.mapM_eq_ok, h.quotientCommitments] at hqs
  have hql := hqs.length_eq
  rw [List.length_zipIdx, List.length_map] at hql
  refine forall₂_of_getElem? (by rw [List.length_zip, List.length_map]; omega) ?_
  rintro i ⟨o, rr⟩ q hp hq
  rw [List.getElem?_zip_eq_some, List.getElem?_map, Option.map_eq_some_iff] at hp
  obtain ⟨ho, c, hc, rfl⟩ := hp
  simp only at ho
  obtain ⟨c', hc', hcom⟩ := Forall₂.left h.qcOk ho
  obtain rfl := Option.some.inj (hc.symm.trans hc')
  obtain ⟨p, hp, hf⟩ := Forall₂.right hqs hq
  rw [List.getElem?_zipIdx, List.getElem?_map, hc] at hp
  simp only [Option.map_some, Nat.zero_add, Option.some.injEq] at hp
  subst hp
  simp only [hstep i o c ho hc, Res.bind_ok, Res.pure_eq, Res.ok.injEq] at hf
  subst hf
  have hrot := h.quotient o (List.mem_of_getElem? ho)
  have hq1 : ∀ (a : VerifierOracle F S.Comm), a.evals = [(ch.xi, (toPoly o.poly).eval ch.xi)] →
      a.query ch.xi = .ok ((toPoly o.poly).eval ch.xi) := by
    intro a ha; simp [VerifierOracle.query, ha, assocGet]
  refine ⟨⟨hrot.symm, by rw [hcom], ?_⟩, hq1 _ rfl⟩
  intro ro hro
  rw [hrot, curr_rotations, List.mem_singleton] at hro
  subst hro
  rw [signed_curr, zpow_zero, mul_one]
  exact hq1 _ rfl

include h in
omit [LawfulFft F] in
/-- The grand product oracles of the lookups. -/
theorem HonestProof.lookupZs_ok : ∃ zs, Res.mapM (verifierLookupZ ch.xi (d.element 1))
      (List.zip proof.lookupZCommitments (chunks 2 proof.lookupZEvals)).zipIdx = (.ok zs : Res (Err S.E) _) ∧
    List.Forall₂ (fun (o : ProverOracle F × S.Rand) (v : VerifierOracle F S.Comm) => OpeningPair S com d ch.xi o v ∧
      v.query ch.xi = .ok ((toPoly o.1.poly).eval ch.xi) ∧
      v.query (d.omega * ch.xi) = .ok ((toPoly o.1.poly).eval (d.omega * ch.xi))) (List.zip r.lookupZs (lzc.map Prod.snd)) zs := by
  have hl := h.lzcOk.length_eq
  have hel : d.element 1 = d.omega := by simp [Domain.element]
  have hin : (List.zip proof.lookupZCommitments (chunks 2 proof.lookupZEvals))
      = List.zipWith (fun (c : S.Comm × S.Rand) (o : ProverOracle F) => (c.1, [(toPoly o.poly).eval ch.xi,
      (toPoly o.poly).eval (ch.xi * d.omega)])) lzc r.lookupZs := by
    rw [h.lookupZCommitments, h.evals.lookupZs, (C34_lookup_evaluations [] r.lookupZs ch.xi (d.element 1) 0).2, hel,
      List.zip_map, List.zip, List.map_zipWith]
    rfl
  have hget : ∀ (i : Nat) (o : ProverOracle F) (c : S.Comm × S.Rand), r.lookupZs[i]? = some o → lzc[i]? = some c →
      (List.zip proof.lookupZCommitments (chunks 2 proof.lookupZEvals)).zipIdx[i]? = some ((c.1, [(toPoly o.poly).eval ch.xi,
      (toPoly o.poly).eval (ch.xi * d.omega)]), i) := by
    intro i o c ho hc
    rw [List.getElem?_zipIdx, hin, List.getElem?_zipWith, ho, hc]
    simp
  have hlen : (List.zip proof.lookupZCommitments (chunks 2 proof.lookupZEvals)).zipIdx.length = lzc.length := by
    rw [List.length_zipIdx, hin, List.length_zipWith]; omega
  obtain ⟨zs, hzs⟩ := Res.mapM_ok_of (f := verifierLookupZ (S := S) ch.xi (d.element 1))
      (l := (List.zip proof.lookupZCommitments (chunks 2 proof.lookupZEvals)).zipIdx) (by
    intro p hp
    obtain ⟨i, hi⟩ := List.getElem?_of_mem hp
    have hil := getElem?_some_lt hi
    rw [hlen] at hil
    rw [hget i r.lookupZs[i] lzc[i] (List.getElem?_eq_getElem (by omega)) (List.getElem?_eq_getElem hil)] at hi
    obtain ⟨⟩ := Option.some.inj hi
    exact ⟨_, rfl⟩)
  refine ⟨zs, hzs, ?_⟩
  rw [Res.mapM_eq_ok] at hzs
  refine forall₂_of_getElem? (by rw [List.length_zip, List.length_map, ← hzs.length_eq, hlen]; omega) ?_
  rintro i ⟨o, rr⟩ q hp hq
  rw [List.getElem?_zip_eq_some, List.getElem?_map, Option.map_eq_some_iff] at hp
  obtain ⟨ho, c, hc, rfl⟩ := hp
  simp only at ho
  obtain ⟨c', hc', hcom⟩ := Forall₂.left h.lzcOk ho
  obtain rfl := Option.some.inj (hc.symm.trans hc')
  obtain ⟨p, hp, hf⟩ := Forall₂.right hzs hq
  rw [hget i o c ho hc] at hp
  obtain ⟨⟩ := Option.some.inj hp
  simp only [verifierLookupZ, Res.idx, List.getElem?_cons_zero, List.getElem?_cons_succ, Res.unwrap_some, Res.bind_ok,
    Res.pure_eq, Res.ok.injEq] at hf
  have hil := getElem?_some_lt ho
  rw [h.ran.lookupZ.1] at hil
  have hagg := h.ran.lookupZ.2 i r.lookups[i] o (List.getElem?_eq_getElem hil) ho
  have hev : ∀ x, x = ch.xi ∨ x = ch.xi * d.omega → q.query x = .ok ((toPoly o.poly).eval x) := by
    intro x hx
    refine query_two (a := ch.xi * d.omega) (b := ch.xi) (fun x => (toPoly o.poly).eval x) ?_ hx.symm
    rw [← hf, hel]
  refine ⟨⟨(by rw [← hf]; exact hagg.rotations.symm), by rw [← hf]; simp [hcom], ?_⟩, hev _ (.inl rfl), ?_⟩
  · intro ro hro
    rw [hagg.rotations, curr_next_rotations] at hro
    rcases hro with rfl | rfl
    · rw [signed_curr, zpow_zero, mul_one]; exact hev _ (.inl rfl)
    · rw [signed_next, zpow_one]; exact hev _ (.inr rfl)
  · rw [mul_comm]; exact hev _ (.inr rfl)

/-- The verifier's columns after registration. -/
structure ViewTold (S : Scheme F) (com : F[X] → S.Rand → S.Comm) (d : Domain F) (xi : F) (v : ProverView F)
    (vv : VerifierView F S.Comm) : Prop where
  witness : List.Forall₂ (fun o p => ∃ rr, Told S com d xi (o, rr) p) v.witness vv.witness
  inst : List.Forall₂ (fun o (p : InstanceVerifierOracle F) => p.label = o.label ∧ p.poly = o.poly) v.inst vv.inst
  fixed : List.Forall₂ (fun o p => ∃ rr, Told S com d xi (o, rr) p) v.fixed vv.fixed
  table : List.Forall₂ (fun o p => ∃ rr, Told S com d xi (o, rr) p) v.table vv.table

omit [LawfulFft F] in
/-- Queries are answered with the values of the prover's polynomials. -/
theorem ViewTold.answers {xi : F} {vv : VerifierView F S.Comm} (ht : ViewTold S com d xi v vv) {qs : List OracleQuery}
    (hq : ∀ q ∈ qs, Answerable d.size v q) : VerifierAnswers d vv xi qs (v.polyOf d) := by
  intro q hqq
  obtain ⟨h1, o, h2, h3⟩ := hq q hqq
  have hP : v.polyOf d q = shifted d (toPoly o.poly) q.rotation := by
    rw [ProverView.polyOf, findOracle_eq_some.2 h2]
  refine ⟨h1, ?_, ?_, ?_⟩
  · intro hty
    rw [hty] at h2 h3
    obtain ⟨p, hp, rr, hr⟩ := Resolves.of_forall₂ ht.witness (by rintro o p ⟨_, hp⟩; exact hp.label) h2
    exact ⟨p, hp, by rw [hr.evals _ (h3 (by simp)), hP, eval_shifted, mul_comm]⟩
  · intro hty
    rw [hty] at h2 h3
    obtain ⟨p, hp, rr, hr⟩ := Resolves.of_forall₂ ht.fixed (by rintro o p ⟨_, hp⟩; exact hp.label) h2
    exact ⟨p, hp, by rw [hr.evals _ (h3 (by simp)), hP, eval_shifted, mul_comm]⟩
  · intro hty
    rw [hty] at h2
    obtain ⟨p, hp, hl, he⟩ := Resolves.of_forall₂ ht.inst (by rintro o p ⟨hp, _⟩; exact hp) h2
    exact ⟨p, hp, by rw [hP, he]⟩

variable (hd : d.Ok) (he : index.ext.Ok) (hle : d.size ≤ index.ext.size) (hH : AllHonest d index.ext v pre.perm pre.qBlind)
  (hs : SupportedShape d index v pre.perm pre.qBlind vos)

include h hd he hle hH hs in
/-- The lookup oracles of the verifier. -/
theorem HonestProof.lookups_ok {vv : VerifierView F S.Comm} (ht : ViewTold S com d ch.xi v vv) :
    ∃ ls, Res.mapM (verifierLookup vv ch d.elements (d.element 1)⁻¹)
      (List.zip (List.zip index.lookups (chunks 2 proof.lookupCommitments)) (chunks 3 proof.lookupEvals)).zipIdx
        = (.ok ls : Res (Err S.E) _) ∧
    (chunks 2 proof.lookupCommitments).length = index.lookups.length ∧
    (chunks 3 proof.lookupEvals).length = index.lookups.length ∧
    List.Forall₂ (OpeningPair S com d ch.xi) (List.zip (primes r.lookups) (lc.map Prod.snd)) (primes ls) ∧
    List.Forall₂ (fun (p : LookupOracles (ProverOracle F)) (l : LookupOracles (VerifierOracle F S.Comm)) =>
      l.a.query ch.xi = .ok ((toPoly p.a.poly).eval ch.xi) ∧ l.s.query ch.xi = .ok ((toPoly p.s.poly).eval ch.xi) ∧
      l.aPrime.query ch.xi = .ok ((toPoly p.aPrime.poly).eval ch.xi) ∧
      l.aPrime.query (d.omega⁻¹ * ch.xi) = .ok ((toPoly p.aPrime.poly).eval (d.omega⁻¹ * ch.xi)) ∧
      l.sPrime.query ch.xi = .ok ((toPoly p.sPrime.poly).eval ch.xi)) r.lookups ls := by
  have hel : d.element 1 = d.omega := by simp [Domain.element]
  obtain ⟨cs, hcs, hcl⟩ := forall₂_pairs h.lcOk
  have hlc : chunks 2 proof.lookupCommitments = cs.map (fun c => [c.1.1, c.2.1]) := by
    rw [h.lookupCommitments, hcs, List.map_flatMap]
    exact chunks_flatMap (by norm_num) _ _ (fun _ _ => rfl)
  have hle3 := (C34_lookup_evaluations r.lookups [] ch.xi 0 (d.element 1)⁻¹).1
  rw [← h.evals.lookups, hel] at hle3
  obtain ⟨hlen, hlk⟩ := h.ran.lookup
  have hcl' := hcl.length_eq
  have hget : ∀ (i : Nat) (vo : GenericLookupVO F) (l : LookupOracles (ProverOracle F))
      (c : (S.Comm × S.Rand) × (S.Comm × S.Rand)), index.lookups[i]? = some vo → r.lookups[i]? = some l → cs[i]? = some c →
      (List.zip (List.zip index.lookups (chunks 2 proof.lookupCommitments)) (chunks 3 proof.lookupEvals)).zipIdx[i]?
        = some (((vo, [c.1.1, c.2.1]), [(toPoly l.aPrime.poly).eval ch.xi,
          (toPoly l.aPrime.poly).eval (ch.xi * d.omega⁻¹), (toPoly l.sPrime.poly).eval ch.xi]), i) := by
    intro i vo l c h1 h2 h3
    rw [List.getElem?_zipIdx, hlc, hle3]
    have : (List.zip (List.zip index.lookups (cs.map (fun c => [c.1.1, c.2.1])))
        (r.lookups.map (fun l => [(toPoly l.aPrime.poly).eval ch.xi, (toPoly l.aPrime.poly).eval (ch.xi * d.omega⁻¹),
          (toPoly l.sPrime.poly).eval ch.xi])))[i]? = some ((vo, [c.1.1, c.2.1]), [(toPoly l.aPrime.poly).eval ch.xi,
          (toPoly l.aPrime.poly).eval (ch.xi * d.omega⁻¹), (toPoly l.sPrime.poly).eval ch.xi]) := by
      rw [List.getElem?_zip_eq_some, List.getElem?_zip_eq_some, List.getElem?_map, List.getElem?_map, h1, h2, h3]
      exact ⟨⟨rfl, rfl⟩, rfl⟩
    rw [this]
    simp
  have hlen2 : (List.zip (List.zip index.lookups (chunks 2 proof.lookupCommitments)) (chunks 3 proof.lookupEvals)).zipIdx.length
      = index.lookups.length := by
    rw [List.length_zipIdx, hlc, hle3, List.length_zip, List.length_zip, List.length_map, List.length_map]; omega
  have hstep : ∀ (i : Nat) (vo : GenericLookupVO F) (l : LookupOracles (ProverOracle F))
      (c : (S.Comm × S.Rand) × (S.Comm × S.Rand)), index.lookups[i]? = some vo → r.lookups[i]? = some l → cs[i]? = some c →
      ∃ a s, verifierLookup vv ch d.elements (d.element 1)⁻¹ (((vo, [c.1.1, c.2.1]), [(toPoly l.aPrime.poly).eval ch.xi,
          (toPoly l.aPrime.poly).eval (ch.xi * d.omega⁻¹), (toPoly l.sPrime.poly).eval ch.xi]), i)
        = (.ok ⟨a, s, ⟨.witness, bytes "lookup_a_prime_" ++ natBytes i ++ bytes "_poly",
      setExtend [] [Rotation.curr, Rotation.prev], [(ch.xi * d.omega⁻¹, (toPoly l.aPrime.poly).eval (ch.xi * d.omega⁻¹)),
        (ch.xi, (toPoly l.aPrime.poly).eval ch.xi)], some c.1.1, false⟩,
    ⟨.witness, bytes "lookup_s_prime_" ++ natBytes i ++ bytes "_poly",
      setExtend [] [Rotation.curr], [(ch.xi, (toPoly l.sPrime.poly).eval ch.xi)], some c.2.1, false⟩⟩ : Res (Err S.E) _) ∧
      a.query ch.xi = .ok ((toPoly l.a.poly).eval ch.xi) ∧ s.query ch.xi = .ok ((toPoly l.s.poly).eval ch.xi) := by
    intro i vo l c h1 h2 h3
    obtain ⟨es, ts, z, z', g1, g2, g3⟩ := hlk i l vo h2 h1
    obtain ⟨es', ts', g4, g5, g6, g7⟩ := hs.lookups _ (List.mem_of_getElem? h1)
    rw [g4] at g1; rw [g5] at g2
    obtain ⟨⟩ := Res.ok.inj g1
    obtain ⟨⟩ := Res.ok.inj g2
    have hP : ∀ e ∈ es, QueryPolys d index.ext v e.queries (v.polyOf d) := fun e hee =>
      hH.queryPolys (fun q hq => ((g6 e hee).1 q hq).1)
    have hT : TablePolys d index.ext v ts v.tablePolyOf := by
      refine tablePolys_tablePolyOf hH.table ?_
      intro t ht
      obtain ⟨h8, o, h9, -⟩ := g7 t ht
      exact ⟨h8, by rw [findOracle_eq_some.2 h9]; rfl⟩
    obtain ⟨hl1, hu, -⟩ := lookupConstruct_inv hd he hle hP hT (fun e hee => (g6 e hee).2) g3
    obtain ⟨a, s, hun, ha, hsq⟩ := C28_verifier_values_partial S.next v vv index.usableRows i es ts ch.theta ch.xi z hd he hle hl1
      hu (v.polyOf d) v.tablePolyOf hP hT (fun e hee => (g6 e hee).2)
      (fun e hee => ht.answers (fun q hq => ((g6 e hee).1 q hq).1)) (fun e hee q hq => ((g6 e hee).1 q hq).2) (by
        intro t htt
        obtain ⟨h8, o, h9, h10⟩ := g7 t htt
        obtain ⟨p, hp, rr, hr⟩ := Resolves.of_forall₂ ht.table (by rintro o p ⟨_, hp⟩; exact hp.label) h9
        refine ⟨p, hp, ?_⟩
        rw [hr.unrotated h10, ProverView.tablePolyOf, findOracle_eq_some.2 h9]) l z' g3
    refine ⟨a, s, ?_, ha, hsq⟩
    simp only [verifierLookup, g4, g5, Res.mapErr_ok, Res.bind_ok, hun, Res.idx, List.getElem?_cons_zero,
      List.getElem?_cons_succ, Res.unwrap_some, Res.pure_eq, hel]
  obtain ⟨ls, hls⟩ := Res.mapM_ok_of (f := verifierLookup (S := S) vv ch d.elements (d.element 1)⁻¹)
      (l := (List.zip (List.zip index.lookups (chunks 2 proof.lookupCommitments)) (chunks 3 proof.lookupEvals)).zipIdx) (by
    intro p hp
    obtain ⟨i, hi⟩ := List.getElem?_of_mem hp
    have hil := getElem?_some_lt hi
    rw [hlen2] at hil
    have e1 : index.lookups[i]? = some index.lookups[i] := List.getElem?_eq_getElem hil
    have e2 : r.lookups[i]? = some (r.lookups[i]'(by omega)) := List.getElem?_eq_getElem _
    have e3 : cs[i]? = some (cs[i]'(by omega)) := List.getElem?_eq_getElem _
    rw [hget i _ _ _ e1 e2 e3] at hi
    obtain ⟨⟩ := Option.some.inj hi
    obtain ⟨a, s, hh, -⟩ := hstep i _ _ _ e1 e2 e3
    exact ⟨_, hh⟩)
  have hF := Res.mapM_eq_ok.1 hls
  have hll := hF.length_eq
  rw [hlen2] at hll
  have hboth : List.Forall₂ (fun (pc : LookupOracles (ProverOracle F) × ((S.Comm × S.Rand) × (S.Comm × S.Rand)))
      (l : LookupOracles (VerifierOracle F S.Comm)) =>
      (OpeningPair S com d ch.xi (pc.1.aPrime, pc.2.1.2) l.aPrime ∧ OpeningPair S com d ch.xi (pc.1.sPrime, pc.2.2.2) l.sPrime) ∧
      (l.a.query ch.xi = .ok ((toPoly pc.1.a.poly).eval ch.xi) ∧ l.s.query ch.xi = .ok ((toPoly pc.1.s.poly).eval ch.xi) ∧
      l.aPrime.query ch.xi = .ok ((toPoly pc.1.aPrime.poly).eval ch.xi) ∧
      l.aPrime.query (d.omega⁻¹ * ch.xi) = .ok ((toPoly pc.1.aPrime.poly).eval (d.omega⁻¹ * ch.xi)) ∧
      l.sPrime.query ch.xi = .ok ((toPoly pc.1.sPrime.poly).eval ch.xi))) (List.zip r.lookups cs) ls := by
    refine forall₂_of_getElem? (by rw [List.length_zip]; omega) ?_
    rintro i ⟨p, c⟩ l hpc hl
    rw [List.getElem?_zip_eq_some] at hpc
    obtain ⟨e2, e3⟩ := hpc
    have e1 : index.lookups[i]? = some (index.lookups[i]'(by have := getElem?_some_lt e2; omega)) := List.getElem?_eq_getElem _
    obtain ⟨q, hq, hf⟩ := Forall₂.right hF hl
    rw [hget i _ _ _ e1 e2 e3] at hq
    obtain ⟨⟩ := Option.some.inj hq
    obtain ⟨a, s, hh, ha, hsq⟩ := hstep i _ _ _ e1 e2 e3
    rw [hh] at hf
    obtain ⟨⟩ := Res.ok.inj hf
    obtain ⟨A, T, hb⟩ := h.ran.built hd he hle hH hs e2
    obtain ⟨c', hc', hcom⟩ := Forall₂.left hcl e2
    obtain rfl := Option.some.inj (e3.symm.trans hc')
    have hev : ∀ x, x = ch.xi ∨ x = ch.xi * d.omega⁻¹ → (⟨.witness, bytes "lookup_a_prime_" ++ natBytes i ++ bytes "_poly",
        setExtend [] [Rotation.curr, Rotation.prev], [(ch.xi * d.omega⁻¹, (toPoly p.aPrime.poly).eval (ch.xi * d.omega⁻¹)),
        (ch.xi, (toPoly p.aPrime.poly).eval ch.xi)], some c.1.1, false⟩ : VerifierOracle F S.Comm).query x
          = .ok ((toPoly p.aPrime.poly).eval x) := by
      intro x hx
      exact query_two (a := ch.xi * d.omega⁻¹) (b := ch.xi) (fun x => (toPoly p.aPrime.poly).eval x) rfl hx.symm
    have hsv : (⟨.witness, bytes "lookup_s_prime_" ++ natBytes i ++ bytes "_poly",
      setExtend [] [Rotation.curr], [(ch.xi, (toPoly p.sPrime.poly).eval ch.xi)], some c.2.1, false⟩ :
        VerifierOracle F S.Comm).query ch.xi = .ok ((toPoly p.sPrime.poly).eval ch.xi) := by
      simp [VerifierOracle.query, assocGet]
    refine ⟨⟨⟨hb.aPrimeRot.symm, by simp only; rw [hcom.1], ?_⟩, ⟨hb.sPrimeRot.symm, by simp only; rw [hcom.2], ?_⟩⟩, ha, hsq,
      hev _ (.inl rfl), ?_, hsv⟩
    · intro ro hro
      rw [hb.aPrimeRot, curr_prev_rotations] at hro
      rcases hro with rfl | rfl
      · rw [signed_curr, zpow_zero, mul_one]; exact hev _ (.inl rfl)
      · rw [signed_prev, zpow_neg, zpow_one]; exact hev _ (.inr rfl)
    · intro ro hro
      rw [hb.sPrimeRot, curr_rotations, List.mem_singleton] at hro
      subst hro
      rw [signed_curr, zpow_zero, mul_one]
      exact hsv
    · exact (congrArg _ (mul_comm _ _)).trans ((hev _ (.inr rfl)).trans (congrArg _ (congrArg (fun x => (toPoly p.aPrime.poly).eval x) (mul_comm _ _))))
  refine ⟨ls, hls, by rw [hlc, List.length_map]; omega, by rw [hle3, List.length_map]; omega, ?_, ?_⟩
  · rw [hcs]
    exact forall₂_primes (hboth.imp (fun _ _ hh => hh.1)) hcl'
  · exact forall₂_unzip hboth hcl' (fun a b c hh => hh.2)

include h hd hH in
/-- The grand product oracles of the permutation argument. -/
theorem HonestProof.zs_ok (h1 : 1 < d.size) :
    ∃ zs, registerAll .missingPermutationOracle (proof.zCommitments.zipIdx.map
      (verifierZ index.perm.usableRows proof.zCommitments.length)) ch.xi d.elements proof.zEvals = .ok zs ∧
    List.Forall₂ (Told S com d ch.xi) (List.zip r.zs (zc.map Prod.snd)) zs := by
  have hl := h.zcOk.length_eq
  refine register_told hd .missingPermutationOracle (by rw [hl, List.length_map]) ?_ ?_ ?_ h.evals.zs
  · rw [h.zCommitments]
    refine forall₂_of_getElem? (by simp [hl]) ?_
    rintro i ⟨o, rr⟩ v hp hv
    rw [List.getElem?_zip_eq_some, List.getElem?_map, Option.map_eq_some_iff] at hp
    obtain ⟨ho, c, hc, rfl⟩ := hp
    simp only at ho
    obtain ⟨c', hc', hcom⟩ := Forall₂.left h.zcOk ho
    obtain rfl := Option.some.inj (hc.symm.trans hc')
    rw [List.getElem?_map, List.getElem?_zipIdx, List.getElem?_map, hc] at hv
    simp only [Option.map_some, Nat.zero_add, Option.some.injEq] at hv
    subst hv
    obtain ⟨init, ratio, ha⟩ := h.ran.aggPoly hH ho
    refine ⟨⟨ha.label.symm, ?_, ha.noPermute.symm⟩, by simp [verifierZ, hcom]⟩
    simp only [verifierZ, ha.rotations, aggRotations, List.length_map, ← hl]
    by_cases hi : i = r.zs.length - 1 <;> simp [hi]
  · rw [List.nodup_iff_injective_getElem]
    intro ⟨i, hi⟩ ⟨j, hj⟩ hij
    simp only [List.getElem_map, List.length_map] at hij hi hj
    obtain ⟨_, _, ha⟩ := h.ran.aggPoly hH (List.getElem?_eq_getElem hi)
    obtain ⟨_, _, hb⟩ := h.ran.aggPoly hH (List.getElem?_eq_getElem hj)
    rw [ha.label, hb.label] at hij
    simpa using natBytes_inj (List.append_cancel_left hij)
  · intro o ho ro hro
    obtain ⟨i, hi⟩ := List.getElem?_of_mem ho
    obtain ⟨_, _, ha⟩ := h.ran.aggPoly hH hi
    rw [ha.rotations] at hro
    unfold aggRotations at hro
    have hu := h.usable
    have h01 : ∀ ro, ro ∈ setExtend [] [Rotation.curr, Rotation.next] → ro.degree < d.size := by
      intro ro hro
      rcases (curr_next_rotations ro).1 hro with rfl | rfl
      · exact hd.size_pos
      · exact h1
    split at hro
    · exact h01 _ hro
    · rcases mem_setInsert.1 hro with rfl | hro
      · exact hu
      · exact h01 _ hro

omit [LinearOrder F] [FftParams F] [LawfulFft F] in
theorem numberOfZPolys_eq {ε : Type} (p : PermutationArgument F) {α : Type} (hk : 0 < p.maxCols) (cols : List α) (hne : cols ≠ []) :
    (p.numberOfZPolys cols.length : Res ε Nat) = .ok (chunks p.maxCols cols).length := by
  have hpos : 0 < cols.length := List.length_pos_iff.2 hne
  unfold PermutationArgument.numberOfZPolys
  rw [if_neg hpos.ne', if_neg hk.ne', chunks_length hk]
  have hdm := Nat.div_add_mod cols.length p.maxCols
  have hlt := Nat.mod_lt cols.length hk
  congr 1
  by_cases h : cols.length % p.maxCols = 0
  · simp only [h, ne_eq, not_true, if_false, Nat.add_zero]
    rw [h, Nat.add_zero] at hdm
    conv_rhs => rw [show cols.length + p.maxCols - 1 = p.maxCols - 1 + p.maxCols * (cols.length / p.maxCols) by omega,
      Nat.add_mul_div_left _ _ hk, Nat.div_eq_of_lt (by omega), Nat.zero_add]
  · simp only [h, ne_eq, not_false_eq_true, if_true]
    conv_rhs => rw [show cols.length + p.maxCols - 1
        = (cols.length % p.maxCols - 1) + p.maxCols * (cols.length / p.maxCols + 1) by
      rw [Nat.mul_add, Nat.mul_one]; omega, Nat.add_mul_div_left _ _ hk, Nat.div_eq_of_lt (by omega), Nat.zero_add]

/-- What the verifier knows after registration: the values of the polynomials of the run and valid openings. -/
structure Accepted (S : Scheme F) (com : F[X] → S.Rand → S.Comm) (d : Domain F) (index : Index F) (v : ProverView F)
    (pre : ProverPreprocessed S) (ch : Challenges F) (r : ProverRounds F) (quotient : List (ProverOracle F))
    (rands : List S.Rand) (vos : List (GenericVO F)) (is : List (InstanceVerifierOracle F)) (st : VState S) : Prop where
  polys : VerifierPolys d st is vos ch.xi index.perm.usableRows (runPolys d v vos pre.perm pre.qBlind r)
    (quotient.map (fun o => toPoly o.poly))
  openings : List.Forall₂ (OpeningPair S com d ch.xi)
    (List.zip (openingOrder v.witness (primes r.lookups) r.lookupZs quotient r.zs pre.fixed pre.table pre.perm pre.qBlind)
      rands) st.oracles

omit [LinearOrder F] [FftParams F] [LawfulFft F] in
theorem forall₂_append_zip {α β γ : Type} {R : α × β → γ → Prop} {as as' : List α} {bs bs' : List β} {cs cs' : List γ}
    (h : List.Forall₂ R (List.zip as bs) cs) (h' : List.Forall₂ R (List.zip as' bs') cs') (hl : as.length = bs.length) :
    List.Forall₂ R (List.zip (as ++ as') (bs ++ bs')) (cs ++ cs') := by
  rw [List.zip_append hl]
  exact List.rel_append h h'

omit [LinearOrder F] [FftParams F] [LawfulFft F] in
theorem rel_replicate {α β γ : Type} {R : α → γ → Prop} {Q : α × β → γ → Prop} {as : List α} {cs : List γ} {b : β}
    (h : List.Forall₂ R as cs) (hQ : ∀ a c, R a c → Q (a, b) c) :
    List.Forall₂ Q (List.zip as (List.replicate as.length b)) cs := by
  rw [zip_replicate, List.forall₂_map_left_iff]
  exact h.imp hQ

include h hd he hle hH hs in
/-- The verifier reads an honest proof without failing. -/
theorem HonestProof.registration (h1 : 1 < d.size) {domainSize : Nat} (hdom : Domain.new (F := F) domainSize = some d)
    {vk : VerifierKey S} (hvk : vk.index = index) {ws : List (VerifierOracle F S.Comm)} {is : List (InstanceVerifierOracle F)}
    {vpre : VerifierPreprocessed S} (hsu : SetUp S com v pre.perm pre.qBlind ws is vpre) :
    ∃ st, Registration S vk vpre proof ws is domainSize ch d st ∧
      Accepted S com d index v pre ch r quotient ((wc ++ lc ++ lzc ++ qc ++ zc).map Prod.snd ++
        List.replicate (pre.fixed ++ pre.table ++ pre.perm ++ [pre.qBlind]).length S.emptyRand) vos is st := by
  subst hvk
  have hel : d.element 1 = d.omega := by simp [Domain.element]
  -- witness columns
  have hwl := h.wcOk.length_eq
  obtain ⟨vw, hvw, hvwT⟩ := register_told (S := S) (com := com) hd .missingWitnessOracle (rs := wc.map Prod.snd)
    (vs := registerCommitments ws (wc.map Prod.fst)) (xi := ch.xi) (by rw [hwl, List.length_map])
    ((registerCommitments_forall₂ hsu.witness h.wcOk).imp (by
      rintro ⟨o, rr⟩ w ⟨g1, c, g2, g3⟩
      exact ⟨g1, by rw [g2]; exact congrArg some g3⟩)) hs.labels.1 (fun o ho => hs.rotations o (by simp [ho]))
    h.evals.witness
  -- fixed and table columns
  obtain ⟨vf, hvf, hvfT⟩ := register_told (S := S) (com := com) hd .missingFixedOracle (xi := ch.xi)
    (rs := List.replicate v.fixed.length S.emptyRand) (by simp) (rel_replicate hsu.fixed (fun _ _ h => h)) hs.labels.2.1
    (fun o ho => hs.rotations o (by simp [ho])) (by rw [h.fixed]; exact h.evals.fixed)
  obtain ⟨vt, hvt, hvtT⟩ := register_told (S := S) (com := com) hd .missingLookupTableOracle (xi := ch.xi)
    (rs := List.replicate v.table.length S.emptyRand) (by simp) (rel_replicate hsu.table (fun _ _ h => h)) hs.labels.2.2
    (fun o ho => hs.rotations o (by simp [ho])) (by rw [h.table]; exact h.evals.table)
  have hview : ViewTold S com d ch.xi v ⟨vw, is, vf, vt⟩ :=
    ⟨forall₂_unzip hvwT (by rw [hwl, List.length_map]) (fun _ rr _ g => ⟨rr, g⟩), hsu.inst,
      forall₂_unzip hvfT (by simp) (fun _ rr _ g => ⟨rr, g⟩), forall₂_unzip hvtT (by simp) (fun _ rr _ g => ⟨rr, g⟩)⟩
  obtain ⟨qs, hqs, hqsT⟩ := h.quotient_ok
  obtain ⟨lz, hlz, hlzT⟩ := h.lookupZs_ok
  obtain ⟨ls, hls, hlc2, hle3, hlsO, hlsT⟩ := h.lookups_ok hd he hle hH hs hview
  obtain ⟨zs, hzs, hzsT⟩ := h.zs_ok hd hH h1
  have hzl := h.zcOk.length_eq
  -- sigma columns
  have hperm0 : ∀ (o : ProverOracle F) (w : VerifierOracle F S.Comm), (∀ ro ∈ o.rotations, ro.degree = 0) →
      SameConfig o w → w.commitment = some (com (toPoly o.poly) S.emptyRand) →
      Told S com d ch.xi (o, S.emptyRand) (w.registerEval ch.xi (o.query ch.xi)) ∧
        (w.registerEval ch.xi (o.query ch.xi)).query ch.xi = .ok ((toPoly o.poly).eval ch.xi) := by
    intro o w hro hc hcm
    have hq : (w.registerEval ch.xi (o.query ch.xi)).query ch.xi = .ok ((toPoly o.poly).eval ch.xi) := by
      rw [query_head, eval_toPoly]; rfl
    refine ⟨⟨⟨hc.2.1, hcm, ?_⟩, hc.1, hc.2.2⟩, hq⟩
    intro ro hr0
    have hsg : ro.signed = 0 := by unfold Rotation.signed; cases ro.sign <;> simp [hro ro hr0]
    rw [hsg, zpow_zero, mul_one]
    exact hq
  have hpermT : List.Forall₂ (fun (o : ProverOracle F) (w : VerifierOracle F S.Comm) =>
      Told S com d ch.xi (o, S.emptyRand) w ∧ w.query ch.xi = .ok ((toPoly o.poly).eval ch.xi)) pre.perm
      (List.zipWith (fun (o : VerifierOracle F S.Comm) e => o.registerEval ch.xi e) vpre.perm proof.permEvals) := by
    rw [h.evals.perm]
    refine forall₂_of_getElem? (by simp [hsu.perm.length_eq]) ?_
    intro i o w ho hw
    obtain ⟨w0, e, g1, g2, rfl⟩ := List.getElem?_zipWith_eq_some.1 hw
    rw [List.getElem?_map, ho] at g2
    obtain ⟨⟩ := Option.some.inj g2
    obtain ⟨w', g3, g4, g5⟩ := Forall₂.left hsu.perm ho
    obtain rfl := Option.some.inj (g1.symm.trans g3)
    exact hperm0 o w0 (hs.unrotated o (by simp [List.mem_of_getElem? ho])) g4 g5
  have hqb := hperm0 pre.qBlind vpre.qBlind (hs.unrotated _ (by simp)) hsu.qBlind.1 hsu.qBlind.2
  have hqbe : pre.qBlind.query ch.xi = proof.qBlindEval := h.evals.qBlind.symm
  rw [hqbe] at hqb
  -- the copied columns
  have hcopy : List.Forall₂ (fun (o : ProverOracle F) (w : VerifierOracle F S.Comm) => ∃ rr, Told S com d ch.xi (o, rr) w)
      (v.witness.filter (·.shouldPermute)) (vw.filter (·.shouldPermute)) :=
    forall₂_filter hview.witness (by rintro o w ⟨rr, g⟩; exact g.permute)
  have hnum : vk.index.perm.numberOfZPolys (vw.filter (·.shouldPermute)).length
      = (.ok proof.zCommitments.length : Res (Err S.E) _) := by
    rw [← hcopy.length_eq, h.zCommitments, List.length_map, ← hzl]
    by_cases hne : v.witness.filter (·.shouldPermute) = []
    · rw [hne, h.ran.noAgg hne]; rfl
    · rw [numberOfZPolys_eq _ (h.ran.agg hH hne).1 _ hne, h.ran.zs_length hH hne]
  refine ⟨⟨vw, ⟨vf, vt, List.zipWith (fun (o : VerifierOracle F S.Comm) e => o.registerEval ch.xi e) vpre.perm proof.permEvals,
    vpre.qBlind.registerEval ch.xi proof.qBlindEval⟩, qs, ls, lz, zs⟩, ?_, ?_⟩
  · exact {
      dom := hdom
      quotient := hqs
      witness := by rw [h.witnessCommitments]; exact hvw
      fixed := hvf
      table := hvt
      permLength := by rw [h.evals.perm, List.length_map, hsu.perm.length_eq]
      perm := rfl
      omega := by rw [hel]; exact hd.omega_ne_zero
      lookupComms := hlc2
      lookupEvals := hle3
      lookups := hls
      lookupZComms := by
        rw [h.lookupZCommitments, List.length_map, ← h.lzcOk.length_eq, h.ran.lookupZ.1, h.ran.lookup.1]
      lookupZEvals := by
        rw [h.evals.lookupZs, (C34_lookup_evaluations [] r.lookupZs ch.xi (d.element 1) 0).2, List.length_map,
          h.ran.lookupZ.1, h.ran.lookup.1]
      lookupZs := hlz
      numZ := hnum
      zs := hzs
      qBlind := rfl }
  · refine ⟨?_, ?_⟩
    · have hqsl := forall₂_unzip hqsT (by rw [h.qcOk.length_eq, List.length_map]) (Q := fun o w =>
        w.query ch.xi = .ok ((toPoly o.poly).eval ch.xi)) (fun _ _ _ g => g.2)
      have hzsl := forall₂_unzip hzsT (by rw [hzl, List.length_map]) (Q := fun o w =>
        ∃ rr, Told S com d ch.xi (o, rr) w) (fun _ rr _ g => ⟨rr, g⟩)
      have hlzl := forall₂_unzip hlzT (by rw [h.lzcOk.length_eq, List.length_map]) (Q := fun o w =>
        w.query ch.xi = .ok ((toPoly o.poly).eval ch.xi) ∧
          w.query (d.omega * ch.xi) = .ok ((toPoly o.poly).eval (d.omega * ch.xi))) (fun _ _ _ g => g.2)
      have hzq : ∀ (i : Nat) (o : ProverOracle F) (w : VerifierOracle F S.Comm), r.zs[i]? = some o → zs[i]? = some w →
          ∀ ro, ro ∈ aggRotations vk.index.perm.usableRows (decide (i = r.zs.length - 1)) →
            w.query (d.omega ^ ro.signed * ch.xi) = .ok ((toPoly o.poly).eval (d.omega ^ ro.signed * ch.xi)) := by
        intro i o w ho hw ro hro
        obtain ⟨w', g1, rr, g2⟩ := Forall₂.left hzsl ho
        obtain rfl := Option.some.inj (hw.symm.trans g1)
        obtain ⟨_, _, ha⟩ := h.ran.aggPoly hH ho
        rw [mul_comm]
        exact g2.evals ro (by rw [ha.rotations]; exact hro)
      have hcn : ∀ (u : Nat) (b : Bool) (ro : Rotation), ro = Rotation.curr ∨ ro = Rotation.next → ro ∈ aggRotations u b := by
        intro u b ro hro
        unfold aggRotations
        split
        · exact (curr_next_rotations ro).2 hro
        · exact mem_setInsert.2 (.inr ((curr_next_rotations ro).2 hro))
      exact {
        gates := by
          unfold runPolys
          rw [List.forall₂_map_right_iff]
          refine List.forall₂_same.2 (fun vo hvo => ?_)
          obtain ⟨e, g1, g2⟩ := hs.gates vo hvo
          exact ⟨e, _, g1, hview.answers g2, gatePoly_eq g1⟩
        ws := by
          unfold runPolys
          rw [List.forall₂_map_right_iff]
          refine forall₂_of_getElem? hcopy.length_eq.symm ?_
          intro i w o hw ho
          obtain ⟨o', g1, rr, g2⟩ := Forall₂.right hcopy hw
          obtain rfl := Option.some.inj (ho.symm.trans g1)
          have hm := List.mem_filter.1 (List.mem_of_getElem? ho)
          exact g2.unrotated (hs.copied o hm.1 (by simpa using hm.2))
        sigmas := by
          unfold runPolys
          rw [List.forall₂_map_right_iff]
          exact (hpermT.imp (fun _ _ g => g.2)).flip
        zs := by
          unfold runPolys
          rw [List.forall₂_map_right_iff]
          refine forall₂_of_getElem? hzsl.length_eq.symm ?_
          intro i w o hw ho
          have g1 := hzq i o w ho hw .curr (hcn _ _ _ (.inl rfl))
          have g2 := hzq i o w ho hw .next (hcn _ _ _ (.inr rfl))
          rw [signed_curr, zpow_zero, one_mul] at g1
          rw [signed_next, zpow_one] at g2
          exact ⟨g1, g2⟩
        zsU := by
          intro j w p hj hw hp
          simp only [runPolys, List.length_map, List.getElem?_map, Option.map_eq_some_iff] at hj hp
          obtain ⟨o, ho, rfl⟩ := hp
          have g1 := hzq j o w ho hw ⟨vk.index.perm.usableRows, .plus⟩ (by
            unfold aggRotations
            rw [if_neg (by simp; omega)]
            exact mem_setInsert.2 (.inl rfl))
          have hsg : (⟨vk.index.perm.usableRows, .plus⟩ : Rotation).signed = (vk.index.perm.usableRows : ℤ) := rfl
          rw [hsg, zpow_natCast] at g1
          exact g1
        lookups := by
          refine forall₂_of_getElem? ?_ ?_
          · simp [runPolys, h.ran.lookupZ.1, hlsT.length_eq]
          · intro i l p hl hp
            obtain ⟨l', o, g1, g2, rfl⟩ := List.getElem?_zipWith_eq_some.1 hp
            obtain ⟨l2, g3, g4⟩ := Forall₂.left hlsT g1
            obtain rfl := Option.some.inj (hl.symm.trans g3)
            exact g4
        lookupZs := by
          refine forall₂_of_getElem? ?_ ?_
          · simp [runPolys, h.ran.lookupZ.1, ← hlzl.length_eq]
          · intro i w p hw hp
            obtain ⟨l', o, g1, g2, rfl⟩ := List.getElem?_zipWith_eq_some.1 hp
            obtain ⟨w2, g3, g4⟩ := Forall₂.left hlzl g2
            obtain rfl := Option.some.inj (hw.symm.trans g3)
            exact g4
        qBlind := fun _ => hqb.2
        quotient := by
          rw [List.forall₂_map_right_iff]
          exact hqsl.flip }
    · unfold VState.oracles openingOrder
      simp only [List.map_append, List.length_append, List.replicate_add, List.length_cons, List.length_nil]
      have toO : ∀ (o : ProverOracle F × S.Rand) (w : VerifierOracle F S.Comm), Told S com d ch.xi o w →
          OpeningPair S com d ch.xi o w := fun _ _ g => g.toOpeningPair
      have lw := h.wcOk.length_eq
      have ll := h.lcOk.length_eq
      have lz2 := h.lzcOk.length_eq
      have lq := h.qcOk.length_eq
      refine forall₂_append_zip (forall₂_append_zip (forall₂_append_zip (forall₂_append_zip (forall₂_append_zip
        (hvwT.imp toO) hlsO ?_) (hlzT.imp (fun _ _ g => g.1)) ?_) (hqsT.imp (fun _ _ g => g.1)) ?_) (hzsT.imp toO) ?_)
        (forall₂_append_zip (forall₂_append_zip (forall₂_append_zip ?_ ?_ ?_) ?_ ?_) ?_ ?_) ?_
      · simp [lw]
      · simp [lw, ll]
      · simp [lw, ll, lz2]
      · simp [lw, ll, lz2, lq]
      · rw [← h.fixed]; exact hvfT.imp toO
      · rw [← h.table]; exact hvtT.imp toO
      · simp
      · exact rel_replicate hpermT (fun _ _ g => g.1.toOpeningPair)
      · simp
      · exact List.Forall₂.cons hqb.1.toOpeningPair List.Forall₂.nil
      · simp [Nat.add_assoc]
      · simp [lw, ll, lz2, lq, hzl]

end

end
end ZK
