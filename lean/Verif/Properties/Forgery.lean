import Verif.Properties.Multiopen
import Verif.Properties.Verifier
/-! C36: consequences of the missing length check in `Multiopen::verify`. C33: missing commitments. -/
set_option autoImplicit false
set_option linter.unusedSectionVars false
namespace ZK
open Polynomial

section
variable {F : Type} [Field F] [LinearOrder F] [FftParams F] [LawfulFft F]

/-- **C36** (partial) The prover supplies exactly one `q` evaluation for each opening set. What is missing: the
verifier does not insist on it. -/
theorem C36_prover_length_partial {S : Scheme F} {ck : S.CK} (domainSize : Nat) (os : List (ProverOracle F))
    (rands : List S.Rand) (hlen : os.length = rands.length) (xi : F) (t : S.T) (z : S.Z) (proof : MpProof S)
    (hp : mpProve S ck os rands xi domainSize t z = .ok proof) :
    proof.qEvals.length = (openingSets (fun (o : ProverOracle F) => o.rotations) os).length := by
  unfold mpProve at hp
  simp only [Res.bind_eq_ok, Res.mapErr_eq_ok, Res.unwrap_eq_ok] at hp
  obtain ⟨d, h1, ⟨qs, f⟩, h2, ⟨fc, z'⟩, h3, ⟨f0, r0⟩, h4, fin, h5, fc', h6, pr, h7, h8⟩ := hp
  rw [← Res.ok.inj h8]
  simp only [List.length_map]
  unfold mpFirstRound at h2
  simp only [Res.bind_eq_ok] at h2
  obtain ⟨qes, hqes, fs, hfs, f', hf', he⟩ := h2
  obtain ⟨he1, _⟩ := Prod.mk.inj (Res.ok.inj he)
  rw [← he1, List.length_map, Res.mapM_length hqes]
  have hc : List.Forall₂ (fun (a : OracleRand S) b => b = a.1) (List.zip os rands) os := by
    clear hqes
    induction os generalizing rands with
    | nil => exact List.Forall₂.nil
    | cons o os ih =>
      cases rands with
      | nil => simp at hlen
      | cons r rands => exact List.Forall₂.cons rfl (ih rands (by simpa using hlen))
  exact (C39_agree (fun (o : OracleRand S) => o.1.rotations) (fun (o : ProverOracle F) => o.rotations)
    (fun a b => b = a.1) (fun _ _ h => by rw [h]) _ _ hc).length_eq

/-- **C36** is false also in the other direction: evaluations beyond the number of opening sets are not looked at
(apart from entering the transcript for `x4`). -/
theorem C36_extra_evaluations_ignored {S : Scheme F} (vk : S.VK) (d : Domain F) (q extra : List F) (f : S.Comm)
    (pf : S.Proof) (vs : List (VerifierOracle F S.Comm)) (xi x1 x2 x3 x4 : F)
    (hq : q.length = (openingSets (fun (o : VerifierOracle F S.Comm) => o.rotations) vs).length) :
    mpVerifyWith S vk ⟨q ++ extra, f, pf⟩ vs xi d x1 x2 x3 x4 = .ok () ↔
      mpVerifyWith S vk ⟨q, f, pf⟩ vs xi d x1 x2 x3 x4 = .ok () := by
  rw [mpVerifyWith_iff, mpVerifyWith_iff]
  simp only [List.length_append]
  rw [List.take_of_length_le (by omega), List.take_of_length_le (by omega), List.getElem?_eq_none (by omega),
    List.getElem?_eq_none (by omega)]
  simp only [reduceCtorEq, IsEmpty.forall_iff, implies_true, true_and]
  have key : ∀ qs, Res.mapM (mpVerifierSet (S := S) (powersFrom 1 x1 vs.length) xi d.elements)
      (openingSets (fun (o : VerifierOracle F S.Comm) => o.rotations) vs) = .ok qs →
      List.zip qs (q ++ extra) = List.zip qs q ∧ (q ++ extra).take qs.length = q.take qs.length := by
    intro qs h
    have hl : qs.length = q.length := by rw [Res.mapM_length h, hq]
    refine ⟨?_, by rw [hl]; simp⟩
    conv_lhs => rw [← List.append_nil qs, List.zip_append hl]
    simp
  constructor
  · rintro ⟨qs, fs, h1, h2, h3⟩
    obtain ⟨k1, k2⟩ := key qs h1
    exact ⟨qs, fs, h1, by rwa [k1] at h2, by rwa [k2] at h3⟩
  · rintro ⟨qs, fs, h1, h2, h3⟩
    obtain ⟨k1, k2⟩ := key qs h1
    exact ⟨qs, fs, h1, by rwa [k1], by rwa [k2]⟩

/-! ### C33: missing commitments -/

theorem openingSets_length {C : Type} (vs : List (VerifierOracle F C)) :
    (openingSets (fun (o : VerifierOracle F C) => o.rotations) vs).length = distinctRotations vs := by
  rw [openingSets_eq, List.length_map]
  have hs := setExtend_sorted (s := []) (l := vs.map (fun (o : VerifierOracle F C) => o.rotations)) List.Pairwise.nil
  rw [← List.toFinset_card_of_nodup (hs.imp (fun h => h.ne))]
  unfold distinctRotations
  congr 1
  ext x
  rw [List.mem_toFinset, List.mem_toFinset, mem_setExtend]
  simp only [List.not_mem_nil, false_or]
  rfl

theorem registerCommitments_missing {C : Type} (os : List (VerifierOracle F C)) (cs : List C)
    (hn : ∀ o ∈ os, o.commitment = none) (h : cs.length < os.length) :
    ∃ o ∈ registerCommitments os cs, o.commitment = none := by
  induction os generalizing cs with
  | nil => simp at h
  | cons o os ih =>
    cases cs with
    | nil => exact ⟨o, by simp [registerCommitments], hn o (by simp)⟩
    | cons c cs =>
      obtain ⟨o', h1, h2⟩ := ih cs (fun o ho => hn o (by simp [ho])) (by simpa using h)
      exact ⟨o', by simp [registerCommitments, h1], h2⟩

/-- **C33** (partial) With fresh witness oracles a proof with too few witness commitments is rejected, provided it
has a `q` evaluation for every opening set. Without that proviso the claim is false, see
`C33_missing_commitments_accepted`. -/
theorem C33_commitments_partial (S : Scheme F) (vk : VerifierKey S) (pre : VerifierPreprocessed S) (proof : TPProof S)
    (ws : List (VerifierOracle F S.Comm)) (is : List (InstanceVerifierOracle F)) (vos : List (GenericVO F))
    (domainSize : Nat) (vanishing : List F) (hfresh : ∀ o ∈ ws, o.commitment = none)
    (hfull : ∀ st, verifyRegister S vk pre proof ws is domainSize (verifierChallenges S proof).1 = .ok st →
      distinctRotations st.oracles ≤ proof.multiopen.qEvals.length)
    (h : verify S vk pre proof ws is vos domainSize vanishing = .ok ()) :
    ws.length ≤ proof.witnessCommitments.length := by
  by_contra hc
  push Not at hc
  obtain ⟨st, h1, _, h3⟩ := verify_inv.1 h
  obtain ⟨d, r⟩ := verifyRegister_iff.1 h1
  obtain ⟨o, ho, hon⟩ := registerCommitments_missing ws proof.witnessCommitments hfresh hc
  have hw := (registerAll_inv (Domain.new_ok r.dom) r.witness).2
  obtain ⟨v, hv, hvn⟩ : ∃ v ∈ st.witness, v.commitment = none := by
    obtain ⟨i, hi, rfl⟩ := List.getElem_of_mem ho
    have hl := congrArg List.length hw
    rw [List.length_map, List.length_map] at hl
    have h2 := List.getElem_of_eq hw (i := i) (by simpa [hl] using hi)
    rw [List.getElem_map, List.getElem_map] at h2
    refine ⟨st.witness[i]'(by omega), List.getElem_mem _, ?_⟩
    have h2 := congrArg VerifierOracle.commitment h2
    exact h2.trans hon
  have hvo : v ∈ st.oracles := by simp [VState.oracles, openingOrder, hv]
  unfold mpVerify at h3
  obtain ⟨d', _, h3⟩ := Res.bind_eq_ok.1 h3
  have hfull := hfull st h1
  rw [← openingSets_length] at hfull
  revert h3
  generalize mpChallenges S proof.multiopen (verifierChallenges S proof).2 = x
  obtain ⟨x1, x2, x3, x4⟩ := x
  intro h3
  obtain ⟨_, qs, fs, h4, _⟩ := mpVerifyWith_iff.1 h3
  rw [List.take_of_length_le hfull] at h4
  obtain ⟨s, ⟨hs, hvs⟩, _⟩ := (C39_partition (fun (o : VerifierOracle F S.Comm) => o.rotations) st.oracles).2.2.2 v hvo
  obtain ⟨j, hj, rfl⟩ := List.getElem_of_mem hs
  have h5 := Res.mapM_getElem h4 j hj
  unfold mpVerifierSet at h5
  obtain ⟨q, h5, _⟩ := Res.bind_eq_ok.1 h5
  obtain ⟨i, hi, hiv⟩ := List.getElem_of_mem hvs
  have key : ∀ (l : List (VerifierOracle F S.Comm × Nat)) (acc q : S.Comm),
      Res.foldM (fun (acc : S.Comm) (o : VerifierOracle F S.Comm × Nat) => do
        let c ← o.1.getCommitment
        let x ← Res.idx (powersFrom 1 x1 st.oracles.length) o.2
        pure (S.add acc (S.scale c x))) acc l = .ok q → ∀ o ∈ l, o.1.commitment ≠ none := by
    intro l
    induction l with
    | nil => simp
    | cons a l ih =>
      intro acc q h o ho
      rw [Res.foldM_eq_ok_cons] at h
      obtain ⟨b, h6, h7⟩ := h
      rcases List.mem_cons.1 ho with rfl | ho
      · obtain ⟨c, h8, _⟩ := Res.bind_eq_ok.1 h6
        intro hn
        simp [VerifierOracle.getCommitment, hn] at h8
      · exact ih _ _ h7 o ho
  exact key _ _ _ h5 (v, i) (List.mem_zipIdx_iff_getElem?.2 (by rw [List.getElem?_eq_getElem hi, hiv])) hvn

/-! ### A universal forgery -/

theorem foldM_add_shift {ε α : Type} (g : α → Res ε F) (δ : F) (l : List α) (a b : F)
    (h : Res.foldM (fun (acc : F) x => do let v ← g x; pure (acc + v)) a l = .ok b) :
    Res.foldM (fun (acc : F) x => do let v ← g x; pure (acc + v)) (a + δ) l = .ok (b + δ) := by
  induction l generalizing a with
  | nil => simp only [Res.foldM_nil, Res.ok.injEq] at h ⊢; rw [h]
  | cons x l ih =>
    rw [Res.foldM_eq_ok_cons] at h ⊢
    obtain ⟨c, hc, h⟩ := h
    obtain ⟨v, hv, hc⟩ := Res.bind_eq_ok.1 hc
    refine ⟨c + δ, Res.bind_eq_ok.2 ⟨v, hv, ?_⟩, ih _ h⟩
    rw [← Res.ok.inj hc]
    simp only [Res.pure_eq, Res.ok.injEq]
    ring

/-- The forged proof: the first claimed quotient evaluation is adapted, the opening argument is empty. -/
def forge {S : Scheme F} (p : TPProof S) (e zh : F) (pf : S.Proof) : TPProof S :=
  { p with quotientEvals := p.quotientEvals.modify 0 (fun v => v + e / zh), multiopen := ⟨[], S.zero, pf⟩ }

/-- **C36** A universal forgery. Take any proof object `p` (made for a wrong witness, for another circuit, or written by
hand) whose lists have the expected lengths, so that the verifier computes some value `e` for its identity check, not
necessarily zero. If the scheme accepts some opening `pf` of the zero commitment to the value zero, then `p` with one claimed
evaluation adapted and an empty multi-point opening is accepted, unless the evaluation challenge is a zero of the
vanishing polynomial. -/
theorem C36_universal_forgery (S : Scheme F) (vk : VerifierKey S) (pre : VerifierPreprocessed S) (p : TPProof S)
    (ws : List (VerifierOracle F S.Comm)) (is : List (InstanceVerifierOracle F)) (vos : List (GenericVO F))
    (domainSize : Nat) (vanishing : List F) (pf : S.Proof) (hpf : ∀ x, S.check vk.vk S.zero x 0 pf = .ok true)
    (d : Domain F) (hd : Domain.new (F := F) domainSize = some d) (st : VState S)
    (hreg : verifyRegister S vk pre p ws is domainSize (verifierChallenges S p).1 = .ok st) (e : F)
    (hval : quotientCheckValue S vk st is vos domainSize vanishing (verifierChallenges S p).1 = .ok e)
    (hne : p.quotientCommitments ≠ [])
    (hv : peval vanishing (verifierChallenges S p).1.xi ≠ 0)
    (hr : ∀ v ∈ st.oracles, ∀ r ∈ v.rotations, r.degree < d.size)
    (hnd : ∀ v ∈ st.oracles, (v.rotations.map (fun r => (verifierChallenges S p).1.xi * d.omega ^ r.signed)).Nodup) :
    verify S vk pre (forge p e (peval vanishing (verifierChallenges S p).1.xi) pf) ws is vos domainSize vanishing = .ok () := by
  have hch : verifierChallenges S (forge p e (peval vanishing (verifierChallenges S p).1.xi) pf) = verifierChallenges S p := rfl
  rw [verify_inv, hch]
  generalize verifierChallenges S p = ch at *
  obtain ⟨ch, t⟩ := ch
  simp only at *
  obtain ⟨d', R⟩ := verifyRegister_iff.1 hreg
  have hdd : d' = d := by have := R.dom; rw [hd] at this; exact (Option.some.inj this).symm
  subst hdd
  -- the first chunk
  obtain ⟨c, cs, hcs⟩ := List.exists_cons_of_ne_nil hne
  have hq := R.quotient
  rw [hcs, List.zipIdx_cons, Res.mapM_cons] at hq
  obtain ⟨o, ho, hq⟩ := Res.bind_eq_ok.1 hq
  obtain ⟨v0, hv0, ho⟩ := Res.bind_eq_ok.1 ho
  obtain ⟨os, hos, hq⟩ := Res.bind_eq_ok.1 hq
  have hq := (Res.ok.inj hq).symm
  have hv0 := Res.idx_eq_ok.1 hv0
  obtain ⟨v0', vr, hvr⟩ : ∃ a l, p.quotientEvals = a :: l := by
    cases hp : p.quotientEvals with
    | nil => rw [hp] at hv0; simp at hv0
    | cons a l => exact ⟨a, l, rfl⟩
  have : v0' = v0 := by rw [hvr] at hv0; simpa using hv0
  subst this
  have ho := (Res.ok.inj ho).symm
  let w := v0' + e / peval vanishing ch.xi
  let o' : VerifierOracle F S.Comm := { o with evals := [(ch.xi, w)] }
  let st' : VState S := { st with quotient := o' :: os }
  have hqe : (forge p e (peval vanishing ch.xi) pf).quotientEvals = w :: vr := by
    simp [forge, hvr, w]
  have R' : Registration S vk pre (forge p e (peval vanishing ch.xi) pf) ws is domainSize ch d' st' := by
    refine ⟨R.dom, ?_, R.witness, R.fixed, R.table, R.permLength, R.perm, R.omega, R.lookupComms, R.lookupEvals,
      R.lookups, R.lookupZComms, R.lookupZEvals, R.lookupZs, R.numZ, R.zs, R.qBlind⟩
    rw [hqe]
    show Res.mapM _ p.quotientCommitments.zipIdx = _
    rw [hcs, List.zipIdx_cons, Res.mapM_cons]
    refine Res.bind_eq_ok.2 ⟨o', ?_, Res.bind_eq_ok.2 ⟨os, ?_, rfl⟩⟩
    · show _ = Res.ok { o with evals := [(ch.xi, w)] }
      rw [ho]; rfl
    · rw [← hos]
      apply Res.mapM_congr
      intro q hq
      have hpos : 0 < q.2 := by
        have := (List.mem_zipIdx hq).1
        omega
      have : (w :: vr)[q.2]? = (v0' :: vr)[q.2]? := by
        obtain ⟨k, hk⟩ := Nat.exists_eq_succ_of_ne_zero hpos.ne'
        rw [hk]; simp
      simp only [hvr, Res.idx, this]
  refine ⟨st', verifyRegister_iff.2 ⟨d', R'⟩, ?_, ?_⟩
  · -- the identity check
    obtain ⟨d2, al, l0, lu, e1, pe, e2, tp, a1, a2, a3, a4, a5, a6, a7, a8, a9⟩ := quotientCheckValue_iff.1 hval
    refine quotientCheckValue_iff.2 ⟨d2, al, l0, lu, e1, pe, e2, tp + e / peval vanishing ch.xi, a1, a2, a3, a4, a5, a6, a7,
      ?_, ?_⟩
    · show Res.foldM _ 0 (List.zip (powersFrom 1 (ch.xi ^ domainSize) (o' :: os).length) (o' :: os)) = _
      rw [hq] at a8
      simp only [List.length_cons, powersFrom, List.zip_cons_cons] at a8 ⊢
      rw [Res.foldM_eq_ok_cons] at a8 ⊢
      obtain ⟨b, b1, b2⟩ := a8
      refine ⟨b + e / peval vanishing ch.xi, ?_, ?_⟩
      · obtain ⟨x, hx, b1⟩ := Res.bind_eq_ok.1 b1
        rw [Res.mapErr_eq_ok] at hx
        have hx' : x = v0' := by
          rw [ho] at hx
          simpa [VerifierOracle.query, assocGet] using hx.symm
        refine Res.bind_eq_ok.2 ⟨w, ?_, ?_⟩
        · simp [o', VerifierOracle.query, assocGet]
        · rw [← Res.ok.inj b1, hx']
          simp only [Res.pure_eq, Res.ok.injEq, w]
          ring
      · have h1 : ∀ (a : F), Res.foldM (fun (acc : F) (p : F × VerifierOracle F S.Comm) => do
            let v ← (p.2.query ch.xi).mapErr (Err.iop (E := S.E))
            pure (acc + p.1 * v)) a (List.zip (powersFrom (1 * ch.xi ^ domainSize) (ch.xi ^ domainSize) os.length) os)
            = Res.foldM (fun (acc : F) (p : F × VerifierOracle F S.Comm) => do
              let v ← (do let v ← (p.2.query ch.xi).mapErr (Err.iop (E := S.E)); pure (p.1 * v))
              pure (acc + v)) a (List.zip (powersFrom (1 * ch.xi ^ domainSize) (ch.xi ^ domainSize) os.length) os) := by
          intro a
          apply Res.foldM_congr
          intro b x _
          cases (x.2.query ch.xi).mapErr (Err.iop (E := S.E)) <;> rfl
        rw [h1] at b2 ⊢
        exact foldM_add_shift _ _ _ _ _ b2
    · rw [add_mul, div_mul_cancel₀ _ hv, a9]
      ring
  · -- the opening
    unfold mpVerify
    rw [hd]
    simp only [Res.unwrap_some, Res.bind_ok]
    have hrot : ∀ v ∈ st'.oracles, ∃ v' ∈ st.oracles, v.rotations = v'.rotations := by
      intro v hv
      by_cases h : v = o'
      · refine ⟨o, ?_, by rw [h]⟩
        simp [VState.oracles, openingOrder, hq]
      · refine ⟨v, ?_, rfl⟩
        simp only [VState.oracles, openingOrder, List.mem_append, st', List.mem_cons, h, false_or] at hv ⊢
        rw [hq]
        simp only [List.mem_cons]
        tauto
    show mpVerifyWith S vk.vk ⟨[], S.zero, pf⟩ _ _ _ _ _ _ _ = _
    rw [C36_empty_proof_accepted (Domain.new_ok hd)]
    · exact hpf _
    · intro v hv
      obtain ⟨v', h1, h2⟩ := hrot v hv
      rw [h2]; exact hr v' h1
    · intro v hv
      obtain ⟨v', h1, h2⟩ := hrot v hv
      rw [h2]; exact hnd v' h1

end

/-! ### The forgery in a concrete circuit -/

namespace Toy

/-- `q * (b(next row) - 8)`, which contradicts `gateNext`. -/
def gateNext8 : Expr F97 :=
  .prod (.oracle ⟨[7], .curr, .fixed⟩) (.sum (.oracle ⟨[2], .next, .witness⟩) (.neg (.const 8)))

def vosBad : List (GenericVO F97) := [vo gate, vo gateNext, vo gateNext8]

def keyBad : Res (Err Unit) (VerifierKey S) :=
  indexer (S := S) (fun o => o.shouldPermute) () vosBad [lookup] witness inst fixed dom dom.vanishing info 2

/-- A proof object without content: all commitments are to the zero polynomial, all evaluations are zero. -/
def emptyProof : TPProof S where
  witnessCommitments := [[], [], []]
  witnessEvals := List.replicate 4 0
  fixedEvals := [0, 0]
  tableEvals := [0]
  permEvals := [0, 0]
  qBlindEval := 0
  lookupCommitments := [[], []]
  lookupZCommitments := [[]]
  lookupEvals := [0, 0, 0]
  lookupZEvals := [0, 0]
  zCommitments := [[]]
  zEvals := [0, 0]
  quotientCommitments := [[]]
  quotientEvals := [0]
  multiopen := ⟨[], [], ()⟩

def forgeFrom (k : VerifierKey S) (p : TPProof S) : Option (TPProof S) :=
  let ch := (verifierChallenges S p).1
  match verifyRegister S k vpre p (witness.map blank) vinst 4 ch with
  | .ok st => match quotientCheckValue S k st vinst vosBad 4 dom.vanishing ch with
    | .ok e => some (forge p e (peval dom.vanishing ch.xi) ())
    | _ => none
  | _ => none

def verifyBad (k : VerifierKey S) (p : TPProof S) : Res (Err Unit) Unit :=
  verify S k vpre p (witness.map blank) vinst vosBad 4 dom.vanishing

def forgedAccepted (p : TPProof S) : Bool :=
  match keyBad with
  | .ok k => match forgeFrom k p with
    | some p => decide (verifyBad k p = .ok ())
    | none => false
  | _ => false

theorem of_forgedAccepted {p : TPProof S} (h : forgedAccepted p = true) :
    ∃ k p', keyBad = .ok k ∧ p'.multiopen.qEvals = [] ∧ verifyBad k p' = .ok () ∧
      p'.witnessCommitments = p.witnessCommitments := by
  unfold forgedAccepted at h
  split at h
  · rename_i k hk
    split at h
    · rename_i p' hp
      have hv := of_decide_eq_true h
      unfold forgeFrom at hp
      simp only at hp
      split at hp
      · split at hp
        · rw [← Option.some.inj hp] at hv
          exact ⟨k, _, hk, rfl, hv, rfl⟩
        · simp at hp
      · simp at hp
    · simp at h
  · simp at h

end Toy

/-- **C36** is false. The circuit requires `b[1] = 7` and `b[1] = 8` at the same time, so no witness satisfies it, and a
proof object with empty polynomials is accepted. -/
theorem C36_false : (∀ σ : OracleQuery → F97, σ ⟨[7], .curr, .fixed⟩ = 1 →
      ¬ ((Toy.gateNext.evalR (fun q => (.ok (σ q) : Res PiopErr F97)) = .ok 0) ∧
        Toy.gateNext8.evalR (fun q => (.ok (σ q) : Res PiopErr F97)) = .ok 0)) ∧
    (∀ o ∈ Toy.fixed, o.label = [7] → o.evals[0]? = some 1) ∧
    ∃ k p, Toy.keyBad = .ok k ∧ p.multiopen.qEvals = [] ∧
      Toy.verifyBad k p = .ok () := by
  refine ⟨?_, by decide, ?_⟩
  · intro σ h1 ⟨h2, h3⟩
    simp only [Toy.gateNext, Toy.gateNext8, Expr.evalR, Expr.evaluate, Res.lift2_ok, Res.map1_ok, h1, Res.ok.injEq] at h2 h3
    have : (7 : F97) = 8 := by linear_combination h3 - h2
    exact absurd this (by decide)
  · obtain ⟨k, p, h1, h2, h3, _⟩ := Toy.of_forgedAccepted (p := Toy.emptyProof) (by decide +kernel)
    exact ⟨k, p, h1, h2, h3⟩

/-- The same proof object without any witness commitment is accepted, too, with fresh verifier oracles. -/
theorem C33_missing_commitments_accepted : (∀ o ∈ Toy.witness.map Toy.blank, o.commitment = none) ∧
    ∃ k p, Toy.keyBad = .ok k ∧ Toy.verifyBad k p = .ok () ∧
      p.witnessCommitments.length < (Toy.witness.map Toy.blank).length := by
  refine ⟨by decide, ?_⟩
  obtain ⟨k, p, h1, h2, h3, h4⟩ := Toy.of_forgedAccepted (p := { Toy.emptyProof with witnessCommitments := [] })
    (by decide +kernel)
  exact ⟨k, p, h1, h3, by rw [h4]; decide⟩

/-- C33_lengths and C33_commitments_partial apply to the honest proof of the toy circuit. -/
example : ∃ k p, Toy.key = .ok k ∧ Toy.verifyWith k Toy.vinst p = .ok () ∧
    (∀ o ∈ Toy.witness.map Toy.blank, o.commitment = none) ∧
    p.witnessEvals.length = 4 ∧ p.zEvals.length = 2 ∧ p.lookupEvals.length = 3 ∧ p.witnessCommitments.length = 3 ∧
    ∀ st, verifyRegister Toy.S k Toy.vpre p (Toy.witness.map Toy.blank) Toy.vinst 4 (verifierChallenges Toy.S p).1 = .ok st →
      distinctRotations st.oracles ≤ p.multiopen.qEvals.length := by
  obtain ⟨k, p, h1, h2, h3⟩ := Toy.of_holds (ws := Toy.witness)
    (P := fun k p => decide (Toy.verifyWith k Toy.vinst p = .ok () ∧
      p.witnessEvals.length = 4 ∧ p.zEvals.length = 2 ∧ p.lookupEvals.length = 3 ∧ p.witnessCommitments.length = 3) &&
      (match verifyRegister Toy.S k Toy.vpre p (Toy.witness.map Toy.blank) Toy.vinst 4 (verifierChallenges Toy.S p).1 with
      | .ok st => decide (distinctRotations st.oracles ≤ p.multiopen.qEvals.length)
      | _ => true)) (by decide +kernel)
  rw [Bool.and_eq_true] at h3
  obtain ⟨g1, g2, g3, g4, g5⟩ := of_decide_eq_true h3.1
  refine ⟨k, p, h1, g1, by decide, g2, g3, g4, g5, ?_⟩
  intro st hst
  have := h3.2
  rw [hst] at this
  exact of_decide_eq_true this

end ZK
