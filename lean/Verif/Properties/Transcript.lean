import Verif.Lemmas.Prove
import Verif.Spec.Ideal
import Verif.Lemmas.Toy
import Verif.Lemmas.System
/-! C40 to C42: challenges and transcripts. -/
set_option autoImplicit false
namespace ZK

/-! ## C40 -/

section
variable {F : Type} [Field F]

/-- **C40** Whenever `prove` returns a proof, the challenges `verify` derives from that proof are the ones
the prover used: every round, every evaluation and the multi-opening were computed with them. The
hypothesis says that committing to one polynomial returns one commitment. -/
theorem C40_same_challenges (S : Scheme F) [LinearOrder F] [FftParams F] (pk : ProverKey S)
    (pre : ProverPreprocessed S) (ws is : List (ProverOracle F)) (vos : List (GenericVO F))
    (domainSize : Nat) (z : S.Z) (proof : TPProof S)
    (hone : ∀ (p : LPoly F) (z z' : S.Z) cs, S.commit pk.ck [p] z = .ok (cs, z') → cs.length = 1)
    (h : prove S pk pre ws is vos domainSize z = .ok proof) :
    let ch := (verifierChallenges S proof).1
    let x := mpChallenges S proof.multiopen (verifierChallenges S proof).2
    ∃ domain view rounds quotient wc lc zc lzc qc,
      RanWith S pk pre ws is vos domainSize z domain ch view rounds quotient wc lc zc lzc qc ∧
      proof.witnessCommitments = wc.map Prod.fst ∧ proof.lookupCommitments = lc.map Prod.fst ∧
      proof.zCommitments = zc.map Prod.fst ∧ proof.lookupZCommitments = lzc.map Prod.fst ∧
      proof.quotientCommitments = qc.map Prod.fst ∧
      EvaluatedAt S pre domain ch.xi view rounds quotient proof ∧
      (openingOrder view.witness (primes rounds.lookups) rounds.lookupZs quotient rounds.zs pre.fixed pre.table
        pre.perm pre.qBlind).length = (wc ++ lc ++ lzc ++ qc ++ zc).length + pre.emptyRands.length ∧
      OpenedWith S pk.ck (openingOrder view.witness (primes rounds.lookups) rounds.lookupZs quotient rounds.zs
          pre.fixed pre.table pre.perm pre.qBlind)
        ((wc ++ lc ++ lzc ++ qc ++ zc).map Prod.snd ++ pre.emptyRands) ch.xi domain x.1 x.2.1 x.2.2.1 x.2.2.2
        proof.multiopen := by
  unfold prove at h
  simp only [Res.bind_eq_ok, Res.mapErr_eq_ok, Res.unwrap_eq_ok, Res.assert_eq_ok] at h
  obtain ⟨tr, h0, domain', hd', wq, hw, we, hwe, fq, hf, fe, hfe, tq, ht, te, hte, _, _, zq, hz, ze, hze, _, hlen,
    mp, hmp, hp⟩ := h
  obtain ⟨domain, hrun, hch⟩ := proveRounds_inv S h0
  have : domain' = domain := by have := hrun.dom; rw [hd'] at this; exact Option.some.inj this
  subst this
  have hp' := Res.ok.inj hp
  have hcheq := hch proof (by rw [← hp']) (by rw [← hp']) (by rw [← hp']) (by rw [← hp']) (by rw [← hp'])
  subst hp'
  have hopen := mpProve_inv S hd' hone hmp
  simp only [hcheq]
  refine ⟨domain', tr.view, tr.rounds, tr.quotient, tr.wc, tr.lc, tr.zc, tr.lzc, tr.qc, hrun, rfl, rfl, rfl, rfl, rfl,
    ⟨⟨_, hw, hwe⟩, ⟨_, hf, hfe⟩, ⟨_, ht, hte⟩, ⟨_, hz, hze⟩, rfl, rfl, rfl, rfl, rfl⟩, ?_, ?_⟩
  · have := of_decide_eq_true hlen
    rw [this]; simp; omega
  · simpa only [List.map_append] using hopen

end

/-- The hypotheses of C40 hold for a circuit with two gates, a copy constraint and a lookup. -/
example : ∃ k proof, Toy.key = .ok k ∧ prove Toy.S ⟨k, ()⟩ (Toy.pre k) Toy.witness Toy.inst Toy.vos 4 () = .ok proof ∧
    ∀ (p : LPoly F97) (z z' : Unit) cs, Toy.S.commit () [p] z = .ok (cs, z') → cs.length = 1 := by
  obtain ⟨k, p, hk, hp, _⟩ := Toy.honest
  exact ⟨k, p, hk, hp, fun p z z' cs h => by cases h; rfl⟩

/-! ## C42 -/

namespace SimpleHash
variable {R Seed F : Type} (h : SimpleHash R Seed F)

theorem run_append (init : List Nat) (ops : List FsOp) (op : FsOp) :
    h.run init (ops ++ [op]) = h.step (h.run init ops) op := by simp [run]

/-- The state after a sequence of operations, written out. -/
theorem run_eq (init : List Nat) (ops : List FsOp) :
    h.run init ops = (Nat.iterate (fun r => (h.draw r).2) (trailingDraws ops)
        (h.fromSeed ((absorbed ops).foldl (fun s m => h.digest (m ++ h.seedBytes s)) (h.digest init))),
      (absorbed ops).foldl (fun s m => h.digest (m ++ h.seedBytes s)) (h.digest init)) := by
  induction ops using List.reverseRecOn with
  | nil => rfl
  | append_singleton ops op ih =>
    have ha : ∀ l : List FsOp, ∀ l', absorbed (l ++ l') = absorbed l ++ absorbed l' := by
      intro l l'
      induction l with
      | nil => rfl
      | cons x l ih => cases x <;> simp [absorbed, ih]
    rw [run_append, ih, ha]
    cases op with
    | absorb m =>
      simp [step, absorb, absorbed, trailingDraws]
    | draw =>
      simp only [step, rand, absorbed, List.append_nil, trailingDraws, List.foldl_append, List.foldl_cons,
        List.foldl_nil, Function.iterate_succ_apply']

theorem foldl_binding (L : Nat) (hL : ∀ s, (h.seedBytes s).length = L)
    (hinj : Function.Injective h.seedBytes) (i j : List Nat) (hi : i.length < L) (hj : j.length < L)
    (ms : List (List Nat)) : ∀ ms' : List (List Nat),
    ms.foldl (fun s m => h.digest (m ++ h.seedBytes s)) (h.digest i)
      = ms'.foldl (fun s m => h.digest (m ++ h.seedBytes s)) (h.digest j) →
    (i = j ∧ ms = ms') ∨ ∃ a ∈ h.hashed i ms, ∃ b ∈ h.hashed j ms', a ≠ b ∧ h.digest a = h.digest b := by
  have happ : ∀ (ms : List (List Nat)) (s : Seed) (m : List Nat), h.hashedFrom s (ms ++ [m]) = h.hashedFrom s ms ++
      [m ++ h.seedBytes (ms.foldl (fun s m => h.digest (m ++ h.seedBytes s)) s)] := by
    intro ms
    induction ms with
    | nil => intro s m; rfl
    | cons x ms ih => intro s m; simp [hashedFrom, ih]
  induction ms using List.reverseRecOn with
  | nil =>
    intro ms'
    rcases List.eq_nil_or_concat ms' with rfl | ⟨ms', m, rfl⟩
    · intro e
      simp only [List.foldl_nil] at e
      by_cases hij : i = j
      · exact .inl ⟨hij, rfl⟩
      · exact .inr ⟨i, by simp [hashed], j, by simp [hashed], hij, e⟩
    · intro e
      simp only [List.foldl_append, List.foldl_cons, List.foldl_nil, List.concat_eq_append] at e
      refine .inr ⟨i, by simp [hashed], _, ?_, ?_, e⟩
      · simp [hashed, happ]
      · intro he
        have := congrArg List.length he
        rw [List.length_append, hL] at this
        omega
  | append_singleton ms m ih =>
    intro ms'
    rcases List.eq_nil_or_concat ms' with rfl | ⟨ms', m', rfl⟩
    · intro e
      simp only [List.foldl_append, List.foldl_cons, List.foldl_nil] at e
      refine .inr ⟨_, ?_, j, by simp [hashed], ?_, e⟩
      · simp [hashed, happ]
      · intro he
        have := congrArg List.length he
        rw [List.length_append, hL] at this
        omega
    · intro e
      simp only [List.foldl_append, List.foldl_cons, List.foldl_nil, List.concat_eq_append] at e
      by_cases heq : m ++ h.seedBytes (ms.foldl (fun s m => h.digest (m ++ h.seedBytes s)) (h.digest i))
          = m' ++ h.seedBytes (ms'.foldl (fun s m => h.digest (m ++ h.seedBytes s)) (h.digest j))
      · obtain ⟨e1, e2⟩ := List.append_inj' heq (by rw [hL, hL])
        rcases ih ms' (hinj e2) with ⟨e3, e4⟩ | ⟨a, ha, b, hb, hne, hd⟩
        · exact .inl ⟨e3, by rw [e1, e4, List.concat_eq_append]⟩
        · refine .inr ⟨a, ?_, b, ?_, hne, hd⟩
          · rw [hashed, happ, ← List.cons_append]; exact List.mem_append_left _ ha
          · rw [List.concat_eq_append, hashed, happ, ← List.cons_append]; exact List.mem_append_left _ hb
      · refine .inr ⟨_, ?_, _, ?_, heq, e⟩
        · simp [hashed, happ]
        · simp [hashed, happ]

/-- **C42** (binding) Two runs of the generator that end with the same seed started from the same message and
absorbed the same messages, or two different inputs of the digest among those hashed in the two runs have
the same digest. Seeds serialise injectively to `L` bytes and the initial messages are shorter than a seed
(the crate's are 16 bytes and `L = 32`). -/
theorem C42_binding (L : Nat) (hL : ∀ s, (h.seedBytes s).length = L) (hinj : Function.Injective h.seedBytes)
    (i j : List Nat) (hi : i.length < L) (hj : j.length < L) (ops ops' : List FsOp)
    (e : (h.run i ops).2 = (h.run j ops').2) :
    (i = j ∧ absorbed ops = absorbed ops') ∨
      ∃ a ∈ h.hashed i (absorbed ops), ∃ b ∈ h.hashed j (absorbed ops'), a ≠ b ∧ h.digest a = h.digest b := by
  rw [run_eq, run_eq] at e
  exact h.foldl_binding L hL hinj i j hi hj _ _ e

/-- **C42** (dependence) The next challenge depends only on the initial message, the absorbed messages and the
number of challenges drawn since the last of them. -/
theorem C42_dependence (i : List Nat) (ops ops' : List FsOp) (e : absorbed ops = absorbed ops')
    (hd : trailingDraws ops = trailingDraws ops') :
    (h.rand (h.run i ops)).1 = (h.rand (h.run i ops')).1 := by
  rw [run_eq, run_eq, e, hd]

/-- Without the bound on the initial message binding fails: a long initial message can contain what
another run absorbs. The two runs hash the same string last and the seed is the same. -/
theorem C42_long_initial_message (i m : List Nat) :
    (h.run (m ++ h.seedBytes (h.digest i)) []).2 = (h.run i [.absorb m]).2 := rfl

/-- The hypotheses of C42 are satisfiable. -/
example : ∃ (h : SimpleHash Nat (Fin 4) Nat) (L : Nat), (∀ s, (h.seedBytes s).length = L) ∧
    Function.Injective h.seedBytes ∧ (bytes "TurboPlonk-0.0.1").length < L ∧
    (h.run [7] [.absorb [1, 2], .draw]).2 = (h.run [7] [.draw, .absorb [1, 2]]).2 :=
  ⟨⟨fun l => ⟨l.sum % 4, Nat.mod_lt _ (by norm_num)⟩, fun s => List.replicate 31 0 ++ [s.val], fun s => s.val,
    fun r => (r, r + 1)⟩, 32, by intro s; simp, by
      intro a b hab
      have := (List.append_inj' hab rfl).2
      exact Fin.ext (List.cons.inj this).1, by decide, rfl⟩

end SimpleHash

/-! ## C41 -/

section
variable {F : Type}

/-- **C41 is false.** No challenge depends on the public inputs, on the preprocessed circuit or on the claimed
evaluations: the challenges of a verification are a function of the commitments in the proof (and, for the
multi-opening, of the commitment to `f` and the `q` evaluations) alone. Public inputs, verifier key and
preprocessed oracles are not even arguments of the functions deriving them. -/
theorem C41_challenges_ignore_evaluations (S : Scheme F) (p p' : TPProof S)
    (h1 : p.witnessCommitments = p'.witnessCommitments) (h2 : p.lookupCommitments = p'.lookupCommitments)
    (h3 : p.zCommitments = p'.zCommitments) (h4 : p.lookupZCommitments = p'.lookupZCommitments)
    (h5 : p.quotientCommitments = p'.quotientCommitments)
    (h6 : p.multiopen.fCommit = p'.multiopen.fCommit) (h7 : p.multiopen.qEvals = p'.multiopen.qEvals) :
    verifierChallenges S p = verifierChallenges S p' ∧
    mpChallenges S p.multiopen (verifierChallenges S p).2 = mpChallenges S p'.multiopen (verifierChallenges S p').2 := by
  have : verifierChallenges S p = verifierChallenges S p' := by
    simp only [verifierChallenges, h1, h2, h3, h4, h5]
  refine ⟨this, ?_⟩
  simp only [mpChallenges, this, h6, h7]

variable [Field F]

/-- Two lists of public inputs that `verify` cannot tell apart: the same labels, and the same values at the
points where the gates and lookups query them. -/
def SameAt (domain : Domain F) [DecidableEq F] (xi : F) (vos : List (GenericVO F))
    (is is' : List (InstanceVerifierOracle F)) : Prop :=
  List.Forall₂ (fun o o' => o.label = o'.label ∧ peval o.poly xi = peval o'.poly xi ∧
    ∀ vo ∈ vos, ∀ e, vo.expr = some e → ∀ q ∈ e.queries, ∀ x,
      q.rotation.point (ε := PiopErr) xi domain.elements = .ok x → peval o.poly x = peval o'.poly x) is is'

/-- **C41 is false**, consequence: every accepted proof is accepted for any other public inputs that
happen to agree at the evaluation challenge and its rotations used by the gates. As the challenge does not
depend on the public inputs, they can be chosen after it. -/
theorem C41_public_inputs_chosen_afterwards (S : Scheme F) [LinearOrder F] [FftParams F] (vk : VerifierKey S)
    (pre : VerifierPreprocessed S) (proof : TPProof S) (ws : List (VerifierOracle F S.Comm))
    (is is' : List (InstanceVerifierOracle F)) (vos : List (GenericVO F)) (domainSize : Nat) (vanishing : List F)
    (domain : Domain F) (hd : Domain.new (F := F) domainSize = some domain)
    (h : SameAt domain (verifierChallenges S proof).1.xi vos is is') :
    verify S vk pre proof ws is vos domainSize vanishing = verify S vk pre proof ws is' vos domainSize vanishing := by
  have hlk : ∀ w f t, (⟨w, is, f, t⟩ : VerifierView F S.Comm).lookupAt (verifierChallenges S proof).1.xi domain.elements
      = (⟨w, is', f, t⟩ : VerifierView F S.Comm).lookupAt (verifierChallenges S proof).1.xi domain.elements := by
    intro w f t
    funext q
    unfold VerifierView.lookupAt
    cases q.oracleType with
    | instance_ =>
      exact withOracle_congr h (fun o o' hr => hr.1)
        (fun o o' hr => by simp only [InstanceVerifierOracle.query, hr.2.1])
    | _ => rfl
  have hv : ∀ w f t o, verifierLookup (S := S) ⟨w, is, f, t⟩ (verifierChallenges S proof).1 domain.elements o
      = verifierLookup (S := S) ⟨w, is', f, t⟩ (verifierChallenges S proof).1 domain.elements o := by
    intro w f t o
    funext p
    unfold verifierLookup
    have : ∀ es ts, lookupUnpermuted (C := S.Comm) ⟨w, is, f, t⟩ p.2 es ts (verifierChallenges S proof).1.theta
        (verifierChallenges S proof).1.xi domain.elements
        = lookupUnpermuted ⟨w, is', f, t⟩ p.2 es ts (verifierChallenges S proof).1.theta
        (verifierChallenges S proof).1.xi domain.elements := by
      intro es ts
      unfold lookupUnpermuted
      simp only [hlk w f t]
      rfl
    simp only [this]
  have hr : verifyRegister S vk pre proof ws is domainSize (verifierChallenges S proof).1
      = verifyRegister S vk pre proof ws is' domainSize (verifierChallenges S proof).1 := by
    unfold verifyRegister
    simp only [hd, Res.unwrap_some, Res.bind_ok, hv]
  have hq : ∀ st, quotientCheckValue S vk st is vos domainSize vanishing (verifierChallenges S proof).1
      = quotientCheckValue S vk st is' vos domainSize vanishing (verifierChallenges S proof).1 := by
    intro st
    unfold quotientCheckValue
    simp only [hd, Res.unwrap_some, Res.bind_ok]
    have : ∀ vo ∈ vos, ∀ e, vo.expr = some e →
        e.evalR ((⟨st.witness, is, st.pre.fixed, st.pre.table⟩ : VerifierView F S.Comm).gateAt
          (verifierChallenges S proof).1.xi domain.elements)
        = e.evalR ((⟨st.witness, is', st.pre.fixed, st.pre.table⟩ : VerifierView F S.Comm).gateAt
          (verifierChallenges S proof).1.xi domain.elements) := by
      intro vo hvo e he
      apply Expr.evalR_congr
      intro q hq
      unfold VerifierView.gateAt
      cases hp : (q.rotation.point (verifierChallenges S proof).1.xi domain.elements : Res PiopErr F) with
      | ok x =>
        simp only [Res.bind_ok]
        cases q.oracleType with
        | instance_ =>
          exact withOracle_congr h (fun o o' hr => hr.1)
            (fun o o' hr => by simp only [InstanceVerifierOracle.query, hr.2.2 vo hvo e he q hq x hp])
        | _ => rfl
      | err e => rfl
      | panic => rfl
    congr 1
    funext al
    congr 1
    funext l0
    congr 1
    funext lu
    congr 1
    apply Res.foldM_congr
    intro acc p hp
    have hmem : p.1 ∈ vos := by
      obtain ⟨a, b⟩ := p
      exact (List.mem_zipIdx' hp).2 ▸ List.getElem_mem _
    unfold GenericVO.getExpression
    cases he : p.1.expr with
    | none => rfl
    | some e => simp only [Res.mapErr_ok, Res.bind_ok, this p.1 hmem e he]
  unfold verify
  simp only [hr, hq]

end

/-- The public inputs of the toy circuit after the change `i(X) + (X - xi)`. -/
def Toy.forged (xi : F97) : List (InstanceVerifierOracle F97) :=
  Toy.vinst.map (fun o => { o with poly := padd o.poly [-xi, 1] })

/-- **C41 is false**, concretely: the toy proof is accepted for public inputs different from those it was made
for, with which the committed witness violates the gate `q * (a * b - c + i)` in the first row. -/
theorem C41_false : ∃ k proof, Toy.key = .ok k ∧ Toy.proveWith k Toy.witness = .ok proof ∧
    Toy.verifyWith k Toy.vinst proof = .ok () ∧
    Toy.verifyWith k (Toy.forged (verifierChallenges Toy.S proof).1.xi) proof = .ok () ∧
    ∃ i, (Toy.forged (verifierChallenges Toy.S proof).1.xi)[0]? = some i ∧
      (7 * 8 - 56 + peval i.poly 1 : F97) ≠ 0 := by
  obtain ⟨k, p, hk, hp, h⟩ := Toy.of_holds (ws := Toy.witness)
    (P := fun k p => decide (Toy.verifyWith k Toy.vinst p = .ok ()
        ∧ Toy.verifyWith k (Toy.forged (verifierChallenges Toy.S p).1.xi) p = .ok () ∧
        ((Toy.forged (verifierChallenges Toy.S p).1.xi)[0]?.map
          (fun i : InstanceVerifierOracle F97 => decide ((7 * 8 - 56 + peval i.poly 1 : F97) ≠ 0))) = some true))
    (by decide +kernel)
  obtain ⟨h1, h2, h3⟩ := of_decide_eq_true h
  obtain ⟨i, hi, h4⟩ := Option.map_eq_some_iff.1 h3
  exact ⟨k, p, hk, hp, h1, h2, i, hi, of_decide_eq_true h4⟩

section
variable {F R Seed : Type}

/-- A scheme whose transcript is the crate's `SimpleHashFiatShamirRng`. -/
structure UsesHash (S : Scheme F) (h : SimpleHash R Seed F) (st : S.T → R × Seed) : Prop where
  init : ∀ m, st (S.fsInit m) = h.init m
  absorb : ∀ t m, st (S.fsAbsorb t m) = h.absorb (st t) m
  rand : ∀ t, (S.fsRand t).1 = (h.rand (st t)).1 ∧ st (S.fsRand t).2 = (h.rand (st t)).2

/-- **C41 (partial)** What the challenges do bind is every commitment: two proofs whose transcripts have the same
seed when the evaluation challenge has been drawn contain the same five lists of commitments (as serialised),
or the two runs contain a collision of the digest. Missing from the full statement: public inputs, circuit
and claimed evaluations, which are not absorbed at all (`C41_false`). -/
theorem C41_commitments_bound_partial (S : Scheme F) (h : SimpleHash R Seed F) (st : S.T → R × Seed)
    (hS : UsesHash S h st) (L : Nat) (hL : ∀ s, (h.seedBytes s).length = L) (h16 : 16 < L)
    (hinj : Function.Injective h.seedBytes) (p p' : TPProof S)
    (e : (st (verifierChallenges S p).2).2 = (st (verifierChallenges S p').2).2) :
    let msgs := fun q : TPProof S => [q.witnessCommitments.flatMap S.encComm, q.lookupCommitments.flatMap S.encComm,
      q.zCommitments.flatMap S.encComm, q.lookupZCommitments.flatMap S.encComm,
      q.quotientCommitments.flatMap S.encComm]
    msgs p = msgs p' ∨ ∃ a ∈ h.hashed (bytes "TurboPlonk-0.0.1") (msgs p),
      ∃ b ∈ h.hashed (bytes "TurboPlonk-0.0.1") (msgs p'), a ≠ b ∧ h.digest a = h.digest b := by
  intro msgs
  have hrun : ∀ q : TPProof S, (st (verifierChallenges S q).2).2
      = (msgs q).foldl (fun s m => h.digest (m ++ h.seedBytes s)) (h.digest (bytes "TurboPlonk-0.0.1")) := by
    intro q
    simp [verifierChallenges, msgs, Scheme.absorbComms, (hS.rand _).2, hS.absorb, hS.init, SimpleHash.rand,
      SimpleHash.absorb, SimpleHash.init]
  rw [hrun, hrun] at e
  rcases h.foldl_binding L hL hinj _ _ (lt_of_le_of_lt (by decide) h16) (lt_of_le_of_lt (by decide) h16) _ _ e with
    h1 | h1
  · exact .inl h1.2
  · exact .inr h1

end

end ZK
