import Verif.Properties.Forgery
import Verif.Properties.Malleable
import Verif.Properties.ProofSize
/-! C61: proofs with all `q` evaluations for false statements. -/
set_option autoImplicit false
set_option linter.unusedSectionVars false
namespace ZK
open Polynomial

section
variable {F : Type} [Field F] [LinearOrder F] [FftParams F] [LawfulFft F]

/-- The first two values changed by `- x1 * b` and `b`: their combination with powers of `x1` stays the same. -/
def shiftTwo (x1 b : F) : List F → List F
  | u :: v :: l => (u - x1 * b) :: (v + b) :: l
  | l => l

/-- The proof with two other claimed evaluations of the quotient. Everything else is kept, in particular the commitments and
the multi-point opening with its `q` evaluations. -/
def adjust {S : Scheme F} (p : TPProof S) (x1 b : F) : TPProof S := { p with quotientEvals := shiftTwo x1 b p.quotientEvals }

omit [LinearOrder F] [FftParams F] [LawfulFft F] in
/-- Changing two neighbours in this way keeps the combination of the values. -/
theorem aggQuery_shiftTwo {α : Type} {query : α → F → Res PiopErr F} {x1 b u v p : F} {n : Nat} {o o' w w' : α} (l l' : List α)
    (ho : query o p = .ok u) (ho' : query o' p = .ok (u - x1 * b)) (hw : query w p = .ok v) (hw' : query w' p = .ok (v + b)) :
    aggQuery query (powersFrom 1 x1 n) (l ++ o' :: w' :: l') p = aggQuery query (powersFrom 1 x1 n) (l ++ o :: w :: l') p := by
  unfold aggQuery
  simp only [List.zipIdx_append, List.zipIdx_cons, Res.foldM_append]
  congr 1
  funext acc
  simp only [Res.foldM_cons, ho, ho', hw, hw', Res.idx, powersFrom_getElem?]
  by_cases h1 : 0 + l.length < n
  · by_cases h2 : 0 + l.length + 1 < n
    · simp only [if_pos h1, if_pos h2, Res.unwrap_some, Res.bind_ok, Res.pure_eq, pow_succ]
      congr 1
      ring
    · simp only [if_pos h1, if_neg h2, Res.unwrap_some, Res.bind_ok, Res.pure_eq]
      rfl
  · simp only [if_neg h1]
    rfl

/-- **C61** The claimed evaluations of the quotient are not bound. Take any proof object `p` whose opening argument is
accepted, so that the verifier computes some value `e` for its identity check, not necessarily zero. If there are at least
two parts of the quotient, changing the claimed evaluations of two of them gives a proof that is accepted, with the same
commitments and the same opening argument, unless the first challenge `x1` of the opening equals `xi^n` or `xi` is a zero of
the vanishing polynomial. -/
theorem C61_adjusted (S : Scheme F) (vk : VerifierKey S) (pre : VerifierPreprocessed S) (p : TPProof S)
    (ws : List (VerifierOracle F S.Comm)) (is : List (InstanceVerifierOracle F)) (vos : List (GenericVO F))
    (domainSize : Nat) (vanishing : List F) (st : VState S)
    (hreg : verifyRegister S vk pre p ws is domainSize (verifierChallenges S p).1 = .ok st) (e : F)
    (hval : quotientCheckValue S vk st is vos domainSize vanishing (verifierChallenges S p).1 = .ok e)
    (hopen : mpVerify S vk.vk p.multiopen st.oracles (verifierChallenges S p).1.xi domainSize (verifierChallenges S p).2 = .ok ())
    (hne : 2 ≤ p.quotientCommitments.length)
    (hv : peval vanishing (verifierChallenges S p).1.xi ≠ 0)
    (hx : (mpChallenges S p.multiopen (verifierChallenges S p).2).1 ≠ (verifierChallenges S p).1.xi ^ domainSize) :
    ∃ b st', verifyRegister S vk pre (adjust p (mpChallenges S p.multiopen (verifierChallenges S p).2).1 b) ws is domainSize
        (verifierChallenges S p).1 = .ok st' ∧
      st'.oracles.map (·.rotations) = st.oracles.map (·.rotations) ∧
      verify S vk pre (adjust p (mpChallenges S p.multiopen (verifierChallenges S p).2).1 b) ws is vos domainSize vanishing
        = .ok () := by
  obtain ⟨x1, hx1⟩ : ∃ x, x = (mpChallenges S p.multiopen (verifierChallenges S p).2).1 := ⟨_, rfl⟩
  rw [← hx1] at hx ⊢
  have hch : ∀ b, verifierChallenges S (adjust p x1 b) = verifierChallenges S p := fun _ => rfl
  obtain ⟨ch, hchd⟩ : ∃ x, x = verifierChallenges S p := ⟨_, rfl⟩
  rw [← hchd] at hreg hval hopen hv hx hx1 ⊢
  simp only [← hchd] at hch
  obtain ⟨ch, t⟩ := ch
  simp only at hreg hval hopen hv hx hx1 hch ⊢
  obtain ⟨xn, hxn⟩ : ∃ x, x = ch.xi ^ domainSize := ⟨_, rfl⟩
  rw [← hxn] at hx
  obtain ⟨b, hb⟩ : ∃ b, b = e / ((xn - x1) * peval vanishing ch.xi) := ⟨_, rfl⟩
  have hbe : (xn - x1) * b * peval vanishing ch.xi = e := by
    rw [hb]
    field_simp [sub_ne_zero.2 (Ne.symm hx)]
  obtain ⟨d, R⟩ := verifyRegister_iff.1 hreg
  -- the first two chunks
  obtain ⟨c, c2, cs, hcs⟩ : ∃ c c2 cs, p.quotientCommitments = c :: c2 :: cs := by
    match h : p.quotientCommitments, hne with
    | c :: c2 :: cs, _ => exact ⟨c, c2, cs, rfl⟩
  have hq := R.quotient
  rw [hcs, List.zipIdx_cons, List.zipIdx_cons, Res.mapM_cons] at hq
  obtain ⟨o, ho, hq⟩ := Res.bind_eq_ok.1 hq
  obtain ⟨u, hu, ho⟩ := Res.bind_eq_ok.1 ho
  obtain ⟨os', hos', hq⟩ := Res.bind_eq_ok.1 hq
  have hq := (Res.ok.inj hq).symm
  rw [Res.mapM_cons] at hos'
  obtain ⟨o2, ho2, hos'⟩ := Res.bind_eq_ok.1 hos'
  obtain ⟨v, hvv, ho2⟩ := Res.bind_eq_ok.1 ho2
  obtain ⟨os, hos, hos'⟩ := Res.bind_eq_ok.1 hos'
  have hos' := (Res.ok.inj hos').symm
  subst hos'
  have hu := Res.idx_eq_ok.1 hu
  have hvv := Res.idx_eq_ok.1 hvv
  obtain ⟨vr, hvr⟩ : ∃ l, p.quotientEvals = u :: v :: l := by
    match h : p.quotientEvals with
    | [] => rw [h] at hu; simp at hu
    | [a] => rw [h] at hvv; simp at hvv
    | a :: a' :: l =>
      rw [h] at hu hvv
      simp only [List.getElem?_cons_zero, Option.some.injEq] at hu
      simp only [Nat.zero_add, List.getElem?_cons_succ, List.getElem?_cons_zero, Option.some.injEq] at hvv
      exact ⟨l, by rw [hu, hvv]⟩
  have ho := (Res.ok.inj ho).symm
  have ho2 := (Res.ok.inj ho2).symm
  have hqe : (adjust p x1 b).quotientEvals = (u - x1 * b) :: (v + b) :: vr := by
    simp [adjust, hvr, shiftTwo]
  obtain ⟨o', ho'⟩ : ∃ x : VerifierOracle F S.Comm, x = { o with evals := [(ch.xi, u - x1 * b)] } := ⟨_, rfl⟩
  obtain ⟨o2', ho2'⟩ : ∃ x : VerifierOracle F S.Comm, x = { o2 with evals := [(ch.xi, v + b)] } := ⟨_, rfl⟩
  have q1 : o.query ch.xi = .ok u := by rw [ho]; simp [VerifierOracle.query, assocGet]
  have q2 : o2.query ch.xi = .ok v := by rw [ho2]; simp [VerifierOracle.query, assocGet]
  have q1' : o'.query ch.xi = .ok (u - x1 * b) := by rw [ho']; simp [VerifierOracle.query, assocGet]
  have q2' : o2'.query ch.xi = .ok (v + b) := by rw [ho2']; simp [VerifierOracle.query, assocGet]
  have r1 : o.rotations = [Rotation.curr] := by rw [ho]; rfl
  have r2 : o2.rotations = [Rotation.curr] := by rw [ho2]; rfl
  have r1' : o'.rotations = [Rotation.curr] := by rw [ho']; exact r1
  have r2' : o2'.rotations = [Rotation.curr] := by rw [ho2']; exact r2
  have g1 : o'.getCommitment = o.getCommitment := by rw [ho']; rfl
  have g2 : o2'.getCommitment = o2.getCommitment := by rw [ho2']; rfl
  let st' : VState S := { st with quotient := o' :: o2' :: os }
  have R' : Registration S vk pre (adjust p x1 b) ws is domainSize ch d st' := by
    refine ⟨R.dom, ?_, R.witness, R.fixed, R.table, R.permLength, R.perm, R.omega, R.lookupComms, R.lookupEvals,
      R.lookups, R.lookupZComms, R.lookupZEvals, R.lookupZs, R.numZ, R.zs, R.qBlind⟩
    rw [hqe]
    show Res.mapM _ p.quotientCommitments.zipIdx = _
    rw [hcs, List.zipIdx_cons, List.zipIdx_cons, Res.mapM_cons]
    refine Res.bind_eq_ok.2 ⟨o', ?_, Res.bind_eq_ok.2 ⟨o2' :: os, ?_, rfl⟩⟩
    · rw [ho', ho]; rfl
    · rw [Res.mapM_cons]
      refine Res.bind_eq_ok.2 ⟨o2', ?_, Res.bind_eq_ok.2 ⟨os, ?_, rfl⟩⟩
      · rw [ho2', ho2]; rfl
      · rw [← hos]
        apply Res.mapM_congr
        intro q hq
        have hpos := (List.mem_zipIdx hq).1
        obtain ⟨k, hk⟩ : ∃ k, q.2 = k + 2 := ⟨q.2 - 2, by omega⟩
        simp only [hvr, Res.idx, hk, List.getElem?_cons_succ]
  refine ⟨b, st', verifyRegister_iff.2 ⟨d, R'⟩, ?_, ?_⟩
  · simp [VState.oracles, openingOrder, st', hq, r1, r2, r1', r2']
  rw [verify_inv, hch]
  simp only
  refine ⟨st', verifyRegister_iff.2 ⟨d, R'⟩, ?_, ?_⟩
  · -- the identity check
    obtain ⟨d2, al, l0, lu, e1, pe, e2, tp, a1, a2, a3, a4, a5, a6, a7, a8, a9⟩ := quotientCheckValue_iff.1 hval
    refine quotientCheckValue_iff.2 ⟨d2, al, l0, lu, e1, pe, e2, tp + (xn - x1) * b, a1, a2, a3, a4, a5, a6, a7, ?_, ?_⟩
    · show Res.foldM _ 0 (List.zip (powersFrom 1 (ch.xi ^ domainSize) (o' :: o2' :: os).length) (o' :: o2' :: os)) = _
      rw [hq] at a8
      rw [← hxn] at a8 ⊢
      simp only [List.length_cons, powersFrom, List.zip_cons_cons, Res.foldM_cons, q1, q2, q1', q2', Res.mapErr_ok, Res.bind_ok,
        Res.pure_eq, one_mul] at a8 ⊢
      have h1 : ∀ (a : F), Res.foldM (fun (acc : F) (p : F × VerifierOracle F S.Comm) => do
            let v ← (p.2.query ch.xi).mapErr (Err.iop (E := S.E))
            pure (acc + p.1 * v)) a (List.zip (powersFrom (xn * xn) xn os.length) os)
            = Res.foldM (fun (acc : F) (p : F × VerifierOracle F S.Comm) => do
              let v ← (do let v ← (p.2.query ch.xi).mapErr (Err.iop (E := S.E)); pure (p.1 * v))
              pure (acc + v)) a (List.zip (powersFrom (xn * xn) xn os.length) os) := by
          intro a
          apply Res.foldM_congr
          intro b x _
          cases (x.2.query ch.xi).mapErr (Err.iop (E := S.E)) <;> rfl
      have h2 := foldM_add_shift _ ((xn - x1) * b) _ _ _ ((h1 _).symm.trans a8)
      refine Eq.trans (h1 _) (Eq.trans (congrArg (fun a => Res.foldM _ a _) ?_) h2)
      ring
    · rw [add_mul, hbe, a9]
      ring
  · -- the opening
    unfold mpVerify at hopen ⊢
    rw [R.dom] at hopen ⊢
    simp only [Res.unwrap_some, Res.bind_ok] at hopen ⊢
    show mpVerifyWith S vk.vk p.multiopen _ _ _ _ _ _ _ = _
    have hx1' : (mpChallenges S (adjust p x1 b).multiopen t).1 = x1 := hx1.symm
    rw [hx1']
    rw [← hx1] at hopen
    obtain ⟨A, hA⟩ : ∃ A, A = st.witness ++ primes st.lookups ++ st.lookupZs := ⟨_, rfl⟩
    obtain ⟨B, hB⟩ : ∃ B, B = os ++ st.zs ++ (st.pre.fixed ++ st.pre.table ++ st.pre.perm ++ [st.pre.qBlind]) := ⟨_, rfl⟩
    have e1 : st.oracles = A ++ o :: o2 :: B := by
      simp [VState.oracles, openingOrder, hq, hA, hB]
    have e2 : st'.oracles = A ++ o' :: o2' :: B := by
      simp [VState.oracles, openingOrder, st', hA, hB]
    rw [e1] at hopen
    rw [e2]
    refine Eq.trans (mpVerifyWith_congr (Domain.new_ok R.dom)
      (fun v w => v = w ∨ (v = o ∧ w = o') ∨ (v = o2 ∧ w = o2')) ?_ ?_ ?_ p.multiopen _ _ _) hopen
    · rintro v w (rfl | ⟨rfl, rfl⟩ | ⟨rfl, rfl⟩)
      · exact ⟨rfl, rfl⟩
      · exact ⟨by rw [r1, r1'], g1⟩
      · exact ⟨by rw [r2, r2'], g2⟩
    · have hrefl : ∀ l : List (VerifierOracle F S.Comm), List.Forall₂ (fun v w => v = w ∨ (v = o ∧ w = o') ∨ (v = o2 ∧ w = o2')) l l :=
        fun l => List.forall₂_same.2 (fun _ _ => Or.inl rfl)
      exact List.rel_append (hrefl A) (.cons (Or.inr (Or.inl ⟨rfl, rfl⟩)) (.cons (Or.inr (Or.inr ⟨rfl, rfl⟩)) (hrefl B)))
    · intro s s' hs hs' hss _ pt hpt
      have f1 := ((C39_partition _ _).2.1 s hs).1
      have f2 := ((C39_partition _ _).2.1 s' hs').1
      rw [hss] at f2
      rw [f1, f2]
      simp only [List.filter_append, List.filter_cons, r1, r2, r1', r2']
      by_cases hc : [Rotation.curr] = s.1
      · simp only [hc, decide_true, if_true]
        have hpt' : pt = ch.xi := by
          rw [← hc] at hpt
          simpa [points, Rotation.curr, Rotation.signed] using hpt
        subst hpt'
        exact aggQuery_shiftTwo _ _ q1 q1' q2 q2'
      · simp only [hc, decide_false, Bool.false_eq_true, if_false]

/-- **C61** is false: one `q` evaluation per opening set is not enough. For a key made by the indexer with at least two parts
of the quotient and any witness, whether or not it satisfies the gates: if `prove` returns a proof, changing two numbers in it
gives a proof which the verifier accepts and which has one `q` evaluation for each opening set, except for challenges
that collide. -/
theorem C61_gates_not_enforced {W I K : Type} [ConcreteOracle W] [ConcreteOracle I] [ConcreteOracle K]
    {S : Scheme F} {pk : ProverKey S} {com : F[X] → S.Rand → S.Comm} (hS : HomomorphicScheme S pk.ck pk.vk.vk com)
    {d : Domain F} (hd : d.Ok) (h1 : 1 < d.size) {vos : List (GenericVO F)}
    -- the key
    {copyFlag : W → Bool} {vk : S.VK} {lookups : List (GenericLookupVO F)} {ows : List W} {ois : List I} {ofs : List K}
    {zh : List F} {info : PermutationInfo F} {usableRows : Nat}
    (hkey : indexer copyFlag vk vos lookups ows ois ofs d zh info usableRows (S := S) = .ok pk.vk)
    (hparts : d.size < pk.vk.index.ext.size)
    -- the circuit, the witness and the verifier's oracles
    {ws is fixed table sigmas : List (ProverOracle F)} {qBlind : ProverOracle F}
    (hs : Supported d pk.vk.index ⟨ws, is, fixed, table⟩ sigmas qBlind vos)
    {vws : List (VerifierOracle F S.Comm)} {vis : List (InstanceVerifierOracle F)} {vpre : VerifierPreprocessed S}
    (hsu : SetUp S com ⟨ws, is, fixed, table⟩ sigmas qBlind vws vis vpre)
    -- the proof
    {z : S.Z} {proof : TPProof S}
    (hp : prove S pk (.new S fixed sigmas table qBlind pk.vk.index) ws is vos d.size z = .ok proof)
    -- the challenges
    (hv : peval zh (verifierChallenges S proof).1.xi ≠ 0)
    (hx1 : (mpChallenges S proof.multiopen (verifierChallenges S proof).2).1 ≠ (verifierChallenges S proof).1.xi ^ d.size)
    (hx3 : ∀ k : ℤ, (mpChallenges S proof.multiopen (verifierChallenges S proof).2).2.2.1
      ≠ (verifierChallenges S proof).1.xi * d.omega ^ k) :
    ∃ b st', verifyRegister S pk.vk vpre (adjust proof (mpChallenges S proof.multiopen (verifierChallenges S proof).2).1 b) vws vis
        d.size (verifierChallenges S proof).1 = .ok st' ∧
      proof.multiopen.qEvals.length = distinctRotations st'.oracles ∧
      verify S pk.vk vpre (adjust proof (mpChallenges S proof.multiopen (verifierChallenges S proof).2).1 b) vws vis vos d.size zh
        = .ok () := by
  obtain ⟨-, -, -, -, hext, hle, hsz, -, -, -, -, -, -, -⟩ := indexer_ok hd hkey
  obtain ⟨r, quotient, wc, lc, zc, lzc, qc, hr⟩ := prove_run hS hd hext hle hs hp
  obtain ⟨hql, hqr⟩ := quotientRound_length hd hr.round
  have H := hr.honest hqr
  have hself := hd.new_self
  obtain ⟨st, hst, hacc⟩ := H.registration hd hext hle hr.allHonest hr.supported h1 hself (vk := pk.vk) rfl (hsu.extend _)
  have hopen := mpVerify_of_opened hS d.size d hself _ _ st.oracles _ _ proof.multiopen hr.length hacc.openings hr.opened
    (fun o _ r _ => hx3 _)
  have hcount : 2 ≤ proof.quotientCommitments.length := by
    rw [H.quotientCommitments, List.length_map, ← H.qcOk.length_eq, hql]
    rw [Nat.le_div_iff_mul_le hd.size_pos]
    omega
  obtain ⟨b, st', b1, b2, b3⟩ := C61_adjusted S pk.vk vpre proof vws vis vos d.size zh st (verifyRegister_iff.2 ⟨d, hst⟩) _
    (quotientCheckValue_eq hd hacc.polys hr.fits hr.lookups zh) hopen hcount hv hx1
  refine ⟨b, st', b1, ?_, b3⟩
  rw [hr.opened.qEvals_length hr.length]
  have hmap : ∀ {l : List (ProverOracle F × S.Rand)} {vs : List (VerifierOracle F S.Comm)},
      List.Forall₂ (OpeningPair S com d (verifierChallenges S proof).1.xi) l vs →
      vs.map (·.rotations) = l.map (fun o => o.1.rotations) := by
    intro l vs h
    induction h with
    | nil => rfl
    | cons h _ ih => rw [List.map_cons, List.map_cons, ih, h.rotations]
  have h2 := hmap hacc.openings
  have h3 := List.map_fst_zip (l₁ := openingOrder _ _ _ _ _ _ _ _ _) (l₂ := _) hr.length.le
  show (List.map (fun (o : ProverOracle F) => o.rotations) _).toFinset.card
    = (List.map (fun (o : VerifierOracle F S.Comm) => o.rotations) _).toFinset.card
  rw [b2, h2]
  conv_lhs => rw [← h3, List.map_map]
  rfl

end
end ZK
