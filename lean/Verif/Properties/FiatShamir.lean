import Verif.Lemmas.Forger
import Verif.Properties.Soundness
/-! C68: with a random oracle nobody finds a proof with true evaluations for a violated circuit. -/
set_option autoImplicit false
set_option linter.unusedSectionVars false
namespace ZK
open Polynomial MeasureTheory

section
variable {F : Type} [Field F] [LinearOrder F] [FftParams F] {S : Scheme F}

def VState.hashing (st : VState S) (H : History → F) : VState (S.hashing H) :=
  ⟨st.witness, st.pre.hashing H, st.quotient, st.lookups, st.lookupZs, st.zs⟩

theorem verifyRegister_hashing (vk : VerifierKey S) (pre : VerifierPreprocessed S) (p : TPProof S)
    (ws : List (VerifierOracle F S.Comm)) (is : List (InstanceVerifierOracle F)) (n : Nat) (H : History → F) (ch : Challenges F) :
    verifyRegister (S.hashing H) (vk.hashing H) (pre.hashing H) (p.hashing H) ws is n ch
      = (verifyRegister S vk pre p ws is n ch).map1 (fun st => st.hashing H) := by
  unfold verifyRegister
  repeat' refine Res.bind_eq_map1 (fun _ => ?_)
  rfl

variable [LawfulFft F]

/-- An accepted proof is registered and passes the quotient check. -/
theorem verify_hashing_ok {vk : VerifierKey S} {pre : VerifierPreprocessed S} {p : TPProof S}
    {ws : List (VerifierOracle F S.Comm)} {is : List (InstanceVerifierOracle F)} {vos : List (GenericVO F)} {n : Nat} {vanishing : List F}
    {H : History → F} (h : verify (S.hashing H) (vk.hashing H) (pre.hashing H) (p.hashing H) ws is vos n vanishing = .ok ()) :
    ∃ st, verifyRegister S vk pre p ws is n (verifierChallenges (S.hashing H) (p.hashing H)).1 = .ok st ∧
      quotientCheckValue S vk st is vos n vanishing (verifierChallenges (S.hashing H) (p.hashing H)).1 = .ok 0 := by
  generalize hch : (verifierChallenges (S.hashing H) (p.hashing H)).1 = ch
  unfold verify at h
  simp only [hch] at h
  obtain ⟨st', h1, h2⟩ := Res.bind_eq_ok.1 h
  obtain ⟨q, h3, h4⟩ := Res.bind_eq_ok.1 h2
  have h5 := (verifyRegister_hashing vk pre p ws is n H ch).symm.trans h1
  cases hst : verifyRegister S vk pre p ws is n ch with
  | err e => rw [hst] at h5; cases h5
  | panic => rw [hst] at h5; cases h5
  | ok st =>
    rw [hst] at h5
    obtain rfl := Res.ok.inj h5
    refine ⟨st, rfl, ?_⟩
    by_cases hq : q = 0
    · subst hq
      exact h3
    · rw [if_pos hq] at h4
      cases h4

end

section
variable {F : Type} [Field F] {S : Scheme F}

open Classical in
/-- The polynomials behind the commitments in a message. -/
noncomputable def decodeMessage (com : F[X] → S.Rand → S.Comm) (m : List Nat) : List F[X] :=
  if h : ∃ ps cs, CommitsTo com ps cs ∧ cs.flatMap S.encComm = m then h.choose else []

theorem decodeMessage_eq {com : F[X] → S.Rand → S.Comm} (hinj : ∀ p q r s, com p r = com q s → p = q)
    (henc : ∀ cs cs' : List S.Comm, cs.flatMap S.encComm = cs'.flatMap S.encComm → cs = cs') {ps : List F[X]} {cs : List S.Comm}
    (h : CommitsTo com ps cs) : decodeMessage com (cs.flatMap S.encComm) = ps := by
  have hex : ∃ ps' cs', CommitsTo com ps' cs' ∧ cs'.flatMap S.encComm = cs.flatMap S.encComm := ⟨ps, cs, h, rfl⟩
  unfold decodeMessage
  rw [dif_pos hex]
  obtain ⟨cs', h1, h2⟩ := hex.choose_spec
  rw [henc _ _ h2] at h1
  generalize hex.choose = ps' at h1
  clear h2 hex
  induction h1 generalizing ps with
  | nil => cases h; rfl
  | cons hp _ ih =>
    cases h with
    | cons hp' h' =>
      obtain ⟨r, e⟩ := hp
      obtain ⟨r', e'⟩ := hp'
      rw [hinj _ _ _ _ (e.symm.trans e'), ih h']

end

/-- The largest number of exceptional values of a challenge in C51, for `u` usable rows, at most `K` components of a lookup, `m` copied columns, `g` gates, `l` lookups, `Z` grand
products, at most `L` parts of the quotient, gates of degree at most `B`, `n` rows, polynomials with at most `D` coefficients and a vanishing polynomial
of degree `z`. -/
def roundError (u K m g l Z L B n D z : Nat) : Nat :=
  max (max (u * (K - 1)) (max (2 * (m * u)) (4 * u))) (max (g + 2 * Z + 5 * l) (max B (n * (L - 1) + (D - 1) + z)))

section
variable {F : Type} [Field F] [LinearOrder F] [FftParams F] [LawfulFft F] [Fintype F] [MeasurableSpace F] [DiscreteMeasurableSpace F]

omit [LinearOrder F] [FftParams F] [LawfulFft F] [MeasurableSpace F] [DiscreteMeasurableSpace F] in
theorem FewPairs.ncard_le {k : Nat} {bad : Set (F × F)} (h : FewPairs k bad) : bad.ncard ≤ k * Fintype.card F := by
  classical
  have := h Finset.univ
  rw [Finset.card_univ] at this
  refine le_trans (le_of_eq ?_) this
  rw [← Set.ncard_coe_finset]
  congr 1
  ext p
  simp

omit [LinearOrder F] [FftParams F] [LawfulFft F] [MeasurableSpace F] [DiscreteMeasurableSpace F] [Field F] in
theorem ncard_fst_le (B : Finset F) : {p : F × F | p.1 ∈ B}.ncard ≤ B.card * Fintype.card F := by
  classical
  rw [← Finset.card_univ, ← Finset.card_product, ← Set.ncard_coe_finset]
  refine Set.ncard_le_ncard ?_ (Finset.finite_toSet _)
  intro p hp
  simpa using hp

omit [LinearOrder F] [FftParams F] [LawfulFft F] [MeasurableSpace F] [DiscreteMeasurableSpace F] [Field F] in
theorem ncard_guard {k : Nat} {P : Prop} {A : Set (F × F)} (h : P → A.ncard ≤ k) : {p : F × F | P ∧ p ∈ A}.ncard ≤ k := by
  by_cases hP : P
  · simpa [hP] using h hP
  · simp [hP]

/-- **C68** With a random oracle in place of the transcript, nobody finds a proof for a violated circuit whose evaluations are true. A
circuit, its key and its public inputs are fixed. Commitments determine polynomials, and the bytes of a list of commitments determine the list. A forger without bound on the computing
power puts at most `Q` questions to the random oracle, each depending on the answers before, and makes a proof. The probability that the proof is accepted although its
witness commitments are commitments to columns which violate the circuit, that its other commitments are commitments to polynomials with at
most `D` coefficients, at most `L` of them parts of the quotient, and that the claimed evaluations are those of the polynomials committed to, is at most
`(Q + 4) e / |F|`, where `e` is the largest number of exceptional values of a challenge in C51. Here `view ps` are the columns of the circuit for the witness polynomials `ps`. The forger chooses the witness as well, after
having seen values of the random oracle. That the evaluations are true is what the code should make sure of with the multi-point opening
and does not (C36, C61). -/
theorem C68_random_oracle_soundness {d : Domain F} {D N B K Z L m : Nat} {sigmas : List (ProverOracle F)} {qBlind : ProverOracle F}
    {vos : List (GenericVO F)} {S : Scheme F} {com : F[X] → S.Rand → S.Comm} {vk : VerifierKey S}
    (hinj : ∀ p q r s, com p r = com q s → p = q)
    (henc : ∀ cs cs' : List S.Comm, cs.flatMap S.encComm = cs'.flatMap S.encComm → cs = cs')
    {pre : VerifierPreprocessed S} {ws : List (VerifierOracle F S.Comm)} {is : List (InstanceVerifierOracle F)}
    (hdom : Domain.new (F := F) d.size = some d) (hn : 2 ≤ d.size) {vanishing : List F} (hvos : vos ≠ [])
    (hb : DegreeBounds d D N B K vk.index vos) (hZ : vk.index.perm.numberOfZPolys m = (.ok Z : Res (Err S.E) Nat))
    (view : List F[X] → ProverView F)
    (hview : ∀ ps : List F[X], ps.length = ws.length → (∀ p ∈ ps, p.degree < D) →
      (view ps).witness.map (fun o => toPoly o.poly) = ps ∧ ((view ps).witness.filter (·.shouldPermute)).length = m ∧
      SetUp S com (view ps) sigmas qBlind ws is pre ∧ Enforced d D vk.index (view ps) sigmas qBlind vos (toPoly vanishing))
    (tau : ∀ ps, Equiv.Perm (Fin ((view ps).witness.filter (·.shouldPermute)).length × Fin vk.index.perm.usableRows))
    (hte : ∀ ps, ps.length = ws.length → Encodes d vk.index.perm.deltas sigmas (tau ps))
    (A : Forger F (TPProof S)) {Q : Nat} (hQ : ∀ H, (A.asked H).length ≤ Q) :
    randomOracle F {H | ∃ ps ls zs lzs qs : List F[X], ps.length = ws.length ∧ qs.length ≤ L ∧
        (∀ p ∈ ps ++ ls ++ zs ++ lzs ++ qs, p.degree < D) ∧ MadeOf com ps ls zs lzs qs (A.run H) ∧
        ¬ (GatesHold d (view ps) vos (toPoly vanishing) ∧ CopiesHold (view ps) (tau ps) ∧
          LookupsHold d.size vk.index.perm.usableRows (view ps) vk.index.lookups) ∧
        (∀ st, verifyRegister S vk pre (A.run H) ws is d.size (verifierChallenges (S.hashing H) ((A.run H).hashing H)).1 = .ok st →
          ∀ w ∈ st.oracles, TrueClaims com d (verifierChallenges (S.hashing H) ((A.run H).hashing H)).1.xi w) ∧
        verify (S.hashing H) (vk.hashing H) (pre.hashing H) ((A.run H).hashing H) ws is vos d.size vanishing = .ok ()}
      ≤ (((Q + 4) * roundError vk.index.perm.usableRows K m vos.length vk.index.lookups.length Z L B d.size D
          (toPoly vanishing).natDegree : Nat) : ENNReal) / (Fintype.card F : ENNReal) := by
  classical
  let V : List F[X] → Prop := fun ps => ps.length = ws.length ∧ (∀ p ∈ ps, p.degree < D) ∧
    ¬ (GatesHold d (view ps) vos (toPoly vanishing) ∧ CopiesHold (view ps) (tau ps) ∧
      LookupsHold d.size vk.index.perm.usableRows (view ps) vk.index.lookups)
  have core := fun (ps : List F[X]) (h : V ps) => true_claims_caught (hview ps h.1 h.2.1).2.2.1 hdom hn hvos (hview ps h.1 h.2.1).2.2.2 hb (tau ps)
    (hte ps h.1) h.2.2
  choose! Bt hBt core using core
  choose! Bp hBp core using core
  choose! Ba hBa core using core
  choose! Bx hBx core using core
  let i0 : List Nat := bytes "TurboPlonk-0.0.1"
  let dec := decodeMessage com
  let deg : List F[X] → Prop := fun ps => ∀ p ∈ ps, p.degree < D
  let bad : (History → F) → List (List Nat) → Set (F × F) := fun H s => match s with
    | [a] => {p | V (dec a) ∧ p ∈ {p : F × F | p.1 ∈ Bt (dec a)}}
    | [a, b] => {p | (V (dec a) ∧ (drawsAt i0 [a] H).1 ∉ Bt (dec a) ∧ deg (dec b)) ∧ p ∈ Bp (dec a) (drawsAt i0 [a] H).1 (dec b)}
    | [a, b, c, e] => {p | (V (dec a) ∧ (drawsAt i0 [a] H).1 ∉ Bt (dec a) ∧ deg (dec b) ∧
        drawsAt i0 [a, b] H ∉ Bp (dec a) (drawsAt i0 [a] H).1 (dec b) ∧ deg (dec c) ∧ deg (dec e) ∧ (dec c).length = Z) ∧
        p ∈ {p : F × F | p.1 ∈ Ba (dec a) (drawsAt i0 [a] H).1 (dec b) (drawsAt i0 [a, b] H).1 (drawsAt i0 [a, b] H).2 (dec c) (dec e)}}
    | [a, b, c, e, f] => {p | (V (dec a) ∧ (drawsAt i0 [a] H).1 ∉ Bt (dec a) ∧ deg (dec b) ∧
        drawsAt i0 [a, b] H ∉ Bp (dec a) (drawsAt i0 [a] H).1 (dec b) ∧ deg (dec c) ∧ deg (dec e) ∧
        (drawsAt i0 [a, b, c, e] H).1 ∉ Ba (dec a) (drawsAt i0 [a] H).1 (dec b) (drawsAt i0 [a, b] H).1 (drawsAt i0 [a, b] H).2 (dec c) (dec e) ∧
        deg (dec f) ∧ (dec f).length ≤ L) ∧
        p ∈ {p : F × F | p.1 ∈ Bx (dec a) (drawsAt i0 [a] H).1 (dec b) (drawsAt i0 [a, b] H).1 (drawsAt i0 [a, b] H).2 (dec c) (dec e)
          (drawsAt i0 [a, b, c, e] H).1 (dec f)}}
    | _ => ∅
  let msgs : TPProof S → List (List Nat) := fun p => [p.witnessCommitments.flatMap S.encComm, p.lookupCommitments.flatMap S.encComm,
    p.zCommitments.flatMap S.encComm, p.lookupZCommitments.flatMap S.encComm, p.quotientCommitments.flatMap S.encComm]
  refine le_trans (measure_mono ?_) (forger_game i0 A hQ (fun p => [(msgs p).take 1, (msgs p).take 2, (msgs p).take 4, msgs p]) (R := 4)
    (fun _ => le_rfl) bad ?_ ?_)
  · rintro H ⟨ps, ls, zs, lzs, qs, hlen, hqs, hdeg, hm, hviol, htrue, hacc⟩
    obtain ⟨st, hst, hq⟩ := verify_hashing_ok hacc
    have hV : V ps := ⟨hlen, fun p hp => hdeg p (by simp [hp]), hviol⟩
    obtain ⟨hw, hmm, hsu, hs⟩ := hview ps hV.1 hV.2.1
    have d1 : dec ((A.run H).witnessCommitments.flatMap S.encComm) = ps := decodeMessage_eq hinj henc hm.witness
    have d2 : dec ((A.run H).lookupCommitments.flatMap S.encComm) = ls := decodeMessage_eq hinj henc hm.lookups
    have d3 : dec ((A.run H).zCommitments.flatMap S.encComm) = zs := decodeMessage_eq hinj henc hm.zs
    have d4 : dec ((A.run H).lookupZCommitments.flatMap S.encComm) = lzs := decodeMessage_eq hinj henc hm.lookupZs
    have d5 : dec ((A.run H).quotientCommitments.flatMap S.encComm) = qs := decodeMessage_eq hinj henc hm.quotient
    have g2 : deg ls := fun p hp => hdeg p (by simp [hp])
    have g3 : deg zs := fun p hp => hdeg p (by simp [hp])
    have g4 : deg lzs := fun p hp => hdeg p (by simp [hp])
    have g5 : deg qs := fun p hp => hdeg p (by simp [hp])
    have hzs : zs.length = Z := by
      obtain ⟨dd, hreg⟩ := verifyRegister_iff.1 hst
      have := (hreg.fits hsu (hw.symm ▸ hm)).1
      rw [hmm, hZ] at this
      exact (Res.ok.inj this).symm
    by_contra hno
    have hno : ∀ s ∈ [(msgs (A.run H)).take 1, (msgs (A.run H)).take 2, (msgs (A.run H)).take 4, msgs (A.run H)], drawsAt i0 s H ∉ bad H s :=
      fun s hs hb => hno ⟨s, List.mem_append_right _ hs, hb⟩
    have n1 : (drawsAt i0 ((msgs (A.run H)).take 1) H).1 ∉ Bt ps := by
      intro h
      refine hno ((msgs (A.run H)).take 1) (by simp) ?_
      show _ ∧ _
      rw [d1]
      exact ⟨hV, h⟩
    have n2 : drawsAt i0 ((msgs (A.run H)).take 2) H ∉ Bp ps (drawsAt i0 ((msgs (A.run H)).take 1) H).1 ls := by
      intro h
      refine hno ((msgs (A.run H)).take 2) (by simp) ?_
      show _ ∧ _
      rw [d1, d2]
      exact ⟨⟨hV, n1, g2⟩, h⟩
    have n3 : (drawsAt i0 ((msgs (A.run H)).take 4) H).1 ∉ Ba ps (drawsAt i0 ((msgs (A.run H)).take 1) H).1 ls
        (drawsAt i0 ((msgs (A.run H)).take 2) H).1 (drawsAt i0 ((msgs (A.run H)).take 2) H).2 zs lzs := by
      intro h
      refine hno ((msgs (A.run H)).take 4) (by simp) ?_
      show _ ∧ _
      rw [d1, d2, d3, d4]
      exact ⟨⟨hV, n1, g2, n2, g3, g4, hzs⟩, h⟩
    have n4 : (drawsAt i0 (msgs (A.run H)) H).1 ∉ Bx ps (drawsAt i0 ((msgs (A.run H)).take 1) H).1 ls
        (drawsAt i0 ((msgs (A.run H)).take 2) H).1 (drawsAt i0 ((msgs (A.run H)).take 2) H).2 zs lzs
        (drawsAt i0 ((msgs (A.run H)).take 4) H).1 qs := by
      intro h
      refine hno (msgs (A.run H)) (by simp) ?_
      show _ ∧ _
      rw [d1, d2, d3, d4, d5]
      exact ⟨⟨hV, n1, g2, n2, g3, g4, n3, g5, hqs⟩, h⟩
    obtain ⟨y, hy0, hy⟩ := core ps hV _ n1 ls g2 _ _ n2 zs lzs g3 g4 _ n3 qs g5 _ n4 (A.run H) (hw.symm ▸ hm) st hst (htrue st hst)
    exact hy0 (Res.ok.inj (hy.symm.trans hq))
  · intro H H' s h
    match s with
    | [] => rfl
    | [a] => rfl
    | [a, b] => simp only [bad]; rw [h [a] (by simp) (by simp)]
    | [a, b, c] => rfl
    | [a, b, c, e] => simp only [bad]; rw [h [a] (by simp) (by simp), h [a, b] (by simp) (by simp)]
    | [a, b, c, e, f] => simp only [bad]; rw [h [a] (by simp) (by simp), h [a, b] (by simp) (by simp), h [a, b, c, e] (by simp) (by simp)]
    | _ :: _ :: _ :: _ :: _ :: _ :: _ => rfl
  · intro H s
    match s with
    | [] => simp [bad]
    | [a] =>
      refine ncard_guard (fun hV => (ncard_fst_le _).trans (Nat.mul_le_mul_right _ ((hBt _ hV).trans ?_)))
      unfold roundError
      omega
    | [a, b] =>
      refine ncard_guard (fun hV => ((hBp _ hV.1 _ hV.2.1 _ hV.2.2).ncard_le).trans (Nat.mul_le_mul_right _ ?_))
      rw [(hview _ hV.1.1 hV.1.2.1).2.1]
      unfold roundError
      omega
    | [a, b, c] => simp [bad]
    | [a, b, c, e] =>
      refine ncard_guard (fun hV => (ncard_fst_le _).trans (Nat.mul_le_mul_right _ ?_))
      obtain ⟨v1, v2, v3, v4, v5, v6, v7⟩ := hV
      refine (hBa _ v1 _ v2 _ v3 _ _ v4 _ _ v5 v6).trans ?_
      rw [v7]
      unfold roundError
      omega
    | [a, b, c, e, f] =>
      refine ncard_guard (fun hV => (ncard_fst_le _).trans (Nat.mul_le_mul_right _ ?_))
      obtain ⟨v1, v2, v3, v4, v5, v6, v7, v8, v9⟩ := hV
      refine (hBx _ v1 _ v2 _ v3 _ _ v4 _ _ v5 v6 _ v7 _ v8).trans ?_
      have : d.size * ((dec f).length - 1) ≤ d.size * (L - 1) := Nat.mul_le_mul_left _ (by omega)
      unfold roundError
      omega
    | _ :: _ :: _ :: _ :: _ :: _ :: _ => simp [bad]

end
end ZK
