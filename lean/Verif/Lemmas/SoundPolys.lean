import Verif.Lemmas.SoundRegister
import Verif.Lemmas.Refine
import Verif.Properties.Lookup
/-!
If all claimed evaluations are true, the verifier's oracles answer with the values of the polynomials behind the
commitments of the proof.
-/
set_option autoImplicit false
set_option linter.unusedSectionVars false
namespace ZK
open Polynomial

section
variable {F : Type} [Field F] [LinearOrder F] [FftParams F] [LawfulFft F]
variable {S : Scheme F} {com : F[X] → S.Rand → S.Comm} {vk : VerifierKey S} {pre : VerifierPreprocessed S} {proof : TPProof S}
  {ws : List (VerifierOracle F S.Comm)} {is : List (InstanceVerifierOracle F)} {domainSize : Nat} {ch : Challenges F}
  {d : Domain F} {st : VState S} {v : ProverView F} {sigmas : List (ProverOracle F)} {qBlind : ProverOracle F}
  {ls zs lzs qs : List F[X]} {vos : List (GenericVO F)}

theorem mem_oracles {w : VerifierOracle F S.Comm} : w ∈ st.oracles ↔ w ∈ st.witness ∨ w ∈ primes st.lookups ∨
    w ∈ st.lookupZs ∨ w ∈ st.quotient ∨ w ∈ st.zs ∨ w ∈ st.pre.fixed ∨ w ∈ st.pre.table ∨ w ∈ st.pre.perm ∨
    w = st.pre.qBlind := by
  unfold VState.oracles openingOrder
  simp only [List.mem_append, List.mem_singleton, or_assoc]

theorem mem_primes {ls : List (LookupOracles (VerifierOracle F S.Comm))} {w : VerifierOracle F S.Comm} :
    w ∈ primes ls ↔ ∃ l ∈ ls, w = l.aPrime ∨ w = l.sPrime := by
  unfold primes
  simp [List.mem_flatMap]

theorem linked_told {xi : F} {os : List (ProverOracle F)} {ws : List (VerifierOracle F S.Comm)}
    (h : List.Forall₂ (Linked com) os ws) (ht : ∀ w ∈ ws, TrueClaims com d xi w) :
    List.Forall₂ (fun o p => ∃ rr, Told S com d xi (o, rr) p) os ws := by
  induction h with
  | nil => exact .nil
  | cons h1 _ ih =>
    exact .cons (h1.told (ht _ (List.mem_cons_self ..))) (ih (fun w hw => ht w (List.mem_cons_of_mem _ hw)))

/-- The polynomials behind the two commitments of a lookup. -/
theorem Registration.lookup_polys (h : Registration S vk pre proof ws is domainSize ch d st)
    (hm : MadeOf com (v.witness.map (fun o => toPoly o.poly)) ls zs lzs qs proof) {i : Nat}
    {o : LookupOracles (VerifierOracle F S.Comm)} (ho : st.lookups[i]? = some o) :
    ∃ pc r0 r1, (chunks 2 ls)[i]? = some pc ∧ pc.getD 0 0 ∈ ls ∧ pc.getD 1 0 ∈ ls ∧
      o.aPrime.commitment = some (com (pc.getD 0 0) r0) ∧ o.sPrime.commitment = some (com (pc.getD 1 0) r1) := by
  have hi := getElem?_some_lt ho
  rw [h.lookups_length] at hi
  obtain ⟨es, ts, a, s, cc, c0, c1, -, -, -, g4, g5, g6, -, -, g9, g10, -⟩ :=
    h.lookup_inv (List.getElem?_eq_getElem hi) ho
  obtain ⟨pc, g13, g14⟩ := Forall₂.right (forall₂_chunks (k := 2) hm.lookups) g4
  obtain ⟨p0, g15, r0, rfl⟩ := Forall₂.right g14 g5
  obtain ⟨p1, g16, r1, rfl⟩ := Forall₂.right g14 g6
  have e0 : pc.getD 0 0 = p0 := by rw [List.getD_eq_getElem?_getD, g15]; rfl
  have e1 : pc.getD 1 0 = p1 := by rw [List.getD_eq_getElem?_getD, g16]; rfl
  have hsub : ∀ p ∈ pc, p ∈ ls := by
    intro p hp
    rw [← chunks_flatten (k := 2) (by omega) ls]
    exact List.mem_flatten.2 ⟨pc, List.mem_of_getElem? g13, hp⟩
  refine ⟨pc, r0, r1, g13, ?_, ?_, ?_, ?_⟩
  · rw [e0]; exact hsub _ (List.mem_of_getElem? g15)
  · rw [e1]; exact hsub _ (List.mem_of_getElem? g16)
  · rw [e0]; exact g9
  · rw [e1]; exact g10

/-- Every opened oracle holds a commitment to one of the polynomials. -/
theorem Registration.committed (h : Registration S vk pre proof ws is domainSize ch d st)
    (hsu : SetUp S com v sigmas qBlind ws is pre) (hm : MadeOf com (v.witness.map (fun o => toPoly o.poly)) ls zs lzs qs proof)
    {D : Nat} (hcols : ∀ o ∈ v.witness ++ v.fixed ++ v.table ++ sigmas ++ [qBlind], (toPoly o.poly).degree < D)
    (hls : ∀ p ∈ ls, p.degree < D) (hzs : ∀ p ∈ zs, p.degree < D) (hlzs : ∀ p ∈ lzs, p.degree < D)
    (hqs : ∀ p ∈ qs, p.degree < D) : ∀ w ∈ st.oracles, ∃ p r, w.commitment = some (com p r) ∧ p.degree < D := by
  have hv := h.view hsu hm
  have key : ∀ {os : List (ProverOracle F)} {ws : List (VerifierOracle F S.Comm)}, List.Forall₂ (Linked com) os ws →
      (∀ o ∈ os, (toPoly o.poly).degree < D) → ∀ w ∈ ws, ∃ p r, w.commitment = some (com p r) ∧ p.degree < D := by
    intro os ws hF ho w hw
    obtain ⟨i, hi⟩ := List.getElem?_of_mem hw
    obtain ⟨o, g1, -, r, g2⟩ := Forall₂.right hF hi
    exact ⟨_, r, g2, ho o (List.mem_of_getElem? g1)⟩
  have key2 : ∀ {ps : List F[X]} {cs : List S.Comm}, CommitsTo com ps cs → (∀ p ∈ ps, p.degree < D) →
      ∀ (i : Nat) (c : S.Comm), cs[i]? = some c → ∃ p r, c = com p r ∧ p.degree < D := by
    intro ps cs hF hp i c hc
    obtain ⟨p, g1, r, rfl⟩ := Forall₂.right hF hc
    exact ⟨p, r, rfl, hp p (List.mem_of_getElem? g1)⟩
  intro w hw
  rw [mem_oracles] at hw
  rcases hw with hw | hw | hw | hw | hw | hw | hw | hw | rfl
  · exact key hv.witness (fun o ho => hcols o (by simp [ho])) w hw
  · obtain ⟨l, hl, hw⟩ := mem_primes.1 hw
    obtain ⟨i, hi⟩ := List.getElem?_of_mem hl
    obtain ⟨pc, r0, r1, -, g2, g3, g4, g5⟩ := h.lookup_polys hm hi
    rcases hw with rfl | rfl
    · exact ⟨_, r0, g4, hls _ g2⟩
    · exact ⟨_, r1, g5, hls _ g3⟩
  · obtain ⟨i, hi⟩ := List.getElem?_of_mem hw
    obtain ⟨c, g1, g2, -⟩ := h.lookupZ_inv hi
    obtain ⟨p, r, rfl, g3⟩ := key2 hm.lookupZs hlzs i c g1
    exact ⟨p, r, g2, g3⟩
  · obtain ⟨i, hi⟩ := List.getElem?_of_mem hw
    obtain ⟨c, g1, g2, -⟩ := h.quotient_inv hi
    obtain ⟨p, r, rfl, g3⟩ := key2 hm.quotient hqs i c g1
    exact ⟨p, r, g2, g3⟩
  · obtain ⟨i, hi⟩ := List.getElem?_of_mem hw
    obtain ⟨c, g1, g2, -⟩ := h.z_inv hi
    obtain ⟨p, r, rfl, g3⟩ := key2 hm.zs hzs i c g1
    exact ⟨p, r, g2, g3⟩
  · exact key hv.fixed (fun o ho => hcols o (by simp [ho])) w hw
  · exact key hv.table (fun o ho => hcols o (by simp [ho])) w hw
  · exact key hv.perm (fun o ho => hcols o (by simp [ho])) w hw
  · obtain ⟨-, r, g⟩ := hv.qBlind
    exact ⟨_, r, g, hcols qBlind (by simp)⟩

/-- The polynomials of the sent grand products and of the lookups have the shape the verifier expects. -/
theorem Registration.fits (h : Registration S vk pre proof ws is domainSize ch d st)
    (hsu : SetUp S com v sigmas qBlind ws is pre) (hm : MadeOf com (v.witness.map (fun o => toPoly o.poly)) ls zs lzs qs proof) :
    (vk.index.perm.numberOfZPolys (v.witness.filter (·.shouldPermute)).length = (.ok zs.length : Res (Err S.E) _)) ∧
    (chunks 2 ls).length = vk.index.lookups.length ∧ lzs.length = vk.index.lookups.length := by
  have hv := h.view hsu hm
  refine ⟨?_, ?_, ?_⟩
  · rw [hm.zs.length_eq, (forall₂_filter hv.witness (fun a b g => g.1.2.2) : List.Forall₂ _
      (v.witness.filter (·.shouldPermute)) (st.witness.filter (·.shouldPermute))).length_eq]
    exact h.numZ
  · rw [← h.lookupComms, chunks_length_congr (by omega) hm.lookups.length_eq]
  · rw [← h.lookupZComms, hm.lookupZs.length_eq]

/-- Answers of an opened oracle at the challenge and at its neighbours. -/
theorem TrueClaims.at {xi : F} {w : VerifierOracle F S.Comm} {p : F[X]} {r : S.Rand} (h : TrueClaims com d xi w)
    (hc : w.commitment = some (com p r)) {ro : Rotation} (hro : ro ∈ w.rotations) {x : F} (hx : d.omega ^ ro.signed * xi = x) :
    w.query x = .ok (p.eval x) := by
  rw [← hx, mul_comm]
  exact h p r hc ro hro

theorem Registration.verifierPolys (h : Registration S vk pre proof ws is domainSize ch d st)
    (hsu : SetUp S com v sigmas qBlind ws is pre) (hm : MadeOf com (v.witness.map (fun o => toPoly o.poly)) ls zs lzs qs proof)
    {D : Nat} {zh : F[X]} (hs : Enforced d D vk.index v sigmas qBlind vos zh)
    (hall : ∀ w ∈ st.oracles, TrueClaims com d ch.xi w) :
    VerifierPolys d st is vos ch.xi vk.index.perm.usableRows
      (sentPolys d v vos sigmas qBlind vk.index.lookups ch.theta ls zs lzs) qs := by
  have hd := Domain.new_ok h.dom
  have hv := h.view hsu hm
  obtain ⟨-, hfl, hflz⟩ := h.fits hsu hm
  have hT : ViewTold S com d ch.xi v ⟨st.witness, is, st.pre.fixed, st.pre.table⟩ :=
    ⟨linked_told hv.witness (fun w hw => hall w (mem_oracles.2 (by simp [hw]))), hsu.inst,
      linked_told hv.fixed (fun w hw => hall w (mem_oracles.2 (by simp [hw]))),
      linked_told hv.table (fun w hw => hall w (mem_oracles.2 (by simp [hw])))⟩
  have hperm := linked_told hv.perm (fun w hw => hall w (mem_oracles.2 (by simp [hw])))
  have hzq : ∀ (i : Nat) (o : VerifierOracle F S.Comm) (p : F[X]), st.zs[i]? = some o → zs[i]? = some p →
      ∀ ro, ro = Rotation.curr ∨ ro = Rotation.next ∨ (i ≠ zs.length - 1 ∧ ro = ⟨vk.index.perm.usableRows, .plus⟩) →
        ∀ x, d.omega ^ ro.signed * ch.xi = x → o.query x = .ok (p.eval x) := by
    intro i o p ho hp ro hro x hx
    obtain ⟨c, g1, g2, g3⟩ := h.z_inv ho
    obtain ⟨p', g4, r, rfl⟩ := Forall₂.right hm.zs g1
    obtain rfl := Option.some.inj (hp.symm.trans g4)
    refine TrueClaims.at (hall o (mem_oracles.2 (by simp [List.mem_of_getElem? ho]))) g2 ?_ hx
    rw [g3, ← hm.zs.length_eq]
    unfold verifierZ
    simp only
    split
    · refine mem_setInsert.2 ?_
      rcases hro with rfl | rfl | ⟨_, rfl⟩
      · exact .inr ((curr_next_rotations _).2 (.inl rfl))
      · exact .inr ((curr_next_rotations _).2 (.inr rfl))
      · exact .inl rfl
    · rename_i hne
      rcases hro with rfl | rfl | ⟨h1, rfl⟩
      · exact (curr_next_rotations _).2 (.inl rfl)
      · exact (curr_next_rotations _).2 (.inr rfl)
      · exact absurd h1 hne
  have hcurr : d.omega ^ Rotation.curr.signed * ch.xi = ch.xi := by rw [signed_curr, zpow_zero, one_mul]
  have hnext : d.omega ^ Rotation.next.signed * ch.xi = d.omega * ch.xi := by rw [signed_next, zpow_one]
  have hprev : d.omega ^ Rotation.prev.signed * ch.xi = d.omega⁻¹ * ch.xi := by rw [signed_prev, zpow_neg, zpow_one]
  have hlook : ∀ (i : Nat) (p : LookupPolys F × F[X]),
      (List.zip (List.zipWith (sentLookup d v ch.theta) vk.index.lookups (chunks 2 ls)) lzs)[i]? = some p →
      ∃ l pc, vk.index.lookups[i]? = some l ∧ (chunks 2 ls)[i]? = some pc ∧ p.1 = sentLookup d v ch.theta l pc ∧
        lzs[i]? = some p.2 := by
    intro i p hp
    rw [List.getElem?_zip_eq_some] at hp
    obtain ⟨l, pc, g1, g2, g3⟩ := List.getElem?_zipWith_eq_some.1 hp.1
    exact ⟨l, pc, g1, g2, g3.symm, hp.2⟩
  have hlen : (List.zip (List.zipWith (sentLookup d v ch.theta) vk.index.lookups (chunks 2 ls)) lzs).length
      = vk.index.lookups.length := by
    rw [List.length_zip, List.length_zipWith, hfl, hflz, Nat.min_self, Nat.min_self]
  exact {
    gates := by
      unfold sentPolys
      rw [List.forall₂_map_right_iff]
      refine List.forall₂_same.2 (fun vo hvo => ?_)
      obtain ⟨e, g1, g2⟩ := hs.gates vo hvo
      exact ⟨e, _, g1, hT.answers g2, gatePoly_eq g1⟩
    ws := by
      unfold sentPolys
      rw [List.forall₂_map_right_iff]
      have hcopy := forall₂_filter (p := fun o : ProverOracle F => o.shouldPermute)
        (q := fun o : VerifierOracle F S.Comm => o.shouldPermute) hT.witness
        (by rintro a b ⟨_, g⟩; exact g.permute)
      refine forall₂_of_getElem? hcopy.length_eq.symm ?_
      intro i w o hw ho
      obtain ⟨o', g1, rr, g2⟩ := Forall₂.right hcopy hw
      obtain rfl := Option.some.inj (ho.symm.trans g1)
      have hmem := List.mem_filter.1 (List.mem_of_getElem? ho)
      exact g2.unrotated (hs.copied o hmem.1 (by simpa using hmem.2))
    sigmas := by
      unfold sentPolys
      rw [List.forall₂_map_right_iff]
      refine forall₂_of_getElem? hperm.length_eq.symm ?_
      intro i w o hw ho
      obtain ⟨o', g1, rr, g2⟩ := Forall₂.right hperm hw
      obtain rfl := Option.some.inj (ho.symm.trans g1)
      exact g2.unrotated (hs.unrotated o (by simp [List.mem_of_getElem? ho]))
    zs := by
      refine forall₂_of_getElem? (by rw [h.zs_length]; exact hm.zs.length_eq.symm) ?_
      intro i w p hw hp
      exact ⟨hzq i w p hw hp .curr (.inl rfl) _ hcurr, hzq i w p hw hp .next (.inr (.inl rfl)) _ hnext⟩
    zsU := by
      intro j w p hj hw hp
      refine hzq j w p hw hp ⟨vk.index.perm.usableRows, .plus⟩ (.inr (.inr ⟨?_, rfl⟩)) _ ?_
      · have : j + 1 < zs.length := hj
        omega
      · have hsg : (⟨vk.index.perm.usableRows, .plus⟩ : Rotation).signed = (vk.index.perm.usableRows : ℤ) := rfl
        rw [hsg, zpow_natCast]
    lookups := by
      refine forall₂_of_getElem? (by rw [h.lookups_length]; exact hlen.symm) ?_
      intro i o p ho hp
      obtain ⟨l, pc, g1, g2, g3, -⟩ := hlook i p hp
      obtain ⟨es, ts, a, s, cc, c0, c1, k1, k2, k3, -, -, -, ka, ks, -, -, kr, kr'⟩ := h.lookup_inv g1 ho
      obtain ⟨pc', r0, r1, m1, -, -, m4, m5⟩ := h.lookup_polys hm ho
      obtain rfl := Option.some.inj (g2.symm.trans m1)
      obtain ⟨es', ts', n1, n2, n3, n4, n5⟩ := hs.lookups l (List.mem_of_getElem? g1)
      obtain ⟨⟩ := Res.ok.inj (k1.symm.trans n1)
      obtain ⟨⟩ := Res.ok.inj (k2.symm.trans n2)
      have hmA : o.aPrime ∈ st.oracles := mem_oracles.2 (.inr (.inl (mem_primes.2 ⟨o, List.mem_of_getElem? ho, .inl rfl⟩)))
      have hmS : o.sPrime ∈ st.oracles := mem_oracles.2 (.inr (.inl (mem_primes.2 ⟨o, List.mem_of_getElem? ho, .inr rfl⟩)))
      have ha : thetaAgg (fun e => e.evalR ((⟨st.witness, is, st.pre.fixed, st.pre.table⟩ : VerifierView F S.Comm).lookupAt
          ch.xi d.elements)) ch.theta es = .ok ((lookupInput d v ch.theta l).eval ch.xi) := by
        unfold lookupInput
        rw [n1]
        simp only
        rw [thetaAgg_ok (g := fun e => (e.denote C (v.polyOf d)).eval ch.xi), eval_compress, List.map_map]
        · rfl
        · intro e hee
          rw [Expr.evalR_ok (VerifierView.lookupAt_ok hd (hT.answers (fun q hq => (n4 e hee q hq).1))
            (fun q hq => (n4 e hee q hq).2)), Expr.eval_denote]
      have hs' : thetaAgg ((⟨st.witness, is, st.pre.fixed, st.pre.table⟩ : VerifierView F S.Comm).tableAt ch.xi) ch.theta ts
          = .ok ((lookupTable v ch.theta l).eval ch.xi) := by
        unfold lookupTable
        rw [n2]
        simp only
        rw [thetaAgg_ok (g := fun q => (v.tablePolyOf q).eval ch.xi), eval_compress, List.map_map]
        · rfl
        · intro t htt
          obtain ⟨h8, o, h9, h10⟩ := n5 t htt
          obtain ⟨p, hp, rr, hr⟩ := Resolves.of_forall₂ hT.table (by rintro o p ⟨_, hp⟩; exact hp.label) h9
          unfold VerifierView.tableAt
          rw [h8]
          simp only
          rw [withOracle_of hp, hr.unrotated h10, ProverView.tablePolyOf, findOracle_eq_some.2 h9]
      unfold lookupUnpermuted at k3
      simp only [n3, decide_true, Res.assert_true, Res.bind_ok, ha, hs'] at k3
      have k4 := Res.ok.inj k3
      rw [Prod.mk.injEq] at k4
      rw [g3]
      refine ⟨?_, ?_, ?_, ?_, ?_⟩
      · rw [ka, ← k4.1]
        simp [VerifierOracle.query, assocGet, sentLookup]
      · rw [ks, ← k4.2]
        simp [VerifierOracle.query, assocGet, sentLookup]
      · exact TrueClaims.at (hall _ hmA) m4 (by rw [kr]; exact (curr_prev_rotations _).2 (.inl rfl)) hcurr
      · exact TrueClaims.at (hall _ hmA) m4 (by rw [kr]; exact (curr_prev_rotations _).2 (.inr rfl)) hprev
      · exact TrueClaims.at (hall _ hmS) m5 (by rw [kr']; exact List.mem_singleton.2 rfl) hcurr
    lookupZs := by
      refine forall₂_of_getElem? (by rw [h.lookupZs_length]; exact hlen.symm) ?_
      intro i o p ho hp
      obtain ⟨l, pc, -, -, -, g4⟩ := hlook i p hp
      obtain ⟨c, k1, k2, k3⟩ := h.lookupZ_inv ho
      obtain ⟨p', g5, r, rfl⟩ := Forall₂.right hm.lookupZs k1
      obtain rfl := Option.some.inj (g4.symm.trans g5)
      have hmZ : o ∈ st.oracles := mem_oracles.2 (by simp [List.mem_of_getElem? ho])
      exact ⟨TrueClaims.at (hall _ hmZ) k2 (by rw [k3]; exact (curr_next_rotations _).2 (.inl rfl)) hcurr,
        TrueClaims.at (hall _ hmZ) k2 (by rw [k3]; exact (curr_next_rotations _).2 (.inr rfl)) hnext⟩
    qBlind := by
      obtain ⟨rr, g⟩ := hv.qBlind.told (hall _ (mem_oracles.2 (by simp)))
      intro hc
      refine g.unrotated (hs.blinding ?_).1.2
      rcases hc with hc | hc
      · obtain ⟨o, ho⟩ := List.exists_mem_of_ne_nil _ (fun h => hc (by simp [sentPolys, h]) :
          v.witness.filter (·.shouldPermute) ≠ [])
        exact .inl ⟨o, (List.mem_filter.1 ho).1, by simpa using (List.mem_filter.1 ho).2⟩
      · exact .inr (fun h => hc (by simp [sentPolys, h]))
    quotient := by
      refine forall₂_of_getElem? (by rw [h.quotient_length]; exact hm.quotient.length_eq.symm) ?_
      intro i o p ho hp
      obtain ⟨c, k1, k2, k3⟩ := h.quotient_inv ho
      obtain ⟨p', g5, r, rfl⟩ := Forall₂.right hm.quotient k1
      obtain rfl := Option.some.inj (hp.symm.trans g5)
      exact TrueClaims.at (hall _ (mem_oracles.2 (by simp [List.mem_of_getElem? ho]))) k2
        (by rw [k3]; exact List.mem_singleton.2 rfl) hcurr }

end
end ZK
