import Verif.Lemmas.SoundRow
import Verif.Properties.MultiopenSound
/-! C51: soundness of the whole argument for a prover that knows the polynomials behind its commitments. -/
set_option autoImplicit false
set_option linter.unusedSectionVars false
namespace ZK
open Polynomial

section
variable {F : Type} [Field F] [LinearOrder F] [FftParams F] [LawfulFft F]
variable {d : Domain F} {v : ProverView F} {index : Index F} {sigmas : List (ProverOracle F)} {qBlind : ProverOracle F}
  {vos : List (GenericVO F)} {D N B K : Nat} {zh : F[X]}

/-- `verify` is `verifyAt` with the challenges of the transcript. -/
theorem verify_eq_verifyAt (S : Scheme F) (vk : VerifierKey S) (pre : VerifierPreprocessed S) (proof : TPProof S)
    (ws : List (VerifierOracle F S.Comm)) (is : List (InstanceVerifierOracle F)) (vos : List (GenericVO F)) (domainSize : Nat)
    (vanishing : List F) (ch : Challenges F) (t : S.T) (x1 x2 x3 x4 : F) (h1 : verifierChallenges S proof = (ch, t))
    (h2 : mpChallenges S proof.multiopen t = (x1, x2, x3, x4)) :
    verify S vk pre proof ws is vos domainSize vanishing
      = verifyAt S vk pre proof ws is vos domainSize vanishing ch x1 x2 x3 x4 := by
  unfold verify verifyAt
  rw [h1]
  simp only
  congr 1
  funext st
  congr 1
  funext q
  split
  · rfl
  · unfold mpVerify
    rw [h2]
    cases Domain.new (F := F) domainSize with
    | none => rfl
    | some d => rfl

omit [LinearOrder F] [FftParams F] [LawfulFft F] in
theorem natDegree_of_degree_lt {p : F[X]} (h : p.degree < D) : p.natDegree ≤ D - 1 := by
  by_cases h0 : p = 0
  · simp [h0]
  · rw [degree_eq_natDegree h0] at h
    have : p.natDegree < D := by exact_mod_cast h
    omega

omit [LinearOrder F] [FftParams F] [LawfulFft F] in
theorem Enforced.small (hs : Enforced d D index v sigmas qBlind vos zh) {o : ProverOracle F}
    (ho : o ∈ v.witness ++ v.inst ++ v.fixed ++ v.table ++ sigmas ++ [qBlind]) : o.poly.length ≤ D := by
  rcases List.mem_append.1 ho with ho | ho
  · exact (hs.columns o ho).2
  · obtain rfl := List.mem_singleton.1 ho
    exact hs.selector

omit [LinearOrder F] in
theorem Enforced.natDegree_column (hs : Enforced d D index v sigmas qBlind vos zh) {o : ProverOracle F}
    (ho : o ∈ v.witness ++ v.inst ++ v.fixed ++ v.table ++ sigmas ++ [qBlind]) : (toPoly o.poly).natDegree ≤ D - 1 :=
  (natDegree_toPoly_le _).trans (by have := hs.small ho; omega)

omit [LinearOrder F] in
theorem Enforced.natDegree_polyOf (hs : Enforced d D index v sigmas qBlind vos zh) (q : OracleQuery) :
    (v.polyOf d q).natDegree ≤ D - 1 := by
  unfold ProverView.polyOf
  split
  · rename_i o ho
    refine (natDegree_shifted_le _ _ _).trans (hs.natDegree_column ?_)
    have := (findOracle_eq_some.1 ho).mem
    cases hty : q.oracleType <;> rw [hty] at this <;> simp only [ProverView.oracles] at this <;> simp [this]
  · simp

omit [LinearOrder F] in
theorem Enforced.natDegree_tablePolyOf (hs : Enforced d D index v sigmas qBlind vos zh) (q : OracleQuery) :
    (v.tablePolyOf q).natDegree ≤ D - 1 := by
  unfold ProverView.tablePolyOf
  split
  · rename_i o ho
    exact hs.natDegree_column (by simp [(findOracle_eq_some.1 ho).mem])
  · simp

omit [LinearOrder F] in
theorem Enforced.natDegree_denote (hs : Enforced d D index v sigmas qBlind vos zh) {e : Expr F} {k : Nat}
    (h : e.degree (fun _ => .ok (D - 1)) = .ok k) : (e.denote C (v.polyOf d)).natDegree ≤ k :=
  Expr.natDegree_denote_le _ _ e (fun q _ m hm => by
    obtain ⟨⟩ := Res.ok.inj hm
    exact hs.natDegree_polyOf q) k h

/-- The degrees of the polynomials a proof is about. -/
theorem sentPolys_bounded (hs : Enforced d D index v sigmas qBlind vos zh) (hb : DegreeBounds d D N B K index vos) (theta : F)
    {ls zs lzs : List F[X]} (hls : ∀ p ∈ ls, p.degree < D) (hzs : ∀ p ∈ zs, p.degree < D) (hlzs : ∀ p ∈ lzs, p.degree < D) :
    (sentPolys d v vos sigmas qBlind index.lookups theta ls zs lzs).Bounded N ∧
    ∀ g ∈ (sentPolys d v vos sigmas qBlind index.lookups theta ls zs lzs).gates, g.natDegree ≤ B := by
  have hDN : D - 1 ≤ N - 1 := Nat.sub_le_sub_right hb.coefficients 1
  refine ⟨⟨?_, ?_, ?_, ?_, ?_⟩, ?_⟩
  · intro p hp
    obtain ⟨o, ho, rfl⟩ := List.mem_map.1 hp
    exact (hs.natDegree_column (by simp [(List.mem_filter.1 ho).1])).trans hDN
  · intro p hp
    obtain ⟨o, ho, rfl⟩ := List.mem_map.1 hp
    exact (hs.natDegree_column (by simp [ho])).trans hDN
  · intro p hp
    exact (natDegree_of_degree_lt (hzs p hp)).trans hDN
  · rintro ⟨a, z⟩ hp
    obtain ⟨h1, h2⟩ := List.of_mem_zip hp
    obtain ⟨i, hi⟩ := List.getElem?_of_mem h1
    obtain ⟨l, pc, g1, g2, rfl⟩ := List.getElem?_zipWith_eq_some.1 hi
    have hpc : ∀ k, (pc.getD k 0).natDegree ≤ N - 1 := by
      intro k
      rw [List.getD_eq_getElem?_getD]
      cases hk : pc[k]? with
      | none => simp
      | some p =>
        refine (natDegree_of_degree_lt (hls p ?_)).trans hDN
        rw [← chunks_flatten (k := 2) (by omega) ls]
        exact List.mem_flatten.2 ⟨pc, List.mem_of_getElem? g2, List.mem_of_getElem? hk⟩
    obtain ⟨es, ts, h3, h4, -⟩ := hs.lookups l (List.mem_of_getElem? g1)
    refine ⟨?_, ?_, hpc 0, hpc 1, (natDegree_of_degree_lt (hlzs z h2)).trans hDN⟩
    · show (lookupInput d v theta l).natDegree ≤ _
      unfold lookupInput
      rw [h3]
      refine natDegree_compress_le _ _ _ ?_
      intro p hp
      obtain ⟨e, he, rfl⟩ := List.mem_map.1 hp
      obtain ⟨k, hk, hke⟩ := (hb.lookups l (List.mem_of_getElem? g1) es h3).2 e he
      exact (hs.natDegree_denote hke).trans (by omega)
    · show (lookupTable v theta l).natDegree ≤ _
      unfold lookupTable
      rw [h4]
      refine natDegree_compress_le _ _ _ ?_
      intro p hp
      obtain ⟨t, ht, rfl⟩ := List.mem_map.1 hp
      exact (hs.natDegree_tablePolyOf t).trans hDN
  · exact (hs.natDegree_column (by simp)).trans hDN
  · intro g hg
    obtain ⟨vo, hvo, rfl⟩ := List.mem_map.1 hg
    obtain ⟨e, he, -⟩ := hs.gates vo hvo
    obtain ⟨k, hk, hke⟩ := hb.gates vo hvo e he
    rw [gatePoly_eq he]
    exact (hs.natDegree_denote hke).trans hk

/-- What the quotient check catches. If the witness columns violate the circuit and all evaluations claimed in the proof are those of the
polynomials committed to, then for all but the exceptional values of C51 the value checked by the verifier is not zero. -/
theorem true_claims_caught {S : Scheme F} {com : F[X] → S.Rand → S.Comm} {vk : VerifierKey S}
    {pre : VerifierPreprocessed S} {ws : List (VerifierOracle F S.Comm)} {is : List (InstanceVerifierOracle F)}
    (hsu : SetUp S com v sigmas qBlind ws is pre) (hdom : Domain.new (F := F) d.size = some d) (hn : 2 ≤ d.size)
    {vanishing : List F} (hvos : vos ≠ []) (hs : Enforced d D vk.index v sigmas qBlind vos (toPoly vanishing))
    (hb : DegreeBounds d D N B K vk.index vos)
    (tau : Equiv.Perm (Fin (v.witness.filter (·.shouldPermute)).length × Fin vk.index.perm.usableRows))
    (hte : Encodes d vk.index.perm.deltas sigmas tau)
    (hfalse : ¬ (GatesHold d v vos (toPoly vanishing) ∧ CopiesHold v tau ∧
      LookupsHold d.size vk.index.perm.usableRows v vk.index.lookups)) :
    ∃ Bt : Finset F, Bt.card ≤ vk.index.perm.usableRows * (K - 1) ∧ ∀ theta ∉ Bt,
    ∀ ls : List F[X], (∀ p ∈ ls, p.degree < D) →
    ∃ Bp : Set (F × F), FewPairs (max (2 * ((v.witness.filter (·.shouldPermute)).length * vk.index.perm.usableRows))
        (4 * vk.index.perm.usableRows)) Bp ∧ ∀ beta gamma, (beta, gamma) ∉ Bp →
    ∀ zs lzs : List F[X], (∀ p ∈ zs, p.degree < D) → (∀ p ∈ lzs, p.degree < D) →
    ∃ Ba : Finset F, Ba.card ≤ vos.length + 2 * zs.length + 5 * vk.index.lookups.length ∧ ∀ alpha ∉ Ba,
    ∀ qs : List F[X], (∀ p ∈ qs, p.degree < D) →
    ∃ Bx : Finset F, Bx.card ≤ max B (d.size * (qs.length - 1) + (D - 1) + (toPoly vanishing).natDegree) ∧ ∀ xi ∉ Bx,
    ∀ proof : TPProof S, MadeOf com (v.witness.map (fun o => toPoly o.poly)) ls zs lzs qs proof →
    ∀ st : VState S, verifyRegister S vk pre proof ws is d.size ⟨theta, beta, gamma, alpha, xi⟩ = .ok st →
    (∀ w ∈ st.oracles, TrueClaims com d xi w) →
    ∃ y ≠ 0, quotientCheckValue S vk st is vos d.size vanishing ⟨theta, beta, gamma, alpha, xi⟩ = .ok y := by
  have hd := Domain.new_ok hdom
  obtain ⟨Bt, hBt, hrow⟩ := failing_row hd hs (fun l hl es he => (hb.lookups l hl es he).1) tau hte hfalse
  refine ⟨Bt, hBt, fun theta hth ls hls => ?_⟩
  obtain ⟨Bp, hBp, hrow⟩ := hrow theta hth ls
  refine ⟨Bp, hBp, fun beta gamma hbg zs lzs hzs hlzs => ?_⟩
  by_cases hfit : (vk.index.perm.numberOfZPolys (v.witness.filter (·.shouldPermute)).length = (.ok zs.length : Res (Err S.E) _)) ∧
    (chunks 2 ls).length = vk.index.lookups.length ∧ lzs.length = vk.index.lookups.length
  swap
  · refine ⟨∅, by simp, fun alpha _ qs _ => ⟨∅, by simp, fun xi _ proof hm st hst _ => ?_⟩⟩
    obtain ⟨dd, hreg⟩ := verifyRegister_iff.1 hst
    exact absurd (hreg.fits hsu hm) hfit
  obtain ⟨hf1, hf2, hf3⟩ := hfit
  obtain ⟨hbnd, hbg2⟩ := sentPolys_bounded hs hb theta hls hzs hlzs
  have hmax : v.witness.filter (·.shouldPermute) ≠ [] → 0 < vk.index.perm.maxCols := by
    intro hne
    have hpos := List.length_pos_iff.2 hne
    unfold PermutationArgument.numberOfZPolys at hf1
    rw [if_neg hpos.ne'] at hf1
    by_contra h0
    rw [if_pos (by omega)] at hf1
    cases hf1
  obtain ⟨k, hk, hz, hbad⟩ := hrow beta gamma hbg zs lzs hf2 hf3 hmax
  have hlen : (sentPolys d v vos sigmas qBlind vk.index.lookups theta ls zs lzs).lookups.length = vk.index.lookups.length := by
    show (List.zip _ _).length = _
    rw [List.length_zip, List.length_zipWith, hf2, hf3, Nat.min_self, Nat.min_self]
  have hF : (sentPolys d v vos sigmas qBlind vk.index.lookups theta ls zs lzs).Fits d vk.index.perm := by
    refine ⟨hs.usable, ?_, ?_, ?_⟩
    · intro h0
      exact hvos (List.map_eq_nil_iff.1 h0)
    · intro h0
      have h1 := List.map_eq_nil_iff.1 h0
      rw [h1] at hf1
      have := Res.ok.inj hf1
      exact List.length_eq_zero_iff.1 this.symm
    · intro h0
      have hne : v.witness.filter (·.shouldPermute) ≠ [] := fun h => h0 (by show List.map _ _ = _; rw [h]; rfl)
      have hex : ∃ o ∈ v.witness, o.shouldPermute = true := by
        obtain ⟨o, ho⟩ := List.exists_mem_of_ne_nil _ hne
        exact ⟨o, (List.mem_filter.1 ho).1, by simpa using (List.mem_filter.1 ho).2⟩
      obtain ⟨h1, h2⟩ := hs.shape hex
      rw [numberOfZPolys_eq _ (hmax hne) _ hne] at hf1
      refine ⟨hmax hne, ?_, ?_, ?_⟩
      · show (List.map _ _).length = (List.map _ _).length
        rw [List.length_map, List.length_map, h1]
      · show (List.map _ _).length = _
        rw [List.length_map, h2]
      · show zs.length = (chunks _ (List.map _ _)).length
        rw [chunks_map (hmax hne), List.length_map]
        exact (Res.ok.inj hf1).symm
  obtain ⟨Ba, hBa, hcaught⟩ := C32_failing_row_caught (S := S) (vk := vk) (vos := vos) hd hn hF hlen.symm hb.rows hbnd hbg2
    (fun _ => hb.permutation) (fun _ => hb.lookup) hk hz hbad
  refine ⟨Ba, ?_, fun alpha hal qs hqs => ?_⟩
  · have hw : (sentPolys d v vos sigmas qBlind vk.index.lookups theta ls zs lzs).weights
        ≤ vos.length + 2 * zs.length + 5 * vk.index.lookups.length + 1 := by
      unfold CircuitPolys.weights
      rw [hlen]
      have e1 : (sentPolys d v vos sigmas qBlind vk.index.lookups theta ls zs lzs).gates.length = vos.length := List.length_map _
      have e2 : (sentPolys d v vos sigmas qBlind vk.index.lookups theta ls zs lzs).zs.length = zs.length := rfl
      rw [e1, e2]
      split
      · split <;> omega
      · omega
    omega
  obtain ⟨Bx, hBx, hcaught⟩ := hcaught alpha hal qs (D - 1) (fun q hq => natDegree_of_degree_lt (hqs q hq))
  refine ⟨Bx, hBx, fun xi hxi proof hm st hst hall => ?_⟩
  obtain ⟨dd, hreg⟩ := verifyRegister_iff.1 hst
  obtain rfl := Option.some.inj (hdom.symm.trans hreg.dom)
  obtain ⟨y, hy, hy0⟩ := hcaught xi hxi st is theta (hreg.verifierPolys hsu hm hs hall)
  exact ⟨y, hy0, hy⟩

/-- **C51** (partial) Soundness of the whole argument. The verifier is set up for a circuit; the commitment scheme is
homomorphic and binding, and a prover commits to polynomials with less than `D` coefficients. The witness columns violate a
gate on a row where the polynomial of the key vanishes, or differ on cells the sigmas identify, or look up a tuple which is not
a usable row of the table. Then, every message being fixed before the next challenge is drawn:
for all but `u (K - 1)` values of theta, for any permuted columns of the lookups,
for all but the fraction `max (2 m u) (4 u) / |T|` of the pairs (beta, gamma) from any finite set `T`, for any grand products,
for all but `|vos| + 2 |zs| + 5 |lookups|` values of alpha, for any quotient,
for all but `max B (n (|qs| - 1) + (D - 1) + deg Z)` values of xi, for all evaluations in the proof,
for all but the exceptional values of C38 of `x1`, `x2`, `x3` and `x4`, for every commitment and all values sent in the multi-point opening,
the verifier does not accept. Missing is what is missing in C38: enough values `q` have to be sent, which the code does not check. The
challenges are arbitrary here; `verify_eq_verifyAt` shows that `verify` is this verifier with the challenges of the transcript, which does
not absorb the evaluations (C37). -/
theorem C51_soundness_partial {S : Scheme F} {com : F[X] → S.Rand → S.Comm} {ck : S.CK} {vk : VerifierKey S}
    (hS : HomomorphicScheme S ck vk.vk com) (hB : Binding S vk.vk com) (hinj : ∀ p q r s, com p r = com q s → p = q)
    {pre : VerifierPreprocessed S} {ws : List (VerifierOracle F S.Comm)} {is : List (InstanceVerifierOracle F)}
    (hsu : SetUp S com v sigmas qBlind ws is pre) (hdom : Domain.new (F := F) d.size = some d) (hn : 2 ≤ d.size)
    {vanishing : List F} (hvos : vos ≠ []) (hs : Enforced d D vk.index v sigmas qBlind vos (toPoly vanishing))
    (hb : DegreeBounds d D N B K vk.index vos)
    (tau : Equiv.Perm (Fin (v.witness.filter (·.shouldPermute)).length × Fin vk.index.perm.usableRows))
    (hte : Encodes d vk.index.perm.deltas sigmas tau)
    (hfalse : ¬ (GatesHold d v vos (toPoly vanishing) ∧ CopiesHold v tau ∧
      LookupsHold d.size vk.index.perm.usableRows v vk.index.lookups)) :
    ∃ Bt : Finset F, Bt.card ≤ vk.index.perm.usableRows * (K - 1) ∧ ∀ theta ∉ Bt,
    ∀ ls : List F[X], (∀ p ∈ ls, p.degree < D) →
    ∃ Bp : Set (F × F), FewPairs (max (2 * ((v.witness.filter (·.shouldPermute)).length * vk.index.perm.usableRows))
        (4 * vk.index.perm.usableRows)) Bp ∧ ∀ beta gamma, (beta, gamma) ∉ Bp →
    ∀ zs lzs : List F[X], (∀ p ∈ zs, p.degree < D) → (∀ p ∈ lzs, p.degree < D) →
    ∃ Ba : Finset F, Ba.card ≤ vos.length + 2 * zs.length + 5 * vk.index.lookups.length ∧ ∀ alpha ∉ Ba,
    ∀ qs : List F[X], (∀ p ∈ qs, p.degree < D) →
    ∃ Bx : Finset F, Bx.card ≤ max B (d.size * (qs.length - 1) + (D - 1) + (toPoly vanishing).natDegree) ∧ ∀ xi ∉ Bx,
    ∀ proof : TPProof S, MadeOf com (v.witness.map (fun o => toPoly o.poly)) ls zs lzs qs proof →
    ∀ st : VState S, verifyRegister S vk pre proof ws is d.size ⟨theta, beta, gamma, alpha, xi⟩ = .ok st →
    ∃ B1 : Finset F, B1.card ≤ st.oracles.length - 1 ∧ ∀ x1 ∉ B1,
    ∃ B2 : Finset F, B2.card ≤ distinctRotations st.oracles - 1 ∧ ∀ x2 ∉ B2, ∀ (f : F[X]) (r : S.Rand), f.degree < D →
    ∃ B3 : Finset F, B3.card ≤ D + totalPoints st.oracles - 1 ∧ ∀ x3 ∉ B3,
    ∀ q : List F, distinctRotations st.oracles ≤ q.length →
    ∃ B4 : Finset F, B4.card ≤ distinctRotations st.oracles ∧ ∀ x4 ∉ B4, ∀ pf : S.Proof,
      verifyAt S vk pre { proof with multiopen := ⟨q, com f r, pf⟩ } ws is vos d.size vanishing
        ⟨theta, beta, gamma, alpha, xi⟩ x1 x2 x3 x4 ≠ .ok () := by
  have hd := Domain.new_ok hdom
  obtain ⟨Bt, hBt, h⟩ := true_claims_caught hsu hdom hn hvos hs hb tau hte hfalse
  refine ⟨Bt, hBt, fun theta hth ls hls => ?_⟩
  obtain ⟨Bp, hBp, h⟩ := h theta hth ls hls
  refine ⟨Bp, hBp, fun beta gamma hbg zs lzs hzs hlzs => ?_⟩
  obtain ⟨Ba, hBa, h⟩ := h beta gamma hbg zs lzs hzs hlzs
  refine ⟨Ba, hBa, fun alpha hal qs hqs => ?_⟩
  obtain ⟨Bx, hBx, h⟩ := h alpha hal qs hqs
  refine ⟨Bx, hBx, fun xi hxi proof hm st hst => ?_⟩
  obtain ⟨dd, hreg⟩ := verifyRegister_iff.1 hst
  obtain rfl := Option.some.inj (hdom.symm.trans hreg.dom)
  have hat : ∀ (m : MpProof S) (x1 x2 x3 x4 : F),
      verifyAt S vk pre { proof with multiopen := m } ws is vos d.size vanishing ⟨theta, beta, gamma, alpha, xi⟩ x1 x2 x3 x4
        = (quotientCheckValue S vk st is vos d.size vanishing ⟨theta, beta, gamma, alpha, xi⟩).bind (fun q =>
          if q ≠ 0 then .err .quotientNotZero
          else (mpVerifyWith S vk.vk m st.oracles xi d x1 x2 x3 x4).mapErr Err.multiproof) := by
    intro m x1 x2 x3 x4
    have hst' : verifyRegister S vk pre { proof with multiopen := m } ws is d.size ⟨theta, beta, gamma, alpha, xi⟩ = .ok st := hst
    unfold verifyAt
    rw [hst', hdom]
    rfl
  by_cases hall : ∀ w ∈ st.oracles, TrueClaims com d xi w
  · obtain ⟨y, hy0, hy⟩ := h xi hxi proof hm st hst hall
    refine ⟨∅, by simp, fun x1 _ => ⟨∅, by simp, fun x2 _ f r _ => ⟨∅, by simp, fun x3 _ q _ => ⟨∅, by simp, fun x4 _ pf => ?_⟩⟩⟩⟩
    rw [hat, hy]
    show (if y ≠ 0 then _ else _) ≠ _
    rw [if_pos hy0]
    simp
  · push Not at hall
    obtain ⟨w0, hw0, hbad0⟩ := hall
    unfold TrueClaims at hbad0
    push Not at hbad0
    obtain ⟨p0, r0, hc0, ro, hro, hq0⟩ := hbad0
    have hcom := hreg.committed hsu hm (D := D) (by
      intro o ho
      have hmem : o ∈ v.witness ++ v.inst ++ v.fixed ++ v.table ++ sigmas ++ [qBlind] := by
        simp only [List.mem_append] at ho ⊢
        tauto
      exact lt_of_lt_of_le (degree_toPoly_lt _) (by exact_mod_cast hs.small hmem)) hls hzs hlzs hqs
    classical
    obtain ⟨poly, hpoly⟩ : ∃ poly : VerifierOracle F S.Comm → F[X], ∀ w ∈ st.oracles, ∃ r, w.commitment = some (com (poly w) r) ∧
        (poly w).degree < D :=
      ⟨fun w => if h : w ∈ st.oracles then (hcom w h).choose else 0, fun w hw => by
        simp only [dif_pos hw]
        exact (hcom w hw).choose_spec⟩
    obtain ⟨rand, hrand⟩ : ∃ rand : VerifierOracle F S.Comm → S.Rand, ∀ w ∈ st.oracles,
        w.commitment = some (com (poly w) (rand w)) :=
      ⟨fun w => if h : w ∈ st.oracles then (hpoly w h).choose else S.emptyRand, fun w hw => by
        simp only [dif_pos hw]
        exact (hpoly w hw).choose_spec.1⟩
    have hp0 : poly w0 = p0 := hinj _ _ _ _ (Option.some.inj ((hrand w0 hw0).symm.trans hc0))
    obtain ⟨B1, hB1, g1⟩ := C38_soundness_partial hS hB hd st.oracles poly rand hrand D (fun w hw => (hpoly w hw).choose_spec.2) xi
      w0 hw0 ro hro (by rw [hp0]; exact hq0)
    refine ⟨B1, hB1, fun x1 hx1 => ?_⟩
    obtain ⟨B2, hB2, g2⟩ := g1 x1 hx1
    refine ⟨B2, hB2, fun x2 hx2 f r hf => ?_⟩
    obtain ⟨B3, hB3, g3⟩ := g2 x2 hx2 f r hf
    refine ⟨B3, hB3, fun x3 hx3 q hq => ?_⟩
    obtain ⟨B4, hB4, g4⟩ := g3 x3 hx3 q hq
    refine ⟨B4, hB4, fun x4 hx4 pf h => g4 x4 hx4 pf ?_⟩
    rw [hat] at h
    obtain ⟨y, -, hy⟩ := Res.bind_eq_ok.1 h
    by_cases hy0 : y = 0
    · rw [if_neg (by simp [hy0])] at hy
      exact Res.mapErr_eq_ok.1 hy
    · rw [if_pos hy0] at hy
      cases hy

end
end ZK
