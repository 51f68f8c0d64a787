import Verif.Lemmas.Registered
import Verif.Properties.Quotient
import Verif.Properties.Multiopen
import Verif.Properties.Indexer
/-! C46: proofs made by the prover are accepted by the verifier. -/
set_option autoImplicit false
set_option linter.unusedSectionVars false
namespace ZK
open Polynomial

section
variable {F : Type} [Field F] [LinearOrder F] [FftParams F] [LawfulFft F]

omit [LinearOrder F] [LawfulFft F] in
theorem getExpression_eq_ok {vo : GenericVO F} {e : Expr F} : vo.getExpression = .ok e ↔ vo.expr = some e := by
  unfold GenericVO.getExpression
  cases vo.expr <;> simp

omit [LinearOrder F] [LawfulFft F] in
theorem formalDegree_le_maxGateDegree (n : Nat) {vos : List (GenericVO F)} {vo : GenericVO F} (hvo : vo ∈ vos) {e : Expr F}
    (he : vo.expr = some e) : e.formalDegree (n - 1) ≤ maxGateDegree n vos := by
  induction vos with
  | nil => simp at hvo
  | cons v vos ih =>
    unfold maxGateDegree at ih ⊢
    rw [List.map_cons, List.foldr_cons]
    rcases List.mem_cons.1 hvo with rfl | h
    · rw [he]; exact le_max_left _ _
    · exact (ih h).trans (le_max_right _ _)

/-- The degree of a gate is at most the degree the indexer computes. -/
theorem natDegree_gatePoly {d : Domain F} {index : Index F} {v : ProverView F} {sigmas : List (ProverOracle F)}
    {qBlind : ProverOracle F} {vos : List (GenericVO F)} (hH : AllHonest d index.ext v sigmas qBlind)
    (hs : SupportedShape d index v sigmas qBlind vos) {vo : GenericVO F} (hvo : vo ∈ vos) :
    (gatePoly d v vo).natDegree ≤ maxGateDegree d.size vos := by
  obtain ⟨e, h1, -⟩ := hs.gates vo hvo
  rw [gatePoly_eq h1]
  refine (Expr.natDegree_le_formal _ (d.size - 1) ?_ e).trans (formalDegree_le_maxGateDegree _ hvo (getExpression_eq_ok.1 h1))
  intro q
  unfold ProverView.polyOf
  cases h : findOracle (v.oracles q.oracleType) q.label with
  | none => simp
  | some o =>
    refine (natDegree_shifted_le _ _ _).trans ?_
    exact (hH.oracles _ o (findOracle_eq_some.1 h).mem).natDegree

/-- What is known about a successful run of the prover. -/
structure ProverRun (S : Scheme F) (pk : ProverKey S) (com : F[X] → S.Rand → S.Comm) (d : Domain F) (pre : ProverPreprocessed S)
    (vos : List (GenericVO F)) (ch : Challenges F) (view : ProverView F) (r : ProverRounds F)
    (quotient : List (ProverOracle F)) (wc lc zc lzc qc : List (S.Comm × S.Rand)) (proof : TPProof S) : Prop where
  ran : RoundsRan S d pk.vk.index view pre.perm ch.theta ch.beta ch.gamma r
  allHonest : AllHonest d pk.vk.index.ext view pre.perm pre.qBlind
  supported : SupportedShape d pk.vk.index view pre.perm pre.qBlind vos
  fits : (runPolys d view vos pre.perm pre.qBlind r).Fits d pk.vk.index.perm
  polys : ProverPolys d pk.vk.index.ext view vos pre.perm pre.qBlind r (runPolys d view vos pre.perm pre.qBlind r)
  bounded : (runPolys d view vos pre.perm pre.qBlind r).Bounded d.size
  gates : ∀ g ∈ (runPolys d view vos pre.perm pre.qBlind r).gates, g.natDegree ≤ maxGateDegree d.size vos
  lookups : pk.vk.index.lookups.length = (runPolys d view vos pre.perm pre.qBlind r).lookups.length
  round : quotientRound view vos pk.vk.index pk.vk.zhInverses pre.perm pre.qBlind r d ch.alpha ch.beta ch.gamma
    = .ok quotient
  honest : (∀ o ∈ quotient, o.rotations = setExtend [] [Rotation.curr]) →
    HonestProof S com d pk.vk.index view pre ch r quotient wc lc zc lzc qc proof
  length : (openingOrder view.witness (primes r.lookups) r.lookupZs quotient r.zs pre.fixed pre.table pre.perm
    pre.qBlind).length = ((wc ++ lc ++ lzc ++ qc ++ zc).map Prod.snd ++
      List.replicate (pre.fixed ++ pre.table ++ pre.perm ++ [pre.qBlind]).length S.emptyRand).length
  opened : OpenedWith S pk.ck (openingOrder view.witness (primes r.lookups) r.lookupZs quotient r.zs pre.fixed pre.table
      pre.perm pre.qBlind) ((wc ++ lc ++ lzc ++ qc ++ zc).map Prod.snd ++
        List.replicate (pre.fixed ++ pre.table ++ pre.perm ++ [pre.qBlind]).length S.emptyRand) ch.xi d
    (mpChallenges S proof.multiopen (verifierChallenges S proof).2).1
    (mpChallenges S proof.multiopen (verifierChallenges S proof).2).2.1
    (mpChallenges S proof.multiopen (verifierChallenges S proof).2).2.2.1
    (mpChallenges S proof.multiopen (verifierChallenges S proof).2).2.2.2 proof.multiopen

/-- Everything known about a successful run, for any key. -/
theorem prove_run {S : Scheme F} {pk : ProverKey S} {com : F[X] → S.Rand → S.Comm}
    (hS : HomomorphicScheme S pk.ck pk.vk.vk com) {d : Domain F} (hd : d.Ok) (he : pk.vk.index.ext.Ok)
    (hle : d.size ≤ pk.vk.index.ext.size)
    {ws is fixed table sigmas : List (ProverOracle F)} {qBlind : ProverOracle F} {vos : List (GenericVO F)}
    (hs : SupportedShape d pk.vk.index ⟨ws, is, fixed, table⟩ sigmas qBlind vos) {z : S.Z} {proof : TPProof S}
    (hp : prove S pk (.new S fixed sigmas table qBlind pk.vk.index) ws is vos d.size z = .ok proof) :
    ∃ r quotient wc lc zc lzc qc, ProverRun S pk com d (.new S fixed sigmas table qBlind pk.vk.index) vos
      (verifierChallenges S proof).1 ((⟨ws, is, fixed, table⟩ : ProverView F).extend pk.vk.index.ext) r quotient
      wc lc zc lzc qc proof := by
  have hone : ∀ (p : LPoly F) (z z' : S.Z) cs, S.commit pk.ck [p] z = .ok (cs, z') → cs.length = 1 :=
    fun p z z' cs h => (hS.commit _ _ _ _ h).length_eq.symm
  obtain ⟨d', view, rounds, quotient, wc, lc, zc, lzc, qc, R, e1, e2, e3, e4, e5, ev, hl, ho⟩ :=
    C40_same_challenges S pk _ ws is vos d.size z proof hone hp
  have hself := hd.new_self
  obtain rfl : d = d' := Option.some.inj (hself.symm.trans R.dom)
  obtain ⟨ch, hch⟩ : ∃ ch, ch = (verifierChallenges S proof).1 := ⟨_, rfl⟩
  rw [← hch] at R ev ho
  obtain ⟨pre, hpre⟩ : ∃ pre, pre = ProverPreprocessed.new S fixed sigmas table qBlind pk.vk.index := ⟨_, rfl⟩
  rw [← hpre] at R ev ho hl
  have hview : view = (⟨ws, is, fixed, table⟩ : ProverView F).extend pk.vk.index.ext := by
    rw [R.view_eq, hpre]; rfl
  have hperm : pre.perm = sigmas.map (·.computeExtended pk.vk.index.ext) := by rw [hpre]; rfl
  have hqb : pre.qBlind = qBlind.computeExtended pk.vk.index.ext := by rw [hpre]; rfl
  have hs' := hs.extend pk.vk.index.ext
  have hH := hs.allHonest pk.vk.index.ext
  rw [← hview, ← hperm, ← hqb] at hs' hH
  obtain ⟨hvos, hu⟩ := quotientRound_inv R.quotient.1
  have conv : ∀ {os : List (ProverOracle F)} {z z' cs}, S.commit pk.ck (os.map (·.toLabeled)) z = .ok (cs, z') →
      List.Forall₂ (fun (o : ProverOracle F) (c : S.Comm × S.Rand) => c.1 = com (toPoly o.poly) c.2) os cs := by
    intro os z z' cs h
    have := hS.commit _ _ _ _ h
    rwa [List.forall₂_map_left_iff] at this
  have hran : RoundsRan S d pk.vk.index view pre.perm ch.theta ch.beta ch.gamma rounds := by
    obtain ⟨a1, a2, a3, a4, a5⟩ := R.lookups
    obtain ⟨b1, b2, b3, b4, b5⟩ := R.permutation
    obtain ⟨c1, c2, c3, c4, c5⟩ := R.subsetEquality
    exact ⟨⟨a1, a2, a4⟩, ⟨b1, b2, b4⟩, ⟨c1, c2, c4⟩⟩
  have hemp : pre.emptyRands = List.replicate (pre.fixed ++ pre.table ++ pre.perm ++ [pre.qBlind]).length S.emptyRand := by
    simp only [hpre, ProverPreprocessed.new, List.length_append, List.length_map, List.length_cons, List.length_nil]
    congr 1
    omega
  refine ⟨rounds, quotient, wc, lc, zc, lzc, qc, ?_⟩
  rw [← hch, ← hpre, ← hview]
  obtain ⟨z1, hw⟩ := R.witness
  obtain ⟨_, z2, _, _, hl'⟩ := R.lookups
  obtain ⟨_, z3, _, _, hpm⟩ := R.permutation
  obtain ⟨_, z4, _, _, hse⟩ := R.subsetEquality
  obtain ⟨_, z5, _, hq⟩ := R.quotient
  exact {
    ran := hran
    allHonest := hH
    supported := hs'
    fits := hran.fits hH hvos hu
    polys := hran.proverPolys hd he hle hH hs' (hran.zs_honest hd hH)
    bounded := hran.bounded hd he hle hH hs'
    gates := by
      intro g hgm
      obtain ⟨vo, hvo, rfl⟩ := List.mem_map.1 hgm
      exact natDegree_gatePoly hH hs' hvo
    lookups := by simp [runPolys, hran.lookupZ.1, hran.lookup.1]
    round := R.quotient.1
    length := by rw [hl, ← hemp]; simp only [List.length_append, List.length_map]
    opened := by rw [← hemp]; exact ho
    honest := fun hrot => {
      fixed := by rw [R.view_eq]
      table := by rw [R.view_eq]
      ran := hran
      wcOk := conv hw
      lcOk := conv hl'
      zcOk := conv hpm
      lzcOk := conv hse
      qcOk := conv hq
      witnessCommitments := e1
      lookupCommitments := e2
      zCommitments := e3
      lookupZCommitments := e4
      quotientCommitments := e5
      evals := ev
      quotient := hrot
      usable := hu } }

/-- The aggregated constraint of a run for a satisfying witness is divisible, with a quotient that fits. -/
theorem ProverRun.quotient_fits {S : Scheme F} {pk : ProverKey S} {com : F[X] → S.Rand → S.Comm}
    {d : Domain F} (hd : d.Ok) (he : pk.vk.index.ext.Ok) (hle : d.size ≤ pk.vk.index.ext.size) (h1 : 1 < d.size)
    {pre : ProverPreprocessed S} {vos : List (GenericVO F)} {ch : Challenges F} {view : ProverView F} {r : ProverRounds F}
    {quotient : List (ProverOracle F)} {wc lc zc lzc qc : List (S.Comm × S.Rand)} {proof : TPProof S}
    (hr : ProverRun S pk com d pre vos ch view r quotient wc lc zc lzc qc proof)
    (hlv : LookupsVanish S d pk.vk.index view pre.perm pre.qBlind) {vanishing : List F}
    (hdvd : toPoly vanishing ∣ X ^ d.size - 1) (hg : GatesHold d view vos (toPoly vanishing))
    {B : Nat} (hB : B < pk.vk.index.ext.size + (toPoly vanishing).natDegree) (hBg : maxGateDegree d.size vos ≤ B)
    (hBw : (∃ o ∈ view.witness, o.shouldPermute = true) → 0 < pk.vk.index.perm.maxCols →
      (pk.vk.index.perm.maxCols + 2) * (d.size - 1) ≤ B)
    (hBl : pk.vk.index.lookups ≠ [] → 4 * (d.size - 1) ≤ B) :
    ∃ Q, (runPolys d view vos pre.perm pre.qBlind r).numerator d pk.vk.index.perm ch.alpha ch.beta ch.gamma
      = Q * toPoly vanishing ∧ Q.degree < pk.vk.index.ext.size := by
  have hran := hr.ran
  obtain ⟨Q, hQ⟩ := hran.divides hd hr.allHonest hr.supported hlv hdvd hg ch.alpha
  rw [mul_comm] at hQ
  refine ⟨Q, hQ, ?_⟩
  have hz0 : toPoly vanishing ≠ 0 := by
    rintro h0
    rw [h0, zero_dvd_iff] at hdvd
    exact (monic_X_pow_sub_C (1 : F) hd.size_pos.ne').ne_zero (by simpa using hdvd)
  have hN := natDegree_numerator hd h1 hr.fits le_rfl hr.bounded (B := B) (fun g hgm => (hr.gates g hgm).trans hBg) (by
      intro hne
      have hne' : view.witness.filter (·.shouldPermute) ≠ [] := by simpa [runPolys] using hne
      refine hBw ?_ (hran.agg hr.allHonest hne').1
      obtain ⟨o, ho⟩ := List.exists_mem_of_ne_nil _ hne'
      obtain ⟨ho1, ho2⟩ := List.mem_filter.1 ho
      exact ⟨o, ho1, ho2⟩) (by
      intro hne
      refine hBl ?_
      intro h0
      have h2 := hran.lookup.1
      rw [h0] at h2
      have h3 : r.lookups = [] := List.length_eq_zero_iff.1 h2
      exact hne (by simp [runPolys, h3])) ch.alpha ch.beta ch.gamma
  by_cases hQ0 : Q = 0
  · rw [hQ0, degree_zero]; exact WithBot.bot_lt_coe _
  · have hmul : Q.natDegree + (toPoly vanishing).natDegree ≤ B := by
      rw [← natDegree_mul hQ0 hz0, ← hQ]; exact hN
    rw [degree_eq_natDegree hQ0]
    exact_mod_cast (by omega : Q.natDegree < pk.vk.index.ext.size)

/-- For an honest proof the outcome of `verify` is that of the multi-opening. -/
theorem verify_reaches {S : Scheme F} {pk : ProverKey S} {com : F[X] → S.Rand → S.Comm}
    (hS : HomomorphicScheme S pk.ck pk.vk.vk com) {d : Domain F} (hd : d.Ok) (he : pk.vk.index.ext.Ok)
    (hle : d.size ≤ pk.vk.index.ext.size) (h1 : 1 < d.size) {vanishing : List F}
    (hlen : pk.vk.zhInverses.length = pk.vk.index.ext.size)
    (hinv : ∀ i < pk.vk.index.ext.size, ∃ y, pk.vk.zhInverses[i]? = some y ∧
      y * (toPoly vanishing).eval ((FftParams.gen : F) * pk.vk.index.ext.element i) = 1)
    (hdvd : toPoly vanishing ∣ X ^ d.size - 1)
    {ws is fixed table sigmas : List (ProverOracle F)} {qBlind : ProverOracle F} {vos : List (GenericVO F)}
    (hs : SupportedShape d pk.vk.index ⟨ws, is, fixed, table⟩ sigmas qBlind vos)
    (hlv : LookupsVanish S d pk.vk.index ((⟨ws, is, fixed, table⟩ : ProverView F).extend pk.vk.index.ext)
      (sigmas.map (·.computeExtended pk.vk.index.ext)) (qBlind.computeExtended pk.vk.index.ext))
    (hg : GatesHold d ⟨ws, is, fixed, table⟩ vos (toPoly vanishing))
    {B : Nat} (hB : B < pk.vk.index.ext.size + (toPoly vanishing).natDegree) (hBg : maxGateDegree d.size vos ≤ B)
    (hBw : (∃ o ∈ ws, o.shouldPermute = true) → 0 < pk.vk.index.perm.maxCols → (pk.vk.index.perm.maxCols + 2) * (d.size - 1) ≤ B)
    (hBl : pk.vk.index.lookups ≠ [] → 4 * (d.size - 1) ≤ B)
    {vws : List (VerifierOracle F S.Comm)} {vis : List (InstanceVerifierOracle F)} {vpre : VerifierPreprocessed S}
    (hsu : SetUp S com ⟨ws, is, fixed, table⟩ sigmas qBlind vws vis vpre) {z : S.Z} {proof : TPProof S}
    (hp : prove S pk (.new S fixed sigmas table qBlind pk.vk.index) ws is vos d.size z = .ok proof) :
    ∃ (r : ProverRounds F) (quotient : List (ProverOracle F)) (wc lc zc lzc qc : List (S.Comm × S.Rand)) (st : VState S), ProverRun S pk com d (.new S fixed sigmas table qBlind pk.vk.index) vos
      (verifierChallenges S proof).1 ((⟨ws, is, fixed, table⟩ : ProverView F).extend pk.vk.index.ext) r quotient
      wc lc zc lzc qc proof ∧
      List.Forall₂ (OpeningPair S com d (verifierChallenges S proof).1.xi)
        (List.zip (openingOrder ((⟨ws, is, fixed, table⟩ : ProverView F).extend pk.vk.index.ext).witness (primes r.lookups)
            r.lookupZs quotient r.zs (ProverPreprocessed.new S fixed sigmas table qBlind pk.vk.index).fixed
            (ProverPreprocessed.new S fixed sigmas table qBlind pk.vk.index).table
            (ProverPreprocessed.new S fixed sigmas table qBlind pk.vk.index).perm
            (ProverPreprocessed.new S fixed sigmas table qBlind pk.vk.index).qBlind)
          ((wc ++ lc ++ lzc ++ qc ++ zc).map Prod.snd ++
            List.replicate ((ProverPreprocessed.new S fixed sigmas table qBlind pk.vk.index).fixed
              ++ (ProverPreprocessed.new S fixed sigmas table qBlind pk.vk.index).table
              ++ (ProverPreprocessed.new S fixed sigmas table qBlind pk.vk.index).perm
              ++ [(ProverPreprocessed.new S fixed sigmas table qBlind pk.vk.index).qBlind]).length S.emptyRand)) st.oracles ∧
      verify S pk.vk vpre proof vws vis vos d.size vanishing
        = (mpVerify S pk.vk.vk proof.multiopen st.oracles (verifierChallenges S proof).1.xi d.size
            (verifierChallenges S proof).2).mapErr Err.multiproof := by
  obtain ⟨r, quotient, wc, lc, zc, lzc, qc, hr⟩ := prove_run hS hd he hle hs hp
  obtain ⟨Q, hQ, hdeg⟩ := hr.quotient_fits hd he hle h1 hlv hdvd (hg.extend _) hB hBg (by
    rintro ⟨o, ho, ho2⟩
    obtain ⟨o', ho', rfl⟩ := List.mem_map.1 ho
    exact hBw ⟨o', ho', ho2⟩) hBl
  have hself := hd.new_self
  obtain ⟨qs, hq1, hq2⟩ := C31_identity_check_passes (S := S) (vk := pk.vk) hd he hle h1 hr.polys hr.fits hr.lookups hlen
    hinv (verifierChallenges S proof).1.theta _ _ _ hQ hdeg
  obtain rfl : qs = quotient := Res.ok.inj (hq1.symm.trans hr.round)
  obtain ⟨qs', hq1', -, -, -, hq3⟩ := C17_quotient_chunks hd he hle h1 hr.polys hr.fits hr.lookups hlen hinv _ _ _ hQ hdeg
  obtain rfl : qs' = qs := Res.ok.inj (hq1'.symm.trans hq1)
  have hHP := hr.honest (by
    intro o ho
    obtain ⟨i, hi⟩ := List.getElem?_of_mem ho
    exact (hq3 i o hi).2.2.1)
  obtain ⟨st, hst, hacc⟩ := hHP.registration hd he hle hr.allHonest hr.supported h1 hself (vk := pk.vk) rfl (hsu.extend _)
  refine ⟨r, _, wc, lc, zc, lzc, qc, st, hr, hacc.openings, ?_⟩
  unfold verify
  show (verifyRegister S pk.vk vpre proof vws vis d.size (verifierChallenges S proof).1 >>= fun st =>
    quotientCheckValue S pk.vk st vis vos d.size vanishing (verifierChallenges S proof).1 >>= _) = _
  rw [verifyRegister_iff.2 ⟨d, hst⟩, Res.bind_ok, hq2 _ _ _ hacc.polys, Res.bind_ok, if_neg (by simp)]
  rfl

/-- Completeness for any key, given that the quotient fits the extended domain. -/
theorem verify_of_prove {S : Scheme F} {pk : ProverKey S} {com : F[X] → S.Rand → S.Comm}
    (hS : HomomorphicScheme S pk.ck pk.vk.vk com) {d : Domain F} (hd : d.Ok) (he : pk.vk.index.ext.Ok)
    (hle : d.size ≤ pk.vk.index.ext.size) (h1 : 1 < d.size) {vanishing : List F}
    (hlen : pk.vk.zhInverses.length = pk.vk.index.ext.size)
    (hinv : ∀ i < pk.vk.index.ext.size, ∃ y, pk.vk.zhInverses[i]? = some y ∧
      y * (toPoly vanishing).eval ((FftParams.gen : F) * pk.vk.index.ext.element i) = 1)
    (hdvd : toPoly vanishing ∣ X ^ d.size - 1)
    {ws is fixed table sigmas : List (ProverOracle F)} {qBlind : ProverOracle F} {vos : List (GenericVO F)}
    (hs : SupportedShape d pk.vk.index ⟨ws, is, fixed, table⟩ sigmas qBlind vos)
    (hlv : LookupsVanish S d pk.vk.index ((⟨ws, is, fixed, table⟩ : ProverView F).extend pk.vk.index.ext)
      (sigmas.map (·.computeExtended pk.vk.index.ext)) (qBlind.computeExtended pk.vk.index.ext))
    (hg : GatesHold d ⟨ws, is, fixed, table⟩ vos (toPoly vanishing))
    {B : Nat} (hB : B < pk.vk.index.ext.size + (toPoly vanishing).natDegree) (hBg : maxGateDegree d.size vos ≤ B)
    (hBw : (∃ o ∈ ws, o.shouldPermute = true) → 0 < pk.vk.index.perm.maxCols → (pk.vk.index.perm.maxCols + 2) * (d.size - 1) ≤ B)
    (hBl : pk.vk.index.lookups ≠ [] → 4 * (d.size - 1) ≤ B)
    {vws : List (VerifierOracle F S.Comm)} {vis : List (InstanceVerifierOracle F)} {vpre : VerifierPreprocessed S}
    (hsu : SetUp S com ⟨ws, is, fixed, table⟩ sigmas qBlind vws vis vpre) {z : S.Z} {proof : TPProof S}
    (hp : prove S pk (.new S fixed sigmas table qBlind pk.vk.index) ws is vos d.size z = .ok proof)
    (hx3 : ∀ k : ℤ, (mpChallenges S proof.multiopen (verifierChallenges S proof).2).2.2.1
      ≠ (verifierChallenges S proof).1.xi * d.omega ^ k) :
    verify S pk.vk vpre proof vws vis vos d.size vanishing = .ok () := by
  obtain ⟨r, quotient, wc, lc, zc, lzc, qc, st, hr, hop, hv⟩ := verify_reaches hS hd he hle h1 hlen hinv hdvd hs hlv hg hB hBg hBw
    hBl hsu hp
  rw [hv, Res.mapErr_eq_ok]
  exact mpVerify_of_opened hS d.size d hd.new_self _ _ st.oracles _ _ proof.multiopen hr.length hop hr.opened
    (fun o _ r _ => hx3 _)

/-- Completeness for a key made by the indexer, given that the lookup constraints hold. -/
theorem verify_of_prove_indexed {W I K : Type} [ConcreteOracle W] [ConcreteOracle I] [ConcreteOracle K]
    {S : Scheme F} {pk : ProverKey S} {com : F[X] → S.Rand → S.Comm} (hS : HomomorphicScheme S pk.ck pk.vk.vk com)
    {d : Domain F} (hd : d.Ok) (h1 : 1 < d.size) {vos : List (GenericVO F)}
    -- the key
    {copyFlag : W → Bool} {vk : S.VK} {lookups : List (GenericLookupVO F)} {ows : List W} {ois : List I} {ofs : List K}
    {zh : List F} {info : PermutationInfo F} {usableRows : Nat}
    (hkey : indexer copyFlag vk vos lookups ows ois ofs d zh info usableRows (S := S) = .ok pk.vk)
    (htrim : zh = trim zh) (hdvd : toPoly zh ∣ X ^ d.size - 1)
    (hproper : toPoly zh = X ^ d.size - 1 ∨ (toPoly zh).natDegree < d.size)
    (hquotient : pk.vk.index.quotientDegree ≠ pk.vk.index.ext.size)
    -- the circuit, the witness and the verifier's oracles
    {ws is fixed table sigmas : List (ProverOracle F)} {qBlind : ProverOracle F}
    (hcopies : (∃ o ∈ ws, o.shouldPermute = true) → d.size < pk.vk.index.perm.maxCols + 2 + (toPoly zh).natDegree)
    (hs : SupportedShape d pk.vk.index ⟨ws, is, fixed, table⟩ sigmas qBlind vos)
    (hlv : LookupsVanish S d pk.vk.index ((⟨ws, is, fixed, table⟩ : ProverView F).extend pk.vk.index.ext)
      (sigmas.map (·.computeExtended pk.vk.index.ext)) (qBlind.computeExtended pk.vk.index.ext))
    (hg : GatesHold d ⟨ws, is, fixed, table⟩ vos (toPoly zh))
    {vws : List (VerifierOracle F S.Comm)} {vis : List (InstanceVerifierOracle F)} {vpre : VerifierPreprocessed S}
    (hsu : SetUp S com ⟨ws, is, fixed, table⟩ sigmas qBlind vws vis vpre)
    -- the proof
    {z : S.Z} {proof : TPProof S}
    (hp : prove S pk (.new S fixed sigmas table qBlind pk.vk.index) ws is vos d.size z = .ok proof)
    (hx3 : ∀ k : ℤ, (mpChallenges S proof.multiopen (verifierChallenges S proof).2).2.2.1
      ≠ (verifierChallenges S proof).1.xi * d.omega ^ k) :
    verify S pk.vk vpre proof vws vis vos d.size zh = .ok () := by
  obtain ⟨-, hM, hqd, hqe, hext, hle, hsz, -, hlk, -, -, hlks, -, -⟩ := indexer_ok hd hkey
  obtain ⟨hlen, hinv⟩ := C16_row_set hd hkey htrim hdvd hproper
  refine verify_of_prove hS hd hext hle h1 hlen hinv hdvd hs hlv hg
    (B := pk.vk.index.ext.size + (toPoly zh).natDegree - 1) (by omega) (by omega) ?_ ?_ hsu hp hx3
  · intro h2 _
    have h3 := hcopies h2
    have h4 : (pk.vk.index.perm.maxCols + 2) * (d.size - 1) + (pk.vk.index.perm.maxCols + 2)
        = (pk.vk.index.perm.maxCols + 1) * d.size + d.size := by
      obtain ⟨m, hm⟩ : ∃ m, d.size = m + 1 := ⟨d.size - 1, by omega⟩
      rw [hm, Nat.add_sub_cancel]; ring
    omega
  · intro h2
    rw [hlks] at h2
    have h3 := Nat.mul_le_mul_right d.size (hlk h2)
    omega

/-- **C46** Completeness. For a key made by the indexer for a supported circuit, a homomorphic commitment scheme, any
transcript and any prover randomness: if the witness satisfies the gates on the rows of the vanishing polynomial and
`prove` returns a proof, then `verify` accepts it with any verifier oracles set up for the circuit, unless the challenge
`x3` of the multi-opening is a power of the generator times the evaluation challenge. (Copies and lookups need no
hypothesis, because `prove` fails when they are violated.) Two sizes are excluded: a quotient whose degree equals the size
of the extended domain, see `C46_off_by_one`, and copied columns with a vanishing polynomial of low degree. -/
theorem C46_completeness {W I K : Type} [ConcreteOracle W] [ConcreteOracle I] [ConcreteOracle K]
    {S : Scheme F} {pk : ProverKey S} {com : F[X] → S.Rand → S.Comm} (hS : HomomorphicScheme S pk.ck pk.vk.vk com)
    {d : Domain F} (hd : d.Ok) (h1 : 1 < d.size) {vos : List (GenericVO F)}
    -- the key
    {copyFlag : W → Bool} {vk : S.VK} {lookups : List (GenericLookupVO F)} {ows : List W} {ois : List I} {ofs : List K}
    {zh : List F} {info : PermutationInfo F} {usableRows : Nat}
    (hkey : indexer copyFlag vk vos lookups ows ois ofs d zh info usableRows (S := S) = .ok pk.vk)
    (htrim : zh = trim zh) (hdvd : toPoly zh ∣ X ^ d.size - 1)
    (hproper : toPoly zh = X ^ d.size - 1 ∨ (toPoly zh).natDegree < d.size)
    (hquotient : pk.vk.index.quotientDegree ≠ pk.vk.index.ext.size)
    -- the circuit, the witness and the verifier's oracles
    {ws is fixed table sigmas : List (ProverOracle F)} {qBlind : ProverOracle F}
    (hcopies : (∃ o ∈ ws, o.shouldPermute = true) → d.size < pk.vk.index.perm.maxCols + 2 + (toPoly zh).natDegree)
    (hs : Supported d pk.vk.index ⟨ws, is, fixed, table⟩ sigmas qBlind vos)
    (hg : GatesHold d ⟨ws, is, fixed, table⟩ vos (toPoly zh))
    {vws : List (VerifierOracle F S.Comm)} {vis : List (InstanceVerifierOracle F)} {vpre : VerifierPreprocessed S}
    (hsu : SetUp S com ⟨ws, is, fixed, table⟩ sigmas qBlind vws vis vpre)
    -- the proof
    {z : S.Z} {proof : TPProof S}
    (hp : prove S pk (.new S fixed sigmas table qBlind pk.vk.index) ws is vos d.size z = .ok proof)
    (hx3 : ∀ k : ℤ, (mpChallenges S proof.multiopen (verifierChallenges S proof).2).2.2.1
      ≠ (verifierChallenges S proof).1.xi * d.omega ^ k) :
    verify S pk.vk vpre proof vws vis vos d.size zh = .ok () :=
  verify_of_prove_indexed hS hd h1 hkey htrim hdvd hproper hquotient hcopies hs (Supported.lookupsVanish hd (indexer_ok hd hkey).2.2.2.2.1
    (indexer_ok hd hkey).2.2.2.2.2.1 (hs.allHonest _) (hs.extend _)) hg hsu hp hx3

end
end ZK
