import Verif.Lemmas.Outcome
import Verif.Properties.ProofSize
import Verif.Properties.CompletenessError
/-! C70 and C73: what happens in a run, for all challenges, when copies and lookups hold and when they do not. -/
set_option autoImplicit false
set_option linter.unusedSectionVars false
namespace ZK
open Polynomial

section
variable {F : Type} [Field F] [LinearOrder F] [FftParams F] [LawfulFft F]

/-- Points of a set of rotations at the point zero. -/
theorem points_zero_nodup (w : F) (rs : List Rotation) :
    (rs.map (fun r => (0 : F) * w ^ r.signed)).Nodup ↔ rs.length ≤ 1 := by
  match rs with
  | [] => simp
  | [r] => simp
  | r :: r' :: rs => simp

/-- **C73** Exactly what happens in a run whose gates hold, whether or not copies and lookups hold. The prover draws `theta`. If a
looked-up value, compressed with `theta`, is not in the compressed table, `prove` panics. Otherwise it draws `beta` and `gamma`. If a
denominator of a grand product vanishes, or the two products of the permutation argument differ, `prove` panics. Otherwise it reaches
the evaluation challenge and everything is as in C70; in particular the proof is then accepted even if copies or lookups do not hold. -/
theorem C73_every_run {W I K : Type} [ConcreteOracle W] [ConcreteOracle I] [ConcreteOracle K]
    {S : Scheme F} {pk : ProverKey S} {com : F[X] → S.Rand → S.Comm} (hS : HomomorphicScheme S pk.ck pk.vk.vk com)
    {d : Domain F} (hd : d.Ok) (h1 : 1 < d.size) (hn : SupportsDegree S pk.ck d.size) {vos : List (GenericVO F)}
    -- the key
    {copyFlag : W → Bool} {vk : S.VK} {lookups : List (GenericLookupVO F)} {ows : List W} {ois : List I} {ofs : List K}
    {zh : List F} {info : PermutationInfo F} {usableRows : Nat}
    (hkey : indexer copyFlag vk vos lookups ows ois ofs d zh info usableRows (S := S) = .ok pk.vk)
    (htrim : zh = trim zh) (hdvd : toPoly zh ∣ X ^ d.size - 1)
    (hproper : toPoly zh = X ^ d.size - 1 ∨ (toPoly zh).natDegree < d.size)
    (hquotient : pk.vk.index.quotientDegree ≠ pk.vk.index.ext.size)
    -- the circuit, the witness and the verifier's oracles
    {ws is fixed table sigmas : List (ProverOracle F)} {qBlind : ProverOracle F}
    (hcopies : (∃ o ∈ ws, o.shouldPermute = true) → d.size < pk.vk.index.perm.maxCols + 2 + (toPoly zh).natDegree)
    (hs : Supported d pk.vk.index ⟨ws, is, fixed, table⟩ sigmas qBlind vos)
    (hp : Provable d pk.vk.index ⟨ws, is, fixed, table⟩ sigmas qBlind vos)
    {vws : List (VerifierOracle F S.Comm)} {vis : List (InstanceVerifierOracle F)} {vpre : VerifierPreprocessed S}
    (hsu : SetUp S com ⟨ws, is, fixed, table⟩ sigmas qBlind vws vis vpre)
    -- the gates hold; copies and lookups need not hold
    (hg : GatesHold d ⟨ws, is, fixed, table⟩ vos (toPoly zh))
    -- the sets of rotations at which the columns of a proof are opened
    {R : Finset (List Rotation)}
    (hR : R = openedSets (ws ++ fixed ++ table ++ sigmas ++ [qBlind]) lookups.length
      (grandProducts (ws.filter (·.shouldPermute)).length pk.vk.index.perm.maxCols) info.u) (z : S.Z) :
    ∃ theta, FirstAnswer S pk ⟨ws, is, fixed, table⟩ z theta ∧
      (¬ CompressedLookups d.size pk.vk.index.usableRows ⟨ws, is, fixed, table⟩ pk.vk.index.lookups theta →
        prove S pk (.new S fixed sigmas table qBlind pk.vk.index) ws is vos d.size z = .panic) ∧
      (CompressedLookups d.size pk.vk.index.usableRows ⟨ws, is, fixed, table⟩ pk.vk.index.lookups theta →
    ∃ beta gamma, FirstMessages S pk ⟨ws, is, fixed, table⟩ d z theta beta gamma ∧
      (¬ (GoodDraw d pk.vk.index ⟨ws, is, fixed, table⟩ sigmas theta beta gamma ∧
          EqualProducts d pk.vk.index ⟨ws, is, fixed, table⟩ sigmas beta gamma) →
        prove S pk (.new S fixed sigmas table qBlind pk.vk.index) ws is vos d.size z = .panic) ∧
      (GoodDraw d pk.vk.index ⟨ws, is, fixed, table⟩ sigmas theta beta gamma →
        EqualProducts d pk.vk.index ⟨ws, is, fixed, table⟩ sigmas beta gamma →
        ∃ tr, proveRounds S pk (.new S fixed sigmas table qBlind pk.vk.index) ws is vos d.size z = .ok tr ∧
          tr.chal.theta = theta ∧ tr.chal.beta = beta ∧ tr.chal.gamma = gamma ∧
          (tr.chal.xi = 0 ∧ (∃ rs ∈ R, 2 ≤ rs.length) →
            ∃ r, prove S pk (.new S fixed sigmas table qBlind pk.vk.index) ws is vos d.size z
              = .err (.multiproof (.piop (.repeatedRotation r)))) ∧
          (¬ (tr.chal.xi = 0 ∧ ∃ rs ∈ R, 2 ≤ rs.length) →
            ∃ proof, prove S pk (.new S fixed sigmas table qBlind pk.vk.index) ws is vos d.size z = .ok proof ∧
              verifierChallenges S proof = (tr.chal, tr.t) ∧
              ((∃ rs ∈ R, ∃ r ∈ rs, (mpChallenges S proof.multiopen tr.t).2.2.1 = tr.chal.xi * d.omega ^ r.signed) →
                verify S pk.vk vpre proof vws vis vos d.size zh = .panic) ∧
              ((¬ ∃ rs ∈ R, ∃ r ∈ rs, (mpChallenges S proof.multiopen tr.t).2.2.1 = tr.chal.xi * d.omega ^ r.signed) →
                verify S pk.vk vpre proof vws vis vos d.size zh = .ok ())))) := by
  obtain ⟨-, hM, hqd, hqe, hext, hle, hsz, -, hlk, hu, -, hlks, -, -⟩ := indexer_ok hd hkey
  obtain ⟨hlen, hinv⟩ := C16_row_set hd hkey htrim hdvd hproper
  have hone : ∀ (p : LPoly F) (z z' : S.Z) cs, S.commit pk.ck [p] z = .ok (cs, z') → cs.length = 1 :=
    fun p z z' cs h => (hS.commit _ _ _ _ h).length_eq.symm
  obtain ⟨theta, hth⟩ := firstAnswer_exists hs.toSupportedShape hn z
  refine ⟨theta, hth, fun hl => Res.bind_eq_panic.2 (.inl (proveRounds_panics_lookup hd hext hle hs hp hth hl)), fun hl => ?_⟩
  obtain ⟨beta, gamma, h2, h3⟩ := proveRounds_succeeds_at hd hext hle h1 hs hp hn hth hl
  refine ⟨beta, gamma, h2, fun hbad => ?_, fun hgood heq => ?_⟩
  · exact Res.bind_eq_panic.2 (.inl (proveRounds_panics hd hext hle hs hp hn h2 hbad))
  obtain ⟨tr, h4, h5, h6, h7⟩ := h3 hgood heq
  refine ⟨tr, h4, h5, h6, h7, ?_⟩
  -- the sets of rotations, for any rounds
  have hsets : ∀ {r : ProverRounds F} {quotient : List (ProverOracle F)} {ch : Challenges F},
      RoundsRan S d pk.vk.index ((⟨ws, is, fixed, table⟩ : ProverView F).extend pk.vk.index.ext)
        (ProverPreprocessed.new S fixed sigmas table qBlind pk.vk.index).perm ch.theta ch.beta ch.gamma r →
      quotientRound ((⟨ws, is, fixed, table⟩ : ProverView F).extend pk.vk.index.ext) vos pk.vk.index pk.vk.zhInverses
        (ProverPreprocessed.new S fixed sigmas table qBlind pk.vk.index).perm
        (ProverPreprocessed.new S fixed sigmas table qBlind pk.vk.index).qBlind r d ch.alpha ch.beta ch.gamma = .ok quotient →
      ∀ rs, rs ∈ R ↔ ∃ o ∈ openingOrder ((⟨ws, is, fixed, table⟩ : ProverView F).extend pk.vk.index.ext).witness
          (primes r.lookups) r.lookupZs quotient r.zs (ProverPreprocessed.new S fixed sigmas table qBlind pk.vk.index).fixed
          (ProverPreprocessed.new S fixed sigmas table qBlind pk.vk.index).table
          (ProverPreprocessed.new S fixed sigmas table qBlind pk.vk.index).perm
          (ProverPreprocessed.new S fixed sigmas table qBlind pk.vk.index).qBlind, o.rotations = rs := by
    intro r quotient ch hran hq rs
    obtain ⟨hql, hqr⟩ := quotientRound_length hd hq
    have hpos : 0 < quotient.length := by
      rw [hql]
      exact Nat.div_pos (by omega) hd.size_pos
    have hro := (rotations_opened hd hext hle (hs.allHonest pk.vk.index.ext) (hs.extend pk.vk.index.ext).toSupportedShape hran hpos hqr).2
    have hfw : (((⟨ws, is, fixed, table⟩ : ProverView F).extend pk.vk.index.ext).witness.filter (·.shouldPermute)).length
        = (ws.filter (·.shouldPermute)).length := by
      show (List.filter _ (ws.map _)).length = _
      rw [filter_extend, List.length_map]
    rw [hfw, hu, hlks] at hro
    have hR' : R = openedSets (ws.map (·.computeExtended pk.vk.index.ext) ++ fixed.map (·.computeExtended pk.vk.index.ext)
        ++ table.map (·.computeExtended pk.vk.index.ext) ++ sigmas.map (·.computeExtended pk.vk.index.ext)
        ++ [qBlind.computeExtended pk.vk.index.ext]) lookups.length
        (grandProducts (ws.filter (·.shouldPermute)).length pk.vk.index.perm.maxCols) info.u := by
      rw [hR, ← openedSets_extend pk.vk.index.ext (ws ++ fixed ++ table ++ sigmas ++ [qBlind])]
      simp only [List.map_append, List.map_cons, List.map_nil]
    have hro' := hro.trans hR'.symm
    rw [← hro', List.mem_toFinset, List.mem_map]
    exact Iff.rfl
  obtain ⟨pre, rands, k, hpre, hview, hran, hq, hrl, hall, hprove, hk⟩ := prove_reaches hS hd hext hle h1 hs hp h4
  have hopen : ∀ rs, rs ∈ R ↔ ∃ o ∈ tr.opened pre, o.rotations = rs := by
    rw [hpre, hview] at hran hq
    intro rs
    have := hsets hran hq rs
    unfold ProverTrace.opened
    rw [hview, hpre]
    exact this
  constructor
  · rintro ⟨hxi, rs, hrs, h8⟩
    obtain ⟨o, ho, rfl⟩ := (hopen rs).1 hrs
    obtain ⟨r, hr⟩ := mpProve_err (ck := pk.ck) hd hrl (xi := tr.chal.xi) (fun o ho => (hall o ho).2.1) ⟨o, ho, by
      rw [hxi, points_zero_nodup]; omega⟩ tr.t tr.z
    rw [hr] at hprove
    exact ⟨r, hprove⟩
  · intro hno
    obtain ⟨mp, hmp⟩ := mpProve_succeeds hd hn hone hrl (fun o ho => (hall o ho).1) (xi := tr.chal.xi)
      (fun o ho => ⟨(hall o ho).2.1, by
        by_cases hxi : tr.chal.xi = 0
        · rw [hxi, points_zero_nodup]
          by_contra hc
          exact hno ⟨hxi, _, (hopen _).2 ⟨o, ho, rfl⟩, by omega⟩
        · exact points_nodup hd hxi (hall o ho).2.2⟩) tr.t tr.z
    rw [hmp] at hprove
    obtain ⟨-, hch⟩ := hk mp
    obtain ⟨proof, hproof⟩ : ∃ proof, proof = k mp := ⟨_, rfl⟩
    rw [← hproof] at hch
    have hprove : prove S pk (.new S fixed sigmas table qBlind pk.vk.index) ws is vos d.size z = .ok proof := by
      rw [hproof]; exact hprove
    refine ⟨proof, hprove, hch, ?_⟩
    obtain ⟨r, quotient, wc, lc, zc, lzc, qc, st, hr, hop, hv⟩ := verify_reaches hS hd hext hle h1 hlen hinv hdvd hs
      (Supported.lookupsVanish hd hext hle (hs.allHonest _) (hs.extend _)) hg
      (B := pk.vk.index.ext.size + (toPoly zh).natDegree - 1) (by omega) (by omega) (by
        intro h2 _
        have h3 := hcopies h2
        have h4 : (pk.vk.index.perm.maxCols + 2) * (d.size - 1) + (pk.vk.index.perm.maxCols + 2)
            = (pk.vk.index.perm.maxCols + 1) * d.size + d.size := by
          obtain ⟨m, hm⟩ : ∃ m, d.size = m + 1 := ⟨d.size - 1, by omega⟩
          rw [hm, Nat.add_sub_cancel]; ring
        omega) (by
        intro h2
        rw [hlks] at h2
        have h3 := Nat.mul_le_mul_right d.size (hlk h2)
        omega) hsu hprove
    have hopen' := hsets hr.ran hr.round
    have hlength := hr.length
    have hopened := hr.opened
    rw [hch] at hop hv hopened
    rw [hv]
    constructor
    · rintro ⟨rs, hrs, rt, hrt, hx⟩
      obtain ⟨o, ho, rfl⟩ := (hopen' rs).1 hrs
      rw [mpVerify_panics hS hd _ _ st.oracles _ _ proof.multiopen hlength hop hopened ⟨o, ho, rt, hrt, hx⟩]
      rfl
    · intro hx
      rw [Res.mapErr_eq_ok]
      refine mpVerify_of_opened hS d.size d hd.new_self _ _ st.oracles _ _ proof.multiopen hlength hop hopened ?_
      intro o ho rt hrt he
      exact hx ⟨_, (hopen' _).2 ⟨o, ho, rfl⟩, rt, hrt, he⟩

/-- **C70** Exactly what happens in an honest run. Under the hypotheses of C52 and for every state `z` of the random source:
the prover draws `theta`, `beta` and `gamma`. If they make a denominator of a grand product vanish, `prove` panics. Otherwise
it reaches the evaluation challenge. If this challenge is zero and some opened column has two rotations, `prove` returns the
error `RepeatedRotation`. Otherwise it returns a proof. If the challenge `x3` of the multi-opening is one of the points at
which a column is opened, `verify` panics. Otherwise it accepts. There is no other outcome. -/
theorem C70_honest_outcome {W I K : Type} [ConcreteOracle W] [ConcreteOracle I] [ConcreteOracle K]
    {S : Scheme F} {pk : ProverKey S} {com : F[X] → S.Rand → S.Comm} (hS : HomomorphicScheme S pk.ck pk.vk.vk com)
    {d : Domain F} (hd : d.Ok) (h1 : 1 < d.size) (hn : SupportsDegree S pk.ck d.size) {vos : List (GenericVO F)}
    -- the key
    {copyFlag : W → Bool} {vk : S.VK} {lookups : List (GenericLookupVO F)} {ows : List W} {ois : List I} {ofs : List K}
    {zh : List F} {info : PermutationInfo F} {usableRows : Nat}
    (hkey : indexer copyFlag vk vos lookups ows ois ofs d zh info usableRows (S := S) = .ok pk.vk)
    (htrim : zh = trim zh) (hdvd : toPoly zh ∣ X ^ d.size - 1)
    (hproper : toPoly zh = X ^ d.size - 1 ∨ (toPoly zh).natDegree < d.size)
    (hquotient : pk.vk.index.quotientDegree ≠ pk.vk.index.ext.size)
    -- the circuit, the witness and the verifier's oracles
    {ws is fixed table sigmas : List (ProverOracle F)} {qBlind : ProverOracle F}
    (hcopies : (∃ o ∈ ws, o.shouldPermute = true) → d.size < pk.vk.index.perm.maxCols + 2 + (toPoly zh).natDegree)
    (hs : Supported d pk.vk.index ⟨ws, is, fixed, table⟩ sigmas qBlind vos)
    (hp : Provable d pk.vk.index ⟨ws, is, fixed, table⟩ sigmas qBlind vos)
    {tau : Equiv.Perm (Fin (ws.filter (·.shouldPermute)).length × Fin pk.vk.index.perm.usableRows)}
    (henc : MadeFrom d pk.vk.index.perm.deltas sigmas tau)
    {vws : List (VerifierOracle F S.Comm)} {vis : List (InstanceVerifierOracle F)} {vpre : VerifierPreprocessed S}
    (hsu : SetUp S com ⟨ws, is, fixed, table⟩ sigmas qBlind vws vis vpre)
    -- the witness satisfies the circuit
    (hg : GatesHold d ⟨ws, is, fixed, table⟩ vos (toPoly zh))
    (hcop : CopiesHold ⟨ws, is, fixed, table⟩ tau)
    (hl : LookupsHold d.size pk.vk.index.usableRows ⟨ws, is, fixed, table⟩ pk.vk.index.lookups)
    -- the sets of rotations at which the columns of a proof are opened
    {R : Finset (List Rotation)}
    (hR : R = openedSets (ws ++ fixed ++ table ++ sigmas ++ [qBlind]) lookups.length
      (grandProducts (ws.filter (·.shouldPermute)).length pk.vk.index.perm.maxCols) info.u) (z : S.Z) :
    ∃ theta beta gamma, FirstMessages S pk ⟨ws, is, fixed, table⟩ d z theta beta gamma ∧
      (¬ GoodDraw d pk.vk.index ⟨ws, is, fixed, table⟩ sigmas theta beta gamma →
        prove S pk (.new S fixed sigmas table qBlind pk.vk.index) ws is vos d.size z = .panic) ∧
      (GoodDraw d pk.vk.index ⟨ws, is, fixed, table⟩ sigmas theta beta gamma →
        ∃ tr, proveRounds S pk (.new S fixed sigmas table qBlind pk.vk.index) ws is vos d.size z = .ok tr ∧
          tr.chal.theta = theta ∧ tr.chal.beta = beta ∧ tr.chal.gamma = gamma ∧
          (tr.chal.xi = 0 ∧ (∃ rs ∈ R, 2 ≤ rs.length) →
            ∃ r, prove S pk (.new S fixed sigmas table qBlind pk.vk.index) ws is vos d.size z
              = .err (.multiproof (.piop (.repeatedRotation r)))) ∧
          (¬ (tr.chal.xi = 0 ∧ ∃ rs ∈ R, 2 ≤ rs.length) →
            ∃ proof, prove S pk (.new S fixed sigmas table qBlind pk.vk.index) ws is vos d.size z = .ok proof ∧
              verifierChallenges S proof = (tr.chal, tr.t) ∧
              ((∃ rs ∈ R, ∃ r ∈ rs, (mpChallenges S proof.multiopen tr.t).2.2.1 = tr.chal.xi * d.omega ^ r.signed) →
                verify S pk.vk vpre proof vws vis vos d.size zh = .panic) ∧
              ((¬ ∃ rs ∈ R, ∃ r ∈ rs, (mpChallenges S proof.multiopen tr.t).2.2.1 = tr.chal.xi * d.omega ^ r.signed) →
                verify S pk.vk vpre proof vws vis vos d.size zh = .ok ()))) := by
  obtain ⟨theta, -, -, h2⟩ := C73_every_run hS hd h1 hn hkey htrim hdvd hproper hquotient hcopies hs hp hsu hg hR z
  obtain ⟨beta, gamma, h3, h4, h5⟩ := h2 (hl.compressed theta)
  have heq : EqualProducts d pk.vk.index ⟨ws, is, fixed, table⟩ sigmas beta gamma :=
    CopiesHold.equalProducts (v := ⟨ws, is, fixed, table⟩) henc hcop beta gamma
  exact ⟨theta, beta, gamma, h3, fun hbad => h4 (fun h => hbad h.1), fun hgood => h5 hgood heq⟩

/-- **C73** (interactive) When the challenges are answered by an honest verifier, a run with any witness whose gates hold ends with
an accepted proof exactly when the compressed inputs are among the compressed table rows, the two products over the copied cells
are equal, no denominator vanishes, the evaluation challenge is not zero or all columns are opened at one point only, and `x3` is
none of the points at which a column is opened. -/
theorem C73_interactive {W I K : Type} [ConcreteOracle W] [ConcreteOracle I] [ConcreteOracle K]
    {S : Scheme F} {pk : ProverKey S} {com : F[X] → S.Rand → S.Comm} (hS : HomomorphicScheme S pk.ck pk.vk.vk com)
    {d : Domain F} (hd : d.Ok) (h1 : 1 < d.size) (hn : SupportsDegree S pk.ck d.size) {vos : List (GenericVO F)}
    -- the key
    {copyFlag : W → Bool} {vk : S.VK} {lookups : List (GenericLookupVO F)} {ows : List W} {ois : List I} {ofs : List K}
    {zh : List F} {info : PermutationInfo F} {usableRows : Nat}
    (hkey : indexer copyFlag vk vos lookups ows ois ofs d zh info usableRows (S := S) = .ok pk.vk)
    (htrim : zh = trim zh) (hdvd : toPoly zh ∣ X ^ d.size - 1)
    (hproper : toPoly zh = X ^ d.size - 1 ∨ (toPoly zh).natDegree < d.size)
    (hquotient : pk.vk.index.quotientDegree ≠ pk.vk.index.ext.size)
    -- the circuit, the witness and the verifier's oracles
    {ws is fixed table sigmas : List (ProverOracle F)} {qBlind : ProverOracle F}
    (hcopies : (∃ o ∈ ws, o.shouldPermute = true) → d.size < pk.vk.index.perm.maxCols + 2 + (toPoly zh).natDegree)
    (hs : Supported d pk.vk.index ⟨ws, is, fixed, table⟩ sigmas qBlind vos)
    (hp : Provable d pk.vk.index ⟨ws, is, fixed, table⟩ sigmas qBlind vos)
    {vws : List (VerifierOracle F S.Comm)} {vis : List (InstanceVerifierOracle F)} {vpre : VerifierPreprocessed S}
    (hsu : SetUp S com ⟨ws, is, fixed, table⟩ sigmas qBlind vws vis vpre)
    -- the gates hold; copies and lookups need not hold
    (hg : GatesHold d ⟨ws, is, fixed, table⟩ vos (toPoly zh))
    -- the sets of rotations at which the columns of a proof are opened
    {R : Finset (List Rotation)}
    (hR : R = openedSets (ws ++ fixed ++ table ++ sigmas ++ [qBlind]) lookups.length
      (grandProducts (ws.filter (·.shouldPermute)).length pk.vk.index.perm.maxCols) info.u) (z : S.Z) (theta beta gamma alpha xi x1 x2 x3 x4 : F) :
    let cs := [theta, beta, gamma, alpha, xi, x1, x2, x3, x4]
    (∃ proof,
      prove (S.answering cs) (pk.answering _) (.new _ fixed sigmas table qBlind pk.vk.index) ws is vos d.size z = .ok proof ∧
      verify (S.answering cs) (pk.vk.answering _) (vpre.answering _) proof vws vis vos d.size zh = .ok ()) ↔
    CompressedLookups d.size pk.vk.index.usableRows ⟨ws, is, fixed, table⟩ pk.vk.index.lookups theta ∧
      EqualProducts d pk.vk.index ⟨ws, is, fixed, table⟩ sigmas beta gamma ∧
      GoodDraw d pk.vk.index ⟨ws, is, fixed, table⟩ sigmas theta beta gamma ∧
      ¬ (xi = 0 ∧ ∃ rs ∈ R, 2 ≤ rs.length) ∧ ¬ ∃ rs ∈ R, ∃ r ∈ rs, x3 = xi * d.omega ^ r.signed := by
  intro cs
  obtain ⟨theta', ⟨wc, z1, -, e1⟩, hlbad, hlgood⟩ := C73_every_run (S := S.answering cs) (pk := pk.answering cs) (com := com)
    ⟨hS.commit, hS.zero, hS.add, hS.scale, hS.opens⟩ hd h1 ⟨hn.commit, hn.commitPlain, hn.open_⟩ (indexer_answering hkey cs)
    htrim hdvd hproper hquotient hcopies hs hp (vws := vws) (vis := vis) (vpre := vpre.answering cs)
    ⟨hsu.witness, hsu.inst, hsu.fixed, hsu.table, hsu.perm, hsu.qBlind⟩ hg hR z
  obtain rfl : theta' = theta := e1
  by_cases hl : CompressedLookups d.size pk.vk.index.usableRows ⟨ws, is, fixed, table⟩ pk.vk.index.lookups theta'
  swap
  · refine ⟨?_, fun h => absurd h.1 hl⟩
    rintro ⟨proof, h2, -⟩
    have := (hlbad hl).symm.trans h2
    cases this
  obtain ⟨beta', gamma', hfirst, hbad, hgood⟩ := hlgood hl
  obtain ⟨wc, z1, ls, z2, lc, z3, -, -, -, -, e2, e3⟩ := hfirst
  obtain rfl : beta' = beta := e2
  obtain rfl : gamma' = gamma := e3
  by_cases hde : GoodDraw d pk.vk.index ⟨ws, is, fixed, table⟩ sigmas theta' beta' gamma' ∧
      EqualProducts d pk.vk.index ⟨ws, is, fixed, table⟩ sigmas beta' gamma'
  swap
  · refine ⟨?_, fun h => absurd ⟨h.2.2.1, h.2.1⟩ hde⟩
    rintro ⟨proof, h2, -⟩
    have := (hbad hde).symm.trans h2
    cases this
  obtain ⟨hdraw, heq⟩ := hde
  obtain ⟨tr, g3, -, -, -, g4, g5⟩ := hgood hdraw heq
  have hchal : tr.chal.xi = xi ∧ tr.t = [x1, x2, x3, x4] := by
    obtain ⟨cs', hcs⟩ := hn.commitPlain ⟨[], [], false⟩ (Nat.zero_le _)
    obtain ⟨pf, -⟩ := hn.open_ ⟨[], [], false⟩ cs' 0 S.emptyRand (Nat.zero_le _) hcs
    obtain ⟨-, -, h⟩ := proveRounds_inv _ g3
    have h := h ⟨tr.wc.map Prod.fst, [], [], [], [], 0, tr.lc.map Prod.fst, tr.lzc.map Prod.fst, [], [], tr.zc.map Prod.fst, [],
      tr.qc.map Prod.fst, [], ⟨[], S.zero, pf⟩⟩ rfl rfl rfl rfl rfl
    exact ⟨(congrArg (fun c => c.1.xi) h).symm, (congrArg (fun c => c.2) h).symm⟩
  obtain ⟨hxi, ht⟩ := hchal
  rw [hxi] at g4 g5
  by_cases hz : xi = 0 ∧ ∃ rs ∈ R, 2 ≤ rs.length
  · refine ⟨?_, fun h => absurd hz h.2.2.2.1⟩
    rintro ⟨proof, h2, -⟩
    obtain ⟨r, hr⟩ := g4 hz
    have := hr.symm.trans h2
    cases this
  obtain ⟨proof, g6, -, g7, g8⟩ := g5 hz
  have hx3 : (mpChallenges (S.answering cs) proof.multiopen tr.t).2.2.1 = x3 := by rw [ht]; rfl
  rw [hx3] at g7 g8
  constructor
  · rintro ⟨proof', h2, h3⟩
    obtain rfl := Res.ok.inj (h2.symm.trans g6)
    refine ⟨hl, heq, hdraw, hz, fun hx => ?_⟩
    have := (g7 hx).symm.trans h3
    cases this
  · rintro ⟨-, -, -, -, hx⟩
    exact ⟨proof, g6, g8 hx⟩


/-- **C70** (interactive) When the challenges are answered by an honest verifier, an honest run ends with an accepted proof
exactly when no denominator vanishes, the evaluation challenge is not zero or all columns are opened at one point only, and
`x3` is none of the points at which a column is opened. -/
theorem C70_interactive {W I K : Type} [ConcreteOracle W] [ConcreteOracle I] [ConcreteOracle K]
    {S : Scheme F} {pk : ProverKey S} {com : F[X] → S.Rand → S.Comm} (hS : HomomorphicScheme S pk.ck pk.vk.vk com)
    {d : Domain F} (hd : d.Ok) (h1 : 1 < d.size) (hn : SupportsDegree S pk.ck d.size) {vos : List (GenericVO F)}
    -- the key
    {copyFlag : W → Bool} {vk : S.VK} {lookups : List (GenericLookupVO F)} {ows : List W} {ois : List I} {ofs : List K}
    {zh : List F} {info : PermutationInfo F} {usableRows : Nat}
    (hkey : indexer copyFlag vk vos lookups ows ois ofs d zh info usableRows (S := S) = .ok pk.vk)
    (htrim : zh = trim zh) (hdvd : toPoly zh ∣ X ^ d.size - 1)
    (hproper : toPoly zh = X ^ d.size - 1 ∨ (toPoly zh).natDegree < d.size)
    (hquotient : pk.vk.index.quotientDegree ≠ pk.vk.index.ext.size)
    -- the circuit, the witness and the verifier's oracles
    {ws is fixed table sigmas : List (ProverOracle F)} {qBlind : ProverOracle F}
    (hcopies : (∃ o ∈ ws, o.shouldPermute = true) → d.size < pk.vk.index.perm.maxCols + 2 + (toPoly zh).natDegree)
    (hs : Supported d pk.vk.index ⟨ws, is, fixed, table⟩ sigmas qBlind vos)
    (hp : Provable d pk.vk.index ⟨ws, is, fixed, table⟩ sigmas qBlind vos)
    {tau : Equiv.Perm (Fin (ws.filter (·.shouldPermute)).length × Fin pk.vk.index.perm.usableRows)}
    (henc : MadeFrom d pk.vk.index.perm.deltas sigmas tau)
    {vws : List (VerifierOracle F S.Comm)} {vis : List (InstanceVerifierOracle F)} {vpre : VerifierPreprocessed S}
    (hsu : SetUp S com ⟨ws, is, fixed, table⟩ sigmas qBlind vws vis vpre)
    -- the witness satisfies the circuit
    (hg : GatesHold d ⟨ws, is, fixed, table⟩ vos (toPoly zh))
    (hcop : CopiesHold ⟨ws, is, fixed, table⟩ tau)
    (hl : LookupsHold d.size pk.vk.index.usableRows ⟨ws, is, fixed, table⟩ pk.vk.index.lookups)
    -- the sets of rotations at which the columns of a proof are opened
    {R : Finset (List Rotation)}
    (hR : R = openedSets (ws ++ fixed ++ table ++ sigmas ++ [qBlind]) lookups.length
      (grandProducts (ws.filter (·.shouldPermute)).length pk.vk.index.perm.maxCols) info.u) (z : S.Z) (theta beta gamma alpha xi x1 x2 x3 x4 : F) :
    let cs := [theta, beta, gamma, alpha, xi, x1, x2, x3, x4]
    (∃ proof,
      prove (S.answering cs) (pk.answering _) (.new _ fixed sigmas table qBlind pk.vk.index) ws is vos d.size z = .ok proof ∧
      verify (S.answering cs) (pk.vk.answering _) (vpre.answering _) proof vws vis vos d.size zh = .ok ()) ↔
    GoodDraw d pk.vk.index ⟨ws, is, fixed, table⟩ sigmas theta beta gamma ∧
      ¬ (xi = 0 ∧ ∃ rs ∈ R, 2 ≤ rs.length) ∧ ¬ ∃ rs ∈ R, ∃ r ∈ rs, x3 = xi * d.omega ^ r.signed := by
  intro cs
  refine (C73_interactive hS hd h1 hn hkey htrim hdvd hproper hquotient hcopies hs hp hsu hg hR z theta beta gamma alpha xi x1 x2 x3
    x4).trans ⟨fun h => h.2.2, fun h => ⟨hl.compressed theta, ?_, h⟩⟩
  exact CopiesHold.equalProducts (v := ⟨ws, is, fixed, table⟩) henc hcop beta gamma

end
end ZK
