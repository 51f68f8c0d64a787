import Verif.Properties.Completeness
import Verif.Spec.Soundness
/-! C69: what becomes of a proof the prover makes for columns that violate a gate. -/
set_option autoImplicit false
set_option linter.unusedSectionVars false
namespace ZK
open Polynomial

section
variable {F : Type} [Field F] [LinearOrder F] [FftParams F] [LawfulFft F]

/-- The quotient round divides on the coset only: it succeeds whether or not the vanishing polynomial divides the aggregated constraint, and
the chunks satisfy the identity on the coset of the extended domain. -/
theorem quotient_on_coset {d : Domain F} {v : ProverView F} {vos : List (GenericVO F)} {index : Index F}
    (hd : d.Ok) (he : index.ext.Ok) (hle : d.size ≤ index.ext.size) (h1 : 1 < d.size)
    {sigmas : List (ProverOracle F)} {qBlind : ProverOracle F} {r : ProverRounds F} {c : CircuitPolys F}
    (hP : ProverPolys d index.ext v vos sigmas qBlind r c) (hF : c.Fits d index.perm)
    (hL : index.lookups.length = c.lookups.length) {Z : F[X]} {zhInverses : List F}
    (hlen : zhInverses.length = index.ext.size)
    (hinv : ∀ i < index.ext.size, ∃ y, zhInverses[i]? = some y ∧
      y * Z.eval ((FftParams.gen : F) * index.ext.element i) = 1)
    (alpha beta gamma : F) :
    ∃ qs, quotientRound v vos index zhInverses sigmas qBlind r d alpha beta gamma = .ok qs ∧
      (∀ i < index.ext.size, (recombine d.size (qs.map (fun o => toPoly o.poly)) * Z).eval ((FftParams.gen : F) * index.ext.element i)
        = (c.numerator d index.perm alpha beta gamma).eval ((FftParams.gen : F) * index.ext.element i)) ∧
      ∀ o ∈ qs, o.poly.length ≤ d.size ∧ o.rotations = setExtend [] [Rotation.curr] := by
  obtain ⟨l0, hl0, hl0l, hl0p⟩ := lagrangeRow_eq (ε := PiopErr) hd hd.size_pos
  obtain ⟨lu, hlu, hlul, hlup⟩ := lagrangeRow_eq (ε := PiopErr) hd hF.usable
  have hg : 0 < vos.length := by rw [hP.gates.length_eq]; exact List.length_pos_iff.2 hF.gates
  have hnum := Res.mapM_ok_map (l := List.range index.ext.size) (fun i hi =>
    numeratorAt_eq hd he hle hP hF hl0l hl0p hlul hlup alpha beta gamma h1 (List.mem_range.1 hi))
  obtain ⟨V, hV⟩ : ∃ V, V = (List.range index.ext.size).map (fun i => (c.numerator d index.perm alpha beta gamma).eval
          ((FftParams.gen : F) * index.ext.element i)) := ⟨_, rfl⟩
  obtain ⟨q, hqd⟩ : ∃ q, q = trim (index.ext.cosetIfft (List.zipWith (· * ·) V zhInverses)) := ⟨_, rfl⟩
  have hround : quotientRound v vos index zhInverses sigmas qBlind r d alpha beta gamma
      = .ok (quotientChunks d index.ext.size q) := by
    unfold quotientRound
    rw [mkAlphas_eq _ _ hg, Res.bind_ok, hl0, Res.bind_ok, hlu, Res.bind_ok, hL]
    unfold alphasOf at hnum
    simp only
    rw [hnum, Res.bind_ok, hqd, hV]
    rfl
  have hql : q.length ≤ index.ext.size := by
    rw [hqd]
    refine (trim_length_le _).trans ?_
    simp
  obtain ⟨hs1, hs2, hs3⟩ := quotientChunks_spec hd index.ext.size q hql
  refine ⟨_, hround, ?_, ?_⟩
  · intro i hi
    have hVl : (List.zipWith (· * ·) V zhInverses).length = index.ext.size := by simp [hlen, hV]
    rw [hs1, eval_mul, hqd, toPoly_trim, ← peval_eq_eval, he.peval_cosetIfft hVl i hi]
    obtain ⟨y, hy1, hy2⟩ := hinv i hi
    rw [List.getElem?_eq_getElem (by omega)] at hy1
    have hVi : V[i]'(by rw [hV]; simpa using hi) = (c.numerator d index.perm alpha beta gamma).eval
          ((FftParams.gen : F) * index.ext.element i) := by
      simp only [hV, List.getElem_map, List.getElem_range]
    rw [List.getElem_zipWith, hVi, Option.some.inj hy1, mul_assoc, hy2, mul_one]
  · intro o ho
    obtain ⟨i, hi⟩ := List.getElem?_of_mem ho
    obtain ⟨-, g1, g2, -⟩ := hs3 i o hi
    exact ⟨g1, g2⟩

/-- **C69** The prover does not look at the gates. For a key made by the indexer for a supported circuit and any witness, satisfying or not,
for which the prover returns a proof: its commitments are commitments to the witness columns and to polynomials with at most `n` coefficients, and
the evaluations in it are those of these polynomials. Unless `x3` is one of the points opened, the verifier accepts the proof or rejects it because of the quotient; and it
accepts if the evaluation challenge is one of the points of the coset on which the quotient was computed. So for columns that violate a gate at least as many
evaluation challenges are exceptional as the extended domain has points. -/
theorem C69_any_witness {W I K : Type} [ConcreteOracle W] [ConcreteOracle I] [ConcreteOracle K]
    {S : Scheme F} {pk : ProverKey S} {com : F[X] → S.Rand → S.Comm} (hS : HomomorphicScheme S pk.ck pk.vk.vk com)
    (hinj : ∀ p q r s, com p r = com q s → p = q)
    {d : Domain F} (hd : d.Ok) (h1 : 1 < d.size) {vos : List (GenericVO F)}
    -- the key
    {copyFlag : W → Bool} {vk : S.VK} {lookups : List (GenericLookupVO F)} {ows : List W} {ois : List I} {ofs : List K}
    {zh : List F} {info : PermutationInfo F} {usableRows : Nat}
    (hkey : indexer copyFlag vk vos lookups ows ois ofs d zh info usableRows (S := S) = .ok pk.vk)
    (htrim : zh = trim zh) (hdvd : toPoly zh ∣ X ^ d.size - 1)
    (hproper : toPoly zh = X ^ d.size - 1 ∨ (toPoly zh).natDegree < d.size)
    -- the circuit, the witness and the verifier's oracles
    {ws is fixed table sigmas : List (ProverOracle F)} {qBlind : ProverOracle F}
    (hs : Supported d pk.vk.index ⟨ws, is, fixed, table⟩ sigmas qBlind vos)
    {vws : List (VerifierOracle F S.Comm)} {vis : List (InstanceVerifierOracle F)} {vpre : VerifierPreprocessed S}
    (hsu : SetUp S com ⟨ws, is, fixed, table⟩ sigmas qBlind vws vis vpre)
    -- the proof
    {z : S.Z} {proof : TPProof S}
    (hp : prove S pk (.new S fixed sigmas table qBlind pk.vk.index) ws is vos d.size z = .ok proof) :
    (∃ ls zs lzs qs : List F[X], MadeOf com (ws.map (fun o => toPoly o.poly)) ls zs lzs qs proof ∧
      ∀ p ∈ ls ++ zs ++ lzs ++ qs, p.degree < d.size) ∧
    (∃ st, verifyRegister S pk.vk vpre proof vws vis d.size (verifierChallenges S proof).1 = .ok st ∧
      ∀ w ∈ st.oracles, TrueClaims com d (verifierChallenges S proof).1.xi w) ∧
    ((∀ k : ℤ, (mpChallenges S proof.multiopen (verifierChallenges S proof).2).2.2.1 ≠ (verifierChallenges S proof).1.xi * d.omega ^ k) →
      (verify S pk.vk vpre proof vws vis vos d.size zh = .ok () ∨
        verify S pk.vk vpre proof vws vis vos d.size zh = .err .quotientNotZero) ∧
      ((∃ i < pk.vk.index.ext.size, (verifierChallenges S proof).1.xi = (FftParams.gen : F) * pk.vk.index.ext.element i) →
        verify S pk.vk vpre proof vws vis vos d.size zh = .ok ())) := by
  obtain ⟨-, hM, hqd, hqe, he, hle, hsz, -, hlk, -, -, hlks, -, -⟩ := indexer_ok hd hkey
  obtain ⟨hlen, hinv⟩ := C16_row_set hd hkey htrim hdvd hproper
  obtain ⟨r, quotient, wc, lc, zc, lzc, qc, hr⟩ := prove_run hS hd he hle hs hp
  have hself := hd.new_self
  obtain ⟨qs, hq1, hq2, hq3⟩ := quotient_on_coset hd he hle h1 hr.polys hr.fits hr.lookups hlen hinv
    (verifierChallenges S proof).1.alpha (verifierChallenges S proof).1.beta (verifierChallenges S proof).1.gamma
  obtain rfl : qs = quotient := Res.ok.inj (hq1.symm.trans hr.round)
  have hHP := hr.honest (fun o ho => (hq3 o ho).2)
  obtain ⟨st, hst, hacc⟩ := hHP.registration hd he hle hr.allHonest hr.supported h1 hself (vk := pk.vk) rfl (hsu.extend _)
  have hst' := verifyRegister_iff.2 ⟨d, hst⟩
  have hval := quotientCheckValue_eq hd (ch := (verifierChallenges S proof).1) hacc.polys hr.fits hr.lookups zh
  have hmp := fun (hx3 : ∀ k : ℤ, (mpChallenges S proof.multiopen (verifierChallenges S proof).2).2.2.1 ≠ (verifierChallenges S proof).1.xi * d.omega ^ k) =>
    mpVerify_of_opened hS d.size d hself _ _ st.oracles _ _ proof.multiopen hr.length hacc.openings hr.opened
    (fun o _ r _ => hx3 r.signed)
  refine ⟨?_, ⟨st, hst', ?_⟩, fun hx3 => ⟨?_, ?_⟩⟩
  · have hcom : ∀ {os : List (ProverOracle F)} {cs : List (S.Comm × S.Rand)},
        List.Forall₂ (fun (o : ProverOracle F) (c : S.Comm × S.Rand) => c.1 = com (toPoly o.poly) c.2) os cs →
        CommitsTo com (os.map (fun o => toPoly o.poly)) (cs.map Prod.fst) := fun h =>
      List.forall₂_map_left_iff.2 (List.forall₂_map_right_iff.2 (h.imp (fun _ c hc => ⟨c.2, hc⟩)))
    have hdeg : ∀ {p : F[X]}, p.natDegree ≤ d.size - 1 → p.degree < d.size := fun {p} h =>
      lt_of_le_of_lt degree_le_natDegree (by exact_mod_cast (by have := hd.size_pos; omega : p.natDegree < d.size))
    refine ⟨(primes r.lookups).map (fun o => toPoly o.poly), r.zs.map (fun o => toPoly o.poly), r.lookupZs.map (fun o => toPoly o.poly),
      qs.map (fun o => toPoly o.poly), ⟨?_, ?_, ?_, ?_, ?_⟩, ?_⟩
    · have h := hcom hHP.wcOk
      rw [← hHP.witnessCommitments] at h
      have e : (ProverView.extend ⟨ws, is, fixed, table⟩ pk.vk.index.ext).witness.map (fun o => toPoly o.poly) = ws.map (fun o => toPoly o.poly) := by
        simp [ProverView.extend, ProverOracle.computeExtended, Function.comp_def]
      rw [e] at h
      exact h
    · exact hHP.lookupCommitments ▸ hcom hHP.lcOk
    · exact hHP.zCommitments ▸ hcom hHP.zcOk
    · exact hHP.lookupZCommitments ▸ hcom hHP.lzcOk
    · exact hHP.quotientCommitments ▸ hcom hHP.qcOk
    · have hl1 := hr.ran.lookup.1
      have hl2 := hr.ran.lookupZ.1
      have hpair : ∀ (i : Nat) (l : LookupOracles (ProverOracle F)) (o : ProverOracle F), r.lookups[i]? = some l → r.lookupZs[i]? = some o →
          (toPoly l.aPrime.poly).natDegree ≤ d.size - 1 ∧ (toPoly l.sPrime.poly).natDegree ≤ d.size - 1 ∧
          (toPoly o.poly).natDegree ≤ d.size - 1 := by
        intro i l o hl ho
        have hm : lookupPair l o ∈ (runPolys d (ProverView.extend ⟨ws, is, fixed, table⟩ pk.vk.index.ext) vos
            (ProverPreprocessed.new S fixed sigmas table qBlind pk.vk.index).perm
            (ProverPreprocessed.new S fixed sigmas table qBlind pk.vk.index).qBlind r).lookups :=
          List.mem_of_getElem? (List.getElem?_zipWith_eq_some.2 ⟨l, o, hl, ho, rfl⟩ :
            (List.zipWith lookupPair r.lookups r.lookupZs)[i]? = some (lookupPair l o))
        obtain ⟨-, -, g1, g2, g3⟩ := hr.bounded.lookups _ hm
        exact ⟨g1, g2, g3⟩
      intro p hp
      simp only [List.mem_append] at hp
      rcases hp with ((hp | hp) | hp) | hp
      · obtain ⟨o, ho, rfl⟩ := List.mem_map.1 hp
        obtain ⟨l, hl, hol⟩ := List.mem_flatMap.1 ho
        obtain ⟨i, hi⟩ := List.getElem?_of_mem hl
        have hlt := (List.getElem?_eq_some_iff.1 hi).1
        obtain ⟨g1, g2, -⟩ := hpair i l _ hi (List.getElem?_eq_getElem (by omega))
        simp only [List.mem_cons, List.not_mem_nil, or_false] at hol
        rcases hol with rfl | rfl
        · exact hdeg g1
        · exact hdeg g2
      · exact hdeg (hr.bounded.zs p hp)
      · obtain ⟨o, ho, rfl⟩ := List.mem_map.1 hp
        obtain ⟨i, hi⟩ := List.getElem?_of_mem ho
        have hlt := (List.getElem?_eq_some_iff.1 hi).1
        exact hdeg (hpair i _ o (List.getElem?_eq_getElem (by omega)) hi).2.2
      · obtain ⟨o, ho, rfl⟩ := List.mem_map.1 hp
        exact lt_of_lt_of_le (degree_toPoly_lt _) (by exact_mod_cast (hq3 o ho).1)
  · intro w hw p r' hc ro hro
    obtain ⟨i, hi⟩ := List.getElem?_of_mem hw
    obtain ⟨o, -, ho⟩ := Forall₂.right hacc.openings hi
    obtain rfl : p = toPoly o.1.poly := hinj _ _ _ _ (Option.some.inj (hc.symm.trans ho.commitment))
    exact ho.evals ro (ho.rotations ▸ hro)
  · by_cases h0 : quotientCheckValue S pk.vk st vis vos d.size zh (verifierChallenges S proof).1 = .ok 0
    · exact Or.inl (verify_inv.2 ⟨st, hst', h0, hmp hx3⟩)
    · right
      obtain ⟨y, hy⟩ : ∃ y, quotientCheckValue S pk.vk st vis vos d.size zh (verifierChallenges S proof).1 = .ok y := ⟨_, hval⟩
      have hy0 : y ≠ 0 := fun h => h0 (h ▸ hy)
      unfold verify
      show (verifyRegister S pk.vk vpre proof vws vis d.size (verifierChallenges S proof).1 >>= fun st =>
        quotientCheckValue S pk.vk st vis vos d.size zh (verifierChallenges S proof).1 >>= _) = _
      rw [hst', Res.bind_ok, hy, Res.bind_ok, if_pos hy0]
  · rintro ⟨i, hi, hxi⟩
    rw [verify_inv]
    refine ⟨st, hst', ?_, hmp hx3⟩
    rw [hval, eval_sub, hxi, hq2 i hi, sub_self]

end
end ZK
