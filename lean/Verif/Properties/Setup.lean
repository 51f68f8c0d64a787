import Verif.Model.Setup
import Verif.Properties.SuccessExamples
/-! C59: from the universal setup to an accepted proof with KZG commitments. -/
set_option autoImplicit false
set_option linter.unusedSectionVars false
namespace ZK
open Polynomial

section
variable {F : Type} [Field F] {G : Type} [AddCommGroup G] [Module F G]
variable {G2 GT : Type} [AddCommGroup G2] [Module F G2] [AddCommGroup GT] [Module F GT] [DecidableEq GT]

/-- The keys made from the secret `beta`, the generators and the degree. -/
structure FromSetup (maxDegree : Nat) (beta : F) (g gammaG : G) (h : G2) (ck : KzgKey G) (vk : KzgVk G G2) : Prop where
  degree : 1 ≤ maxDegree
  powers : ck.powers = (List.range (maxDegree + 1)).map (fun i => beta ^ i • g)
  gammaPowers : ck.gammaPowers = [gammaG, beta • gammaG, beta ^ 2 • gammaG]
  vk_eq : vk = ⟨g, gammaG, h, beta • h⟩

/-- **C59** (keys) `universal_setup` fails exactly for the degree zero. Otherwise `prepare_keys` succeeds and returns the powers
of the secret up to the requested degree, the three blinding powers a hiding bound of 1 needs, and the matching verifier key. -/
theorem C59_keys (maxDegree : Nat) (beta : F) (g gammaG : G) (h : G2) :
    (maxDegree = 0 → universalSetup maxDegree beta g gammaG h = .err .degreeIsZero) ∧
    (maxDegree ≠ 0 → ∃ srs ck vk, universalSetup maxDegree beta g gammaG h = .ok srs ∧ prepareKeys srs = .ok (ck, vk) ∧
      FromSetup maxDegree beta g gammaG h ck vk) := by
  constructor
  · rintro rfl; rfl
  · intro hm
    refine ⟨_, ⟨(List.range (maxDegree + 1)).map (fun i => beta ^ i • g), [gammaG, beta • gammaG, beta ^ 2 • gammaG]⟩,
      ⟨g, gammaG, h, beta • h⟩, if_neg (by omega), ?_, ⟨by omega, rfl, rfl, rfl⟩⟩
    have hidx : ∀ i < maxDegree + 2, (Res.idx ((List.range (maxDegree + 2)).map (fun i => beta ^ i • gammaG)) i : Res SetupErr G)
        = .ok (beta ^ i • gammaG) := by
      intro i hi
      unfold Res.idx
      rw [List.getElem?_map, List.getElem?_range hi]
      rfl
    have hidx0 : (Res.idx ((List.range (maxDegree + 1)).map (fun i => beta ^ i • g)) 0 : Res SetupErr G) = .ok g := by
      unfold Res.idx
      rw [List.getElem?_map, List.getElem?_range (by omega)]
      simp
    unfold prepareKeys kzgTrim
    rw [if_neg (by omega)]
    refine Res.bind_eq_ok.2 ⟨[gammaG, beta • gammaG, beta ^ 2 • gammaG], ?_, Res.bind_eq_ok.2 ⟨g, hidx0, Res.bind_eq_ok.2 ⟨gammaG, ?_, ?_⟩⟩⟩
    · have h0 := hidx 0 (by omega)
      have h1 := hidx 1 (by omega)
      have h2 := hidx 2 (by omega)
      rw [pow_zero, one_smul] at h0
      rw [pow_one] at h1
      show Res.mapM _ [0, 1, 2] = _
      simp only [Res.mapM, h0, h1, h2]
    · have h0 := hidx 0 (by omega)
      rwa [pow_zero, one_smul] at h0
    · have : KzgSrs.maxDegree (G := G) (G2 := G2) ⟨(List.range (maxDegree + 1)).map (fun i => beta ^ i • g),
        (List.range (maxDegree + 2)).map (fun i => beta ^ i • gammaG), h, beta • h⟩ = maxDegree := by
        simp [KzgSrs.maxDegree]
      rw [this]
      show Res.ok _ = _
      rw [List.take_of_length_le (by simp)]

/-- Keys from the setup are correctly generated. -/
theorem FromSetup.kzgSetup {maxDegree : Nat} {beta : F} {g gammaG : G} {h : G2} {ck : KzgKey G} {vk : KzgVk G G2}
    (hf : FromSetup maxDegree beta g gammaG h ck vk) : KzgSetup beta ck vk := by
  obtain ⟨_, hp, hg, rfl⟩ := hf
  refine ⟨?_, ?_, rfl⟩
  · intro i hi
    simp [hp]
  · intro i hi
    rw [hg] at hi
    have : i = 0 ∨ i = 1 ∨ i = 2 := by simp at hi; omega
    rcases this with rfl | rfl | rfl <;> simp [hg]

theorem indexer_vk [DecidableEq F] [FftParams F] {W I K : Type} [ConcreteOracle W] [ConcreteOracle I] [ConcreteOracle K]
    {S : Scheme F} {copyFlag : W → Bool} {vk : S.VK} {vos : List (GenericVO F)} {lookups : List (GenericLookupVO F)} {ws : List W}
    {is : List I} {fs : List K} {d : Domain F} {zh : List F} {info : PermutationInfo F} {usableRows : Nat} {key : VerifierKey S}
    (h : indexer copyFlag vk vos lookups ws is fs d zh info usableRows (S := S) = .ok key) : key.vk = vk := by
  unfold indexer at h
  obtain ⟨qd, -, h⟩ := Res.bind_eq_ok.1 h
  obtain ⟨ext0, -, h⟩ := Res.bind_eq_ok.1 h
  by_cases hc : ext0.size < d.size
  · rw [if_pos hc] at h; cases h
  · rw [if_neg hc] at h
    obtain ⟨perm, -, h⟩ := Res.bind_eq_ok.1 h
    obtain ⟨ext, -, h⟩ := Res.bind_eq_ok.1 h
    obtain ⟨inv, -, h⟩ := Res.bind_eq_ok.1 h
    rw [← Res.ok.inj h]

theorem fromSetup_of_keys {maxDegree : Nat} {beta : F} {g gammaG : G} {h : G2} {srs : KzgSrs G G2} {ck : KzgKey G}
    {vk : KzgVk G G2} (hsrs : universalSetup maxDegree beta g gammaG h = .ok srs) (hkeys : prepareKeys srs = .ok (ck, vk)) :
    FromSetup maxDegree beta g gammaG h ck vk := by
  obtain ⟨h0, h1⟩ := C59_keys maxDegree beta g gammaG h
  rcases eq_or_ne maxDegree 0 with hm | hm
  · rw [h0 hm] at hsrs; cases hsrs
  · obtain ⟨srs', ck', vk', e1, e2, hf⟩ := h1 hm
    rw [hsrs] at e1
    obtain rfl := Res.ok.inj e1
    rw [hkeys] at e2
    obtain ⟨rfl, rfl⟩ := Prod.mk.inj (Res.ok.inj e2)
    exact hf

variable [LinearOrder F] [FftParams F] [LawfulFft F]

/-- **C59** End to end. With KZG keys made by `universal_setup` and `prepare_keys` for a degree of at least `n - 1`, a key made by
the indexer for a supported and provable circuit of `n` rows, and a witness satisfying its gates, copies and lookups: the
prover reaches the evaluation challenge unless the challenges make a denominator vanish, returns a proof unless the evaluation
challenge is zero, and this proof is accepted unless `x3` meets an opening point. -/
theorem C59_end_to_end {W I K : Type} [ConcreteOracle W] [ConcreteOracle I] [ConcreteOracle K]
    (e : G →ₗ[F] G2 →ₗ[F] GT) (env : KzgEnv F G) {maxDegree : Nat} {beta : F} {g gammaG : G} {h : G2} {srs : KzgSrs G G2}
    {ck : KzgKey G} {pcvk : KzgVk G G2} (hsrs : universalSetup maxDegree beta g gammaG h = .ok srs)
    (hkeys : prepareKeys srs = .ok (ck, pcvk))
    {d : Domain F} (hd : d.Ok) (h1 : 1 < d.size) (hn : d.size ≤ maxDegree + 1) {vos : List (GenericVO F)}
    -- the key
    {copyFlag : W → Bool} {lookups : List (GenericLookupVO F)} {ows : List W} {ois : List I} {ofs : List K}
    {zh : List F} {info : PermutationInfo F} {usableRows : Nat} {key : VerifierKey (kzgScheme e env)}
    (hkey : indexer copyFlag (S := kzgScheme e env) pcvk vos lookups ows ois ofs d zh info usableRows = .ok key)
    (htrim : zh = trim zh) (hdvd : toPoly zh ∣ X ^ d.size - 1)
    (hproper : toPoly zh = X ^ d.size - 1 ∨ (toPoly zh).natDegree < d.size)
    (hquotient : key.index.quotientDegree ≠ key.index.ext.size)
    -- the circuit, the witness and the verifier's oracles
    {ws is fixed table sigmas : List (ProverOracle F)} {qBlind : ProverOracle F}
    (hcopies : (∃ o ∈ ws, o.shouldPermute = true) → d.size < key.index.perm.maxCols + 2 + (toPoly zh).natDegree)
    (hs : Supported d key.index ⟨ws, is, fixed, table⟩ sigmas qBlind vos)
    (hp : Provable d key.index ⟨ws, is, fixed, table⟩ sigmas qBlind vos)
    {tau : Equiv.Perm (Fin (ws.filter (·.shouldPermute)).length × Fin key.index.perm.usableRows)}
    (henc : MadeFrom d key.index.perm.deltas sigmas tau)
    {vws : List (VerifierOracle F G)} {vis : List (InstanceVerifierOracle F)} {vpre : VerifierPreprocessed (kzgScheme e env)}
    (hsu : SetUp (kzgScheme e env) (fun (p : F[X]) (r : {r : List F // r.length ≤ 3}) => (kzgCom ck p (toPoly r.1) : G))
      ⟨ws, is, fixed, table⟩ sigmas qBlind vws vis vpre)
    -- the witness satisfies the circuit
    (hg : GatesHold d ⟨ws, is, fixed, table⟩ vos (toPoly zh))
    (hcop : CopiesHold ⟨ws, is, fixed, table⟩ tau)
    (hl : LookupsHold d.size key.index.usableRows ⟨ws, is, fixed, table⟩ key.index.lookups) (z : env.Z) :
    ∃ theta beta gamma, FirstMessages (kzgScheme e env) ⟨key, ck⟩ ⟨ws, is, fixed, table⟩ d z theta beta gamma ∧
      (GoodDraw d key.index ⟨ws, is, fixed, table⟩ sigmas theta beta gamma →
        ∃ tr, proveRounds (kzgScheme e env) ⟨key, ck⟩ (.new _ fixed sigmas table qBlind key.index) ws is vos d.size z = .ok tr ∧
          tr.chal.theta = theta ∧ tr.chal.beta = beta ∧ tr.chal.gamma = gamma ∧
          (tr.chal.xi ≠ 0 →
            ∃ proof, prove (kzgScheme e env) ⟨key, ck⟩ (.new _ fixed sigmas table qBlind key.index) ws is vos d.size z = .ok proof ∧
              (verifierChallenges _ proof).1 = tr.chal ∧
              ((∀ k : ℤ, (mpChallenges _ proof.multiopen (verifierChallenges _ proof).2).2.2.1 ≠ tr.chal.xi * d.omega ^ k) →
                verify (kzgScheme e env) key vpre proof vws vis vos d.size zh = .ok ()))) := by
  have hf := fromSetup_of_keys hsrs hkeys
  have hvk : key.vk = pcvk := indexer_vk hkey
  have h3 : 3 ≤ ck.gammaPowers.length := by rw [hf.gammaPowers]; exact le_rfl
  have hkey' := hkey
  subst hvk
  exact C52_honest_prover_succeeds (pk := ⟨key, ck⟩) (C44_homomorphic e env hf.kzgSetup h3) hd h1
    (C52_kzg_supports e env (by omega) (by rw [hf.powers]; simpa using hn) h3) hkey htrim hdvd hproper hquotient hcopies hs hp henc
    hsu hg hcop hl z

/-- **C59** (size of the setup) If a witness column has a degree above that of the setup, `prove` returns the error of the
commitment scheme, whatever the circuit is. -/
theorem C59_setup_too_small (e : G →ₗ[F] G2 →ₗ[F] GT) (env : KzgEnv F G) {maxDegree : Nat} {beta : F} {g gammaG : G} {h : G2}
    {srs : KzgSrs G G2} {ck : KzgKey G} {pcvk : KzgVk G G2} (hsrs : universalSetup maxDegree beta g gammaG h = .ok srs)
    (hkeys : prepareKeys srs = .ok (ck, pcvk)) (key : VerifierKey (kzgScheme e env))
    (pre : ProverPreprocessed (kzgScheme e env)) (ws is : List (ProverOracle F)) (vos : List (GenericVO F)) (domainSize : Nat)
    (z : env.Z) (hbig : ∃ o ∈ ws, maxDegree < (toPoly o.poly).natDegree) :
    prove (kzgScheme e env) ⟨key, ck⟩ pre ws is vos domainSize z = .err (.pc KzgErr.tooManyCoefficients) := by
  have hf := fromSetup_of_keys hsrs hkeys
  have hlen : ck.powers.length = maxDegree + 1 := by rw [hf.powers]; simp
  have h3 : ck.gammaPowers.length = 3 := by rw [hf.gammaPowers]; rfl
  have hc : ∀ (ps : List (LPoly F)) (z : env.Z), (∃ p ∈ ps, maxDegree < (toPoly p.poly).natDegree) →
      kzgCommit env.next ck ps z = .err .tooManyCoefficients := by
    intro ps
    induction ps with
    | nil => rintro z ⟨p, hp, -⟩; cases hp
    | cons p ps ih =>
      intro z hb
      unfold kzgCommit
      simp only []
      by_cases hp : maxDegree < (toPoly p.poly).natDegree
      · have : kzgCommitWith ck p.poly (if p.hide then kzgBlinding env.next z else ([], z)).1 = .err .tooManyCoefficients := by
          unfold kzgCommitWith
          rw [if_pos (by rw [pdegree_eq, hlen]; omega)]
        rw [this]; rfl
      · have hlt := (trim_length_le _).trans (kzgBlinding_length env.next z p.hide)
        have : ∃ c, kzgCommitWith ck p.poly (if p.hide then kzgBlinding env.next z else ([], z)).1 = .ok c := by
          unfold kzgCommitWith
          rw [if_neg (by rw [pdegree_eq, hlen]; omega), if_neg (by omega)]
          exact ⟨_, rfl⟩
        obtain ⟨c, hc⟩ := this
        rw [hc]
        obtain ⟨q, hq, hq2⟩ := hb
        have hq' : q ∈ ps := by
          rcases List.mem_cons.1 hq with rfl | hq
          · exact absurd hq2 hp
          · exact hq
        simp only [Res.bind_ok]
        rw [ih _ ⟨q, hq', hq2⟩]; rfl
  have hcommit : (kzgScheme e env).commit ck ((ws.map (·.computeExtended key.index.ext)).map (·.toLabeled)) z
      = .err KzgErr.tooManyCoefficients := by
    obtain ⟨o, ho, ho2⟩ := hbig
    have := hc ((ws.map (·.computeExtended key.index.ext)).map (·.toLabeled)) z
      ⟨_, List.mem_map_of_mem (List.mem_map_of_mem ho), ho2⟩
    show (kzgCommit env.next ck _ z >>= _) = _
    rw [this]; rfl
  unfold prove proveRounds
  simp only []
  rw [hcommit]
  rfl

end
end ZK
