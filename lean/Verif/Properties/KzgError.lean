import Verif.Properties.RealSound
import Verif.Properties.SoundnessKzg
import Verif.Properties.Setup
import Verif.Lemmas.KzgHandles
import Verif.Spec.KzgError
/-! The soundness error of a test of a whole circuit with KZG commitments (C84). -/
set_option autoImplicit false
set_option linter.unusedSectionVars false
open Polynomial
namespace ZK

section
variable {F : Type} [Field F] [LinearOrder F] [FftParams F] [LawfulFft F]
variable {d : Domain F} {index : Index F} {vos : List (GenericVO F)} {D R : Nat}

/-- If the verifier rejects the representations, then it accepts the group elements only for keys with a certain equation. -/
theorem rejected_key (zhInv : List F) {pre : VerifierPreprocessed (algScheme F)} {ws : List (VerifierOracle F (F[X] × F[X]))}
    {is : List (InstanceVerifierOracle F)}
    (hpre : ∀ o ∈ (pre.fixed ++ pre.table ++ pre.perm ++ [pre.qBlind] : List (VerifierOracle F (F[X] × F[X]))),
      ∀ c, o.commitment = some c → c.1.degree < D ∧ c.2.degree < R)
    {proof : TPProof (algScheme F)} (hw : proof.Within D R) (hlen : ws.length ≤ proof.witnessCommitments.length)
    (hdom : Domain.new (F := F) d.size = some d) {vanishing : List F} {ch : Challenges F} {x1 x2 x3 x4 : F}
    (hrej : verifyAt (algScheme F) ⟨(), index, zhInv⟩ pre proof ws is vos d.size vanishing ch x1 x2 x3 x4 ≠ .ok ()) :
    ∃ P Q : F[X], (P ≠ 0 ∨ Q ≠ 0) ∧ P.degree ≤ D ∧ Q.degree ≤ R ∧
    ∀ (G G2 GT : Type) [AddCommGroup G] [Module F G] [AddCommGroup G2] [Module F G2] [AddCommGroup GT] [Module F GT] [DecidableEq GT]
      (e : G →ₗ[F] G2 →ₗ[F] GT) (env : KzgEnv F G) (secret : F) (key : KzgKey G) (vk : KzgVk G G2) (zhInv' : List F),
    KzgSetup secret key vk → D ≤ key.powers.length → R ≤ key.gammaPowers.length → (∀ g, e g vk.h = 0 → g = 0) →
    verifyAt (kzgScheme e env) ⟨vk, index, zhInv'⟩ (pre.elements e env key) (proof.elements e env key)
      (ws.map (VerifierOracle.elements key) : List (VerifierOracle F G)) is vos d.size vanishing ch x1 x2 x3 x4 = .ok () →
    P.eval secret • vk.g + Q.eval secret • vk.gammaG = 0 := by
  by_cases hrun : ∃ st c val, verifyRegister (algScheme F) ⟨(), index, zhInv⟩ pre proof ws is d.size ch = .ok st ∧
      quotientCheckValue (algScheme F) ⟨(), index, zhInv⟩ st is vos d.size vanishing ch = .ok 0 ∧
      mpFinal (algScheme F) proof.multiopen.qEvals proof.multiopen.fCommit st.oracles ch.xi d x1 x2 x3 x4 = .ok (c, val) ∧
      c.1.degree < D ∧ c.2.degree < R
  · obtain ⟨st, c, val, hst, hq0, hfin, hc1, hc2⟩ := hrun
    have hop : proof.multiopen.opening.w.degree < D ∧ proof.multiopen.opening.wr.degree < R := by
      refine hw (proof.multiopen.opening.w, proof.multiopen.opening.wr) ?_
      exact List.mem_append.2 (.inr (.tail _ (.head _)))
    have hsub : ∀ (m : Nat) (p w : F[X]) (a : F), p.degree < (m : WithBot ℕ) → w.degree < (m : WithBot ℕ) →
        (p - C a - (X - C x3) * w).degree ≤ (m : WithBot ℕ) := by
      intro m p w a hp hw
      refine (degree_sub_le _ _).trans (max_le ((degree_sub_le _ _).trans (max_le hp.le ?_)) ?_)
      · refine degree_C_le.trans ?_
        exact_mod_cast Nat.zero_le m
      · by_cases hw0 : w = 0
        · rw [hw0, mul_zero, degree_zero]
          exact bot_le
        · rw [degree_mul, degree_X_sub_C, degree_eq_natDegree hw0]
          rw [degree_eq_natDegree hw0] at hw
          have : w.natDegree < m := by exact_mod_cast hw
          exact_mod_cast (by omega : 1 + w.natDegree ≤ m)
    refine ⟨c.1 - C val - (X - C x3) * proof.multiopen.opening.w,
      c.2 - C proof.multiopen.opening.randomV - (X - C x3) * proof.multiopen.opening.wr, ?_, hsub D _ _ _ hc1 hop.1, hsub R _ _ _ hc2 hop.2, ?_⟩
    · by_contra hzero
      push Not at hzero
      apply hrej
      unfold verifyAt
      refine Res.bind_eq_ok.2 ⟨st, hst, Res.bind_eq_ok.2 ⟨0, hq0, ?_⟩⟩
      rw [if_neg (by simp), hdom]
      refine Res.mapErr_eq_ok.2 ?_
      rw [mpVerifyWith_eq]
      refine Res.bind_eq_ok.2 ⟨(c, val), Res.mapErr_eq_ok.2 hfin, Res.bind_eq_ok.2 ⟨true, Res.mapErr_eq_ok.2 ?_, rfl⟩⟩
      exact (alg_check_iff _ _ _ _).2 ⟨sub_eq_zero.1 hzero.1, sub_eq_zero.1 hzero.2⟩
    · intro G G2 GT _ _ _ _ _ _ _ e env secret key vk zhInv' hk hD hR hh hacc
      obtain ⟨st', hst', -, c', val', hfin', -, heq⟩ := accepted_elements e env (vk := ⟨vk, index, zhInv'⟩) (avk := ⟨(), index, zhInv⟩) hk hh hD hR
        rfl hpre hw hlen hdom hacc
      obtain rfl := Res.ok.inj (hst.symm.trans hst')
      obtain ⟨rfl, rfl⟩ := Prod.mk.inj (Res.ok.inj (hfin.symm.trans hfin'))
      exact heq
  · refine ⟨1, 0, .inl one_ne_zero, ?_, by rw [degree_zero]; exact bot_le, ?_⟩
    · rw [degree_one]
      exact_mod_cast Nat.zero_le D
    · intro G G2 GT _ _ _ _ _ _ _ e env secret key vk zhInv' hk hD hR hh hacc
      obtain ⟨st', hst', hq0, c', val', hfin', hdeg, -⟩ := accepted_elements e env (vk := ⟨vk, index, zhInv'⟩) (avk := ⟨(), index, zhInv⟩) hk hh hD
        hR rfl hpre hw hlen hdom hacc
      exact absurd ⟨st', c', val', hst', hq0, hfin', hdeg⟩ hrun

end

section
variable {F : Type} [Field F] [LinearOrder F] [FftParams F] [LawfulFft F]

/-- The indexer makes the same index for every commitment scheme. -/
theorem indexer_index {W I X W' I' X' : Type} [ConcreteOracle W] [ConcreteOracle I] [ConcreteOracle X] [ConcreteOracle W'] [ConcreteOracle I']
    [ConcreteOracle X'] {S S' : Scheme F} {copyFlag : W → Bool} {copyFlag' : W' → Bool} {vk : S.VK} {vk' : S'.VK}
    {vos : List (GenericVO F)} {lookups : List (GenericLookupVO F)} {ws : List W} {is : List I} {fs : List X} {ws' : List W'} {is' : List I'}
    {fs' : List X'} {d : Domain F} (hd : d.Ok) {zh : List F} {info : PermutationInfo F} {usableRows : Nat} {key : VerifierKey S}
    {key' : VerifierKey S'} (h : indexer copyFlag vk vos lookups ws is fs d zh info usableRows (S := S) = .ok key)
    (h' : indexer copyFlag' vk' vos lookups ws' is' fs' d zh info usableRows (S := S') = .ok key')
    (hcount : (ws'.filter copyFlag').length = (ws.filter copyFlag).length) : key'.index = key.index := by
  obtain ⟨-, -, a3, -, a5, -, a7, -, -, a10, a11, a12, a13, -⟩ := indexer_ok hd h
  obtain ⟨-, -, b3, -, b5, -, b7, -, -, b10, b11, b12, b13, -⟩ := indexer_ok hd h'
  have a0 := indexer_cols hd h
  have b0 := indexer_cols hd h'
  have hqd : key'.index.quotientDegree = key.index.quotientDegree := b3.trans a3.symm
  rw [hqd, hcount, ← a0] at b0
  rw [b0, ← a7] at b7
  have hext := b5.eq_of_size a5 b7
  show (⟨key'.index.quotientDegree, key'.index.ext, ⟨key'.index.perm.maxCols, key'.index.perm.usableRows, key'.index.perm.deltas⟩,
    key'.index.lookups, key'.index.usableRows⟩ : Index F) = _
  rw [hqd, hext, b0, b10, b11, b12, b13, ← a10, ← a11, ← a13]
  exact congrArg (fun l => (⟨_, _, _, l, _⟩ : Index F)) a12.symm

variable {G : Type} [AddCommGroup G] [Module F G]
variable {G2 GT : Type} [AddCommGroup G2] [Module F G2] [AddCommGroup GT] [Module F GT] [DecidableEq GT]

theorem srs_key {maxDegree : Nat} {secret : F} {g gammaG : G} {h : G2} {srs : KzgSrs G G2} {ck : KzgKey G} {vk : KzgVk G G2}
    (hsrs : universalSetup maxDegree secret g gammaG h = .ok srs) (hkeys : prepareKeys srs = .ok (ck, vk)) :
    srs.key.powers = ck.powers ∧ KzgSetup secret srs.key vk ∧ srs.key.powers.length = maxDegree + 1 ∧
      srs.key.gammaPowers.length = maxDegree + 2 := by
  have hf := fromSetup_of_keys hsrs hkeys
  have hd := hf.degree
  unfold universalSetup kzgSetup at hsrs
  rw [if_neg (by omega)] at hsrs
  obtain rfl := Res.ok.inj hsrs
  refine ⟨hf.powers.symm, ?_, by simp [KzgSrs.key], by simp [KzgSrs.key]⟩
  rw [hf.vk_eq]
  refine ⟨?_, ?_, rfl⟩
  · intro i hi
    simp [KzgSrs.key]
  · intro i hi
    simp [KzgSrs.key]

variable {d : Domain F} {t : CircuitTest F}

theorem copied_elements (key : KzgKey G) (os : List (VerifierOracle F (F[X] × F[X]))) :
    ((os.map (VerifierOracle.elements key)).filter (fun o : VerifierOracle F G => o.shouldPermute)).length =
      (os.filter (fun o => o.shouldPermute)).length := by
  rw [List.filter_map, List.length_map]
  rfl

/-- If the verifier of a test rejects the representations, then it accepts the group elements only for keys with a certain equation. -/
theorem test_rejected_key (hd : d.Ok) (ht : t.Wellformed d.size) (hfit : t.Fits d.size) {m : Nat}
    (hdeg : GateDegrees d.size (FftParams.adicity F) m t.calls) {x : Fin 9 → F} {proof : TPProof (algScheme F)}
    (hw : proof.Within d.size (d.size + 1)) (hlen : t.columns.witness.length ≤ proof.witnessCommitments.length)
    (hrej : runCircuitVerifier ((algScheme F).answering (List.ofFn x)) () () d t (proof.answering _) ≠ .ok ()) :
    ∃ P Q : F[X], (P ≠ 0 ∨ Q ≠ 0) ∧ P.degree ≤ d.size ∧ Q.degree ≤ (d.size + 1 : Nat) ∧
    ∀ (G G2 GT : Type) [AddCommGroup G] [Module F G] [AddCommGroup G2] [Module F G2] [AddCommGroup GT] [Module F GT] [DecidableEq GT]
      (e : G →ₗ[F] G2 →ₗ[F] GT) (env : KzgEnv F G) (secret : F) (g gammaG : G) (h : G2) (srs : KzgSrs G G2) (ck : KzgKey G) (vk : KzgVk G G2),
    (∀ x, e x h = 0 → x = 0) → universalSetup (d.size - 1) secret g gammaG h = .ok srs → prepareKeys srs = .ok (ck, vk) →
    runCircuitVerifier ((kzgScheme e env).answering (List.ofFn x)) ck vk d t ((proof.elements e env srs.key).answering _) = .ok () →
    P.eval secret • g + Q.eval secret • gammaG = 0 := by
  have hgate : ∃ e qs, Call.gate e qs ∈ t.calls := by
    obtain ⟨e, qs, h, -⟩ := hdeg.reached
    exact ⟨e, qs, h⟩
  have hpos := hd.size_pos
  obtain ⟨hgood, hrange, hv, -⟩ := CircuitTest.circuit (algScheme F) (algCom F) hd ht hfit hgate
  obtain ⟨-, c', key, -, hc', -, -, hkey, -⟩ := C76_both_sides (S := algScheme F) () hd hgood hrange hdeg hv
  have hC := configureAll_ok hc'
  have hdegree : ∀ col : Label × List F, (toPoly (trim (d.ifft col.2))).degree < (d.size : WithBot ℕ) ∧
      (0 : F[X]).degree < ((d.size + 1 : Nat) : WithBot ℕ) := by
    intro col
    refine ⟨?_, by rw [degree_zero]; exact WithBot.bot_lt_coe _⟩
    rw [toPoly_trim]
    have := degree_toPoly_lt (d.ifft col.2)
    rwa [Domain.ifft_length] at this
  have hcom : ∀ {ty : OracleType} {qs : List VirtualQuery} (cols : List (Label × List F)) {os' : List (VerifierOracle F (F[X] × F[X]))},
      Registered ty qs (cols.map (CircuitTest.handle (algScheme F) (algCom F) d) : List (VerifierOracle F (F[X] × F[X]))) os' →
      ∀ o ∈ os', ∀ c, o.commitment = some c → c.1.degree < (d.size : WithBot ℕ) ∧ c.2.degree < ((d.size + 1 : Nat) : WithBot ℕ) := by
    intro ty qs cols os' h o ho c hc
    obtain ⟨o', ho', he⟩ := mem_forall₂ h.erased ho
    obtain ⟨col, -, rfl⟩ := List.mem_map.1 ho'
    have he := congrArg VerifierOracle.commitment he
    have he : o.commitment = some (toPoly (trim (d.ifft col.2)), 0) := he
    obtain rfl := Option.some.inj (hc.symm.trans he)
    exact hdegree col
  have hcurr : ∀ (col : Label × List F) (c : F[X] × F[X]), (CircuitTest.handleCurr (algScheme F) (algCom F) d col).commitment = some c →
      c.1.degree < (d.size : WithBot ℕ) ∧ c.2.degree < ((d.size + 1 : Nat) : WithBot ℕ) := by
    intro col c hc
    have he : (CircuitTest.handleCurr (algScheme F) (algCom F) d col).commitment = some (toPoly (trim (d.ifft col.2)), 0) := rfl
    obtain rfl := Option.some.inj (hc.symm.trans he)
    exact hdegree col
  have hrun := runCircuitVerifier_eq (S := (algScheme F).answering (List.ofFn x)) (ck := ()) (com := algCom F) (d := d) (t := t)
    (fun p cs h => (Res.ok.inj h).symm) ⟨fun ps z _ => ⟨_, rfl⟩, fun p _ => ⟨_, rfl⟩, fun p cs x r _ _ => ⟨_, rfl⟩⟩ hc'
    (indexer_answering hkey _) (proof.answering _)
  have hver := verify_answering key ⟨c'.oracles.fixed, c'.tables, t.sigmas.map (CircuitTest.handleCurr (algScheme F) (algCom F) d),
    CircuitTest.handleCurr (algScheme F) (algCom F) d (bytes "q_blind", t.selector)⟩ proof c'.oracles.witness c'.oracles.inst c'.vos d.size
    d.vanishing x
  obtain ⟨P, Q, h0, hP, hQ, hkeys⟩ := rejected_key (index := key.index) (D := d.size) (R := d.size + 1) key.zhInverses
    (pre := ⟨c'.oracles.fixed, c'.tables, t.sigmas.map (CircuitTest.handleCurr (algScheme F) (algCom F) d),
      CircuitTest.handleCurr (algScheme F) (algCom F) d (bytes "q_blind", t.selector)⟩) (ws := c'.oracles.witness) (is := c'.oracles.inst)
    (vos := c'.vos) (vanishing := d.vanishing) (ch := ⟨x 0, x 1, x 2, x 3, x 4⟩) (x1 := x 5) (x2 := x 6) (x3 := x 7) (x4 := x 8)
    (by
      intro o ho
      rw [List.mem_append, List.mem_append, List.mem_append] at ho
      rcases ho with ((ho | ho) | ho) | ho
      · exact hcom _ hC.oracles.2.2 o ho
      · exact hcom _ hC.tables o ho
      · obtain ⟨col, -, rfl⟩ := List.mem_map.1 ho
        exact hcurr col
      · obtain rfl := List.mem_singleton.1 ho
        exact hcurr _)
    hw (by
      have : c'.oracles.witness.length = t.columns.witness.length := hC.oracles.1.erased.length_eq.symm.trans (List.length_map ..)
      exact this.trans_le hlen) hd.new_self (fun h => hrej (hrun.trans (hver.trans h)))
  refine ⟨P, Q, h0, hP, hQ, ?_⟩
  intro G G2 GT _ _ _ _ _ _ _ e env secret g gammaG h srs ck vk hh hsrs hck hacc
  have hf := fromSetup_of_keys hsrs hck
  have h3 : 3 ≤ ck.gammaPowers.length := by rw [hf.gammaPowers]; exact le_rfl
  obtain ⟨hpow, hset, hl1, hl2⟩ := srs_key hsrs hck
  have hck' := configureAll_elements srs.key (s := t.verifier (algScheme F) (algCom F) d)
    (ts := t.tables.map (CircuitTest.handle (algScheme F) (algCom F) d))
    (by intro o ho; obtain ⟨c, -, rfl⟩ := List.mem_map.1 ho; rfl)
    (by intro o ho; obtain ⟨c, -, rfl⟩ := List.mem_map.1 ho; rfl)
    (by intro o ho; obtain ⟨c, -, rfl⟩ := List.mem_map.1 ho; rfl)
    (by intro o ho; obtain ⟨c, -, rfl⟩ := List.mem_map.1 ho; rfl) hc'
  let comk : F[X] → (kzgScheme e env).Rand → (kzgScheme e env).Comm := fun p (r : {r : List F // r.length ≤ 3}) => (kzgCom ck p (toPoly r.1) : G)
  have hmap : ∀ cols : List (Label × List F), ((cols.map (CircuitTest.handle (algScheme F) (algCom F) d)).map (VerifierOracle.elements srs.key) :
      List (VerifierOracle F G)) = cols.map (CircuitTest.handle (kzgScheme e env) comk d) := by
    intro cols
    refine (List.map_map ..).trans ?_
    exact List.map_congr_left fun c _ => (handle_elements e env hpow d c).symm
  have hmapc : ∀ cols : List (Label × List F), ((cols.map (CircuitTest.handleCurr (algScheme F) (algCom F) d)).map (VerifierOracle.elements srs.key) :
      List (VerifierOracle F G)) = cols.map (CircuitTest.handleCurr (kzgScheme e env) comk d) := by
    intro cols
    refine (List.map_map ..).trans ?_
    exact List.map_congr_left fun c _ => (handleCurr_elements e env hpow d c).symm
  obtain ⟨cfg, hcfg⟩ : ∃ cfg : Configured F (VerifierOracle F G) (InstanceVerifierOracle F) (VerifierOracle F G) (VerifierOracle F G),
      cfg = ⟨c'.vos, c'.lookups, ⟨c'.oracles.witness.map (VerifierOracle.elements srs.key), c'.oracles.inst,
        c'.oracles.fixed.map (VerifierOracle.elements srs.key)⟩, c'.tables.map (VerifierOracle.elements srs.key)⟩ := ⟨_, rfl⟩
  have hck'' : configureAll t.calls (t.verifier (kzgScheme e env) comk d) (t.tables.map (CircuitTest.handle (kzgScheme e env) comk d)) = .ok cfg := by
    rw [hcfg]
    refine Eq.trans ?_ hck'
    have e1 : t.verifier (kzgScheme e env) comk d = (⟨(t.verifier (algScheme F) (algCom F) d).witness.map (VerifierOracle.elements srs.key),
        (t.verifier (algScheme F) (algCom F) d).inst, (t.verifier (algScheme F) (algCom F) d).fixed.map (VerifierOracle.elements srs.key)⟩ :
        Oracles (VerifierOracle F G) (InstanceVerifierOracle F) (VerifierOracle F G)) := by
      have e2 : ((t.verifier (algScheme F) (algCom F) d).witness.map (VerifierOracle.elements srs.key) : List (VerifierOracle F G)) =
          t.columns.witness.map (fun c => VerifierOracle.newWitness c.1 t.copied) := List.map_map ..
      rw [e2]
      exact congrArg (fun w => (⟨_, _, w⟩ : Oracles (VerifierOracle F G) (InstanceVerifierOracle F) (VerifierOracle F G))) (hmap _).symm
    exact congrArg₂ (fun s ts => configureAll t.calls s ts) e1 (hmap _).symm
  obtain ⟨hgood', hrange', hv', -⟩ := CircuitTest.circuit (kzgScheme e env) comk hd ht hfit hgate
  obtain ⟨-, ck2, key2, -, hc2, -, -, hkey2, hvk2, -⟩ := C76_both_sides (S := kzgScheme e env) vk hd hgood' hrange' hdeg hv'
  obtain rfl : ck2 = cfg := Res.ok.inj (hc2.symm.trans hck'')
  subst hcfg
  have hindex : key2.index = key.index := by
    refine indexer_index hd hkey hkey2 ?_
    exact copied_elements srs.key c'.oracles.witness
  have hrun2 := runCircuitVerifier_eq (S := (kzgScheme e env).answering (List.ofFn x)) (ck := ck) (com := comk) (d := d) (t := t)
    (by
      intro p cs hcs
      obtain ⟨c, hc, hcs⟩ := Res.bind_eq_ok.1 hcs
      obtain ⟨-, -, rfl⟩ := (kzgCommitWith_iff ..).1 hc
      exact (Res.ok.inj hcs).symm)
    (by
      have hn := C52_kzg_supports e env (key := ck) (n := d.size) hpos (by rw [hf.powers]; simp; omega) h3
      exact ⟨hn.commit, hn.commitPlain, hn.open_⟩) hck'' (indexer_answering hkey2 _) ((proof.elements e env srs.key).answering _)
  have hver2 := verify_answering key2 ⟨(c'.oracles.fixed.map (VerifierOracle.elements srs.key) : List (VerifierOracle F G)),
    (c'.tables.map (VerifierOracle.elements srs.key) : List (VerifierOracle F G)), t.sigmas.map (CircuitTest.handleCurr (kzgScheme e env) comk d),
    CircuitTest.handleCurr (kzgScheme e env) comk d (bytes "q_blind", t.selector)⟩ (proof.elements e env srs.key)
    (c'.oracles.witness.map (VerifierOracle.elements srs.key) : List (VerifierOracle F G)) c'.oracles.inst c'.vos d.size
    d.vanishing x
  have hacc2 := hver2.symm.trans (hrun2.symm.trans hacc)
  have hfin := hkeys G G2 GT e env secret srs.key vk key2.zhInverses hset (by rw [hl1]; omega) (by rw [hl2]; omega)
    (by rw [hf.vk_eq]; exact hh) (by
      have hk2 : key2 = ⟨vk, key.index, key2.zhInverses⟩ := by
        rw [← hvk2, ← hindex]
      rw [hk2] at hacc2
      refine Eq.trans ?_ hacc2
      have e1 := hmapc t.sigmas
      have e2 := (handleCurr_elements e env hpow d (bytes "q_blind", t.selector)).symm
      exact congrArg₂ (fun (a : List (VerifierOracle F G)) (b : VerifierOracle F G) => verifyAt (kzgScheme e env) ⟨vk, key.index, key2.zhInverses⟩
        ⟨(c'.oracles.fixed.map (VerifierOracle.elements srs.key) : List (VerifierOracle F G)),
          (c'.tables.map (VerifierOracle.elements srs.key) : List (VerifierOracle F G)), a, b⟩ (proof.elements e env srs.key)
        (c'.oracles.witness.map (VerifierOracle.elements srs.key) : List (VerifierOracle F G)) c'.oracles.inst c'.vos d.size d.vanishing
        ⟨x 0, x 1, x 2, x 3, x 4⟩ (x 5) (x 6) (x 7) (x 8)) e1 e2)
  rw [hf.vk_eq] at hfin
  exact hfin

open Classical in
/-- Challenges for which a predicate holds for few keys, counted together with the challenges for which it holds for many. -/
theorem card_pairs {k E : Nat} (T : Finset F) (A : (Fin 9 → F) → Prop) (B : (Fin 9 → F) × F × F → Prop)
    (hA : ((Fintype.piFinset fun _ : Fin 9 => T).filter A).card ≤ E * T.card ^ 8)
    (hB : ∀ x, ¬ A x → ∃ bad : Set (F × F), FewPairs k bad ∧ ∀ p, B (x, p) → p ∈ bad) :
    ((((Fintype.piFinset fun _ : Fin 9 => T) ×ˢ (T ×ˢ T))).filter B).card ≤ (E + k) * T.card ^ 10 := by
  have h1 : ((((Fintype.piFinset fun _ : Fin 9 => T) ×ˢ (T ×ˢ T))).filter B).card =
      ∑ x ∈ Fintype.piFinset fun _ : Fin 9 => T, ((T ×ˢ T).filter (fun p => B (x, p))).card := by
    rw [Finset.card_filter, Finset.sum_product]
    exact Finset.sum_congr rfl fun x _ => (Finset.card_filter _ _).symm
  have h2 : ∀ x, ((T ×ˢ T).filter (fun p => B (x, p))).card ≤ (if A x then T.card ^ 2 else 0) + k * T.card := by
    intro x
    by_cases hx : A x
    · rw [if_pos hx]
      refine (Finset.card_filter_le _ _).trans ?_
      rw [Finset.card_product, sq]
      exact Nat.le_add_right _ _
    · rw [if_neg hx, zero_add]
      obtain ⟨bad, hf, hb⟩ := hB x hx
      refine le_trans (Finset.card_le_card fun p hp => ?_) (hf T)
      rw [Finset.mem_filter] at hp ⊢
      exact ⟨hp.1, hb p hp.2⟩
  rw [h1]
  refine (Finset.sum_le_sum fun x _ => h2 x).trans ?_
  rw [Finset.sum_add_distrib, Finset.sum_const, smul_eq_mul, Fintype.card_piFinset, Finset.prod_const, Finset.card_univ, Fintype.card_fin,
    ← Finset.sum_filter, Finset.sum_const, smul_eq_mul]
  calc _ ≤ E * T.card ^ 8 * T.card ^ 2 + T.card ^ 9 * (k * T.card) := Nat.add_le_add_right (Nat.mul_le_mul_right _ hA) _
    _ = _ := by ring

open Classical in
/-- **C84** Soundness of a test of a whole circuit with KZG commitments. If a gate, a lookup or a copy fails for the values in the witness
columns of a test, then a prover that combines the published powers (all of them, not only those the committer key keeps) and commits to
these columns makes the test's verifier accept only for few challenges and keys. A key is made by `universal_setup` for as many
coefficients as there are rows and by `prepare_keys`. It depends on the secret and on the discrete logarithm of the generator for the blinding, both of
which are drawn from `T` like the nine challenges. The coefficients which the prover uses do not depend on these two. -/
theorem C84_circuit (e : G →ₗ[F] G2 →ₗ[F] GT) (env : KzgEnv F G) {g : G} {h : G2} (hg : g ≠ 0) (hh : ∀ x, e x h = 0 → x = 0)
    (hd : d.Ok) (ht : t.Wellformed d.size) (hfit : t.Fits d.size)
    {m : Nat} (hdeg : GateDegrees d.size (FftParams.adicity F) m t.calls)
    (hlook : (∃ es qs ts, Call.lookup es qs ts ∈ t.calls) → t.info.u = t.rows ∧ ∀ i < d.size, t.selector.getD i 0 = if i ≤ t.info.u then 0 else 1)
    {K : Nat} (hK : ∀ es qs ts, Call.lookup es qs ts ∈ t.calls → es.length ≤ K)
    {tau : Equiv.Perm (Fin t.columns.witness.length × Fin t.info.u)} (henc : t.EncodesCopies d tau) (hfalse : ¬ t.Holds d tau) :
    ∃ c' key, configureAll t.calls (t.verifier (algScheme F) (algCom F) d) (t.tables.map (CircuitTest.handle (algScheme F) (algCom F) d)) = .ok c' ∧
      indexer (fun o => o.shouldPermute) () c'.vos c'.lookups c'.oracles.witness c'.oracles.inst c'.oracles.fixed d d.vanishing t.info t.rows
        (S := algScheme F) = .ok key ∧
      ∀ (Q : Nat) (P : Strategy (algScheme F)), P.Legal (algCom F) d.size Q key
          ⟨c'.oracles.fixed, c'.tables, t.sigmas.map (CircuitTest.handleCurr (algScheme F) (algCom F) d),
            CircuitTest.handleCurr (algScheme F) (algCom F) d (bytes "q_blind", t.selector)⟩ c'.oracles.witness c'.oracles.inst d.size
          (t.columns.witness.map (fun c => toPoly (d.ifft c.2))) →
        (∀ x, (P.proof (algCom F) x).Within d.size (d.size + 1)) →
        ∀ T : Finset F, (((Fintype.piFinset fun _ : Fin 9 => T) ×ˢ (T ×ˢ T)).filter (fun y =>
          ∃ srs ck vk, universalSetup (d.size - 1) y.2.1 g (y.2.2 • g) h = .ok srs ∧ prepareKeys srs = .ok (ck, vk) ∧
            runCircuitVerifier ((kzgScheme e env).answering (List.ofFn y.1)) ck vk d t
              (((P.proof (algCom F) y.1).elements e env srs.key).answering _) = .ok ())).card
        ≤ (soundnessError t.info.u K t.copiedCount (gateCount t.calls) (lookupCount t.calls) (t.products d.size m) Q (t.degreeBound d.size m)
            d.size d.size d.size
            (t.columns.witness.length + 3 * lookupCount t.calls + Q + t.products d.size m +
              (t.columns.fixed.length + t.tables.length + t.sigmas.length + 1))
            (rotationSets (c'.oracles.witness ++ c'.oracles.fixed ++ c'.tables ++ t.sigmas.map (CircuitTest.handleCurr (algScheme F) (algCom F) d) ++
              [CircuitTest.handleCurr (algScheme F) (algCom F) d (bytes "q_blind", t.selector)]) t.info.u).card
            (∑ r ∈ rotationSets (c'.oracles.witness ++ c'.oracles.fixed ++ c'.tables ++
              t.sigmas.map (CircuitTest.handleCurr (algScheme F) (algCom F) d) ++
              [CircuitTest.handleCurr (algScheme F) (algCom F) d (bytes "q_blind", t.selector)]) t.info.u, r.length)
          + (d.size + 2)) * T.card ^ 10 := by
  obtain ⟨c', key, h1, h2, hmain⟩ := C83_circuit (S := algScheme F) (ck := ()) (vk := ()) (com := algCom F) alg_homomorphic
    (fun p cs h => (Res.ok.inj h).symm) alg_binding (fun p q r s h => (Prod.mk.inj h).1) hd
    ⟨fun ps z _ => ⟨_, rfl⟩, fun p _ => ⟨_, rfl⟩, fun p cs x r _ _ => ⟨_, rfl⟩⟩ ht hfit hdeg hlook hK henc hfalse
  refine ⟨c', key, h1, h2, fun Q P hP hw T => ?_⟩
  refine card_pairs T (fun x => runCircuitVerifier ((algScheme F).answering (List.ofFn x)) () () d t ((P.proof (algCom F) x).answering _) = .ok ())
    _ (by convert hmain Q P hP T) fun x hx => ?_
  have hlen : t.columns.witness.length ≤ (P.proof (algCom F) x).witnessCommitments.length := by
    have := (hP.made (x 0) (x 1) (x 2) (x 3) (x 4)).witness
    have := this.length_eq
    rw [List.length_map] at this
    exact this.le
  obtain ⟨p, q, h0, hp, hq, hkeys⟩ := test_rejected_key hd ht hfit hdeg (hw x) hlen hx
  refine ⟨_, ?_, fun y ⟨srs, ck, vk, hsrs, hck, hacc⟩ => hkeys G G2 GT e env y.1 g (y.2 • g) h srs ck vk hh hsrs hck hacc⟩
  have hfew := C56_few_secrets (D := d.size) (R := d.size + 1) h0 hp hq hg
  rwa [show max d.size (d.size + 1 + 1) = d.size + 2 by omega] at hfew

end
section
open Fr381
variable {G : Type} [AddCommGroup G] [Module Fr G]
variable {G2 GT : Type} [AddCommGroup G2] [Module Fr G2] [AddCommGroup GT] [Module Fr GT] [DecidableEq GT]

open Classical in
/-- **C84** Soundness of `copy_plonk` with KZG commitments, over the scalar field of BLS12-381. If the first cell of the witness is not a root
of `x^3 + 2 x + 12`, then a prover that combines the published powers and has a quotient of at most `Q` parts makes the verifier of the
test accept for at most the fraction `(117 + Q + max 60 (16 (Q - 1) + 31)) / |T|` of the challenges and keys from a set `T`. For two parts,
as the honest prover has, it is `179 / |T|`. -/
theorem C84_copy_plonk (e : G →ₗ[Fr] G2 →ₗ[Fr] GT) (env : KzgEnv Fr G) {g : G} {h : G2} (hg : g ≠ 0) (hh : ∀ x, e x h = 0 → x = 0)
    {a b c : List Fr} (ha : a.length = 16) (hb : b.length = 16) (hc : c.length = 16)
    (hx : a.getD 0 0 ^ 3 + 2 * a.getD 0 0 + 12 ≠ 0) :
    ∃ c' key, configureAll (copyPlonkCircuit (Fr381.dom 4) a b c).calls
        ((copyPlonkCircuit (Fr381.dom 4) a b c).verifier (algScheme Fr) (algCom Fr) (Fr381.dom 4)) [] = .ok c' ∧
      indexer (fun o => o.shouldPermute) () c'.vos c'.lookups c'.oracles.witness c'.oracles.inst c'.oracles.fixed (Fr381.dom 4)
        (Fr381.dom 4).vanishing (copyPlonkCircuit (Fr381.dom 4) a b c).info 8 (S := algScheme Fr) = .ok key ∧
      ∀ (Q : Nat) (P : Strategy (algScheme Fr)), P.Legal (algCom Fr) 16 Q key ⟨c'.oracles.fixed, c'.tables,
          (copyPlonkCircuit (Fr381.dom 4) a b c).sigmas.map (CircuitTest.handleCurr (algScheme Fr) (algCom Fr) (Fr381.dom 4)),
          CircuitTest.handleCurr (algScheme Fr) (algCom Fr) (Fr381.dom 4) (bytes "q_blind", (copyPlonkCircuit (Fr381.dom 4) a b c).selector)⟩
          c'.oracles.witness c'.oracles.inst 16 ([a, b, c].map (fun col => toPoly ((Fr381.dom 4).ifft col))) →
        (∀ x, (P.proof (algCom Fr) x).Within 16 17) →
        ∀ T : Finset Fr, (((Fintype.piFinset fun _ : Fin 9 => T) ×ˢ (T ×ˢ T)).filter (fun y =>
          ∃ srs ck vk, universalSetup 15 y.2.1 g (y.2.2 • g) h = .ok srs ∧ prepareKeys srs = .ok (ck, vk) ∧
            runCircuitVerifier ((kzgScheme e env).answering (List.ofFn y.1)) ck vk (Fr381.dom 4) (copyPlonkCircuit (Fr381.dom 4) a b c)
              (((P.proof (algCom Fr) y.1).elements e env srs.key).answering _) = .ok ())).card
        ≤ (117 + Q + max 60 (16 * (Q - 1) + 31)) * T.card ^ 10 := by
  have hd : (Fr381.dom 4).Ok := Fr381.dom_ok (by norm_num)
  have h16 : (Fr381.dom 4).size = 16 := rfl
  have hadic : FftParams.adicity Fr = 32 := rfl
  obtain ⟨c', key, h1, h2, hmain⟩ := C83_copy_plonk (S := algScheme Fr) (ck := ()) (vk := ()) (com := algCom Fr) alg_homomorphic
    (fun p cs h => (Res.ok.inj h).symm) alg_binding (fun p q r s h => (Prod.mk.inj h).1)
    ⟨fun ps z _ => ⟨_, rfl⟩, fun p _ => ⟨_, rfl⟩, fun p cs x r _ _ => ⟨_, rfl⟩⟩ ha hb hc hx
  refine ⟨c', key, h1, h2, fun Q P hP hw T => ?_⟩
  replace hmain := hmain Q P hP T
  have hlen : ∀ x, 3 ≤ (P.proof (algCom Fr) x).witnessCommitments.length := by
    intro x
    exact (hP.made (x 0) (x 1) (x 2) (x 3) (x 4)).witness.length_eq.le
  clear hP h1 h2 key c'
  generalize Fr381.dom 4 = d at *
  have hdeg : GateDegrees d.size (FftParams.adicity Fr) 3 (copyPlonkCircuit d a b c).calls :=
    copyTest_degrees (by rw [h16]; norm_num) (by rw [h16, hadic]; norm_num)
  have ht : (copyPlonkCircuit d a b c).Wellformed d.size := by
    rw [h16]
    refine copyTest_wellformed ?_
    simp [ha, hb, hc]
  have hfit : (copyPlonkCircuit d a b c).Fits d.size := by
    rw [h16]; exact copyPlonkCircuit_fits d a b c
  have hfinal := card_pairs (k := 18) T (fun x => runCircuitVerifier ((algScheme Fr).answering (List.ofFn x)) () () d (copyPlonkCircuit d a b c)
    ((P.proof (algCom Fr) x).answering _) = .ok ())
    (fun y => ∃ srs ck vk, universalSetup 15 y.2.1 g (y.2.2 • g) h = .ok srs ∧ prepareKeys srs = .ok (ck, vk) ∧
            runCircuitVerifier ((kzgScheme e env).answering (List.ofFn y.1)) ck vk d (copyPlonkCircuit d a b c)
              (((P.proof (algCom Fr) y.1).elements e env srs.key).answering _) = .ok ()) (by convert hmain) (by
      intro x hx
      obtain ⟨p, q, h0, hp, hq, hkeys⟩ := test_rejected_key (t := copyPlonkCircuit d a b c) hd ht hfit hdeg (by rw [h16]; exact hw x) (hlen x) hx
      refine ⟨_, C56_few_secrets (D := 16) (R := 17) h0 (by rw [h16] at hp; exact hp) (by rw [h16] at hq; exact hq) hg,
        fun y ⟨srs, ck, vk, hsrs, hck, hacc⟩ => hkeys G G2 GT e env y.1 g (y.2 • g) h srs ck vk hh (by rw [h16]; exact hsrs) hck hacc⟩)
  rw [show 117 + Q + max 60 (16 * (Q - 1) + 31) = 99 + Q + max 60 (16 * (Q - 1) + 31) + 18 by omega]
  convert hfinal

end
end ZK
