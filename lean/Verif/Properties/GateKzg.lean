import Verif.Properties.GateSound
import Verif.Properties.KzgError
/-! Soundness of the crate's tests of single gates with KZG commitments (C96). -/
set_option autoImplicit false
set_option linter.unusedSectionVars false
open Polynomial
namespace ZK

section
variable {F : Type} [Field F] [LinearOrder F] [FftParams F] [LawfulFft F] {d : Domain F} {t : TestColumns F}
  {gate : VExpr F × List VirtualQuery} {m : Nat}

/-- The verifier of a test of a single gate runs `verify` on what `configure` and the indexer return. -/
theorem runVerifier_eq {S : Scheme F} {ck : S.CK} {vk : S.VK} {com : F[X] → S.Rand → S.Comm}
    (hplain : ∀ p cs, S.commitPlain ck p = .ok cs → cs = [com (toPoly p.poly) S.emptyRand]) (hn : SupportsDegree S ck d.size)
    {vo : GenericVO F} {s : Oracles (VerifierOracle F S.Comm) (InstanceVerifierOracle F) (VerifierOracle F S.Comm)} {key : VerifierKey S}
    (hc : (GenericVO.init gate).configure (t.verifier S com d) = .ok (vo, s))
    (hkey : indexer (fun o => o.shouldPermute) vk [vo] [] s.witness s.inst s.fixed d d.vanishing PermutationInfo.empty 0 (S := S) = .ok key)
    (proof : TPProof S) :
    runVerifier S ck vk d t gate proof = verify S key (.newWoBlind S s.fixed [] []) proof s.witness s.inst [vo] d.size d.vanishing := by
  have h1 := test_fixed (com := com) hn hplain t.fixed
  have h2 : ((GenericVO.init gate).configure (t.verifier S com d)).orPanic = (.ok (vo, s) : Res (Err S.E) _) := by rw [hc]; rfl
  have h3 := congrArg (Res.orPanic (ε' := Err S.E)) hkey
  unfold runVerifier
  rw [h1]
  show Res.bind ((GenericVO.init gate).configure (t.verifier S com d)).orPanic _ = _
  rw [h2]
  show Res.bind (indexer (fun o => o.shouldPermute) vk [vo] [] s.witness s.inst s.fixed d d.vanishing PermutationInfo.empty 0 (S := S)).orPanic _ = _
  rw [h3]
  rfl

theorem TestColumns.fresh (S : Scheme F) (com : F[X] → S.Rand → S.Comm) (d : Domain F) (t : TestColumns F) :
    FreshVerifier S com (t.prover d) [] (t.verifier S com d) [] := by
  refine ⟨?_, ?_, ?_, .nil⟩
  · exact List.forall₂_map_left_iff.2 (List.forall₂_map_right_iff.2 (List.forall₂_same.2 fun c _ => ⟨rfl, rfl, rfl⟩))
  · exact List.forall₂_map_left_iff.2 (List.forall₂_map_right_iff.2 (List.forall₂_same.2 fun c _ => ⟨rfl, rfl, rfl⟩))
  · exact List.forall₂_map_left_iff.2 (List.forall₂_map_right_iff.2 (List.forall₂_same.2 fun c _ => ⟨⟨rfl, rfl, rfl⟩, rfl⟩))

/-- If the verifier of a test of a single gate rejects the representations, then it accepts the group elements only for keys with a certain
equation. -/
theorem gate_rejected_key (hd : d.Ok) (ht : t.Wellformed d.size)
    (hfits : GateFits d.size (FftParams.adicity F) m (fun ty => (t.ofType ty).length) gate) {x : Fin 9 → F} {proof : TPProof (algScheme F)}
    (hw : proof.Within d.size (d.size + 1)) (hlen : t.witness.length ≤ proof.witnessCommitments.length)
    (hrej : runVerifier ((algScheme F).answering (List.ofFn x)) () () d t gate (proof.answering _) ≠ .ok ()) :
    ∃ P Q : F[X], (P ≠ 0 ∨ Q ≠ 0) ∧ P.degree ≤ d.size ∧ Q.degree ≤ (d.size + 1 : Nat) ∧
    ∀ (G G2 GT : Type) [AddCommGroup G] [Module F G] [AddCommGroup G2] [Module F G2] [AddCommGroup GT] [Module F GT] [DecidableEq GT]
      (e : G →ₗ[F] G2 →ₗ[F] GT) (env : KzgEnv F G) (secret : F) (g gammaG : G) (h : G2) (srs : KzgSrs G G2) (ck : KzgKey G) (vk : KzgVk G G2),
    (∀ x, e x h = 0 → x = 0) → universalSetup (d.size - 1) secret g gammaG h = .ok srs → prepareKeys srs = .ok (ck, vk) →
    runVerifier ((kzgScheme e env).answering (List.ofFn x)) ck vk d t gate ((proof.elements e env srs.key).answering _) = .ok () →
    P.eval secret • g + Q.eval secret • gammaG = 0 := by
  have hpos := hd.size_pos
  obtain ⟨hgood, hrange, hdeg⟩ := hfits.goodCircuit hd ht
  obtain ⟨-, c', key, -, hc', -, -, hkey, -⟩ := C76_both_sides (S := algScheme F) () hd hgood hrange hdeg (t.fresh (algScheme F) (algCom F) d)
  have hC := configureAll_ok hc'
  have hconf := hc'
  obtain ⟨vo, s, g1, rfl⟩ := configureAll_single hc'
  have hcom : ∀ o ∈ s.fixed, ∀ c : F[X] × F[X], o.commitment = some c →
      c.1.degree < (d.size : WithBot ℕ) ∧ c.2.degree < ((d.size + 1 : Nat) : WithBot ℕ) := by
    intro o ho c hc
    obtain ⟨o', ho', he⟩ := mem_forall₂ hC.oracles.2.2.erased ho
    obtain ⟨col, -, rfl⟩ := List.mem_map.1 ho'
    have he := congrArg VerifierOracle.commitment he
    have he : o.commitment = some (toPoly (trim (d.ifft col.2)), 0) := he
    obtain rfl := Option.some.inj (hc.symm.trans he)
    refine ⟨?_, by rw [degree_zero]; exact WithBot.bot_lt_coe _⟩
    rw [toPoly_trim]
    have := degree_toPoly_lt (d.ifft col.2)
    rwa [Domain.ifft_length] at this
  have hrun := runVerifier_eq (S := (algScheme F).answering (List.ofFn x)) (ck := ()) (com := algCom F) (d := d) (t := t)
    (fun p cs h => (Res.ok.inj h).symm) ⟨fun ps z _ => ⟨_, rfl⟩, fun p _ => ⟨_, rfl⟩, fun p cs x r _ _ => ⟨_, rfl⟩⟩ g1
    (indexer_answering hkey _) (proof.answering _)
  have hver := verify_answering key (.newWoBlind (algScheme F) s.fixed [] []) proof s.witness s.inst [vo] d.size d.vanishing x
  obtain ⟨P, Q, h0, hP, hQ, hkeys⟩ := rejected_key (index := key.index) (D := d.size) (R := d.size + 1) key.zhInverses
    (pre := .newWoBlind (algScheme F) s.fixed [] []) (ws := s.witness) (is := s.inst)
    (vos := [vo]) (vanishing := d.vanishing) (ch := ⟨x 0, x 1, x 2, x 3, x 4⟩) (x1 := x 5) (x2 := x 6) (x3 := x 7) (x4 := x 8)
    (by
      intro o ho
      rw [List.mem_append, List.mem_append, List.mem_append] at ho
      rcases ho with ((ho | ho) | ho) | ho
      · exact hcom o ho
      · cases ho
      · cases ho
      · obtain rfl := List.mem_singleton.1 ho
        intro c hc
        obtain rfl : ((0, 0) : F[X] × F[X]) = c := Option.some.inj hc
        exact ⟨by rw [degree_zero]; exact WithBot.bot_lt_coe _, by rw [degree_zero]; exact WithBot.bot_lt_coe _⟩)
    hw (by
      have : s.witness.length = t.witness.length := hC.oracles.1.erased.length_eq.symm.trans (List.length_map ..)
      exact this.trans_le hlen) hd.new_self (fun h => hrej (hrun.trans (hver.trans h)))
  refine ⟨P, Q, h0, hP, hQ, ?_⟩
  intro G G2 GT _ _ _ _ _ _ _ e env secret g gammaG h srs ck vk hh hsrs hck hacc
  have hf := fromSetup_of_keys hsrs hck
  have h3 : 3 ≤ ck.gammaPowers.length := by rw [hf.gammaPowers]; exact le_rfl
  obtain ⟨hpow, hset, hl1, hl2⟩ := srs_key hsrs hck
  have hck' := configureAll_elements srs.key (s := t.verifier (algScheme F) (algCom F) d) (ts := [])
    (by intro o ho; obtain ⟨c, -, rfl⟩ := List.mem_map.1 ho; rfl)
    (by intro o ho; obtain ⟨c, -, rfl⟩ := List.mem_map.1 ho; rfl)
    (by intro o ho; obtain ⟨c, -, rfl⟩ := List.mem_map.1 ho; rfl)
    (by intro o ho; cases ho) hconf
  let comk : F[X] → (kzgScheme e env).Rand → (kzgScheme e env).Comm := fun p (r : {r : List F // r.length ≤ 3}) => (kzgCom ck p (toPoly r.1) : G)
  have hmap : ∀ cols : List (Label × List F), ((cols.map (CircuitTest.handle (algScheme F) (algCom F) d)).map (VerifierOracle.elements srs.key) :
      List (VerifierOracle F G)) = cols.map (CircuitTest.handle (kzgScheme e env) comk d) := by
    intro cols
    refine (List.map_map ..).trans ?_
    exact List.map_congr_left fun c _ => (handle_elements e env hpow d c).symm
  obtain ⟨s', hs'⟩ : ∃ s' : Oracles (VerifierOracle F G) (InstanceVerifierOracle F) (VerifierOracle F G),
      s' = ⟨s.witness.map (VerifierOracle.elements srs.key), s.inst, s.fixed.map (VerifierOracle.elements srs.key)⟩ := ⟨_, rfl⟩
  have hck'' : configureAll [.gate gate.1 gate.2] (t.verifier (kzgScheme e env) comk d) ([] : List (VerifierOracle F G)) =
      .ok ⟨[vo], [], s', []⟩ := by
    rw [hs']
    refine Eq.trans ?_ hck'
    have e1 : t.verifier (kzgScheme e env) comk d = (⟨(t.verifier (algScheme F) (algCom F) d).witness.map (VerifierOracle.elements srs.key),
        (t.verifier (algScheme F) (algCom F) d).inst, (t.verifier (algScheme F) (algCom F) d).fixed.map (VerifierOracle.elements srs.key)⟩ :
        Oracles (VerifierOracle F G) (InstanceVerifierOracle F) (VerifierOracle F G)) := by
      have e2 : ((t.verifier (algScheme F) (algCom F) d).witness.map (VerifierOracle.elements srs.key) : List (VerifierOracle F G)) =
          t.witness.map (fun c => VerifierOracle.newWitness c.1 false) := List.map_map ..
      rw [e2]
      exact congrArg (fun w => (⟨_, _, w⟩ : Oracles (VerifierOracle F G) (InstanceVerifierOracle F) (VerifierOracle F G))) (hmap _).symm
    exact congrArg (fun s => configureAll [.gate gate.1 gate.2] s ([] : List (VerifierOracle F G))) e1
  obtain ⟨vo2, s2, g2, heq⟩ := configureAll_single hck''
  obtain ⟨-, ck2, key2, -, hc2, -, -, hkey2, hvk2, -⟩ := C76_both_sides (S := kzgScheme e env) vk hd hgood hrange hdeg
    (t.fresh (kzgScheme e env) comk d)
  obtain rfl := Res.ok.inj (hc2.symm.trans hck'')
  obtain ⟨hvo, -, hs2, -⟩ := Configured.mk.inj heq
  obtain rfl := (List.cons.inj hvo).1
  obtain rfl := hs2
  subst hs'
  have hindex : key2.index = key.index := by
    refine indexer_index hd hkey hkey2 ?_
    exact copied_elements srs.key s.witness
  have hrun2 := runVerifier_eq (S := (kzgScheme e env).answering (List.ofFn x)) (ck := ck) (com := comk) (d := d) (t := t)
    (by
      intro p cs hcs
      obtain ⟨c, hc, hcs⟩ := Res.bind_eq_ok.1 hcs
      obtain ⟨-, -, rfl⟩ := (kzgCommitWith_iff ..).1 hc
      exact (Res.ok.inj hcs).symm)
    (by
      have hn := C52_kzg_supports e env (key := ck) (n := d.size) hpos (by rw [hf.powers]; simp; omega) h3
      exact ⟨hn.commit, hn.commitPlain, hn.open_⟩) g2 (indexer_answering hkey2 _) ((proof.elements e env srs.key).answering _)
  have hver2 := verify_answering key2 (.newWoBlind (kzgScheme e env) (s.fixed.map (VerifierOracle.elements srs.key) : List (VerifierOracle F G)) [] [])
    (proof.elements e env srs.key)
    (s.witness.map (VerifierOracle.elements srs.key) : List (VerifierOracle F G)) s.inst [vo] d.size d.vanishing x
  have hacc2 := hver2.symm.trans (hrun2.symm.trans hacc)
  have hfin := hkeys G G2 GT e env secret srs.key vk key2.zhInverses hset (by rw [hl1]; omega) (by rw [hl2]; omega)
    (by rw [hf.vk_eq]; exact hh) (by
      have hk2 : key2 = ⟨vk, key.index, key2.zhInverses⟩ := by
        rw [← hvk2, ← hindex]
      rw [hk2] at hacc2
      refine Eq.trans ?_ hacc2
      have e2 : (VerifierOracle.elements srs.key (VerifierOracle.newFixed (bytes "q_blind") (some ((0, 0) : F[X] × F[X]))) : VerifierOracle F G) =
          VerifierOracle.newFixed (bytes "q_blind") (some (0 : G)) := by
        have h0 : element srs.key ((0, 0) : F[X] × F[X]) = (0 : G) := kzgCom_zero srs.key
        unfold VerifierOracle.newFixed VerifierOracle.elements
        exact congrArg (fun x => (⟨_, _, _, _, some x, _⟩ : VerifierOracle F G)) h0
      exact congrArg (fun (b : VerifierOracle F G) => verifyAt (kzgScheme e env) ⟨vk, key.index, key2.zhInverses⟩
        ⟨(s.fixed.map (VerifierOracle.elements srs.key) : List (VerifierOracle F G)), [], [], b⟩ (proof.elements e env srs.key)
        (s.witness.map (VerifierOracle.elements srs.key) : List (VerifierOracle F G)) s.inst [vo] d.size d.vanishing
        ⟨x 0, x 1, x 2, x 3, x 4⟩ (x 5) (x 6) (x 7) (x 8)) e2)
  rw [hf.vk_eq] at hfin
  exact hfin

variable {G : Type} [AddCommGroup G] [Module F G]
variable {G2 GT : Type} [AddCommGroup G2] [Module F G2] [AddCommGroup GT] [Module F GT] [DecidableEq GT]

open Classical in
/-- **C96** Soundness of a test of a single gate with KZG commitments. If the gate is not zero on some row of the test's columns, then a prover
that combines the published powers and commits to the witness columns makes the test's verifier accept only for few challenges and keys. Keys
and provers are as in C84. -/
theorem C96_gate (e : G →ₗ[F] G2 →ₗ[F] GT) (env : KzgEnv F G) {g : G} {h : G2} (hg : g ≠ 0) (hh : ∀ x, e x h = 0 → x = 0)
    (hd : d.Ok) (ht : t.Wellformed d.size)
    (hfits : GateFits d.size (FftParams.adicity F) m (fun ty => (t.ofType ty).length) gate)
    {i : Nat} (hi : i < d.size) (hfalse : gate.1.denote id (t.cell d.size i) ≠ 0) :
    ∃ vo s key, (GenericVO.init gate).configure (t.verifier (algScheme F) (algCom F) d) = .ok (vo, s) ∧
      indexer (fun o => o.shouldPermute) () [vo] [] s.witness s.inst s.fixed d d.vanishing PermutationInfo.empty 0 (S := algScheme F) = .ok key ∧
      ∀ (Q : Nat) (P : Strategy (algScheme F)), P.Legal (algCom F) d.size Q key (.newWoBlind (algScheme F) s.fixed [] []) s.witness s.inst d.size
          (t.witness.map (fun c => toPoly (d.ifft c.2))) →
        (∀ x, (P.proof (algCom F) x).Within d.size (d.size + 1)) →
        ∀ T : Finset F, (((Fintype.piFinset fun _ : Fin 9 => T) ×ˢ (T ×ˢ T)).filter (fun y =>
          ∃ srs ck vk, universalSetup (d.size - 1) y.2.1 g (y.2.2 • g) h = .ok srs ∧ prepareKeys srs = .ok (ck, vk) ∧
            runVerifier ((kzgScheme e env).answering (List.ofFn y.1)) ck vk d t gate
              (((P.proof (algCom F) y.1).elements e env srs.key).answering _) = .ok ())).card
        ≤ (soundnessError 0 0 0 1 0 0 Q (gateDegreeBound d.size m) d.size d.size d.size (t.witness.length + Q + (t.fixed.length + 1))
            (rotationSets (s.witness ++ s.fixed ++ [VerifierOracle.newFixed (bytes "q_blind") (some (algScheme F).zero)]) 0).card
            (∑ r ∈ rotationSets (s.witness ++ s.fixed ++ [VerifierOracle.newFixed (bytes "q_blind") (some (algScheme F).zero)]) 0, r.length)
          + (d.size + 2)) * T.card ^ 10 := by
  obtain ⟨vo, s, key, h1, h2, hmain⟩ := C95_gate (S := algScheme F) (ck := ()) (vk := ()) (com := algCom F) alg_homomorphic
    (fun p cs h => (Res.ok.inj h).symm) alg_binding (fun p q r s h => (Prod.mk.inj h).1) hd
    ⟨fun ps z _ => ⟨_, rfl⟩, fun p _ => ⟨_, rfl⟩, fun p cs x r _ _ => ⟨_, rfl⟩⟩ ht hfits hi hfalse
  refine ⟨vo, s, key, h1, h2, fun Q P hP hw T => ?_⟩
  refine card_pairs T (fun x => runVerifier ((algScheme F).answering (List.ofFn x)) () () d t gate ((P.proof (algCom F) x).answering _) = .ok ())
    _ (by convert hmain Q P hP T) fun x hx => ?_
  have hlen : t.witness.length ≤ (P.proof (algCom F) x).witnessCommitments.length := by
    have := (hP.made (x 0) (x 1) (x 2) (x 3) (x 4)).witness
    have := this.length_eq
    rw [List.length_map] at this
    exact this.le
  obtain ⟨p, q, h0, hp, hq, hkeys⟩ := gate_rejected_key hd ht hfits (hw x) hlen hx
  refine ⟨_, ?_, fun y ⟨srs, ck, vk, hsrs, hck, hacc⟩ => hkeys G G2 GT e env y.1 g (y.2 • g) h srs ck vk hh hsrs hck hacc⟩
  have hfew := C56_few_secrets (D := d.size) (R := d.size + 1) h0 hp hq hg
  rwa [show max d.size (d.size + 1 + 1) = d.size + 2 by omega] at hfew

open Classical in
/-- **C96** Soundness of `test_simple_mul` with KZG commitments, for any number of rows. If in some row the public column is not the product of the
two others, then a prover with a quotient of at most `Q` parts makes the verifier of the test accept for at most the fraction
`(2 n + Q + 16 + max (4 (n - 1)) (n (Q - 1) + 2 n - 1)) / |T|` of the challenges and keys from a set `T`. For the sixteen rows of the test
and one part it is `109 / |T|`. -/
theorem C96_mul (e : G →ₗ[F] G2 →ₗ[F] GT) (env : KzgEnv F G) {g : G} {h : G2} (hg : g ≠ 0) (hh : ∀ x, e x h = 0 → x = 0)
    (hd : d.Ok) (h8 : 8 ≤ d.size) (h4 : 4 * d.size ≤ 2 ^ FftParams.adicity F)
    {la lb lc : Label} (hl : la ≠ lb) {a b c : List F} (ha : a.length = d.size) (hb : b.length = d.size) (hc : c.length = d.size)
    {i : Nat} (hi : i < d.size) (hfalse : a.getD i 0 * b.getD i 0 ≠ c.getD i 0) :
    ∃ vo s key, (GenericVO.init Gates.mul).configure
        (TestColumns.verifier (algScheme F) (algCom F) d ⟨[(la, a), (lb, b)], [(lc, c)], []⟩) = .ok (vo, s) ∧
      indexer (fun o => o.shouldPermute) () [vo] [] s.witness s.inst s.fixed d d.vanishing PermutationInfo.empty 0 (S := algScheme F) = .ok key ∧
      ∀ (Q : Nat) (P : Strategy (algScheme F)), P.Legal (algCom F) d.size Q key (.newWoBlind (algScheme F) s.fixed [] []) s.witness s.inst d.size
          ([a, b].map (fun c => toPoly (d.ifft c))) →
        (∀ x, (P.proof (algCom F) x).Within d.size (d.size + 1)) →
        ∀ T : Finset F, (((Fintype.piFinset fun _ : Fin 9 => T) ×ˢ (T ×ˢ T)).filter (fun y =>
          ∃ srs ck vk, universalSetup (d.size - 1) y.2.1 g (y.2.2 • g) h = .ok srs ∧ prepareKeys srs = .ok (ck, vk) ∧
            runVerifier ((kzgScheme e env).answering (List.ofFn y.1)) ck vk d ⟨[(la, a), (lb, b)], [(lc, c)], []⟩ Gates.mul
              (((P.proof (algCom F) y.1).elements e env srs.key).answering _) = .ok ())).card
        ≤ (2 * d.size + Q + 16 + max (4 * (d.size - 1)) (d.size * (Q - 1) + 2 * d.size - 1)) * T.card ^ 10 := by
  obtain ⟨ht, hfits⟩ := mul_fits (F := F) (lc := lc) h8 h4 hl ha hb hc
  obtain ⟨vo, s, key, h1, h2, hmain⟩ := C95_mul (S := algScheme F) (ck := ()) (vk := ()) (com := algCom F) (la := la) (lb := lb) (lc := lc)
    (a := a) (b := b) (c := c) alg_homomorphic
    (fun p cs h => (Res.ok.inj h).symm) alg_binding (fun p q r s h => (Prod.mk.inj h).1) hd
    ⟨fun ps z _ => ⟨_, rfl⟩, fun p _ => ⟨_, rfl⟩, fun p cs x r _ _ => ⟨_, rfl⟩⟩ h8 h4 hl ha hb hc hi hfalse
  refine ⟨vo, s, key, h1, h2, fun Q P hP hw T => ?_⟩
  rw [show 2 * d.size + Q + 16 + max (4 * (d.size - 1)) (d.size * (Q - 1) + 2 * d.size - 1) =
    d.size + Q + 14 + max (4 * (d.size - 1)) (d.size * (Q - 1) + 2 * d.size - 1) + (d.size + 2) by omega]
  refine card_pairs T (fun x => runVerifier ((algScheme F).answering (List.ofFn x)) () () d ⟨[(la, a), (lb, b)], [(lc, c)], []⟩ Gates.mul
    ((P.proof (algCom F) x).answering _) = .ok ()) _ (by convert hmain Q P hP T) fun x hx => ?_
  have hlen : 2 ≤ (P.proof (algCom F) x).witnessCommitments.length := (hP.made (x 0) (x 1) (x 2) (x 3) (x 4)).witness.length_eq.le
  obtain ⟨p, q, h0, hp, hq, hkeys⟩ := gate_rejected_key hd ht hfits (hw x) hlen hx
  refine ⟨_, ?_, fun y ⟨srs, ck, vk, hsrs, hck, hacc⟩ => hkeys G G2 GT e env y.1 g (y.2 • g) h srs ck vk hh hsrs hck hacc⟩
  have hfew := C56_few_secrets (D := d.size) (R := d.size + 1) h0 hp hq hg
  rwa [show max d.size (d.size + 1 + 1) = d.size + 2 by omega] at hfew

end
end ZK
