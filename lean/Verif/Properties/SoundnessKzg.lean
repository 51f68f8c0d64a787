import Verif.Lemmas.Related
import Verif.Properties.Soundness
import Verif.Spec.Algebraic
/-! C56: soundness of the whole argument with KZG commitments, for provers that know how the group elements they send are made from
the elements of the key. -/
set_option autoImplicit false
set_option linter.unusedSectionVars false
namespace ZK
open Polynomial

section
variable {F : Type} [Field F]

theorem alg_check_iff (c : F[X] × F[X]) (x v : F) (pf : AlgOpening F) : (algScheme F).check () c x v pf = .ok true ↔
    c.1 - C v = (X - C x) * pf.w ∧ c.2 - C pf.randomV = (X - C x) * pf.wr := by
  classical
  constructor
  · intro h
    exact of_decide_eq_true (Res.ok.inj h)
  · intro h
    exact congrArg Res.ok (decide_eq_true h)

theorem sub_eval_eq_mul_div (p : F[X]) (x : F) : p - C (p.eval x) = (X - C x) * (p /ₘ (X - C x)) := by
  have := modByMonic_add_div p (X - C x)
  rw [modByMonic_X_sub_C_eq_C_eval] at this
  rw [sub_eq_iff_eq_add, add_comm]
  exact this.symm

theorem alg_homomorphic : HomomorphicScheme (algScheme F) () () (fun (p r : F[X]) => ((p, r) : F[X] × F[X])) where
  commit := by
    intro ps z cs z' h
    obtain ⟨h1, -⟩ := Prod.mk.inj (Res.ok.inj h)
    rw [← h1]
    refine List.forall₂_map_right_iff.2 (List.forall₂_same.2 fun p _ => rfl)
  zero := rfl
  add := fun _ _ _ _ => rfl
  scale := fun _ _ _ => rfl
  opens := by
    intro p cs x r pf _ h
    have h := Res.ok.inj h
    subst h
    exact (alg_check_iff _ _ _ _).2 ⟨sub_eval_eq_mul_div _ _, sub_eval_eq_mul_div _ _⟩

theorem alg_binding : Binding (algScheme F) () (fun (p r : F[X]) => ((p, r) : F[X] × F[X])) := by
  intro p r x v pf h
  have := congrArg (eval x) ((alg_check_iff _ _ _ _).1 h).1
  simpa [sub_eq_zero] using this

end

section
variable {F : Type} [Field F] [LinearOrder F] {G : Type} [AddCommGroup G] [Module F G]

/-- A representation within the bounds and the group element it represents. -/
def Represents (key : KzgKey G) (D R : Nat) (c : F[X] × F[X]) (g : G) : Prop :=
  g = element key c ∧ c.1.degree < D ∧ c.2.degree < R

variable {G2 GT : Type} [AddCommGroup G2] [Module F G2] [AddCommGroup GT] [Module F GT] [DecidableEq GT]
variable (e : G →ₗ[F] G2 →ₗ[F] GT) (env : KzgEnv F G)

theorem represents_respects (key : KzgKey G) (D R : Nat) :
    Respects (algScheme F) (kzgScheme e env) (Represents key D R : F[X] × F[X] → G → Prop) where
  zero := by
    refine ⟨(kzgCom_zero key).symm, ?_, ?_⟩
    · show (0 : F[X]).degree < (D : WithBot ℕ)
      rw [degree_zero]
      exact WithBot.bot_lt_coe _
    · show (0 : F[X]).degree < (R : WithBot ℕ)
      rw [degree_zero]
      exact WithBot.bot_lt_coe _
  add := by
    rintro ⟨p, r⟩ ⟨q, s⟩ _ _ ⟨rfl, h1, h2⟩ ⟨rfl, h3, h4⟩
    exact ⟨kzgCom_add key p q r s, (degree_add_le _ _).trans_lt (max_lt h1 h3), (degree_add_le _ _).trans_lt (max_lt h2 h4)⟩
  scale := by
    rintro ⟨p, r⟩ _ k ⟨rfl, h1, h2⟩
    refine ⟨kzgCom_smul key p r k, ?_, ?_⟩
    · show (C k * p).degree < D
      rw [← smul_eq_C_mul]
      exact (degree_smul_le _ _).trans_lt h1
    · show (C k * r).degree < R
      rw [← smul_eq_C_mul]
      exact (degree_smul_le _ _).trans_lt h2

theorem represents_map (key : KzgKey G) {D R : Nat} {l : List (F[X] × F[X])} (h : ∀ c ∈ l, c.1.degree < D ∧ c.2.degree < R) :
    List.Forall₂ (Represents key D R) l (l.map (element key)) :=
  List.forall₂_map_right_iff.2 (List.forall₂_same.2 fun c hc => ⟨rfl, h c hc⟩)

theorem elements_sim {C : F[X] × F[X] → G → Prop} (key : KzgKey G) (o : VerifierOracle F (F[X] × F[X]))
    (h : ∀ c, o.commitment = some c → C c (element key c)) : Sim C o (o.elements key) := by
  refine ⟨rfl, rfl, rfl, rfl, rfl, ?_⟩
  unfold VerifierOracle.elements
  cases hc : o.commitment with
  | none => exact .none
  | some c => exact .some (h c hc)

theorem registerCommitments_overwrites {C C' : Type} {K : C → C' → Prop} {l : List (VerifierOracle F C)} {m : List (VerifierOracle F C')}
    (h : Sims (fun _ _ => True) l m) {cs : List C} {cs' : List C'} (hc : List.Forall₂ K cs cs') (hl : l.length ≤ cs.length) :
    Sims K (registerCommitments l cs) (registerCommitments m cs') := by
  induction h generalizing cs cs' with
  | nil => exact .nil
  | cons hab h ih =>
    cases hc with
    | nil => simp at hl
    | cons hk hc => exact .cons ⟨hab.kind, hab.label, hab.rotations, hab.copied, hab.evals, .some hk⟩ (ih hc (by simpa using hl))

/-- The pairing accepts only if the equation of the group elements holds. -/
theorem kzgCheck_element {beta : F} {key : KzgKey G} {vk : KzgVk G G2} (hs : KzgSetup beta key vk)
    (hh : ∀ g, e g vk.h = 0 → g = 0) {D R : Nat} (hD : D ≤ key.powers.length) (hR : R ≤ key.gammaPowers.length)
    {c w : F[X] × F[X]} (hc : c.1.degree < D ∧ c.2.degree < R) (hw : w.1.degree < D ∧ w.2.degree < R) (x v rv : F)
    (h : kzgCheck e vk (element key c) x v ⟨element key w, rv⟩ = true) :
    (c.1 - C v - (X - C x) * w.1).eval beta • vk.g + (c.2 - C rv - (X - C x) * w.2).eval beta • vk.gammaG = 0 := by
  have ev : ∀ c : F[X] × F[X], c.1.degree < D ∧ c.2.degree < R →
      element key c = c.1.eval beta • vk.g + c.2.eval beta • vk.gammaG := fun c hc =>
    kzgCom_eval hs _ _ (hc.1.trans_le (by exact_mod_cast hD)) (hc.2.trans_le (by exact_mod_cast hR))
  have h := of_decide_eq_true h
  simp only [ev c hc, ev w hw, hs.betaH, ← sub_smul] at h
  rw [map_smul, ← LinearMap.smul_apply, ← map_smul, ← sub_eq_zero, ← LinearMap.sub_apply, ← map_sub] at h
  have h := hh _ h
  rw [← h]
  simp only [eval_sub, eval_mul, eval_C, eval_X, sub_smul, mul_smul, smul_add]
  abel

variable [FftParams F]

/-- If the verifier with KZG accepts the group elements then the verifier with the representations runs up to the opening check, and the
equation of this check holds at the secret of the key. -/
theorem accepted_elements {beta : F} {key : KzgKey G} {vk : VerifierKey (kzgScheme e env)} (hsk : KzgSetup beta key (vk.vk : KzgVk G G2))
    (hh : ∀ g, e g (vk.vk : KzgVk G G2).h = 0 → g = 0) {D R : Nat} (hD : D ≤ key.powers.length) (hR : R ≤ key.gammaPowers.length)
    {avk : VerifierKey (algScheme F)} (hix : vk.index = avk.index)
    {pre : VerifierPreprocessed (algScheme F)} {ws : List (VerifierOracle F (F[X] × F[X]))} {is : List (InstanceVerifierOracle F)}
    (hpre : ∀ o ∈ (pre.fixed ++ pre.table ++ pre.perm ++ [pre.qBlind] : List (VerifierOracle F (F[X] × F[X]))),
      ∀ c, o.commitment = some c → c.1.degree < D ∧ c.2.degree < R)
    {proof : TPProof (algScheme F)} (hw : proof.Within D R) (hlen : ws.length ≤ proof.witnessCommitments.length)
    {vos : List (GenericVO F)} {d : Domain F} (hdom : Domain.new (F := F) d.size = some d)
    {vanishing : List F} {ch : Challenges F} {x1 x2 x3 x4 : F}
    (hacc : verifyAt (kzgScheme e env) vk (pre.elements e env key) (proof.elements e env key)
      (ws.map (VerifierOracle.elements key) : List (VerifierOracle F G)) is vos d.size vanishing ch x1 x2 x3 x4 = .ok ()) :
    ∃ st, verifyRegister (algScheme F) avk pre proof ws is d.size ch = .ok st ∧
      quotientCheckValue (algScheme F) avk st is vos d.size vanishing ch = .ok 0 ∧
      ∃ c v, mpFinal (algScheme F) proof.multiopen.qEvals proof.multiopen.fCommit st.oracles ch.xi d x1 x2 x3 x4 = .ok (c, v) ∧
        (c.1.degree < D ∧ c.2.degree < R) ∧
        (c.1 - C v - (X - C x3) * proof.multiopen.opening.w).eval beta • (vk.vk : KzgVk G G2).g +
          (c.2 - C proof.multiopen.opening.randomV - (X - C x3) * proof.multiopen.opening.wr).eval beta • (vk.vk : KzgVk G G2).gammaG = 0 := by
  let K : F[X] × F[X] → G → Prop := Represents key D R
  have hK : Respects (algScheme F) (kzgScheme e env) K := represents_respects e env key D R
  have hin : ∀ c ∈ (proof.witnessCommitments ++ proof.lookupCommitments ++ proof.lookupZCommitments ++ proof.zCommitments ++
      proof.quotientCommitments ++ [proof.multiopen.fCommit, (proof.multiopen.opening.w, proof.multiopen.opening.wr)]
      : List (F[X] × F[X])), c.1.degree < D ∧ c.2.degree < R := hw
  simp only [List.mem_append] at hin
  have hP : ProofSim (S := algScheme F) (S' := kzgScheme e env) K proof (proof.elements e env key) :=
    ⟨represents_map key fun c hc => hin c (by tauto), represents_map key fun c hc => hin c (by tauto),
      represents_map key fun c hc => hin c (by tauto), represents_map key fun c hc => hin c (by tauto),
      represents_map key fun c hc => hin c (by tauto), rfl, rfl, rfl, rfl, rfl, rfl, rfl, rfl, rfl⟩
  have hmap : ∀ l : List (VerifierOracle F (F[X] × F[X])), (∀ o ∈ l, ∀ c, o.commitment = some c → c.1.degree < D ∧ c.2.degree < R) →
      Sims K l (l.map (VerifierOracle.elements key)) := fun l hl =>
    List.forall₂_map_right_iff.2 (List.forall₂_same.2 fun o ho => elements_sim key o fun c hc => ⟨rfl, hl o ho c hc⟩)
  simp only [List.mem_append] at hpre
  have hreg := verifyRegister_same (S := algScheme F) (S' := kzgScheme e env) (K := K) (pre := pre) (pre' := pre.elements e env key)
    (ws := ws) (ws' := (ws.map (VerifierOracle.elements key) : List (VerifierOracle F G))) (vk := avk) (vk' := vk) hP
    (registerCommitments_overwrites (List.forall₂_map_right_iff.2 (List.forall₂_same.2 fun o _ => elements_sim key o fun _ _ => trivial))
      hP.witness hlen)
    (hmap _ fun o ho => hpre o (by tauto)) (hmap _ fun o ho => hpre o (by tauto)) (hmap _ fun o ho => hpre o (by tauto))
    (elements_sim key _ fun c hc => ⟨rfl, hpre _ (by simp) c hc⟩) hix is d.size ch
  unfold verifyAt at hacc
  obtain ⟨st', hst', hacc⟩ := Res.bind_eq_ok.1 hacc
  obtain ⟨q, hq, hacc⟩ := Res.bind_eq_ok.1 hacc
  by_cases hq0 : q = 0
  swap
  · rw [if_pos hq0] at hacc
    cases hacc
  subst hq0
  rw [if_neg (by simp), hdom] at hacc
  have hacc := Res.mapErr_eq_ok.1 hacc
  rw [hst'] at hreg
  generalize hx : verifyRegister (algScheme F) avk pre proof ws is d.size ch = x at hreg
  cases hreg with
  | @ok st _ hst =>
  have hqs := hst.quotientCheck (vk := avk) (vk' := vk) hix is vos d.size vanishing ch
  rw [hq] at hqs
  generalize hy : quotientCheckValue (algScheme F) avk st is vos d.size vanishing ch = y at hqs
  cases hqs with
  | @ok y0 _ hy0 =>
  subst hy0
  refine ⟨st, rfl, hy, ?_⟩
  rw [mpVerifyWith_eq] at hacc
  obtain ⟨⟨g, v⟩, hg, hacc⟩ := Res.bind_eq_ok.1 hacc
  have hg := Res.mapErr_eq_ok.1 hg
  have hfin := hst.oracles.mpFinal hK proof.multiopen.qEvals (c := proof.multiopen.fCommit)
    (c' := (element key proof.multiopen.fCommit : G)) ⟨rfl, hin _ (by simp)⟩ ch.xi d x1 x2 x3 x4
  have hg' : mpFinal (kzgScheme e env) proof.multiopen.qEvals (element key proof.multiopen.fCommit : G) st'.oracles ch.xi d x1 x2 x3 x4
      = .ok (g, v) := hg
  rw [hg'] at hfin
  generalize hz : mpFinal (algScheme F) proof.multiopen.qEvals proof.multiopen.fCommit st.oracles ch.xi d x1 x2 x3 x4 = z at hfin
  cases hfin with
  | @ok z0 _ hz0 =>
  obtain ⟨c, v0⟩ := z0
  obtain ⟨⟨h1, h2⟩, h3⟩ := hz0
  obtain rfl : v0 = v := h3
  refine ⟨c, v0, rfl, h2, ?_⟩
  obtain ⟨b, hb, hacc⟩ := Res.bind_eq_ok.1 hacc
  cases b with
  | false => cases hacc
  | true =>
  have hchk := Res.ok.inj (Res.mapErr_eq_ok.1 hb)
  have h1 : g = element key c := h1
  subst h1
  exact kzgCheck_element e hsk hh hD hR h2 (hin (proof.multiopen.opening.w, proof.multiopen.opening.wr) (.inr (.tail _ (.head _)))) x3 v0 _ hchk

end

section
variable {F : Type} [Field F] [LinearOrder F] [FftParams F] [LawfulFft F]
variable {d : Domain F} {v : ProverView F} {index : Index F} {sigmas : List (ProverOracle F)} {qBlind : ProverOracle F}
  {vos : List (GenericVO F)} {D N B K : Nat}

/-- **C56** (partial) Soundness of the whole argument with KZG commitments. KZG is not binding in the sense C51 assumes. Instead the prover knows
for every group element it sends a representation by less than `D` powers of `g` and less than `R` powers of `gammaG`, and nothing
is known about the secret of the key. The verifier is set up for a circuit the witness columns do not satisfy. The challenges avoid the
exceptional values of C51, which only depend on what was sent before. Then what the prover knows determines two polynomials `P` and `Q`,
not both zero, such that for every key with secret `beta`, if the verifier accepts the proof made with this key then
`P(beta) g + Q(beta) gammaG = 0`: the prover has found an equation for the secret. Missing is what is missing in C51. -/
theorem C56_soundness_kzg_partial (zhInv : List F) {pre : VerifierPreprocessed (algScheme F)}
    {ws : List (VerifierOracle F (F[X] × F[X]))} {is : List (InstanceVerifierOracle F)}
    (hsu : SetUp (algScheme F) (fun (p r : F[X]) => ((p, r) : F[X] × F[X])) v sigmas qBlind ws is pre)
    (hdom : Domain.new (F := F) d.size = some d) (hn : 2 ≤ d.size)
    {vanishing : List F} (hvos : vos ≠ []) (hs : Enforced d D index v sigmas qBlind vos (toPoly vanishing))
    (hb : DegreeBounds d D N B K index vos)
    (tau : Equiv.Perm (Fin (v.witness.filter (·.shouldPermute)).length × Fin index.perm.usableRows))
    (hte : Encodes d index.perm.deltas sigmas tau)
    (hfalse : ¬ (GatesHold d v vos (toPoly vanishing) ∧ CopiesHold v tau ∧ LookupsHold d.size index.perm.usableRows v index.lookups))
    (R : Nat) :
    ∃ Bt : Finset F, Bt.card ≤ index.perm.usableRows * (K - 1) ∧ ∀ theta ∉ Bt,
    ∀ ls : List F[X], (∀ p ∈ ls, p.degree < D) →
    ∃ Bp : Set (F × F), FewPairs (max (2 * ((v.witness.filter (·.shouldPermute)).length * index.perm.usableRows))
        (4 * index.perm.usableRows)) Bp ∧ ∀ beta gamma, (beta, gamma) ∉ Bp →
    ∀ zs lzs : List F[X], (∀ p ∈ zs, p.degree < D) → (∀ p ∈ lzs, p.degree < D) →
    ∃ Ba : Finset F, Ba.card ≤ vos.length + 2 * zs.length + 5 * index.lookups.length ∧ ∀ alpha ∉ Ba,
    ∀ qs : List F[X], (∀ p ∈ qs, p.degree < D) →
    ∃ Bx : Finset F, Bx.card ≤ max B (d.size * (qs.length - 1) + (D - 1) + (toPoly vanishing).natDegree) ∧ ∀ xi ∉ Bx,
    ∀ proof : TPProof (algScheme F),
    MadeOf (fun (p r : F[X]) => ((p, r) : F[X] × F[X])) (v.witness.map (fun o => toPoly o.poly)) ls zs lzs qs proof →
    ∀ st : VState (algScheme F),
    verifyRegister (algScheme F) ⟨(), index, zhInv⟩ pre proof ws is d.size ⟨theta, beta, gamma, alpha, xi⟩ = .ok st →
    ∃ B1 : Finset F, B1.card ≤ st.oracles.length - 1 ∧ ∀ x1 ∉ B1,
    ∃ B2 : Finset F, B2.card ≤ distinctRotations st.oracles - 1 ∧ ∀ x2 ∉ B2, ∀ (f r : F[X]), f.degree < D →
    ∃ B3 : Finset F, B3.card ≤ D + totalPoints st.oracles - 1 ∧ ∀ x3 ∉ B3,
    ∀ q : List F, distinctRotations st.oracles ≤ q.length →
    ∃ B4 : Finset F, B4.card ≤ distinctRotations st.oracles ∧ ∀ x4 ∉ B4, ∀ pf : AlgOpening F,
    TPProof.Within D R { proof with multiopen := ⟨q, (f, r), pf⟩ } →
    ∃ P Q : F[X], (P ≠ 0 ∨ Q ≠ 0) ∧ P.degree ≤ D ∧ Q.degree ≤ R ∧
    ∀ (G G2 GT : Type) [AddCommGroup G] [Module F G] [AddCommGroup G2] [Module F G2] [AddCommGroup GT] [Module F GT] [DecidableEq GT]
      (e : G →ₗ[F] G2 →ₗ[F] GT) (env : KzgEnv F G) (secret : F) (key : KzgKey G) (vk : KzgVk G G2),
    KzgSetup secret key vk → D ≤ key.powers.length → R ≤ key.gammaPowers.length → (∀ g, e g vk.h = 0 → g = 0) →
    verifyAt (kzgScheme e env) ⟨vk, index, zhInv⟩ (pre.elements e env key)
      (TPProof.elements e env key { proof with multiopen := ⟨q, (f, r), pf⟩ }) (ws.map (VerifierOracle.elements key) : List (VerifierOracle F G))
      is vos d.size vanishing ⟨theta, beta, gamma, alpha, xi⟩ x1 x2 x3 x4 = .ok () →
    P.eval secret • vk.g + Q.eval secret • vk.gammaG = 0 := by
  obtain ⟨Bt, hBt, h⟩ := C51_soundness_partial (S := algScheme F) (ck := ()) (vk := ⟨(), index, zhInv⟩) alg_homomorphic alg_binding
    (fun p q r s h => (Prod.mk.inj h).1) hsu hdom hn hvos hs hb tau hte hfalse
  refine ⟨Bt, hBt, fun theta hth ls hls => ?_⟩
  obtain ⟨Bp, hBp, h⟩ := h theta hth ls hls
  refine ⟨Bp, hBp, fun beta gamma hbg zs lzs hzs hlzs => ?_⟩
  obtain ⟨Ba, hBa, h⟩ := h beta gamma hbg zs lzs hzs hlzs
  refine ⟨Ba, hBa, fun alpha hal qs hqs => ?_⟩
  obtain ⟨Bx, hBx, h⟩ := h alpha hal qs hqs
  refine ⟨Bx, hBx, fun xi hxi proof hm st hst => ?_⟩
  obtain ⟨B1, hB1, h⟩ := h xi hxi proof hm st hst
  refine ⟨B1, hB1, fun x1 hx1 => ?_⟩
  obtain ⟨B2, hB2, h⟩ := h x1 hx1
  refine ⟨B2, hB2, fun x2 hx2 f r hf => ?_⟩
  obtain ⟨B3, hB3, h⟩ := h x2 hx2 f r hf
  refine ⟨B3, hB3, fun x3 hx3 q hq => ?_⟩
  obtain ⟨B4, hB4, h⟩ := h x3 hx3 q hq
  refine ⟨B4, hB4, fun x4 hx4 pf hw => ?_⟩
  have h := h x4 hx4 pf
  have hlen : ws.length ≤ proof.witnessCommitments.length := by
    have h1 := hm.witness.length_eq
    rw [List.length_map] at h1
    exact (hsu.witness.length_eq.symm.trans h1).le
  have hpre : ∀ o ∈ (pre.fixed ++ pre.table ++ pre.perm ++ [pre.qBlind] : List (VerifierOracle F (F[X] × F[X]))),
      ∀ c, o.commitment = some c → c.1.degree < D ∧ c.2.degree < R := by
    have key : ∀ (o : ProverOracle F) (w : VerifierOracle F (F[X] × F[X])),
        o ∈ v.witness ++ v.inst ++ v.fixed ++ v.table ++ sigmas ++ [qBlind] → w.commitment = some (toPoly o.poly, (0 : F[X])) →
        ∀ c, w.commitment = some c → c.1.degree < D ∧ c.2.degree < R := by
      intro o w ho hc c hc'
      obtain rfl := Option.some.inj (hc.symm.trans hc')
      refine ⟨lt_of_lt_of_le (degree_toPoly_lt _) (by exact_mod_cast hs.small ho), ?_⟩
      show (0 : F[X]).degree < (R : WithBot ℕ)
      rw [degree_zero]
      exact WithBot.bot_lt_coe _
    have lists : ∀ {os : List (ProverOracle F)} {vs : List (VerifierOracle F (F[X] × F[X]))},
        List.Forall₂ (fun o p => SameConfig o p ∧ p.commitment = some (toPoly o.poly, (0 : F[X]))) os vs →
        (∀ o ∈ os, o ∈ v.witness ++ v.inst ++ v.fixed ++ v.table ++ sigmas ++ [qBlind]) →
        ∀ w ∈ vs, ∀ c, w.commitment = some c → c.1.degree < D ∧ c.2.degree < R := by
      intro os vs hf hos w hw
      induction hf with
      | nil => cases hw
      | cons hab _ ih =>
        rcases List.mem_cons.1 hw with rfl | hw
        · exact key _ _ (hos _ (by simp)) hab.2
        · exact ih (fun o ho => hos o (List.mem_cons_of_mem _ ho)) hw
    intro o ho
    simp only [List.mem_append, List.mem_singleton] at ho
    rcases ho with ((ho | ho) | ho) | rfl
    · exact lists hsu.fixed (by simp +contextual) o ho
    · exact lists hsu.table (by simp +contextual) o ho
    · exact lists hsu.perm (by simp +contextual) o ho
    · exact key qBlind _ (by simp) hsu.qBlind.2
  by_cases hrun : ∃ c val, quotientCheckValue (algScheme F) ⟨(), index, zhInv⟩ st is vos d.size vanishing ⟨theta, beta, gamma, alpha, xi⟩
      = .ok 0 ∧ mpFinal (algScheme F) q (f, r) st.oracles xi d x1 x2 x3 x4 = .ok (c, val) ∧ c.1.degree < D ∧ c.2.degree < R
  · obtain ⟨c, val, hq0, hfin, hc1, hc2⟩ := hrun
    have hop : pf.w.degree < D ∧ pf.wr.degree < R := by
      refine hw (pf.w, pf.wr) ?_
      exact List.mem_append.2 (.inr (.tail _ (.head _)))
    have hsub : ∀ (m : Nat) (p w : F[X]) (a : F), p.degree < (m : WithBot ℕ) → w.degree < (m : WithBot ℕ) →
        (p - C a - (X - C x3) * w).degree ≤ (m : WithBot ℕ) := by
      intro m p w a hp hw
      refine (degree_sub_le _ _).trans (max_le ((degree_sub_le _ _).trans (max_le hp.le ?_)) ?_)
      · refine degree_C_le.trans ?_
        exact_mod_cast Nat.zero_le m
      · by_cases hw0 : w = 0
        · rw [hw0, mul_zero, degree_zero]
          exact bot_le
        · rw [degree_mul, degree_X_sub_C, degree_eq_natDegree hw0]
          rw [degree_eq_natDegree hw0] at hw
          have : w.natDegree < m := by exact_mod_cast hw
          exact_mod_cast (by omega : 1 + w.natDegree ≤ m)
    refine ⟨c.1 - C val - (X - C x3) * pf.w, c.2 - C pf.randomV - (X - C x3) * pf.wr, ?_, hsub D _ _ _ hc1 hop.1, hsub R _ _ _ hc2 hop.2, ?_⟩
    · by_contra hzero
      push Not at hzero
      apply h
      unfold verifyAt
      refine Res.bind_eq_ok.2 ⟨st, hst, Res.bind_eq_ok.2 ⟨0, hq0, ?_⟩⟩
      rw [if_neg (by simp), hdom]
      refine Res.mapErr_eq_ok.2 ?_
      rw [mpVerifyWith_eq]
      refine Res.bind_eq_ok.2 ⟨(c, val), Res.mapErr_eq_ok.2 hfin, Res.bind_eq_ok.2 ⟨true, Res.mapErr_eq_ok.2 ?_, rfl⟩⟩
      exact (alg_check_iff _ _ _ _).2 ⟨sub_eq_zero.1 hzero.1, sub_eq_zero.1 hzero.2⟩
    · intro G G2 GT _ _ _ _ _ _ _ e env secret key vk hk hD hR hh hacc
      obtain ⟨st', hst', -, c', val', hfin', -, heq⟩ := accepted_elements e env (vk := ⟨vk, index, zhInv⟩) (avk := ⟨(), index, zhInv⟩) hk hh hD hR rfl
        hpre hw hlen hdom hacc
      obtain rfl := Res.ok.inj (hst.symm.trans hst')
      obtain ⟨rfl, rfl⟩ := Prod.mk.inj (Res.ok.inj (hfin.symm.trans hfin'))
      exact heq
  · refine ⟨1, 0, .inl one_ne_zero, ?_, by rw [degree_zero]; exact bot_le, ?_⟩
    · rw [degree_one]
      exact_mod_cast Nat.zero_le D
    · intro G G2 GT _ _ _ _ _ _ _ e env secret key vk hk hD hR hh hacc
      obtain ⟨st', hst', hq0, c', val', hfin', hdeg, -⟩ := accepted_elements e env (vk := ⟨vk, index, zhInv⟩) (avk := ⟨(), index, zhInv⟩) hk hh hD hR rfl
        hpre hw hlen hdom hacc
      obtain rfl := Res.ok.inj (hst.symm.trans hst')
      exact absurd ⟨c', val', hq0, hfin', hdeg⟩ hrun

omit [LinearOrder F] [FftParams F] [LawfulFft F] in
/-- **C56** The equation of C56 singles out few keys: if `gammaG = c g` and `g` is not zero, then of the `t^2` pairs (secret, c) from
a set of `t` elements at most `max D (R + 1) * t` satisfy it. -/
theorem C56_few_secrets {P Q : F[X]} {R : Nat} (h : P ≠ 0 ∨ Q ≠ 0) (hP : P.degree ≤ D) (hQ : Q.degree ≤ R) {G : Type} [AddCommGroup G]
    [Module F G] {g : G} (hg : g ≠ 0) :
    FewPairs (max D (R + 1)) {p : F × F | P.eval p.1 • g + Q.eval p.1 • (p.2 • g) = 0} := by
  classical
  have hroots : ∀ (p : F[X]) (m : Nat) (T : Finset F), p ≠ 0 → p.degree ≤ m → (T.filter (fun x => p.eval x = 0)).card ≤ m := by
    intro p m T h0 hm
    refine (Finset.card_le_card (t := p.roots.toFinset) fun x hx => ?_).trans
      ((Multiset.toFinset_card_le _).trans ((card_roots' p).trans (natDegree_le_of_degree_le hm)))
    rw [Multiset.mem_toFinset, mem_roots h0]
    exact (Finset.mem_filter.1 hx).2
  have hmem : ∀ p : F × F, p ∈ {p : F × F | P.eval p.1 • g + Q.eval p.1 • (p.2 • g) = 0} ↔ P.eval p.1 + Q.eval p.1 * p.2 = 0 := by
    intro p
    rw [Set.mem_setOf_eq, ← mul_smul, ← add_smul, smul_eq_zero]
    simp [hg]
  intro T
  by_cases hq : Q = 0
  · have hp : P ≠ 0 := h.resolve_right (by simp [hq])
    refine (Finset.card_le_card (t := (T.filter (fun x => P.eval x = 0)) ×ˢ T) ?_).trans ?_
    · intro p hp'
      obtain ⟨h1, h2⟩ := Finset.mem_filter.1 hp'
      obtain ⟨h3, h4⟩ := Finset.mem_product.1 h1
      rw [hmem, hq, eval_zero, zero_mul, add_zero] at h2
      exact Finset.mem_product.2 ⟨Finset.mem_filter.2 ⟨h3, h2⟩, h4⟩
    · rw [Finset.card_product]
      exact Nat.mul_le_mul_right _ ((hroots P D T hp hP).trans (le_max_left _ _))
  · refine (Finset.card_le_card (t := ((T.filter (fun x => Q.eval x = 0)) ×ˢ T) ∪ T.image (fun x => (x, -P.eval x * (Q.eval x)⁻¹))) ?_).trans ?_
    · rintro ⟨x, c⟩ hp'
      obtain ⟨h1, h2⟩ := Finset.mem_filter.1 hp'
      obtain ⟨h3, h4⟩ := Finset.mem_product.1 h1
      rw [hmem] at h2
      by_cases hx : Q.eval x = 0
      · exact Finset.mem_union_left _ (Finset.mem_product.2 ⟨Finset.mem_filter.2 ⟨h3, hx⟩, h4⟩)
      · refine Finset.mem_union_right _ (Finset.mem_image.2 ⟨x, h3, Prod.ext rfl ?_⟩)
        show -P.eval x * (Q.eval x)⁻¹ = c
        have : Q.eval x * c = -P.eval x := by linear_combination h2
        rw [← this]
        field_simp
    · refine (Finset.card_union_le _ _).trans ?_
      rw [Finset.card_product]
      have h1 := Nat.mul_le_mul_right T.card (hroots Q R T hq hQ)
      have h2 := Finset.card_image_le (s := T) (f := fun x => (x, -P.eval x * (Q.eval x)⁻¹))
      have h3 := Nat.mul_le_mul_right T.card (le_max_right D (R + 1))
      rw [Nat.add_mul, Nat.one_mul] at h3
      omega

end
end ZK
