import Verif.Properties.Soundness
import Verif.Properties.CompletenessExamples
/-! C51: the hypotheses are met by the toy circuit with a witness that violates a copy constraint. -/
set_option autoImplicit false
set_option linter.unusedSectionVars false
namespace ZK
open Polynomial

section
variable {F : Type} [Field F] [LinearOrder F] [FftParams F] [LawfulFft F]

omit [LinearOrder F] in
/-- Circuits which completeness is stated for are among those soundness is stated for, if there are as many sigmas and cosets as
copied columns, sigmas and blinding selector are opened, the latter marks the rows after the last usable one, table queries are as many as expressions, and the polynomial of the key vanishes
on the usable rows. -/
theorem Supported.enforced {d : Domain F} {index : Index F} {v : ProverView F} {sigmas : List (ProverOracle F)}
    {qBlind : ProverOracle F} {vos : List (GenericVO F)} (h : Supported d index v sigmas qBlind vos) {zh : F[X]}
    (hne : ∀ o ∈ sigmas ++ [qBlind], o.rotations ≠ [])
    (hshape : sigmas.length = (v.witness.filter (·.shouldPermute)).length ∧
      index.perm.deltas.length = (v.witness.filter (·.shouldPermute)).length)
    (hlen : ∀ l ∈ index.lookups, ∀ es ts, l.getExpressions = .ok es → l.getTableQueries = .ok ts → es.length = ts.length)
    (hmark : index.lookups ≠ [] → ∀ i < d.size, qBlind.evals[i]? = some (ZK.blinding index.perm.usableRows i))
    (hu : index.perm.usableRows < d.size) (hz : ∀ i < d.size, zh.eval (d.omega ^ i) = 0) :
    Enforced d d.size index v sigmas qBlind vos zh where
  columns := h.columns
  selector := h.selector
  unrotated := by
    intro o ho
    have ho := List.mem_append_left [qBlind] ho
    obtain ⟨r, hr⟩ := List.exists_mem_of_ne_nil _ (hne o ho)
    exact ⟨r, hr, h.unrotated o ho r hr⟩
  gates := h.gates
  copied := h.copied
  shape := fun _ => hshape
  lookups := by
    intro l hl
    obtain ⟨es, ts, h1, h2, h3, h4⟩ := h.lookups l hl
    exact ⟨es, ts, h1, h2, hlen l hl es ts h1 h2, fun e he => (h3 e he).1, h4⟩
  usable := hu
  blinding := by
    intro hex
    obtain ⟨r, hr⟩ := List.exists_mem_of_ne_nil _ (hne qBlind (by simp))
    have hb : Interpolates d qBlind ∧ ∀ i < d.size, qBlind.evals[i]? = some (ZK.blinding index.perm.usableRows i) :=
      hex.elim h.blinding fun hl => ⟨(h.usable hl).2.2.1, hmark hl⟩
    exact ⟨⟨hb.1, r, hr, h.unrotated qBlind (by simp) r hr⟩, hb.2, fun i hi => hz i (by omega)⟩

end
namespace Toy

/-- `a[0] = 2` but `b[1] = 7`; the gates are satisfied. -/
def viewBad : ProverView F97 := viewOf [2, 3, 11, 4] [8, 7, 2, 6] [16, 26, 9, 2]

theorem enforced {k : VerifierKey S} (hk : key = .ok k) :
    Enforced dom dom.size k.index viewBad sigma qBlind vos (toPoly dom.vanishing) := by
  obtain ⟨-, -, -, -, -, -, -, -, -, hu, hdl, hl, hu', -⟩ := indexer_ok dom_Ok hk
  refine (supportedOf hk (a := [2, 3, 11, 4]) (b := [8, 7, 2, 6]) (c := [16, 26, 9, 2]) rfl rfl rfl).enforced (by decide +kernel) ?_ ?_ ?_ ?_ ?_
  · rw [hdl]; decide +kernel
  · intro l hll es ts he ht
    rw [hl] at hll
    obtain rfl := List.mem_singleton.1 hll
    obtain ⟨⟩ := Res.ok.inj he
    obtain ⟨⟩ := Res.ok.inj ht
    rfl
  · rw [hu, dom_size]
    intro _
    decide +kernel
  · rw [hu, dom_size]; decide
  · intro i _
    rw [toPoly_vanishing dom dom_Ok.size_pos, eval_sub, eval_pow, eval_X, eval_one, ← pow_mul, mul_comm i, pow_mul,
      dom_Ok.prim.pow_eq_one, one_pow, sub_self]

/-- The sigmas swap `a[0]` and `b[1]`, whose values differ. -/
theorem copied (u : Nat) (hu : u = 2) : ∃ tau : Equiv.Perm (Fin (viewBad.witness.filter (·.shouldPermute)).length × Fin u),
    Encodes dom info.deltas sigma tau ∧ ¬ CopiesHold viewBad tau := by
  subst hu
  refine ⟨Equiv.swap (⟨0, by decide +kernel⟩, 0) (⟨1, by decide +kernel⟩, 1), ?_⟩
  unfold Encodes MadeFrom CopiesHold
  decide +kernel

theorem bounds {k : VerifierKey S} (hk : key = .ok k) : DegreeBounds dom dom.size 4 15 1 k.index vos := by
  obtain ⟨-, -, -, -, -, -, -, -, -, hu, hdl, hl, hu', -⟩ := indexer_ok dom_Ok hk
  have hs := dom_size
  refine ⟨by omega, by omega, ?_, ?_, by rw [maxCols hk], by norm_num⟩
  · rw [hs]
    intro vo hvo e he
    simp only [vos, List.mem_cons, List.not_mem_nil, or_false] at hvo
    rcases hvo with rfl | rfl
    · obtain ⟨⟩ := Res.ok.inj he
      exact ⟨9, by norm_num, by decide +kernel⟩
    · obtain ⟨⟩ := Res.ok.inj he
      exact ⟨6, by norm_num, by decide +kernel⟩
  · rw [hs, hl]
    intro l hll es he
    obtain rfl := List.mem_singleton.1 hll
    obtain ⟨⟩ := Res.ok.inj he
    refine ⟨by simp, ?_⟩
    intro e hee
    obtain rfl := List.mem_singleton.1 hee
    exact ⟨3, by norm_num, rfl⟩

theorem setUpBad : SetUp S (fun p _ => coeffs p) viewBad sigma qBlind (witness.map blank) vinst vpre :=
  ⟨by
    have h2 : viewBad.witness.map blank = witness.map blank := by decide +kernel
    exact h2 ▸ blank_same (viewBad.witness), setUp.inst, setUp.fixed, setUp.table, setUp.perm, setUp.qBlind⟩

/-- The hypotheses of C51 are met by a witness that violates a copy constraint although the gates hold. (Its lookup fails as well.) -/
theorem sound_example : ∃ k, key = .ok k ∧ GatesHold dom viewBad vos (toPoly dom.vanishing) ∧
    ∀ theta : F97, ∀ ls : List F97[X], (∀ p ∈ ls, p.degree < (4 : Nat)) →
    ∃ Bp : Set (F97 × F97), FewPairs 8 Bp ∧ ∀ beta gamma, (beta, gamma) ∉ Bp →
    ∀ zs lzs : List F97[X], (∀ p ∈ zs, p.degree < (4 : Nat)) → (∀ p ∈ lzs, p.degree < (4 : Nat)) →
    ∃ Ba : Finset F97, Ba.card ≤ 7 + 2 * zs.length ∧ ∀ alpha ∉ Ba, ∀ qs : List F97[X], (∀ p ∈ qs, p.degree < (4 : Nat)) →
    ∃ Bx : Finset F97, Bx.card ≤ max 15 (4 * (qs.length - 1) + 7) ∧ ∀ xi ∉ Bx,
    ∀ proof : TPProof S, MadeOf (S := S) (fun p _ => coeffs p) (viewBad.witness.map (fun o => toPoly o.poly)) ls zs lzs qs proof →
    ∀ st : VState S, verifyRegister S k vpre proof (witness.map blank) vinst 4 ⟨theta, beta, gamma, alpha, xi⟩ = .ok st →
    ∃ B1 : Finset F97, B1.card ≤ st.oracles.length - 1 ∧ ∀ x1 ∉ B1,
    ∃ B2 : Finset F97, B2.card ≤ distinctRotations st.oracles - 1 ∧ ∀ x2 ∉ B2, ∀ f : F97[X], f.degree < (4 : Nat) →
    ∃ B3 : Finset F97, B3.card ≤ 4 + totalPoints st.oracles - 1 ∧ ∀ x3 ∉ B3,
    ∀ q : List F97, distinctRotations st.oracles ≤ q.length →
    ∃ B4 : Finset F97, B4.card ≤ distinctRotations st.oracles ∧ ∀ x4 ∉ B4,
      verifyAt S k vpre { proof with multiopen := ⟨q, coeffs f, ()⟩ } (witness.map blank) vinst vos 4 dom.vanishing
        ⟨theta, beta, gamma, alpha, xi⟩ x1 x2 x3 x4 ≠ .ok () := by
  obtain ⟨k, -, hk, -⟩ := honest
  obtain ⟨-, -, -, -, -, -, -, -, -, hu, hdl, hl, hu', -⟩ := indexer_ok dom_Ok hk
  have hs := dom_size
  have hgates : GatesHold dom viewBad vos (toPoly dom.vanishing) := by
    refine gatesHold_of_mock (ε := Unit) dom_Ok ?_ ?_ _
    · intro ty o ho
      refine ((enforced hk).columns o ?_).1
      cases ty <;> simp only [ProverView.oracles] at ho <;> simp [ho]
    · rw [hs]; decide +kernel
  refine ⟨k, hk, hgates, ?_⟩
  obtain ⟨tau, ht1, ht2⟩ := copied k.index.perm.usableRows hu
  have hsu := setUpBad
  have hb := bounds hk
  have hm : (viewBad.witness.filter (·.shouldPermute)).length = 2 := by decide +kernel
  have hz : (toPoly dom.vanishing).natDegree = 4 := by
    rw [toPoly_vanishing dom dom_Ok.size_pos, hs]
    exact natDegree_X_pow_sub_C (r := (1 : F97))
  have hmain := C51_soundness_partial (S := S) (com := fun p _ => coeffs p) (ck := ()) (vk := k) (ideal_homomorphic _ _)
    (ideal_binding _ _) (fun p q _ _ h => by rw [← toPoly_coeffs p, ← toPoly_coeffs q]; exact congrArg toPoly h) hsu
    dom_Ok.new_self (by omega) (by simp [vos]) (enforced hk) hb tau (by rw [hdl]; exact ht1) (fun h => ht2 h.2.1)
  obtain ⟨Bt, hBt, hmain⟩ := hmain
  rw [Nat.sub_self, Nat.mul_zero, Nat.le_zero, Finset.card_eq_zero] at hBt
  subst hBt
  intro theta ls hls
  obtain ⟨Bp, hBp, hmain⟩ := hmain theta (by simp) ls (by rw [hs]; exact hls)
  rw [hm, hu] at hBp
  refine ⟨Bp, hBp, fun beta gamma hbg zs lzs hzs hlzs => ?_⟩
  obtain ⟨Ba, hBa, hmain⟩ := hmain beta gamma hbg zs lzs (by rw [hs]; exact hzs) (by rw [hs]; exact hlzs)
  refine ⟨Ba, ?_, fun alpha hal qs hqs => ?_⟩
  · rw [hl] at hBa
    simp only [vos, List.length_cons, List.length_nil] at hBa
    omega
  obtain ⟨Bx, hBx, hmain⟩ := hmain alpha hal qs (by rw [hs]; exact hqs)
  rw [hz, hs] at hBx
  refine ⟨Bx, hBx, fun xi hxi proof hp st hst => ?_⟩
  rw [hs] at hmain
  obtain ⟨B1, hB1, hmain⟩ := hmain xi hxi proof hp st hst
  refine ⟨B1, hB1, fun x1 hx1 => ?_⟩
  obtain ⟨B2, hB2, hmain⟩ := hmain x1 hx1
  refine ⟨B2, hB2, fun x2 hx2 f hf => ?_⟩
  obtain ⟨B3, hB3, hmain⟩ := hmain x2 hx2 f () hf
  refine ⟨B3, hB3, fun x3 hx3 q hq => ?_⟩
  obtain ⟨B4, hB4, hmain⟩ := hmain x3 hx3 q hq
  exact ⟨B4, hB4, fun x4 hx4 => hmain x4 hx4 ()⟩

/-! Without the hypothesis about the polynomial of the key C51 fails. -/

/-- The polynomial that vanishes on the rows 0 and 1, before the last usable row 2. -/
def zhRows : List F97 := pmul [-1, 1] [-dom.omega, 1]

def keyRows : Res (Err Unit) (VerifierKey S) :=
  indexer (S := S) (fun (o : ProverOracle F97) => o.shouldPermute) () vos [] witness inst fixed dom zhRows info 2

/-- One factor of the grand product: column `j`, row `i`. -/
def ratio (beta gamma : F97) (ws : List (ProverOracle F97)) (j i : Nat) : F97 :=
  (colVal ws j i + beta * info.deltas.getD j 0 * dom.omega ^ i + gamma) / (colVal ws j i + beta * colVal sigma j i + gamma)

/-- A prover that accumulates the grand product over the rows 0 and 1 without looking at its last value, and otherwise
follows `prove`. -/
def cheatRows (k : VerifierKey S) (ws : List (ProverOracle F97)) : Res (Err Unit) (TPProof S) := do
  let index := k.index
  let ws := ws.map (·.computeExtended index.ext)
  let is := inst.map (·.computeExtended index.ext)
  let view : ProverView F97 := ⟨ws, is, (pre k).fixed, (pre k).table⟩
  let wc : List (List F97) := ws.map (·.poly)
  let t := S.fsInit (bytes "TurboPlonk-0.0.1")
  let t := S.absorbComms t wc
  let (_, t) := S.fsRand t
  let t := S.absorbComms t []
  let (beta, t) := S.fsRand t
  let (gamma, t) := S.fsRand t
  let r := ratio beta gamma ws
  let c0 := [1, r 0 0, r 0 0 * r 0 1, 0]
  let c1 := [r 0 0 * r 0 1, r 0 0 * r 0 1 * r 1 0, r 0 0 * r 0 1 * r 1 0 * r 1 1, 0]
  let zs := [(column .witness (bytes "agg_permutation_0") c0 (setInsert ⟨2, .plus⟩ (setExtend [] [.curr, .next])) false).computeExtended
    index.ext, (column .witness (bytes "agg_permutation_1") c1 (setExtend [] [.curr, .next]) false).computeExtended index.ext]
  let zc : List (List F97) := zs.map (·.poly)
  let t := S.absorbComms t zc
  let t := S.absorbComms t []
  let (alpha, t) := S.fsRand t
  let quotient ← (quotientRound view vos index k.zhInverses (pre k).perm (pre k).qBlind ⟨[], zs, []⟩ dom alpha beta gamma).mapErr Err.iop
  let qc : List (List F97) := quotient.map (·.poly)
  let t := S.absorbComms t qc
  let (xi, t) := S.fsRand t
  let omegas := dom.elements
  let wq ← getQuerySet ws xiLabel xi omegas
  let witnessEvals ← evaluateQuerySet ws wq
  let fq ← getQuerySet fixed xiLabel xi omegas
  let fixedEvals ← evaluateQuerySet fixed fq
  let tq ← getQuerySet table xiLabel xi omegas
  let tableEvals ← evaluateQuerySet table tq
  let zq ← getQuerySet zs xiLabel xi omegas
  let zEvals ← evaluateQuerySet zs zq
  let oracles := openingOrder ws [] [] quotient zs fixed table sigma qBlind
  let mp ← (mpProve S () oracles (oracles.map fun _ => ()) xi 4 t ()).mapErr Err.multiproof
  pure ⟨wc, witnessEvals, fixedEvals, tableEvals, sigma.map (·.query xi), peval qBlind.poly xi, [], [], [], [], zc, zEvals, qc,
    quotient.map (·.query xi), mp⟩

def viewRows : ProverView F97 := viewOf [2, 3, 11, 4] [28, 7, 2, 6] [56, 26, 9, 2]

def verifyRows (k : VerifierKey S) (p : TPProof S) : Res (Err Unit) Unit :=
  verify S k vpre p (witness.map blank) vinst vos 4 zhRows

def fullRows (k : VerifierKey S) (p : TPProof S) : Bool :=
  match verifyRegister S k vpre p (witness.map blank) vinst 4 (verifierChallenges S p).1 with
  | .ok st => decide (distinctRotations st.oracles = p.multiopen.qEvals.length)
  | _ => false

def rowsHolds (P : VerifierKey S → TPProof S → Bool) : Bool :=
  match keyRows with
  | .ok k => match cheatRows k viewRows.witness with
    | .ok p => P k p
    | _ => false
  | _ => false

end Toy

/-- The key is made with a polynomial that vanishes on the rows before the last usable row only. Then a proof is accepted although
the sigmas identify `a[0]` and `b[1]` and the committed columns differ there, and all `q` evaluations are sent: the constraint on the last
value of the grand product is not enforced. -/
theorem C51_custom_vanishing : ∃ k p, Toy.keyRows = .ok k ∧
    p.witnessCommitments = [trim (Toy.dom.ifft [2, 3, 11, 4]), trim (Toy.dom.ifft [28, 7, 2, 6]), trim (Toy.dom.ifft [56, 26, 9, 2])] ∧
    Toy.zhRows = pmul [-1, 1] [-Toy.dom.omega, 1] ∧ k.index.perm.usableRows = 2 ∧
    (∃ tau : Equiv.Perm (Fin (Toy.viewRows.witness.filter (·.shouldPermute)).length × Fin 2),
      Encodes Toy.dom Toy.info.deltas Toy.sigma tau ∧ ¬ CopiesHold Toy.viewRows tau) ∧
    verify Toy.S k Toy.vpre p (Toy.witness.map Toy.blank) Toy.vinst Toy.vos 4 Toy.zhRows = .ok () ∧
    ∃ st, verifyRegister Toy.S k Toy.vpre p (Toy.witness.map Toy.blank) Toy.vinst 4 (verifierChallenges Toy.S p).1 = .ok st ∧
      distinctRotations st.oracles = p.multiopen.qEvals.length := by
  have h : Toy.rowsHolds (fun k p => decide (
      (show List (List F97) from p.witnessCommitments)
        = [trim (Toy.dom.ifft [2, 3, 11, 4]), trim (Toy.dom.ifft [28, 7, 2, 6]), trim (Toy.dom.ifft [56, 26, 9, 2])] ∧
      k.index.perm.usableRows = 2 ∧ Toy.verifyRows k p = .ok () ∧ Toy.fullRows k p = true)) = true := by decide +kernel
  unfold Toy.rowsHolds at h
  split at h
  swap
  · cases h
  rename_i k hk
  split at h
  swap
  · cases h
  rename_i p hp
  obtain ⟨h1, h2, h3, h4⟩ := of_decide_eq_true h
  refine ⟨k, p, hk, h1, rfl, h2, ?_, h3, ?_⟩
  · refine ⟨Equiv.swap (⟨0, by decide +kernel⟩, 0) (⟨1, by decide +kernel⟩, 1), ?_⟩
    unfold Encodes MadeFrom CopiesHold
    decide +kernel
  · unfold Toy.fullRows at h4
    split at h4
    · rename_i st hst
      exact ⟨st, hst, of_decide_eq_true h4⟩
    · cases h4

end ZK
