import Verif.Lemmas.Refine
import Verif.Properties.Forgery
/-!
C47: verifying with oracles that were already used for earlier verifications.
-/
set_option autoImplicit false
set_option linter.unusedSectionVars false
namespace ZK

section
variable {F : Type} [Field F] [LinearOrder F] [FftParams F] [LawfulFft F]

/-- **C47** (partial) Let the verifier's oracles have gone through any number of earlier verifications: any
evaluations and commitments may have been registered in them. Then verifying a proof has exactly the same outcome (accepted,
the same error, or a panic) as with fresh oracles, or else the verification with fresh oracles reports that an
evaluation or a commitment is missing. The proof is assumed to have a `q` evaluation for every opening set.

What is missing for the full claim: in the excepted case the outcomes do differ, see `C47_false`. -/
theorem C47_reuse_partial (S : Scheme F) (vk : VerifierKey S) (pre pre' : VerifierPreprocessed S) (proof : TPProof S)
    (ws ws' : List (VerifierOracle F S.Comm)) (is : List (InstanceVerifierOracle F)) (vos : List (GenericVO F))
    (domainSize : Nat) (vanishing : List F)
    (hws : ∀ o ∈ ws, FreshWitness o) (hpre : FreshPre pre)
    (hused : List.Forall₂ Used ws ws') (hevaluated : EvaluatedPre pre pre')
    (hfull : ∀ st, verifyRegister S vk pre proof ws is domainSize (verifierChallenges S proof).1 = .ok st →
      distinctRotations st.oracles ≤ proof.multiopen.qEvals.length) :
    verify S vk pre' proof ws' is vos domainSize vanishing = verify S vk pre proof ws is vos domainSize vanishing ∨
      ∃ e : Err S.E, e.Missing ∧ verify S vk pre proof ws is vos domainSize vanishing = .err e := by
  have key : ∀ {l m : List (VerifierOracle F S.Comm)}, (∀ o ∈ l, o.evals = []) → List.Forall₂ Evaluated l m → Exts l m := by
    intro l m hl h
    induction h with
    | nil => exact .nil
    | cons hab _ ih => exact .cons (hab.ext (hl _ (by simp))) (ih fun o ho => hl o (by simp [ho]))
  refine (verify_refines ?_ (key hpre.fixed hevaluated.fixed) (key hpre.table hevaluated.table) (key hpre.perm hevaluated.perm)
    (hevaluated.qBlind.ext hpre.qBlind) vk proof is vos domainSize vanishing fun st hst => ?_).eq_or_bad
  · clear hfull
    induction hused with
    | nil => exact .nil
    | cons hab _ ih => exact .cons (hab.ext (hws _ (by simp))) (ih fun o ho => hws o (by simp [ho]))
  · rw [openingSets_length]
    exact hfull st hst

/-- **C47** (partial) In particular a proof accepted with fresh oracles is accepted with used ones. -/
theorem C47_accepted_partial (S : Scheme F) (vk : VerifierKey S) (pre pre' : VerifierPreprocessed S) (proof : TPProof S)
    (ws ws' : List (VerifierOracle F S.Comm)) (is : List (InstanceVerifierOracle F)) (vos : List (GenericVO F))
    (domainSize : Nat) (vanishing : List F)
    (hws : ∀ o ∈ ws, FreshWitness o) (hpre : FreshPre pre)
    (hused : List.Forall₂ Used ws ws') (hevaluated : EvaluatedPre pre pre')
    (hfull : ∀ st, verifyRegister S vk pre proof ws is domainSize (verifierChallenges S proof).1 = .ok st →
      distinctRotations st.oracles ≤ proof.multiopen.qEvals.length)
    (h : verify S vk pre proof ws is vos domainSize vanishing = .ok ()) :
    verify S vk pre' proof ws' is vos domainSize vanishing = .ok () := by
  rcases C47_reuse_partial S vk pre pre' proof ws ws' is vos domainSize vanishing hws hpre hused hevaluated hfull with h' | ⟨e, _, h'⟩
  · rw [h', h]
  · rw [h] at h'; simp at h'

/-! ### What a verification leaves behind -/

theorem Used.trans {C : Type} {a b c : VerifierOracle F C} (h : Used a b) (h' : Used b c) : Used a c := by
  induction h' with
  | refl => exact h
  | eval x e _ ih => exact ih.eval x e
  | commitment c _ ih => exact ih.commitment c

theorem Evaluated.trans {C : Type} {a b c : VerifierOracle F C} (h : Evaluated a b) (h' : Evaluated b c) : Evaluated a c := by
  induction h' with
  | refl => exact h
  | eval x e _ ih => exact ih.eval x e

theorem Evaluated.used {C : Type} {a b : VerifierOracle F C} (h : Evaluated a b) : Used a b := by
  induction h with
  | refl => exact .refl
  | eval x e _ ih => exact ih.eval x e

theorem forall₂_trans {α : Type} {R : α → α → Prop} (hR : ∀ {a b c}, R a b → R b c → R a c) {l m k : List α} (h : List.Forall₂ R l m)
    (h' : List.Forall₂ R m k) : List.Forall₂ R l k := by
  induction h generalizing k with
  | nil => cases h'; exact .nil
  | cons hab _ ih =>
    cases h' with
    | cons hbc h' => exact .cons (hR hab hbc) (ih h')

theorem EvaluatedPre.trans {S : Scheme F} {a b c : VerifierPreprocessed S} (h : EvaluatedPre a b) (h' : EvaluatedPre b c) :
    EvaluatedPre a c :=
  ⟨forall₂_trans (fun h h' => h.trans h') h.fixed h'.fixed, forall₂_trans (fun h h' => h.trans h') h.table h'.table,
    forall₂_trans (fun h h' => h.trans h') h.perm h'.perm, h.qBlind.trans h'.qBlind⟩

theorem registerAll_evaluated {C : Type} {missing : Label → PiopErr} {os os' : List (VerifierOracle F C)} {xi : F}
    {omegas evals : List F} (h : registerAll missing os xi omegas evals = .ok os') : List.Forall₂ Evaluated os os' := by
  unfold registerAll at h
  simp only [Res.bind_eq_ok] at h
  obtain ⟨qs, hqs, _, _, h⟩ := h
  clear hqs
  unfold registerEvals at h
  have hrefl : ∀ l : List (VerifierOracle F C), List.Forall₂ Evaluated l l := by
    intro l
    induction l with
    | nil => exact .nil
    | cons a l ih => exact .cons .refl ih
  refine Res.foldM_inv (fun l : List (VerifierOracle F C) => List.Forall₂ Evaluated os l) (hrefl os) ?_ h
  intro a p _ b ha hb
  split at hb
  · rename_i i hi
    rw [← Res.ok.inj hb]
    clear hb h hi
    induction ha generalizing i with
    | nil => simpa using List.Forall₂.nil
    | cons hab h ih =>
      cases i with
      | zero => exact .cons (hab.eval _ _) h
      | succ i => exact .cons hab (ih i)
  · simp at hb

/-- **C47** What a verification that gets past the registration leaves in the witness oracles and in the preprocessed
oracles is a history in the sense of `C47_reuse_partial`; so is what it leaves when it started from oracles with a history. -/
theorem C47_history {S : Scheme F} {vk : VerifierKey S} {pre pre' : VerifierPreprocessed S} {proof : TPProof S}
    {ws ws' : List (VerifierOracle F S.Comm)} {is : List (InstanceVerifierOracle F)} {domainSize : Nat} {ch : Challenges F}
    {st : VState S} (hused : List.Forall₂ Used ws ws') (hevaluated : EvaluatedPre pre pre')
    (h : verifyRegister S vk pre' proof ws' is domainSize ch = .ok st) :
    List.Forall₂ Used ws st.witness ∧ EvaluatedPre pre st.pre := by
  obtain ⟨d, r⟩ := verifyRegister_iff.1 h
  have hc : ∀ (l : List (VerifierOracle F S.Comm)) (cs : List S.Comm), List.Forall₂ Used l (registerCommitments l cs) := by
    intro l
    induction l with
    | nil => exact fun _ => .nil
    | cons a l ih =>
      intro cs
      cases cs with
      | nil =>
        refine .cons .refl ?_
        clear ih
        induction l with
        | nil => exact .nil
        | cons a l ih => exact .cons .refl ih
      | cons c cs => exact .cons (.commitment c .refl) (ih cs)
  refine ⟨forall₂_trans (fun h h' => h.trans h') hused (forall₂_trans (fun h h' => h.trans h') (hc ws' proof.witnessCommitments)
    ((registerAll_evaluated r.witness).imp fun _ _ h => h.used)), hevaluated.trans ⟨registerAll_evaluated r.fixed,
    registerAll_evaluated r.table, ?_, ?_⟩⟩
  · rw [r.perm]
    have hl := r.permLength
    generalize pre'.perm = l at hl
    generalize proof.permEvals = es at hl
    induction l generalizing es with
    | nil => cases es <;> exact .nil
    | cons a l ih =>
      cases es with
      | nil => simp at hl
      | cons e es => exact .cons (.eval _ _ .refl) (ih es (by simpa using hl))
  · rw [r.qBlind]
    exact .eval _ _ .refl

end

/-! ### The full claim is false -/

namespace Toy

/-- The scheme of the toy circuit, except that what is absorbed first, the witness commitments, is ignored. -/
abbrev SQuiet : Scheme F97 := { S with fsAbsorb := fun (t : List Nat) l =>
  (if t = bytes "TurboPlonk-0.0.1" then t else t ++ l : List Nat) }

/-- The honest proof made without absorbing the witness commitments, and then stripped of them. -/
def stripped (k : VerifierKey S) : Res (Err Unit) (TPProof S) :=
  match prove SQuiet ⟨⟨k.vk, k.index, k.zhInverses⟩, ()⟩ (.new SQuiet fixed sigma table qBlind k.index) witness inst vos 4 () with
  | .ok p => .ok ⟨[], p.witnessEvals, p.fixedEvals, p.tableEvals, p.permEvals, p.qBlindEval, p.lookupCommitments,
      p.lookupZCommitments, p.lookupEvals, p.lookupZEvals, p.zCommitments, p.zEvals, p.quotientCommitments, p.quotientEvals,
      ⟨p.multiopen.qEvals, p.multiopen.fCommit, p.multiopen.opening⟩⟩
  | .err e => .err e
  | .panic => .panic

/-- Does a property hold of the key, the honest proof, the oracles it leaves behind and the stripped proof? -/
def holdsReuse (P : VerifierKey S → TPProof S → VState S → TPProof S → Bool) : Bool :=
  holds witness fun k p =>
    match verifyRegister S k vpre p (witness.map blank) vinst 4 (verifierChallenges S p).1, stripped k with
    | .ok st, .ok p' => P k p st p'
    | _, _ => false

theorem of_holdsReuse {P : VerifierKey S → TPProof S → VState S → TPProof S → Bool} (h : holdsReuse P = true) :
    ∃ k p st p', key = .ok k ∧ verifyRegister S k vpre p (witness.map blank) vinst 4 (verifierChallenges S p).1 = .ok st ∧
      P k p st p' = true := by
  obtain ⟨k, p, h1, _, h3⟩ := of_holds h
  split at h3
  · rename_i st p' hst _
    exact ⟨k, p, st, p', h1, hst, h3⟩
  · simp at h3

/-- Verification with the oracles left behind. -/
def verifyAgain (k : VerifierKey S) (st : VState S) (p : TPProof S) : Res (Err Unit) Unit :=
  verify S k st.pre p st.witness vinst vos 4 dom.vanishing

end Toy

/-- **C47** fails: there are proofs `p` and `p'` such that with fresh oracles `p` is accepted and `p'`, which has no witness
commitments at all, is rejected; but after the verification of `p`, `p'` is accepted, because the witness oracles still
carry the commitments of `p`. `p` and `p'` have a `q` evaluation for every opening set. -/
theorem C47_false : ∃ k p st p', Toy.key = .ok k ∧ Toy.verifyWith k Toy.vinst p = .ok () ∧
    verifyRegister Toy.S k Toy.vpre p (Toy.witness.map Toy.blank) Toy.vinst 4 (verifierChallenges Toy.S p).1 = .ok st ∧
    p'.witnessCommitments = [] ∧ p'.multiopen.qEvals.length = p.multiopen.qEvals.length ∧
    distinctRotations st.oracles ≤ p.multiopen.qEvals.length ∧
    Toy.verifyWith k Toy.vinst p' = .err (.multiproof (.piop (.missingWitnessCommitment [1]))) ∧
    verify Toy.S k st.pre p' st.witness Toy.vinst Toy.vos 4 Toy.dom.vanishing = .ok () ∧
    (∀ o ∈ st.witness, o.commitment.isSome) := by
  obtain ⟨k, p, st, p', h1, h2, h3⟩ := Toy.of_holdsReuse (P := fun k p st p' => decide (Toy.verifyWith k Toy.vinst p = .ok () ∧
    p'.witnessCommitments.length = 0 ∧ p'.multiopen.qEvals.length = p.multiopen.qEvals.length ∧
    distinctRotations st.oracles ≤ p.multiopen.qEvals.length ∧
    Toy.verifyWith k Toy.vinst p' = .err (.multiproof (.piop (.missingWitnessCommitment [1]))) ∧
    Toy.verifyAgain k st p' = .ok () ∧ st.witness.all (fun o => o.commitment.isSome) = true)) (by decide +kernel)
  obtain ⟨g1, g2, g3, g4, g5, g6, g7⟩ := of_decide_eq_true h3
  exact ⟨k, p, st, p', h1, g1, h2, List.length_eq_zero_iff.1 g2, g3, g4, g5, g6, List.all_eq_true.1 g7⟩

/-- The hypotheses of `C47_reuse_partial` hold for the honest proof of the toy circuit and the oracles it leaves behind:
verifying the same proof again with them is accepted. -/
example : ∃ k p st, Toy.key = .ok k ∧
    verifyRegister Toy.S k Toy.vpre p (Toy.witness.map Toy.blank) Toy.vinst 4 (verifierChallenges Toy.S p).1 = .ok st ∧
    st.witness ≠ Toy.witness.map Toy.blank ∧
    verify Toy.S k st.pre p st.witness Toy.vinst Toy.vos 4 Toy.dom.vanishing = .ok () := by
  obtain ⟨k, p, st, p', h1, g1, h2, _, _, g4, _, _, g7⟩ := C47_false
  have hrefl : ∀ l : List (VerifierOracle F97 (List F97)), List.Forall₂ Used l l := by
    intro l
    induction l with
    | nil => exact .nil
    | cons a l ih => exact .cons .refl ih
  have hrefl' : ∀ l : List (VerifierOracle F97 (List F97)), List.Forall₂ Evaluated l l := by
    intro l
    induction l with
    | nil => exact .nil
    | cons a l ih => exact .cons .refl ih
  have hist := C47_history (hrefl _) ⟨hrefl' _, hrefl' _, hrefl' _, .refl⟩ h2
  refine ⟨k, p, st, h1, h2, ?_, ?_⟩
  · intro h
    rw [h] at g7
    exact absurd (g7 (Toy.blank (Toy.column .witness [1] [7, 3, 11, 4] [.curr] true)) (List.mem_cons_self ..)) (by decide)
  · refine C47_accepted_partial Toy.S k Toy.vpre st.pre p (Toy.witness.map Toy.blank) st.witness Toy.vinst Toy.vos 4 Toy.dom.vanishing
      (fun o ho => ⟨(by decide : ∀ o ∈ Toy.witness.map Toy.blank, o.evals = []) o ho,
        (by decide : ∀ o ∈ Toy.witness.map Toy.blank, o.commitment = none) o ho⟩) ⟨by decide, by decide, by decide, by decide⟩ hist.1 hist.2 ?_ g1
    intro st' h
    rw [h2] at h
    cases h
    exact g4

end ZK
