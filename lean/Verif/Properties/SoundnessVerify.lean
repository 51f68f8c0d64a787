import Verif.Properties.SoundnessError
import Verif.Spec.Answering
/-! C57 for the verifier of the code, `verify`, with challenges drawn at random instead of taken from the transcript. -/
set_option autoImplicit false
set_option linter.unusedSectionVars false
namespace ZK
open Polynomial

section
variable {F : Type} [Field F] [LinearOrder F] [FftParams F] {S : Scheme F}

def VState.answering (st : VState S) (cs : List F) : VState (S.answering cs) :=
  ⟨st.witness, st.pre.answering cs, st.quotient, st.lookups, st.lookupZs, st.zs⟩

theorem verifyRegister_answering (vk : VerifierKey S) (pre : VerifierPreprocessed S) (p : TPProof S)
    (ws : List (VerifierOracle F S.Comm)) (is : List (InstanceVerifierOracle F)) (n : Nat) (cs : List F) (ch : Challenges F) :
    verifyRegister (S.answering cs) (vk.answering cs) (pre.answering cs) (p.answering cs) ws is n ch
      = (verifyRegister S vk pre p ws is n ch).map1 (fun st => st.answering cs) := by
  unfold verifyRegister
  repeat' refine Res.bind_eq_map1 (fun _ => ?_)
  rfl

variable [LawfulFft F]

/-- The verifier which draws its challenges at random does the same as the verifier to which they are given. -/
theorem verify_answering (vk : VerifierKey S) (pre : VerifierPreprocessed S) (p : TPProof S)
    (ws : List (VerifierOracle F S.Comm)) (is : List (InstanceVerifierOracle F)) (vos : List (GenericVO F)) (n : Nat)
    (vanishing : List F) (c : Fin 9 → F) :
    verify (S.answering (List.ofFn c)) (vk.answering _) (pre.answering _) (p.answering _) ws is vos n vanishing
      = verifyAt S vk pre p ws is vos n vanishing ⟨c 0, c 1, c 2, c 3, c 4⟩ (c 5) (c 6) (c 7) (c 8) := by
  refine (verify_eq_verifyAt (S.answering (List.ofFn c)) (vk.answering _) (pre.answering _) (p.answering _) ws is vos n vanishing
    ⟨c 0, c 1, c 2, c 3, c 4⟩ [c 5, c 6, c 7, c 8] (c 5) (c 6) (c 7) (c 8) (by rfl) (by rfl)).trans ?_
  have h := verifyRegister_answering vk pre p ws is n (List.ofFn c) ⟨c 0, c 1, c 2, c 3, c 4⟩
  unfold verifyAt
  cases h1 : verifyRegister S vk pre p ws is n ⟨c 0, c 1, c 2, c 3, c 4⟩ with
  | ok st =>
    rw [h1] at h
    exact (congrArg (fun x => Res.bind x _) h).trans (by rfl)
  | err e =>
    rw [h1] at h
    exact (congrArg (fun x => Res.bind x _) h).trans (by rfl)
  | panic =>
    rw [h1] at h
    exact (congrArg (fun x => Res.bind x _) h).trans (by rfl)

open Classical in
/-- **C57** about `verify` itself. The statement of `C57_soundness_error` for the verifier of the code whose transcript is replaced by an honest
verifier that draws the nine challenges from `T`. -/
theorem C57_honest_verifier {d : Domain F} {D N B K Z Q : Nat} {v : ProverView F} {sigmas : List (ProverOracle F)} {qBlind : ProverOracle F}
    {vos : List (GenericVO F)} {S : Scheme F} {com : F[X] → S.Rand → S.Comm} {ck : S.CK} {vk : VerifierKey S}
    (hS : HomomorphicScheme S ck vk.vk com) (hB : Binding S vk.vk com) (hinj : ∀ p q r s, com p r = com q s → p = q)
    {pre : VerifierPreprocessed S} {ws : List (VerifierOracle F S.Comm)} {is : List (InstanceVerifierOracle F)}
    (hsu : SetUp S com v sigmas qBlind ws is pre) (hdom : Domain.new (F := F) d.size = some d) (hn : 2 ≤ d.size)
    {vanishing : List F} (hvos : vos ≠ []) (hs : Enforced d D vk.index v sigmas qBlind vos (toPoly vanishing))
    (hb : DegreeBounds d D N B K vk.index vos)
    (tau : Equiv.Perm (Fin (v.witness.filter (·.shouldPermute)).length × Fin vk.index.perm.usableRows))
    (hte : Encodes d vk.index.perm.deltas sigmas tau)
    (hfalse : ¬ (GatesHold d v vos (toPoly vanishing) ∧ CopiesHold v tau ∧
      LookupsHold d.size vk.index.perm.usableRows v vk.index.lookups))
    (hZ : vk.index.perm.numberOfZPolys (v.witness.filter (·.shouldPermute)).length = (.ok Z : Res (Err S.E) Nat))
    (P : Strategy S) (hP : P.Legal com D Q vk pre ws is d.size (v.witness.map (fun o => toPoly o.poly))) (T : Finset F) :
    ((Fintype.piFinset fun _ : Fin 9 => T).filter (fun c =>
      verify (S.answering (List.ofFn c)) (vk.answering _) (pre.answering _) ((P.proof com c).answering _) ws is vos d.size vanishing = .ok ())).card
    ≤ soundnessError vk.index.perm.usableRows K (v.witness.filter (·.shouldPermute)).length vos.length vk.index.lookups.length Z Q B d.size D
        (toPoly vanishing).natDegree
        (ws.length + 3 * vk.index.lookups.length + Q + Z + (pre.fixed.length + pre.table.length + pre.perm.length + 1))
        (rotationSets (ws ++ pre.fixed ++ pre.table ++ pre.perm ++ [pre.qBlind]) vk.index.perm.usableRows).card
        (∑ r ∈ rotationSets (ws ++ pre.fixed ++ pre.table ++ pre.perm ++ [pre.qBlind]) vk.index.perm.usableRows, r.length)
      * T.card ^ 8 := by
  refine le_trans (le_of_eq (congrArg Finset.card (Finset.filter_congr (fun c _ => ?_))))
    (C57_soundness_error hS hB hinj hsu hdom hn hvos hs hb tau hte hfalse hZ P hP T)
  rw [← verify_answering]
  rfl

end
end ZK
