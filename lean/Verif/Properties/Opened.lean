import Verif.Properties.Forgery
import Verif.Lemmas.OpeningCongr
import Verif.Lemmas.Refine
/-!
C48: every evaluation the verifier uses is opened.
-/
set_option autoImplicit false
set_option linter.unusedSectionVars false
namespace ZK

section
variable {F : Type} [Field F] [LinearOrder F] [FftParams F] [LawfulFft F]

/-- Registered evaluations of oracles with distinct labels are at their own points. -/
theorem registerAll_opened {C : Type} {d : Domain F} (hd : d.Ok) {missing : Label → PiopErr} {os os' : List (VerifierOracle F C)}
    (hnd : (os.map (·.label)).Nodup) (hfresh : ∀ o ∈ os, o.evals = []) {xi : F} {evals : List F}
    (h : registerAll missing os xi d.elements evals = .ok os') :
    ∀ v ∈ os', ∀ p y, v.query p = .ok y → p ∈ points d xi v.rotations := by
  unfold registerAll at h
  simp only [Res.bind_eq_ok, Res.assert_eq_ok, decide_eq_true_eq] at h
  obtain ⟨qs, h1, _, _, h3⟩ := h
  have hr := getQuerySet_range hd h1
  obtain ⟨qs', h1', _, hq⟩ := getQuerySet_ok (ε := PiopErr) hd os xiLabel xi hr
  rw [h1] at h1'
  cases h1'
  have key : os'.map (·.config) = os.map (·.config) ∧ ∀ v ∈ os', ∀ p y, v.query p = .ok y → p ∈ points d xi v.rotations := by
    unfold registerEvals at h3
    refine Res.foldM_inv (fun os' : List (VerifierOracle F C) => os'.map (·.config) = os.map (·.config) ∧
      ∀ v ∈ os', ∀ p y, v.query p = .ok y → p ∈ points d xi v.rotations) ⟨rfl, ?_⟩ ?_ h3
    · intro v hv p y hy
      simp [VerifierOracle.query, hfresh v hv, assocGet] at hy
    · rintro a ⟨q, e⟩ hqe b ⟨hc, ha⟩ hb
      have hlab : a.map ConcreteOracle.label = os.map ConcreteOracle.label := by
        have := congrArg (List.map fun c => c.label) hc
        rwa [List.map_map, List.map_map] at this
      obtain ⟨o, ho, r, hro, rfl⟩ := (hq q).1 (List.of_mem_zip hqe).1
      simp only [hlab] at hb
      obtain ⟨i, hi, rfl⟩ := List.getElem_of_mem ho
      have hidx : lastIndexOf (os.map ConcreteOracle.label) os[i].label = some i :=
        lastIndexOf_of_nodup hnd (by rw [List.getElem?_map, List.getElem?_eq_getElem hi]; rfl)
      have hl : (ofLex (queryOf d xiLabel xi (ConcreteOracle.label os[i]) r)).1 = os[i].label := rfl
      rw [hl, hidx] at hb
      simp only [Res.ok.injEq] at hb
      have hcfg := hc
      subst hb
      constructor
      · rw [← hc]
        apply List.ext_getElem (by simp)
        intro k _ _
        rw [List.getElem_map, List.getElem_modify, List.getElem_map]
        split <;> rfl
      · intro v hv p y hy
        obtain ⟨k, hk, rfl⟩ := List.getElem_of_mem hv
        rw [List.length_modify] at hk
        rw [List.getElem_modify] at hy ⊢
        split at hy
        · rename_i hki
          subst hki
          rw [if_pos rfl]
          have hrot : a[i].rotations = os[i].rotations := by
            have h2 := List.getElem_of_eq hc (i := i) (by simpa using hk)
            rw [List.getElem_map, List.getElem_map] at h2
            have h3 := congrArg (fun c : VerifierOracle F C => c.rotations) h2
            exact h3
          rw [VerifierOracle.query_registerEval] at hy
          split at hy
          · rename_i hp
            show p ∈ points d xi a[i].rotations
            rw [hrot, hp]
            exact List.mem_map.2 ⟨r, hro, rfl⟩
          · exact ha _ (List.getElem_mem hk) p y hy
        · rename_i hki
          rw [if_neg hki]
          exact ha _ (List.getElem_mem hk) p y hy
  exact key.2

theorem VerifierOracle.query_mem {C : Type} {v : VerifierOracle F C} {p y : F} (h : v.query p = .ok y) : p ∈ v.evals.map Prod.fst := by
  unfold VerifierOracle.query at h
  have key : ∀ l : List (F × F), (∃ y, assocGet p l = some y) → p ∈ l.map Prod.fst := by
    intro l
    induction l with
    | nil => rintro ⟨y, h⟩; simp [assocGet] at h
    | cons a l ih =>
      rintro ⟨y, h⟩
      obtain ⟨k, e⟩ := a
      by_cases hk : p = k
      · simp [hk]
      · rw [assocGet, if_neg hk] at h
        exact List.mem_cons_of_mem _ (ih ⟨y, h⟩)
  cases hv : assocGet p v.evals with
  | none => rw [hv] at h; simp at h
  | some e => exact key _ ⟨e, hv⟩

theorem registerCommitments_map {C α : Type} (f : VerifierOracle F C → α) (hf : ∀ o c, f (o.registerCommitment c) = f o)
    (os : List (VerifierOracle F C)) (cs : List C) : (registerCommitments os cs).map f = os.map f := by
  induction os generalizing cs with
  | nil => rfl
  | cons o os ih =>
    cases cs with
    | nil => rfl
    | cons c cs => simp only [registerCommitments, List.map_cons, hf, ih]

/-- **C48** (partial) Let the labels of the witness, the fixed and the table oracles be distinct, let the oracles be fresh, and
let the blinding selector and every permutation polynomial be registered at the current row. Then whatever the proof, every
evaluation the verifier can read from its oracles is opened: the oracle is in an opening set one of whose points is the
point of the evaluation.

What is missing: preprocessed inputs whose blinding selector or permutation polynomials are not registered at any rotation,
such as those made by `new_wo_blind`; see `C48_false`. -/
theorem C48_opened_partial {S : Scheme F} {vk : VerifierKey S} {pre : VerifierPreprocessed S} {proof : TPProof S}
    {ws : List (VerifierOracle F S.Comm)} {is : List (InstanceVerifierOracle F)} {domainSize : Nat} {ch : Challenges F}
    {st : VState S} {d : Domain F} (hdom : Domain.new (F := F) domainSize = some d)
    (hws : ∀ o ∈ ws, FreshWitness o) (hpre : FreshPre pre)
    (hlw : (ws.map (·.label)).Nodup) (hlf : (pre.fixed.map (·.label)).Nodup) (hlt : (pre.table.map (·.label)).Nodup)
    (hblind : Rotation.curr ∈ pre.qBlind.rotations) (hperm : ∀ o ∈ pre.perm, Rotation.curr ∈ o.rotations)
    (h : verifyRegister S vk pre proof ws is domainSize ch = .ok st) :
    ∀ v ∈ st.oracles, ∀ p y, v.query p = .ok y →
      ∃ s ∈ openingSets (fun (o : VerifierOracle F S.Comm) => o.rotations) st.oracles, v ∈ s.2 ∧
        ∃ r ∈ s.1, p = ch.xi * d.omega ^ r.signed := by
  have hd := Domain.new_ok hdom
  obtain ⟨d', r⟩ := verifyRegister_iff.1 h
  have hdd : d' = d := by have := r.dom; rw [hdom] at this; exact (Option.some.inj this).symm
  subst hdd
  have hom : d'.element 1 = d'.omega := by simp [Domain.element]
  have hone : ∀ {v : VerifierOracle F S.Comm} {e : F} {o : VerifierOracle F S.Comm}, v = o.registerEval ch.xi e → o.evals = [] →
      Rotation.curr ∈ o.rotations → ∀ p y, v.query p = .ok y → p ∈ points d' ch.xi v.rotations := by
    rintro v e o rfl he hc p y hy
    rw [VerifierOracle.query_registerEval] at hy
    split at hy
    · rename_i hp
      exact List.mem_map.2 ⟨_, hc, by simp [hp, Rotation.curr, Rotation.signed]⟩
    · simp [VerifierOracle.query, he, assocGet] at hy
  have hcurr : ∀ {rots : List Rotation}, Rotation.curr ∈ rots → ch.xi ∈ points d' ch.xi rots :=
    fun h => List.mem_map.2 ⟨_, h, by simp [Rotation.curr, Rotation.signed]⟩
  have hnext : ∀ {rots : List Rotation}, Rotation.next ∈ rots → ch.xi * d'.element 1 ∈ points d' ch.xi rots :=
    fun h => List.mem_map.2 ⟨_, h, by simp [Rotation.next, Rotation.signed, hom]⟩
  have hprev : ∀ {rots : List Rotation}, Rotation.prev ∈ rots → ch.xi * (d'.element 1)⁻¹ ∈ points d' ch.xi rots :=
    fun h => List.mem_map.2 ⟨_, h, by simp [Rotation.prev, Rotation.signed, hom]⟩
  have hpts : ∀ v ∈ st.oracles, ∀ p y, v.query p = .ok y → p ∈ points d' ch.xi v.rotations := by
    intro v hv p y hy
    simp only [VState.oracles, openingOrder, List.mem_append, List.mem_singleton] at hv
    rcases hv with ((((hv | hv) | hv) | hv) | hv) | (((hv | hv) | hv) | hv)
    · refine registerAll_opened hd ?_ ?_ r.witness v hv p y hy
      · rw [registerCommitments_map (fun o => o.label) (fun _ _ => rfl)]
        exact hlw
      · intro o ho
        have := List.mem_map_of_mem (f := fun o : VerifierOracle F S.Comm => o.evals) ho
        rw [registerCommitments_map (fun o => o.evals) (fun _ _ => rfl)] at this
        obtain ⟨o', ho', he⟩ := List.mem_map.1 this
        rw [← he]
        exact (hws o' ho').1
    · obtain ⟨l, hl, hvl⟩ : ∃ l ∈ st.lookups, v = l.aPrime ∨ v = l.sPrime := by
        simpa [primes] using hv
      obtain ⟨i, hi, rfl⟩ := List.getElem_of_mem hl
      have hm := Res.mapM_getElem r.lookups i (by rw [← Res.mapM_length r.lookups]; exact hi)
      unfold verifierLookup at hm
      simp only [Res.bind_eq_ok, Res.mapErr_eq_ok] at hm
      obtain ⟨es, _, ts, _, ⟨a, s⟩, _, e0, _, e1, _, c0, _, e2, _, c1, _, hm⟩ := hm
      have hm := Res.ok.inj hm
      rcases hvl with rfl | rfl
      · rw [← hm] at hy ⊢
        have := VerifierOracle.query_mem hy
        simp only [List.map_cons, List.map_nil, List.mem_cons, List.not_mem_nil, or_false] at this
        rcases this with rfl | rfl
        · exact hprev (mem_setExtend.2 (by simp))
        · exact hcurr (mem_setExtend.2 (by simp))
      · rw [← hm] at hy ⊢
        have := VerifierOracle.query_mem hy
        simp only [List.map_cons, List.map_nil, List.mem_cons, List.not_mem_nil, or_false] at this
        subst this
        exact hcurr (mem_setExtend.2 (by simp))
    · obtain ⟨i, hi, rfl⟩ := List.getElem_of_mem hv
      have hm := Res.mapM_getElem r.lookupZs i (by rw [← Res.mapM_length r.lookupZs]; exact hi)
      unfold verifierLookupZ at hm
      simp only [Res.bind_eq_ok] at hm
      obtain ⟨e0, _, e1, _, hm⟩ := hm
      have hm := Res.ok.inj hm
      rw [← hm] at hy ⊢
      have := VerifierOracle.query_mem hy
      simp only [List.map_cons, List.map_nil, List.mem_cons, List.not_mem_nil, or_false] at this
      rcases this with rfl | rfl
      · exact hnext (mem_setExtend.2 (by simp))
      · exact hcurr (mem_setExtend.2 (by simp))
    · obtain ⟨i, hi, rfl⟩ := List.getElem_of_mem hv
      have hm := Res.mapM_getElem r.quotient i (by rw [← Res.mapM_length r.quotient]; exact hi)
      simp only [Res.bind_eq_ok] at hm
      obtain ⟨e0, _, hm⟩ := hm
      have hm := Res.ok.inj hm
      rw [← hm] at hy ⊢
      have := VerifierOracle.query_mem hy
      simp only [List.map_cons, List.map_nil, List.mem_cons, List.not_mem_nil, or_false] at this
      subst this
      exact hcurr (mem_setExtend.2 (by simp))
    · refine registerAll_opened hd ?_ ?_ r.zs v hv p y hy
      · rw [List.map_map]
        refine List.Nodup.map_on ?_ (List.Nodup.of_map Prod.snd (by rw [List.zipIdx_map_snd]; exact List.nodup_range'))
        rintro ⟨c, i⟩ hci ⟨c', i'⟩ hci' he
        have hii : i = i' := natBytes_inj (List.append_cancel_left he)
        subst hii
        have h1 := List.mem_zipIdx_iff_getElem?.1 hci
        have h2 := List.mem_zipIdx_iff_getElem?.1 hci'
        simp only at h1 h2
        rw [h1] at h2
        rw [Option.some.inj h2]
      · intro o ho
        obtain ⟨c, _, rfl⟩ := List.mem_map.1 ho
        rfl
    · exact registerAll_opened hd hlf hpre.fixed r.fixed v hv p y hy
    · exact registerAll_opened hd hlt hpre.table r.table v hv p y hy
    · rw [r.perm] at hv
      obtain ⟨i, hi, rfl⟩ := List.getElem_of_mem hv
      rw [List.getElem_zipWith] at hy ⊢
      exact hone rfl (hpre.perm _ (List.getElem_mem _)) (hperm _ (List.getElem_mem _)) p y hy
    · rw [hv, r.qBlind] at hy ⊢
      exact hone rfl hpre.qBlind hblind p y hy
  intro v hv p y hy
  obtain ⟨s, ⟨hs, hvs⟩, _⟩ := (C39_partition (fun (o : VerifierOracle F S.Comm) => o.rotations) st.oracles).2.2.2 v hv
  refine ⟨s, hs, hvs, ?_⟩
  have hrot : v.rotations = s.1 := by
    rw [((C39_partition (fun (o : VerifierOracle F S.Comm) => o.rotations) st.oracles).2.1 s hs).1] at hvs
    simpa using (List.mem_filter.1 hvs).2
  obtain ⟨rr, h1, h2⟩ := List.mem_map.1 (hpts v hv p y hy)
  exact ⟨rr, hrot ▸ h1, h2.symm⟩

/-- **C48** A blinding selector that is registered at no rotation, as made by `new_wo_blind`, is not opened: the verifier uses
whatever evaluation the proof claims, and the opening check does not depend on it. -/
theorem C48_blind_unopened {S : Scheme F} {vk : VerifierKey S} {pre : VerifierPreprocessed S} {proof : TPProof S}
    {ws : List (VerifierOracle F S.Comm)} {is : List (InstanceVerifierOracle F)} {domainSize : Nat} {ch : Challenges F}
    {st : VState S} (hrot : pre.qBlind.rotations = []) (h : verifyRegister S vk pre proof ws is domainSize ch = .ok st) (e : F) :
    ∃ st', verifyRegister S vk pre { proof with qBlindEval := e } ws is domainSize ch = .ok st' ∧
      st'.pre.qBlind.query ch.xi = .ok e ∧
      ∀ (mp : MpProof S) (t : S.T), mpVerify S vk.vk mp st'.oracles ch.xi domainSize t = mpVerify S vk.vk mp st.oracles ch.xi domainSize t := by
  obtain ⟨d, r⟩ := verifyRegister_iff.1 h
  have hd := Domain.new_ok r.dom
  refine ⟨{ st with pre := { st.pre with qBlind := pre.qBlind.registerEval ch.xi e } }, ?_, ?_, ?_⟩
  · exact verifyRegister_iff.2 ⟨d, { r with qBlind := rfl }⟩
  · show (pre.qBlind.registerEval ch.xi e).query ch.xi = _
    rw [VerifierOracle.query_registerEval, if_pos rfl]
  · intro mp t
    unfold mpVerify
    rw [r.dom]
    simp only [Res.unwrap, Res.bind_ok]
    refine mpVerifyWith_sameOpened hd ?_ mp _ _ _ _
    have hrefl : ∀ l : List (VerifierOracle F S.Comm), List.Forall₂ (SameOpened d ch.xi) l l := by
      intro l
      induction l with
      | nil => exact .nil
      | cons a l ih => exact .cons ⟨rfl, rfl, fun _ _ => rfl⟩ ih
    unfold VState.oracles openingOrder
    refine List.rel_append (hrefl _) (List.rel_append (hrefl _) (.cons ⟨?_, ?_, ?_⟩ .nil))
    · rw [r.qBlind]; rfl
    · rw [r.qBlind]; rfl
    · intro p hp
      rw [r.qBlind] at hp
      have : (pre.qBlind.registerEval ch.xi proof.qBlindEval).rotations = [] := hrot
      rw [this] at hp
      simp [points] at hp

/-- **C48** The same for permutation polynomials that are registered at no rotation, as made by `FixedVerifierOracle::new`. -/
theorem C48_perm_unopened {S : Scheme F} {vk : VerifierKey S} {pre : VerifierPreprocessed S} {proof : TPProof S}
    {ws : List (VerifierOracle F S.Comm)} {is : List (InstanceVerifierOracle F)} {domainSize : Nat} {ch : Challenges F}
    {st : VState S} (hrot : ∀ o ∈ pre.perm, o.rotations = []) (h : verifyRegister S vk pre proof ws is domainSize ch = .ok st)
    (es : List F) (hes : es.length = proof.permEvals.length) :
    ∃ st', verifyRegister S vk pre { proof with permEvals := es } ws is domainSize ch = .ok st' ∧
      List.Forall₂ (fun v e => v.query ch.xi = .ok e) st'.pre.perm es ∧
      ∀ (mp : MpProof S) (t : S.T), mpVerify S vk.vk mp st'.oracles ch.xi domainSize t = mpVerify S vk.vk mp st.oracles ch.xi domainSize t := by
  obtain ⟨d, r⟩ := verifyRegister_iff.1 h
  have hd := Domain.new_ok r.dom
  have hl := r.permLength
  refine ⟨{ st with pre := { st.pre with
    perm := List.zipWith (fun (o : VerifierOracle F S.Comm) e => o.registerEval ch.xi e) pre.perm es } }, ?_, ?_, ?_⟩
  · exact verifyRegister_iff.2 ⟨d, { r with permLength := by rw [hl, ← hes], perm := rfl }⟩
  · show List.Forall₂ _ (List.zipWith _ pre.perm es) es
    rw [← hes] at hl
    clear r hes h hrot
    generalize pre.perm = l at hl
    induction l generalizing es with
    | nil =>
      cases es with
      | nil => exact .nil
      | cons e es => simp at hl
    | cons o l ih =>
      cases es with
      | nil => exact .nil
      | cons e es => exact .cons (by rw [VerifierOracle.query_registerEval, if_pos rfl]) (ih es (by simpa using hl))
  · intro mp t
    unfold mpVerify
    rw [r.dom]
    simp only [Res.unwrap, Res.bind_ok]
    refine mpVerifyWith_sameOpened hd ?_ mp _ _ _ _
    have hrefl : ∀ l : List (VerifierOracle F S.Comm), List.Forall₂ (SameOpened d ch.xi) l l := by
      intro l
      induction l with
      | nil => exact .nil
      | cons a l ih => exact .cons ⟨rfl, rfl, fun _ _ => rfl⟩ ih
    unfold VState.oracles openingOrder
    refine List.rel_append (hrefl _) (List.rel_append (List.rel_append (hrefl _) ?_) (hrefl _))
    rw [r.perm]
    show List.Forall₂ _ _ (List.zipWith _ pre.perm es)
    clear r h
    generalize pre.perm = l at hl hrot
    generalize proof.permEvals = es' at hl hes
    induction l generalizing es es' with
    | nil => cases es <;> exact .nil
    | cons o l ih =>
      cases es' with
      | nil => simp at hl
      | cons e' es' =>
        cases es with
        | nil => simp at hes
        | cons e es =>
          refine .cons ⟨rfl, rfl, ?_⟩ (ih es (fun o ho => hrot o (by simp [ho])) es' (by simpa using hl) (by simpa using hes))
          intro p hp
          have : (o.registerEval ch.xi e').rotations = [] := hrot o (by simp)
          rw [this] at hp
          simp [points] at hp

end

/-! ### The claim is false for `new_wo_blind` -/

namespace Toy

/-- A witness that satisfies the gates, but `a[0] ≠ b[1]` and `c[0]` is not in the table. -/
def witnessCheat : List (ProverOracle F97) :=
  [column .witness [1] [2, 3, 11, 4] [.curr] true, column .witness [2] [8, 7, 2, 6] [.curr, .next] true,
    column .witness [3] [16, 26, 9, 2] [.curr] false]

/-- The verifier's preprocessed input made with `new_wo_blind`. -/
def vpreWoBlind : VerifierPreprocessed S := .newWoBlind S (fixed.map published) (table.map published) (sigma.map published)

/-- A polynomial of the cheating prover, not an honest column. -/
def made (l : Label) (poly : List F97) (rots : List Rotation) : ProverOracle F97 := ⟨.witness, l, poly, [], none, rots, false⟩

def nth (os : List (ProverOracle F97)) (i : Nat) : List F97 := (os[i]?.map (·.poly)).getD []

/-- `p(w X)`. -/
def shiftPoly (p : List F97) : List F97 := p.zipIdx.map fun c => c.1 * dom.omega ^ c.2

/-- The proof of the cheating prover: `z = 1` and `a' = s' = 0` for both arguments, the quotient accounts for the gates
only, and the claimed evaluation of the blinding selector is `1 - lu(xi)`. -/
def cheat : Res (Err Unit) (TPProof S) := do
  let wc : List (List F97) := witnessCheat.map (·.poly)
  let t := S.fsInit (bytes "TurboPlonk-0.0.1")
  let t := S.absorbComms t wc
  let (_, t) := S.fsRand t
  let t := S.absorbComms t [[], []]
  let (_, t) := S.fsRand t
  let (_, t) := S.fsRand t
  let t := S.absorbComms t [[1]]
  let t := S.absorbComms t [[1]]
  let (alpha, t) := S.fsRand t
  let gate1 := pmul (nth fixed 0) (padd (padd (pmul (nth witnessCheat 0) (nth witnessCheat 1)) (pscale (-1) (nth witnessCheat 2)))
    (nth inst 0))
  let gate2 := pmul (nth fixed 1) (padd (shiftPoly (nth witnessCheat 1)) [-7])
  let quo ← pdiv (padd gate1 (pscale alpha gate2)) dom.vanishing
  let qs := (chunks 4 quo).map trim
  let t := S.absorbComms t qs
  let (xi, t) := S.fsRand t
  let lu ← lagrangeRow dom 4 2
  let omegas := dom.elements
  let wq ← getQuerySet witnessCheat xiLabel xi omegas
  let witnessEvals ← evaluateQuerySet witnessCheat wq
  let fq ← getQuerySet fixed xiLabel xi omegas
  let fixedEvals ← evaluateQuerySet fixed fq
  let tq ← getQuerySet table xiLabel xi omegas
  let tableEvals ← evaluateQuerySet table tq
  let oracles := openingOrder witnessCheat
    [made [] [] (setExtend [] [.curr, .prev]), made [] [] (setExtend [] [.curr])]
    [made [] [1] (setExtend [] [.curr, .next])] (qs.map fun q => made [] q (setExtend [] [.curr]))
    [made [] [1] (setExtend [] [.curr, .next])] fixed table sigma (made [] [] [])
  let mp ← (mpProve S () oracles (oracles.map fun _ => ()) xi 4 t ()).mapErr Err.multiproof
  pure ⟨wc, witnessEvals, fixedEvals, tableEvals, sigma.map (·.query xi), 1 - peval lu xi, [[], []], [[1]], [0, 0, 0], [1, 1],
    [[1]], [1, 1], qs, qs.map (peval · xi), mp⟩

/-- The outcomes with `new` and an opened blinding selector, and with `new_wo_blind`. -/
def cheatHolds (P : VerifierKey S → TPProof S → Bool) : Bool :=
  match key, cheat with
  | .ok k, .ok p => P k p
  | _, _ => false

theorem of_cheatHolds {P : VerifierKey S → TPProof S → Bool} (h : cheatHolds P = true) :
    ∃ k p, key = .ok k ∧ cheat = .ok p ∧ P k p = true := by
  unfold cheatHolds at h
  split at h
  · rename_i k p hk hp
    exact ⟨k, p, hk, hp, h⟩
  · simp at h

/-- Verification with the preprocessed input of `new_wo_blind`. -/
def verifyWoBlind (k : VerifierKey S) (p : TPProof S) : Res (Err Unit) Unit :=
  verify S k vpreWoBlind p (witness.map blank) vinst vos 4 dom.vanishing

/-- Does the proof have a `q` evaluation for every opening set? -/
def fullWoBlind (k : VerifierKey S) (p : TPProof S) : Bool :=
  match verifyRegister S k vpreWoBlind p (witness.map blank) vinst 4 (verifierChallenges S p).1 with
  | .ok st => decide (distinctRotations st.oracles = p.multiopen.qEvals.length)
  | _ => false

end Toy

/-- **C48** fails: with the preprocessed input made by `new_wo_blind` the evaluation of the blinding selector is not opened,
and a proof is accepted although the committed witness columns break the copy constraint (`a[0] = b[1]`, which is what the
permutation polynomials say) and the lookup (`c[0]` is not in the table). The proof has as many `q` evaluations as there are
opening sets, and is rejected when the blinding selector is opened. -/
theorem C48_false : ∃ k p, Toy.key = .ok k ∧
    p.witnessCommitments = [trim (Toy.dom.ifft [2, 3, 11, 4]), trim (Toy.dom.ifft [8, 7, 2, 6]), trim (Toy.dom.ifft [16, 26, 9, 2])] ∧
    Toy.sigma.map (fun o => o.evals.take 2) = [[5 * Toy.dom.omega, Toy.dom.omega], [5, 1]] ∧
    Toy.table.map (fun o => o.evals.take 2) = [[26, 56]] ∧
    verify Toy.S k (.newWoBlind Toy.S (Toy.fixed.map Toy.published) (Toy.table.map Toy.published) (Toy.sigma.map Toy.published)) p
      (Toy.witness.map Toy.blank) Toy.vinst Toy.vos 4 Toy.dom.vanishing = .ok () ∧
    (∃ st, verifyRegister Toy.S k (.newWoBlind Toy.S (Toy.fixed.map Toy.published) (Toy.table.map Toy.published)
      (Toy.sigma.map Toy.published)) p (Toy.witness.map Toy.blank) Toy.vinst 4 (verifierChallenges Toy.S p).1 = .ok st ∧
      distinctRotations st.oracles = p.multiopen.qEvals.length) ∧
    Toy.verifyWith k Toy.vinst p ≠ .ok () := by
  obtain ⟨k, p, h1, _, h3⟩ := Toy.of_cheatHolds (P := fun k p => decide (
    (show List (List F97) from p.witnessCommitments) = [trim (Toy.dom.ifft [2, 3, 11, 4]), trim (Toy.dom.ifft [8, 7, 2, 6]), trim (Toy.dom.ifft [16, 26, 9, 2])] ∧
    Toy.verifyWoBlind k p = .ok () ∧ Toy.fullWoBlind k p = true ∧ Toy.verifyWith k Toy.vinst p ≠ .ok ())) (by decide +kernel)
  obtain ⟨g1, g2, g3, g4⟩ := of_decide_eq_true h3
  refine ⟨k, p, h1, g1, by decide +kernel, by decide +kernel, g2, ?_, g4⟩
  unfold Toy.fullWoBlind at g3
  split at g3
  · rename_i st hst
    exact ⟨st, hst, of_decide_eq_true g3⟩
  · simp at g3

/-- The hypotheses of `C48_opened_partial` hold for the toy circuit, and the registered state answers queries. -/
example : ∃ k p st, Toy.key = .ok k ∧ Toy.verifyWith k Toy.vinst p = .ok () ∧
    verifyRegister Toy.S k Toy.vpre p (Toy.witness.map Toy.blank) Toy.vinst 4 (verifierChallenges Toy.S p).1 = .ok st ∧
    10 ≤ st.oracles.length ∧
    ∀ v ∈ st.oracles, ∀ x y, v.query x = .ok y →
      ∃ s ∈ openingSets (fun (o : VerifierOracle F97 (List F97)) => o.rotations) st.oracles, v ∈ s.2 ∧
        ∃ r ∈ s.1, x = (verifierChallenges Toy.S p).1.xi * Toy.dom.omega ^ r.signed := by
  obtain ⟨k, p, h1, _, h3⟩ := Toy.of_holds (ws := Toy.witness) (P := fun k p =>
    match verifyRegister Toy.S k Toy.vpre p (Toy.witness.map Toy.blank) Toy.vinst 4 (verifierChallenges Toy.S p).1 with
    | .ok st => decide (Toy.verifyWith k Toy.vinst p = .ok () ∧ 10 ≤ st.oracles.length)
    | _ => false) (by decide +kernel)
  split at h3
  · rename_i st hst
    obtain ⟨g1, g2⟩ := of_decide_eq_true h3
    exact ⟨k, p, st, h1, g1, hst, g2, C48_opened_partial (by decide +kernel)
      (fun o ho => ⟨(by decide : ∀ o ∈ Toy.witness.map Toy.blank, o.evals = []) o ho,
        (by decide : ∀ o ∈ Toy.witness.map Toy.blank, o.commitment = none) o ho⟩) ⟨by decide, by decide, by decide, by decide⟩
      (by decide) (by decide) (by decide) (by decide) (by decide) hst⟩
  · simp at h3

end ZK
