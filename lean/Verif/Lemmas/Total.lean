import Verif.Spec.Ready
import Verif.Lemmas.SoundRegister
import Verif.Properties.Verifier
/-! The verifier reads every proof of the right shape. -/
set_option autoImplicit false
set_option linter.unusedSectionVars false
namespace ZK
open Polynomial

section
variable {F : Type} [Field F] [LinearOrder F] [FftParams F] [LawfulFft F]

/-- `o'` is `o` with evaluations at all points of its rotations. -/
structure Filled {C : Type} (d : Domain F) (xi : F) (o o' : VerifierOracle F C) : Prop where
  label : o'.label = o.label
  rotations : o'.rotations = o.rotations
  copy : o'.shouldPermute = o.shouldPermute
  answers : ∀ r ∈ o.rotations, ∃ y, o'.query (xi * d.omega ^ r.signed) = .ok y

omit [Field F] [FftParams F] [LawfulFft F] in
theorem assocGet_of_mem {β : Type} {x : F} {l : List (F × β)} (h : x ∈ l.map Prod.fst) : ∃ y, assocGet x l = some y := by
  induction l with
  | nil => simp at h
  | cons a l ih =>
    obtain ⟨k, e⟩ := a
    by_cases hk : x = k
    · exact ⟨e, by simp [assocGet, hk]⟩
    · rw [List.map_cons, List.mem_cons] at h
      obtain ⟨y, hy⟩ := ih (h.resolve_left hk)
      exact ⟨y, by rw [assocGet, if_neg hk]; exact hy⟩

theorem registerAll_total {C : Type} {d : Domain F} (hd : d.Ok) (missing : Label → PiopErr) (os : List (VerifierOracle F C))
    (xi : F) (evals : List F) (hnd : (os.map (·.label)).Nodup) (hr : ∀ o ∈ os, ∀ r ∈ o.rotations, r.degree < d.size) :
    (evals.length = expectedEvals os →
      ∃ os', registerAll missing os xi d.elements evals = .ok os' ∧ List.Forall₂ (Filled d xi) os os') ∧
    (evals.length ≠ expectedEvals os → registerAll missing os xi d.elements evals = .panic) := by
  obtain ⟨qs, h1, h2, h3⟩ := getQuerySet_ok (ε := PiopErr) hd os xiLabel xi hr
  have hlen := getQuerySet_length hd h1
  constructor
  · intro he
    have hmem : ∀ p ∈ List.zip qs evals, (ofLex p.1).1 ∈ os.map (·.label) := by
      rintro ⟨q, e⟩ hp
      obtain ⟨o, ho, r, _, rfl⟩ := (h3 q).1 (List.of_mem_zip hp).1
      exact List.mem_map.2 ⟨o, ho, rfl⟩
    refine ⟨os.map (fun o => { o with evals := registered (List.zip qs evals) o.label ++ o.evals }), ?_, ?_⟩
    · unfold registerAll
      rw [h1]
      simp only [Res.bind_ok, hlen, he, decide_true, Res.assert_true]
      exact registerEvals_ok missing _ os hnd hmem
    · rw [List.forall₂_map_right_iff, List.forall₂_same]
      intro o ho
      refine ⟨rfl, rfl, rfl, fun r hro => ?_⟩
      obtain ⟨k, hk, hkq⟩ := List.getElem_of_mem ((h3 _).2 ⟨o, ho, r, hro, rfl⟩)
      have hk' : k < evals.length := by rw [he, ← hlen]; exact hk
      obtain ⟨y, hy⟩ := assocGet_of_mem (x := xi * d.omega ^ r.signed) (l := registered (List.zip qs evals) o.label ++ o.evals) (by
        rw [List.map_append, List.mem_append]
        left
        rw [registered, List.map_reverse, List.mem_reverse, List.map_map, List.mem_map]
        refine ⟨(qs[k], evals[k]), ?_, ?_⟩
        · rw [List.mem_filter]
          refine ⟨?_, ?_⟩
          · rw [List.mem_iff_getElem]
            exact ⟨k, by rw [List.length_zip]; omega, by rw [List.getElem_zip]⟩
          · rw [hkq]
            exact decide_eq_true rfl
        · simp only [Function.comp, hkq]
          rfl)
      exact ⟨y, by rw [VerifierOracle.query]; simp only [hy]⟩
  · intro he
    unfold registerAll
    rw [h1]
    simp only [Res.bind_ok, hlen]
    rw [decide_eq_false (Ne.symm he)]
    rfl

/-- `r` returns no error, and does not panic if `P` holds. -/
def Res.Reads {ε α : Type} (P : Prop) (r : Res ε α) : Prop := (∀ e, r ≠ .err e) ∧ (P → r ≠ .panic)

namespace Res.Reads
variable {ε ε' α β : Type} {P : Prop}

theorem ok (a : α) : Res.Reads P (.ok a : Res ε α) := ⟨by simp, by simp⟩

theorem bind {x : Res ε α} {f : α → Res ε β} (h : Res.Reads P x) (hf : ∀ a, x = .ok a → Res.Reads P (f a)) :
    Res.Reads P (x >>= f) := by
  cases x with
  | ok a => exact hf a rfl
  | err e => exact absurd rfl (h.1 e)
  | panic => exact ⟨by simp, fun hP => absurd rfl (h.2 hP)⟩

theorem assert {b : Bool} (h : P → b = true) : Res.Reads P (Res.assert b : Res ε Unit) := by
  refine ⟨fun e => Res.assert_ne_err, fun hP => ?_⟩
  rw [h hP]
  simp

theorem idx {l : List α} {i : Nat} (h : P → i < l.length) : Res.Reads P (Res.idx l i : Res ε α) := by
  refine ⟨fun e => ?_, fun hP => ?_⟩
  · unfold Res.idx
    split <;> simp
  · rw [Res.idx_of_lt (h hP)]
    simp

theorem mapErr {x : Res ε α} {f : ε → ε'} (h : Res.Reads P x) : Res.Reads P (x.mapErr f) := by
  cases x with
  | ok a => exact ok a
  | err e => exact absurd rfl (h.1 e)
  | panic => exact ⟨by simp, fun hP => absurd rfl (h.2 hP)⟩

theorem mapM {f : α → Res ε β} {l : List α} (h : ∀ a ∈ l, Res.Reads P (f a)) : Res.Reads P (Res.mapM f l) := by
  induction l with
  | nil => exact ok []
  | cons a l ih =>
    rw [Res.mapM_cons]
    refine bind (h a (by simp)) (fun b _ => bind (ih (fun a ha => h a (by simp [ha]))) (fun bs _ => ok _))

theorem of_ok {x : Res ε α} (h : ∃ a, x = .ok a) : Res.Reads P x := by
  obtain ⟨a, rfl⟩ := h
  exact ok a

theorem exists_ok {x : Res ε α} (h : Res.Reads P x) (hP : P) : ∃ a, x = .ok a := by
  cases x with
  | ok a => exact ⟨a, rfl⟩
  | err e => exact absurd rfl (h.1 e)
  | panic => exact absurd rfl (h.2 hP)

end Res.Reads

theorem registerAll_reads {C : Type} {d : Domain F} (hd : d.Ok) (missing : Label → PiopErr) (os : List (VerifierOracle F C))
    (xi : F) (evals : List F) (hnd : (os.map (·.label)).Nodup) (hr : ∀ o ∈ os, ∀ r ∈ o.rotations, r.degree < d.size) {P : Prop}
    (hP : P → evals.length = expectedEvals os) : Res.Reads P (registerAll missing os xi d.elements evals) := by
  by_cases he : evals.length = expectedEvals os
  · obtain ⟨os', h, _⟩ := (registerAll_total hd missing os xi evals hnd hr).1 he
    exact .of_ok ⟨_, h⟩
  · rw [(registerAll_total hd missing os xi evals hnd hr).2 he]
    exact ⟨by simp, fun h => absurd (hP h) he⟩

theorem registerAll_filled {C : Type} {d : Domain F} (hd : d.Ok) {missing : Label → PiopErr} {os os' : List (VerifierOracle F C)}
    {xi : F} {evals : List F} (hnd : (os.map (·.label)).Nodup) (hr : ∀ o ∈ os, ∀ r ∈ o.rotations, r.degree < d.size)
    (h : registerAll missing os xi d.elements evals = .ok os') : List.Forall₂ (Filled d xi) os os' := by
  obtain ⟨os'', h1, h2⟩ := (registerAll_total hd missing os xi evals hnd hr).1 (registerAll_inv hd h).1
  obtain rfl := Res.ok.inj (h.symm.trans h1)
  exact h2

omit [FftParams F] [LawfulFft F] in
theorem filled_of_commitments {C : Type} {d : Domain F} {xi : F} {os : List (VerifierOracle F C)} {cs : List C} {os' : List (VerifierOracle F C)}
    (h : List.Forall₂ (Filled d xi) (registerCommitments os cs) os') : List.Forall₂ (Filled d xi) os os' := by
  induction os generalizing cs os' with
  | nil => simpa [registerCommitments] using h
  | cons o os ih =>
    cases cs with
    | nil => exact h
    | cons c cs =>
      rw [registerCommitments] at h
      cases h with
      | cons h1 h2 => exact .cons ⟨h1.label, h1.rotations, h1.copy, h1.answers⟩ (ih h2)

omit [FftParams F] [LawfulFft F] in
theorem Known.answers {C : Type} {d : Domain F} {xi : F} {ws ws' fixed fixed' table : List (VerifierOracle F C)}
    {is : List (InstanceVerifierOracle F)} {qs : List OracleQuery} (hw : List.Forall₂ (Filled d xi) ws ws')
    (hf : List.Forall₂ (Filled d xi) fixed fixed') (h : ∀ q ∈ qs, Known d.size ws is fixed q) :
    ∃ P, VerifierAnswers d ⟨ws', is, fixed', table⟩ xi qs P := by
  have key : ∀ q : OracleQuery, ∃ p : F[X], q ∈ qs → q.rotation.degree < d.size ∧
      (q.oracleType = .witness → ∃ o, Resolves ws' q.label o ∧ o.query (xi * d.omega ^ q.rotation.signed) = .ok (p.eval xi)) ∧
      (q.oracleType = .fixed → ∃ o, Resolves fixed' q.label o ∧ o.query (xi * d.omega ^ q.rotation.signed) = .ok (p.eval xi)) ∧
      (q.oracleType = .instance_ → ∃ o, Resolves is q.label o ∧ p = shifted d (toPoly o.poly) q.rotation) := by
    intro q
    by_cases hq : q ∈ qs
    · obtain ⟨h0, h1, h2, h3⟩ := h q hq
      have step : ∀ {os os' : List (VerifierOracle F C)}, List.Forall₂ (Filled d xi) os os' →
          (∃ o, Resolves os q.label o ∧ q.rotation ∈ o.rotations) →
          ∃ y o, Resolves os' q.label o ∧ o.query (xi * d.omega ^ q.rotation.signed) = .ok ((Polynomial.C y : F[X]).eval xi) := by
        rintro os os' hos ⟨o, ho, hr⟩
        obtain ⟨v, hv, g⟩ := Resolves.of_forall₂ hos (fun _ _ g => g.label) ho
        obtain ⟨y, hy⟩ := g.answers _ hr
        exact ⟨y, v, hv, by rw [hy, eval_C]⟩
      cases hty : q.oracleType with
      | witness =>
        obtain ⟨y, o, g⟩ := step hw (h1 hty)
        exact ⟨Polynomial.C y, fun _ => ⟨h0, fun _ => ⟨o, g⟩, by simp, by simp⟩⟩
      | fixed =>
        obtain ⟨y, o, g⟩ := step hf (h2 hty)
        exact ⟨Polynomial.C y, fun _ => ⟨h0, by simp, fun _ => ⟨o, g⟩, by simp⟩⟩
      | instance_ =>
        obtain ⟨o, g⟩ := h3 hty
        exact ⟨_, fun _ => ⟨h0, by simp, by simp, fun _ => ⟨o, g, rfl⟩⟩⟩
    · exact ⟨0, fun h => absurd h hq⟩
  choose P hP using key
  exact ⟨P, fun q hq => hP q hq⟩

theorem signed_of_degree {r : Rotation} (h : r.degree = 0) : r.signed = 0 := by
  unfold Rotation.signed
  cases r.sign <;> simp [h]

section
variable {S : Scheme F} {index : Index F} {pre : VerifierPreprocessed S} {ws : List (VerifierOracle F S.Comm)}
  {is : List (InstanceVerifierOracle F)} {vos : List (GenericVO F)} {d : Domain F}

/-- The compressed values of a lookup can be computed. -/
theorem Ready.unpermuted (hR : Ready d.size index pre ws is vos) (hd : d.Ok) {xi theta : F} {ws' fixed' table' : List (VerifierOracle F S.Comm)}
    (hw : List.Forall₂ (Filled d xi) ws ws') (hf : List.Forall₂ (Filled d xi) pre.fixed fixed')
    (ht : List.Forall₂ (Filled d xi) pre.table table') {l : GenericLookupVO F} (hl : l ∈ index.lookups) (i : Nat) :
    ∃ es ts, l.getExpressions = .ok es ∧ l.getTableQueries = .ok ts ∧
      ∃ p, lookupUnpermuted ⟨ws', is, fixed', table'⟩ i es ts theta xi d.elements = .ok p := by
  obtain ⟨es, ts, h1, h2, h3, h4, h5⟩ := hR.lookups l hl
  have key : ∀ e : Expr F, ∃ y, e ∈ es → e.evalR ((⟨ws', is, fixed', table'⟩ : VerifierView F S.Comm).lookupAt xi d.elements) = .ok y := by
    intro e
    by_cases he : e ∈ es
    · obtain ⟨P, hP⟩ := Known.answers (table := table') hw hf (fun q hq => (h4 e he q hq).1)
      exact ⟨_, fun _ => Expr.evalR_ok (VerifierView.lookupAt_ok hd hP (fun q hq => (h4 e he q hq).2))⟩
    · exact ⟨0, fun h => absurd h he⟩
  choose g hg using key
  have keyT : ∀ t : OracleQuery, ∃ y, t ∈ ts → (⟨ws', is, fixed', table'⟩ : VerifierView F S.Comm).tableAt xi t = .ok y := by
    intro t
    by_cases hts : t ∈ ts
    · obtain ⟨g1, o, g2, r, g3, g4⟩ := h5 t hts
      obtain ⟨v, hv, g⟩ := Resolves.of_forall₂ ht (fun _ _ g => g.label) g2
      obtain ⟨y, hy⟩ := g.answers _ g3
      rw [signed_of_degree g4, zpow_zero, mul_one] at hy
      refine ⟨y, fun _ => ?_⟩
      unfold VerifierView.tableAt
      rw [g1]
      simp only
      rw [withOracle_of hv, hy]
    · exact ⟨0, fun h => absurd h hts⟩
  choose gT hgT using keyT
  refine ⟨es, ts, h1, h2, ?_⟩
  unfold lookupUnpermuted
  rw [thetaAgg_ok (g := g) theta es (fun e he => hg e he), thetaAgg_ok (g := gT) theta ts (fun t ht => hgT t ht)]
  simp only [h3, decide_true, Res.assert_true, Res.bind_ok]
  exact ⟨_, rfl⟩

omit [LawfulFft F] in
theorem zs_labels (u : Nat) (cs : List S.Comm) : ((cs.zipIdx.map (verifierZ (S := S) u cs.length)).map (·.label)).Nodup := by
  rw [List.map_map]
  refine List.Nodup.map_on ?_ (List.Nodup.of_map Prod.snd (by rw [List.zipIdx_map_snd]; exact List.nodup_range'))
  rintro ⟨c, i⟩ hc ⟨c', j⟩ hc' h
  have hij : i = j := natBytes_inj (List.append_cancel_left h)
  subst hij
  rw [List.mem_zipIdx_iff_getElem?] at hc hc'
  simp only at hc hc'
  rw [Option.some.inj (hc.symm.trans hc')]

omit [LawfulFft F] in
theorem zs_rotations {u n : Nat} (hn : 1 < n) (hu : u < n) (cs : List S.Comm) (m : Nat) :
    ∀ o ∈ cs.zipIdx.map (verifierZ (S := S) u m), ∀ r ∈ o.rotations, r.degree < n := by
  intro o ho r hr
  obtain ⟨p, _, rfl⟩ := List.mem_map.1 ho
  have hrot : setExtend [] [Rotation.curr, Rotation.next] = [Rotation.curr, Rotation.next] := by decide
  unfold verifierZ at hr
  simp only [hrot] at hr
  split at hr
  · rw [mem_setInsert] at hr
    rcases hr with rfl | hr
    · exact hu
    · simp only [List.mem_cons, List.not_mem_nil, or_false] at hr
      rcases hr with rfl | rfl <;> simp [Rotation.curr, Rotation.next] <;> omega
  · simp only [List.mem_cons, List.not_mem_nil, or_false] at hr
    rcases hr with rfl | rfl <;> simp [Rotation.curr, Rotation.next] <;> omega

theorem mem_zip_chunks {α β γ : Type} {k m : Nat} (hk : 0 < k) (hm : 0 < m) {a : List α} {b : List β} {c : List γ} {p : ((α × List β) × List γ) × Nat}
    (hp : p ∈ (List.zip (List.zip a (chunks k b)) (chunks m c)).zipIdx) :
    p.1.1.1 ∈ a ∧ (b.length = k * a.length → p.1.1.2.length = k) ∧ (c.length = m * a.length → p.1.2.length = m) := by
  obtain ⟨⟨⟨x, y⟩, z⟩, i⟩ := p
  rw [List.mem_zipIdx_iff_getElem?] at hp
  simp only [List.getElem?_zip_eq_some] at hp
  obtain ⟨⟨h1, h2⟩, h3⟩ := hp
  have hi := getElem?_some_lt h1
  refine ⟨List.mem_of_getElem? h1, fun hb => ?_, fun hc => ?_⟩
  · rw [chunks_getElem? hk] at h2
    have : k * (i + 1) ≤ k * a.length := Nat.mul_le_mul_left k hi
    rw [Nat.mul_succ] at this
    rw [if_pos (by omega)] at h2
    rw [← Option.some.inj h2, List.length_take, List.length_drop]
    omega
  · rw [chunks_getElem? hm] at h3
    have : m * (i + 1) ≤ m * a.length := Nat.mul_le_mul_left m hi
    rw [Nat.mul_succ] at this
    rw [if_pos (by omega)] at h3
    rw [← Option.some.inj h3, List.length_take, List.length_drop]
    omega

theorem ceil_unique {c k m m' : Nat} (h1 : (m - 1) * k < c) (h2 : c ≤ m * k) (h3 : (m' - 1) * k < c) (h4 : c ≤ m' * k) : m = m' := by
  have key : ∀ {m m' : Nat}, (m - 1) * k < c → c ≤ m' * k → m ≤ m' := by
    intro m m' h1 h2
    by_contra hlt
    have : m' * k ≤ (m - 1) * k := Nat.mul_le_mul_right k (by omega)
    omega
  exact Nat.le_antisymm (key h1 h4) (key h3 h2)

theorem numberOfZPolys_reads {ε : Type} (p : PermutationArgument F) {c m : Nat} (hp : c ≠ 0 → 0 < p.maxCols)
    (h : if c = 0 then m = 0 else (m - 1) * p.maxCols < c ∧ c ≤ m * p.maxCols) :
    (p.numberOfZPolys c : Res ε Nat) = .ok m := by
  unfold PermutationArgument.numberOfZPolys
  by_cases h0 : c = 0
  · rw [if_pos h0] at h ⊢
    rw [h]
  · rw [if_neg h0] at h ⊢
    have hk := hp h0
    rw [if_neg hk.ne']
    congr 1
    set k := p.maxCols
    have hdm := Nat.div_add_mod c k
    have hml := Nat.mod_lt c hk
    refine ceil_unique ?_ ?_ h.1 h.2
    · split
      · rw [Nat.add_sub_cancel, Nat.mul_comm (c / k)]
        omega
      · rename_i he
        simp only [ne_eq, not_not] at he
        have hq : 0 < c / k := by
          rcases Nat.eq_zero_or_pos (c / k) with h | h
          · rw [h, he] at hdm; simp at hdm; omega
          · exact h
        rw [Nat.add_zero, Nat.sub_mul, Nat.mul_comm (c / k)]
        have : k ≤ k * (c / k) := Nat.le_mul_of_pos_right _ hq
        omega
    · split
      · rw [Nat.add_mul, Nat.mul_comm (c / k)]
        omega
      · rw [Nat.add_zero, Nat.mul_comm (c / k)]
        omega

theorem Filled.copied {C : Type} {xi : F} {os os' : List (VerifierOracle F C)} (h : List.Forall₂ (Filled d xi) os os') :
    List.Forall₂ (Filled d xi) (os.filter (·.shouldPermute)) (os'.filter (·.shouldPermute)) := by
  induction h with
  | nil => exact .nil
  | @cons o o' _ _ h _ ih =>
    by_cases hc : o.shouldPermute = true
    · rw [List.filter_cons_of_pos hc, List.filter_cons_of_pos (h.copy.trans hc)]
      exact .cons h ih
    · rw [List.filter_cons_of_neg hc, List.filter_cons_of_neg (by rw [h.copy]; exact hc)]
      exact ih

theorem Ready.commitments (hR : Ready d.size index pre ws is vos) (cs : List S.Comm) :
    ((registerCommitments ws cs).map (·.label)).Nodup ∧ ∀ o ∈ registerCommitments ws cs, ∀ r ∈ o.rotations, r.degree < d.size := by
  have hc := registerCommitments_config ws cs
  constructor
  · have := congrArg (List.map Prod.fst) hc
    simp only [List.map_map] at this
    have h2 : (registerCommitments ws cs).map (·.label) = ws.map (·.label) := this
    rw [h2]
    exact hR.labels.1
  · intro o ho r hr
    have hm : (o.label, o.rotations, o.shouldPermute) ∈ ws.map (fun o => (o.label, o.rotations, o.shouldPermute)) := by
      rw [← hc]
      exact List.mem_map.2 ⟨o, ho, rfl⟩
    obtain ⟨o', ho', he⟩ := List.mem_map.1 hm
    simp only [Prod.mk.injEq] at he
    exact hR.rotations o' (by simp [ho']) r (by rw [he.2.1]; exact hr)

/-- Registration returns no error, and does not panic if the proof has the right shape. -/
theorem Ready.register_reads {vk : VerifierKey S} (hR : Ready d.size vk.index pre ws is vos) (hd : d.Ok) (proof : TPProof S) (ch : Challenges F) :
    Res.Reads (WellShaped vk.index pre ws proof) (verifyRegister S vk pre proof ws is d.size ch) := by
  have hcom := hR.commitments proof.witnessCommitments
  have hrf : ∀ o ∈ pre.fixed, ∀ r ∈ o.rotations, r.degree < d.size := fun o ho => hR.rotations o (by simp [ho])
  have hrt : ∀ o ∈ pre.table, ∀ r ∈ o.rotations, r.degree < d.size := fun o ho => hR.rotations o (by simp [ho])
  unfold verifyRegister
  refine .bind (.mapM fun p hp => ?_) fun quotient _ => ?_
  · refine .bind (.idx fun hW => ?_) fun _ _ => .ok _
    have := snd_lt_of_mem_zipIdx hp
    have := hW.quotientEvals
    omega
  rw [hd.new_self, Res.unwrap_some, Res.bind_ok]
  refine .bind (.mapErr (registerAll_reads hd _ _ _ _ hcom.1 hcom.2 fun hW => ?_)) fun ws' hws => ?_
  · rw [hW.witnessEvals]
    exact (expectedEvals_congr (registerCommitments_config _ _)).symm
  refine .bind (.mapErr (registerAll_reads hd _ _ _ _ hR.labels.2.1 hrf fun hW => hW.fixedEvals)) fun fixed' hfx => ?_
  refine .bind (.mapErr (registerAll_reads hd _ _ _ _ hR.labels.2.2 hrt fun hW => hW.tableEvals)) fun table' htb => ?_
  have hw := filled_of_commitments (registerAll_filled hd hcom.1 hcom.2 (Res.mapErr_eq_ok.1 hws))
  have hf := registerAll_filled hd hR.labels.2.1 hrf (Res.mapErr_eq_ok.1 hfx)
  have ht := registerAll_filled hd hR.labels.2.2 hrt (Res.mapErr_eq_ok.1 htb)
  refine .bind (.assert fun hW => by simpa using hW.permEvals.symm) fun _ _ => ?_
  refine .bind (.assert fun hW => ?_) fun _ _ => ?_
  · rw [decide_eq_true_eq, Domain.element, pow_one]
    exact hd.omega_ne_zero
  refine .bind (.assert fun hW => ?_) fun _ _ => ?_
  · rw [decide_eq_true_eq, chunks_length (by norm_num), hW.lookupCommitments]
    omega
  refine .bind (.assert fun hW => ?_) fun _ _ => ?_
  · rw [decide_eq_true_eq, chunks_length (by norm_num), hW.lookupEvals]
    omega
  refine .bind (.mapM fun p hp => ?_) fun lookups _ => ?_
  · obtain ⟨h1, h2, h3⟩ := mem_zip_chunks (by norm_num) (by norm_num) hp
    obtain ⟨es, ts, g1, g2, q, g3⟩ := hR.unpermuted hd (theta := ch.theta) hw hf ht h1 p.2
    unfold verifierLookup
    rw [g1, g2]
    simp only [Res.mapErr_ok, Res.bind_ok]
    rw [g3]
    simp only [Res.mapErr_ok, Res.bind_ok]
    refine .bind (.idx fun hW => ?_) fun _ _ => .bind (.idx fun hW => ?_) fun _ _ => .bind (.idx fun hW => ?_) fun _ _ =>
      .bind (.idx fun hW => ?_) fun _ _ => .bind (.idx fun hW => ?_) fun _ _ => .ok _
    · rw [h3 hW.lookupEvals]; norm_num
    · rw [h3 hW.lookupEvals]; norm_num
    · rw [h2 hW.lookupCommitments]; norm_num
    · rw [h3 hW.lookupEvals]; norm_num
    · rw [h2 hW.lookupCommitments]; norm_num
  refine .bind (.assert fun hW => by simpa using hW.lookupZCommitments) fun _ _ => ?_
  refine .bind (.assert fun hW => ?_) fun _ _ => ?_
  · rw [decide_eq_true_eq, chunks_length (by norm_num), hW.lookupZEvals]
    omega
  refine .bind (.mapM fun p hp => ?_) fun lookupZs _ => ?_
  · obtain ⟨⟨x, y⟩, i⟩ := p
    rw [List.mem_zipIdx_iff_getElem?] at hp
    simp only [List.getElem?_zip_eq_some] at hp
    have hy : WellShaped vk.index pre ws proof → y.length = 2 := by
      intro hW
      have hi := getElem?_some_lt hp.1
      rw [hW.lookupZCommitments] at hi
      have h2 := hp.2
      have hl := hW.lookupZEvals
      rw [chunks_getElem? (by norm_num), if_pos (by omega)] at h2
      rw [← Option.some.inj h2, List.length_take, List.length_drop]
      omega
    unfold verifierLookupZ
    refine .bind (.idx fun hW => ?_) fun _ _ => .bind (.idx fun hW => ?_) fun _ _ => .ok _
    · rw [hy hW]; norm_num
    · rw [hy hW]; norm_num
  have hlen : (ws'.filter (·.shouldPermute)).length = (ws.filter (·.shouldPermute)).length := (Filled.copied hw).length_eq.symm
  have hmax : (ws.filter (·.shouldPermute)).length ≠ 0 → 0 < vk.index.perm.maxCols := by
    intro h0
    obtain ⟨o, ho⟩ := List.exists_mem_of_length_pos (Nat.pos_of_ne_zero h0)
    rw [List.mem_filter] at ho
    exact (hR.shape ⟨o, ho.1, ho.2⟩).2.2
  rw [hlen]
  refine .bind ?_ fun numZ hnum => ?_
  · unfold PermutationArgument.numberOfZPolys
    split
    · exact .ok _
    · rename_i h0
      rw [if_neg (hmax h0).ne']
      exact .ok _
  refine .bind (.assert fun hW => ?_) fun _ hz => ?_
  · rw [numberOfZPolys_reads _ hmax hW.zCommitments] at hnum
    rw [decide_eq_true_eq]
    exact (Res.ok.inj hnum).symm
  have hnz : numZ = proof.zCommitments.length := by
    have := Res.assert_eq_ok.1 hz
    rwa [decide_eq_true_eq] at this
  subst hnz
  refine .bind (.mapErr (registerAll_reads hd _ _ _ _ (zs_labels _ _) (zs_rotations hR.rows hR.usable _ _) fun hW => ?_)) fun _ _ => .ok _
  rw [hW.zEvals]
  exact (expectedEvals_zs _ _).symm

theorem wellShaped_of_register {vk : VerifierKey S} {proof : TPProof S} {n : Nat} {ch : Challenges F} {st : VState S}
    (h : verifyRegister S vk pre proof ws is n ch = .ok st) : WellShaped vk.index pre ws proof := by
  obtain ⟨h1, h2, h3, h4, h5, h6, h7, h8, ⟨_, rfl, h9⟩, h10, h11⟩ := register_lengths h
  refine ⟨h1, h2, h3, h4, h5, h6, h7, h8, ?_, h10, h11⟩
  unfold copiedColumns at h9
  split
  · rename_i h0
    rwa [if_pos h0] at h9
  · rename_i h0
    rw [if_neg h0] at h9
    exact h9.2

end
end
end ZK
