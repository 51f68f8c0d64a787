import Verif.Lemmas.System
import Verif.Lemmas.Collections
import Verif.Properties.Oracles
/-! Query sets and the registration of claimed evaluations. -/
set_option autoImplicit false
namespace ZK
open Polynomial

section
variable {F : Type} [Field F] [LinearOrder F] [FftParams F] [LawfulFft F]

/-- The query of an oracle at a rotation. -/
def queryOf (d : Domain F) (l : Label) (x : F) (label : Label) (r : Rotation) : Query F :=
  toLex (label, toLex (r.pointLabel l, x * d.omega ^ r.signed))

theorem Rotation.pointInfo_ok {ε : Type} {d : Domain F} (hd : d.Ok) (r : Rotation) (l : Label) (x : F)
    (h : r.degree < d.size) : r.pointInfo (ε := ε) l x d.elements = .ok (r.pointLabel l, x * d.omega ^ r.signed) := by
  have hp := Rotation.point_ok (ε := ε) hd r x h
  unfold Rotation.pointInfo
  unfold Rotation.point at hp
  by_cases h0 : r.degree = 0
  · simp only [h0, if_true, Res.ok.injEq] at hp ⊢
    simp [Rotation.pointLabel, h0, ← hp]
  · simp only [h0, if_false] at hp ⊢
    obtain ⟨w, hw, e⟩ := Res.map1_eq_ok.1 hp
    rw [hw, Res.map1_ok, ← e, mul_comm w x]

theorem querySetOf_ok {ε O : Type} [ConcreteOracle O] {d : Domain F} (hd : d.Ok) (o : O) (l : Label) (x : F)
    (h : ∀ r ∈ ConcreteOracle.rotations o, r.degree < d.size) :
    querySetOf (ε := ε) o l x d.elements
      = .ok (setExtend [] ((ConcreteOracle.rotations o).map (queryOf d l x (ConcreteOracle.label o)))) := by
  unfold querySetOf
  rw [Res.mapM_ok_map (g := fun r : Rotation => (r.pointLabel l, x * d.omega ^ r.signed))
    (fun r hr => Rotation.pointInfo_ok hd r l x (h r hr)), Res.map1_ok, List.map_map]
  rfl

/-- The query set of a list of oracles. -/
theorem getQuerySet_ok {ε O : Type} [ConcreteOracle O] {d : Domain F} (hd : d.Ok) (os : List O) (l : Label) (x : F)
    (h : ∀ o ∈ os, ∀ r ∈ ConcreteOracle.rotations o, r.degree < d.size) :
    ∃ qs, getQuerySet (ε := ε) os l x d.elements = .ok qs ∧ qs.Pairwise (· < ·) ∧
      ∀ q, q ∈ qs ↔ ∃ o ∈ os, ∃ r ∈ ConcreteOracle.rotations o, q = queryOf d l x (ConcreteOracle.label o) r := by
  have key : ∀ (os : List O) (s : List (Query F)), s.Pairwise (· < ·) →
      (∀ o ∈ os, ∀ r ∈ ConcreteOracle.rotations o, r.degree < d.size) →
      ∃ qs, Res.foldM (fun (s : List (Query F)) (o : O) => (querySetOf (ε := ε) o l x d.elements).map1 (setExtend s)) s os
        = .ok qs ∧ qs.Pairwise (· < ·) ∧
        ∀ q, q ∈ qs ↔ q ∈ s ∨
          ∃ o ∈ os, ∃ r ∈ ConcreteOracle.rotations o, q = queryOf d l x (ConcreteOracle.label o) r := by
    intro os
    induction os with
    | nil => intro s hs _; exact ⟨s, rfl, hs, by simp⟩
    | cons o os ih =>
      intro s hs h
      obtain ⟨qs, h1, h2, h3⟩ := ih (setExtend s (setExtend []
        ((ConcreteOracle.rotations o).map (queryOf d l x (ConcreteOracle.label o))))) (setExtend_sorted hs)
        (fun o' ho' => h o' (by simp [ho']))
      refine ⟨qs, ?_, h2, ?_⟩
      · rw [Res.foldM_cons, querySetOf_ok hd o l x (h o (by simp))]
        exact h1
      · intro q
        rw [h3, mem_setExtend, mem_setExtend]
        simp only [List.not_mem_nil, false_or, List.mem_map, List.mem_cons, exists_eq_or_imp, or_assoc]
        constructor
        · rintro (h | ⟨r, hr, rfl⟩ | h)
          · exact .inl h
          · exact .inr (.inl ⟨r, hr, rfl⟩)
          · exact .inr (.inr h)
        · rintro (h | ⟨r, hr, rfl⟩ | h)
          · exact .inl h
          · exact .inr (.inl ⟨r, hr, rfl⟩)
          · exact .inr (.inr h)
  obtain ⟨qs, h1, h2, h3⟩ := key os [] List.Pairwise.nil h
  exact ⟨qs, h1, h2, fun q => by rw [h3]; simp⟩

/-- A query set can only be computed when all rotations are in range. -/
theorem getQuerySet_range {ε O : Type} [ConcreteOracle O] {d : Domain F} (hd : d.Ok) {os : List O} {l : Label} {x : F}
    {qs : List (Query F)} (h : getQuerySet (ε := ε) os l x d.elements = .ok qs) :
    ∀ o ∈ os, ∀ r ∈ ConcreteOracle.rotations o, r.degree < d.size := by
  intro o ho r hr
  by_contra hc
  have h0 : r.degree ≠ 0 := by have := hd.size_pos; omega
  have hpanic : r.pointInfo (ε := ε) l x d.elements = .panic := by
    have hp := Rotation.point_oob (ε := ε) d r x (by omega) (by omega)
    unfold Rotation.point at hp
    unfold Rotation.pointInfo
    simp only [h0, if_false] at hp ⊢
    cases hw : (r.omega d.elements : Res ε F) <;> simp_all
  have hq : ∀ s, querySetOf (ε := ε) o l x d.elements ≠ .ok s := by
    intro s hs
    unfold querySetOf at hs
    obtain ⟨ps, hps, _⟩ := Res.map1_eq_ok.1 hs
    obtain ⟨i, hi, rfl⟩ := List.getElem_of_mem hr
    have := Res.mapM_getElem hps i hi
    rw [hpanic] at this
    simp at this
  have key : ∀ (os : List O) (s t : List (Query F)), o ∈ os →
      Res.foldM (fun (s : List (Query F)) (o : O) => (querySetOf (ε := ε) o l x d.elements).map1 (setExtend s)) s os
        ≠ .ok t := by
    intro os
    induction os with
    | nil => intro s t h; simp at h
    | cons o' os ih =>
      intro s t h he
      obtain ⟨b, hb, hrest⟩ := Res.foldM_eq_ok_cons.1 he
      rcases List.mem_cons.1 h with rfl | h
      · obtain ⟨s', hs', _⟩ := Res.map1_eq_ok.1 hb
        exact hq _ hs'
      · exact ih _ _ h hrest
  exact key os [] qs ho h

/-- The registered evaluations of an oracle: those of the queries with its label, newest first. -/
def registered (ps : List (Query F × F)) (l : Label) : List (F × F) :=
  ((ps.filter (fun p => (ofLex p.1).1 = l)).map (fun p => ((ofLex (ofLex p.1).2).2, p.2))).reverse

/-- Queries with values depending on label and point. -/
def claims (qs : List (Query F)) (val : Label → F → F) : List (Query F × F) :=
  qs.map (fun q => (q, val (ofLex q).1 (ofLex (ofLex q).2).2))

omit [FftParams F] [LawfulFft F] [Field F] [LinearOrder F] in
theorem registerEvals_ok {C : Type} [Field F] [LinearOrder F] (missing : Label → PiopErr) (ps : List (Query F × F)) :
    ∀ os : List (VerifierOracle F C), (os.map (·.label)).Nodup →
    (∀ p ∈ ps, (ofLex p.1).1 ∈ os.map (·.label)) →
    Res.foldM (fun (os : List (VerifierOracle F C)) (p : Query F × F) =>
      match lastIndexOf (os.map ConcreteOracle.label) (ofLex p.1).1 with
      | some i => .ok (os.modify i (fun o => o.registerEval (ofLex (ofLex p.1).2).2 p.2))
      | none => .err (missing (ofLex p.1).1)) os ps
      = .ok (os.map (fun o => { o with evals := registered ps o.label ++ o.evals })) := by
  induction ps with
  | nil => intro os _ _; simp [registered]
  | cons p ps ih =>
    intro os hnd hmem
    have hp := hmem p (by simp)
    obtain ⟨i, hi, he⟩ := List.getElem_of_mem hp
    have hi' : i < os.length := by simpa using hi
    have hlast : lastIndexOf (os.map ConcreteOracle.label) (ofLex p.1).1 = some i :=
      lastIndexOf_of_nodup hnd (by rw [← he]; exact List.getElem?_eq_getElem hi)
    have hmod : os.modify i (fun o => o.registerEval (ofLex (ofLex p.1).2).2 p.2)
        = os.map (fun o => if o.label = (ofLex p.1).1 then o.registerEval (ofLex (ofLex p.1).2).2 p.2 else o) := by
      apply List.ext_getElem (by simp)
      intro k h1 h2
      have hk : k < os.length := by simpa using h1
      rw [List.getElem_modify, List.getElem_map]
      have : os[k].label = (ofLex p.1).1 ↔ i = k := by
        rw [← he]
        constructor
        · intro h
          have := (List.Nodup.getElem_inj_iff hnd (hi := by simpa using hk) (hj := hi)).1
            (by simpa using h)
          omega
        · rintro rfl; simp
      simp only [this]
    have hlab : (os.map (fun o : VerifierOracle F C => if o.label = (ofLex p.1).1 then
        o.registerEval (ofLex (ofLex p.1).2).2 p.2 else o)).map (·.label) = os.map (·.label) := by
      rw [List.map_map]
      apply List.map_congr_left
      intro o _
      simp only [Function.comp]
      split <;> rfl
    rw [Res.foldM_cons, hlast]
    simp only [hmod, Res.bind_ok]
    rw [ih _ (by rw [hlab]; exact hnd) (by rw [hlab]; exact fun q hq => hmem q (by simp [hq])), List.map_map]
    congr 1
    apply List.map_congr_left
    intro o _
    simp only [Function.comp, registered, List.filter_cons]
    by_cases ho : o.label = (ofLex p.1).1
    · have ho' : (ofLex p.1).1 = o.label := ho.symm
      simp [ho, VerifierOracle.registerEval]
    · have ho' : ¬ (ofLex p.1).1 = o.label := fun h => ho h.symm
      simp [ho, ho']

omit [Field F] [FftParams F] [LawfulFft F] in
/-- Looking a key up in an association list whose values are a function of the key. -/
theorem assocGet_fun {β : Type} (g : F → β) (l rest : List (F × β)) (h : ∀ p ∈ l, p.2 = g p.1) (k : F) :
    assocGet k (l ++ rest) = if k ∈ l.map Prod.fst then some (g k) else assocGet k rest := by
  induction l with
  | nil => simp
  | cons p l ih =>
    obtain ⟨a, b⟩ := p
    simp only [List.cons_append, assocGet]
    have hb := h (a, b) (by simp)
    rw [ih (fun p hp => h p (by simp [hp]))]
    by_cases hk : k = a
    · subst hk; simp at hb; simp [hb]
    · rw [if_neg hk]
      simp only [List.map_cons, List.mem_cons, hk, false_or]

/-- Registering claimed evaluations that are a function `val` of label and point: every oracle ends up with
exactly its own at its rotated points. -/
theorem registerAll_ok {C : Type} {d : Domain F} (hd : d.Ok) (missing : Label → PiopErr)
    (os : List (VerifierOracle F C)) (xi : F) (hnd : (os.map (·.label)).Nodup)
    (hr : ∀ o ∈ os, ∀ r ∈ o.rotations, r.degree < d.size) (qs : List (Query F))
    (hqs : getQuerySet (ε := PiopErr) os xiLabel xi d.elements = .ok qs)
    (val : Label → F → F) :
    registerAll missing os xi d.elements (qs.map (fun q => val (ofLex q).1 (ofLex (ofLex q).2).2))
      = .ok (os.map (fun o => { o with evals := registered (claims qs val) o.label ++ o.evals })) ∧
    ∀ o ∈ os, ∀ x, assocGet x (registered (claims qs val) o.label ++ o.evals)
      = if x ∈ o.rotations.map (fun r => xi * d.omega ^ r.signed) then some (val o.label x) else assocGet x o.evals := by
  obtain ⟨qs', h1, h2, h3⟩ := getQuerySet_ok (ε := PiopErr) hd os xiLabel xi hr
  rw [hqs] at h1
  cases h1
  constructor
  · unfold registerAll
    rw [hqs]
    simp only [Res.bind_ok, List.length_map, decide_true, Res.assert_true]
    unfold registerEvals
    have hz : List.zip qs (qs.map (fun q => val (ofLex q).1 (ofLex (ofLex q).2).2))
        = claims qs val := by
      unfold claims
      rw [List.zip_map_right]
      apply List.ext_getElem (by simp)
      intro k _ _
      simp
    rw [hz]
    apply registerEvals_ok missing _ os hnd
    intro p hp
    obtain ⟨q, hq, rfl⟩ := List.mem_map.1 hp
    obtain ⟨o, ho, r, _, rfl⟩ := (h3 q).1 hq
    exact List.mem_map.2 ⟨o, ho, rfl⟩
  · intro o ho x
    rw [assocGet_fun (val o.label)]
    · congr 1
      rw [eq_iff_iff]
      simp only [registered, claims, List.map_reverse, List.mem_reverse, List.mem_map, List.mem_filter]
      constructor
      · rintro ⟨e, ⟨p, ⟨⟨q, hq, rfl⟩, hl⟩, rfl⟩, rfl⟩
        obtain ⟨o', ho', r, hr', rfl⟩ := (h3 q).1 hq
        have hl' : o'.label = o.label := of_decide_eq_true hl
        have : o' = o := List.inj_on_of_nodup_map hnd ho' ho hl'
        subst this
        exact ⟨r, hr', rfl⟩
      · rintro ⟨r, hr', rfl⟩
        exact ⟨_, ⟨_, ⟨⟨queryOf d xiLabel xi o.label r, (h3 _).2 ⟨o, ho, r, hr', rfl⟩, rfl⟩, decide_eq_true rfl⟩, rfl⟩, rfl⟩
    · intro p hp
      simp only [registered, claims, List.mem_reverse, List.mem_map, List.mem_filter] at hp
      obtain ⟨p', ⟨⟨q, _, rfl⟩, hl⟩, rfl⟩ := hp
      simp only [decide_eq_true_eq] at hl
      simp [hl]

omit [FftParams F] [LawfulFft F] in
/-- The prover's list of evaluations. -/
theorem evaluateQuerySet_ok {ε : Type} (os : List (ProverOracle F)) (qs : List (Query F))
    (h : ∀ q ∈ qs, ∃ o, findOracle os (ofLex q).1 = some o) :
    evaluateQuerySet (ε := ε) os qs = .ok (qs.map (fun q =>
      ((findOracle os (ofLex q).1).elim 0 (fun o => peval o.poly (ofLex (ofLex q).2).2)))) := by
  unfold evaluateQuerySet
  apply Res.mapM_ok_map
  intro q hq
  obtain ⟨o, ho⟩ := h q hq
  simp [ho, ProverOracle.query]

end
end ZK
