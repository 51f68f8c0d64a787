import Verif.Spec.Expression
import Verif.Lemmas.Collections
import Mathlib.Algebra.Polynomial.Eval.Degree
import Mathlib.Tactic.Ring
/-! Evaluation, degree and configuration of expressions. -/
set_option autoImplicit false
namespace ZK
open Polynomial

section
variable {F : Type} [Field F]

omit [Field F] in
/-- `evaluate` with ring operations is the meaning of the expression. -/
theorem Expr.evaluate_eq_denote {R : Type} [CommRing R] (c : F → R) (v : OracleQuery → R) (e : Expr F) :
    e.evaluate c v (fun x => -x) (fun x y => x + y) (fun x y => x * y) (fun x k => x * c k)
      = e.denote c v := by
  induction e <;> simp_all [Expr.evaluate, Expr.denote]

omit [Field F] in
theorem Expr.denote_congr {R : Type} [CommRing R] (c : F → R) {v w : OracleQuery → R} (e : Expr F)
    (h : ∀ q ∈ e.queries, v q = w q) : e.denote c v = e.denote c w := by
  induction e <;> simp_all [Expr.denote, Expr.queries]

/-- With every query answered, fallible evaluation succeeds with the meaning of the expression. -/
theorem Expr.evalR_ok {f : OracleQuery → Res PiopErr F} {v : OracleQuery → F} {e : Expr F}
    (h : ∀ q ∈ e.queries, f q = .ok (v q)) : e.evalR f = .ok (e.denote id v) := by
  unfold Expr.evalR
  induction e with
  | const c => rfl
  | oracle q => exact h q (by simp [Expr.queries])
  | neg a ih =>
    simp only [Expr.evaluate, Expr.denote]
    rw [ih (by simpa [Expr.queries] using h)]; rfl
  | sum a b iha ihb =>
    simp only [Expr.queries, List.mem_append] at h
    simp only [Expr.evaluate, Expr.denote]
    rw [iha (fun q hq => h q (Or.inl hq)), ihb (fun q hq => h q (Or.inr hq))]; rfl
  | prod a b iha ihb =>
    simp only [Expr.queries, List.mem_append] at h
    simp only [Expr.evaluate, Expr.denote]
    rw [iha (fun q hq => h q (Or.inl hq)), ihb (fun q hq => h q (Or.inr hq))]; rfl
  | scaled a c ih =>
    simp only [Expr.evaluate, Expr.denote]
    rw [ih (by simpa [Expr.queries] using h)]; rfl

theorem Expr.evalR_congr {f g : OracleQuery → Res PiopErr F} (e : Expr F) (h : ∀ q ∈ e.queries, f q = g q) :
    e.evalR f = e.evalR g := by
  induction e with
  | const c => rfl
  | oracle q => exact h q (by simp [Expr.queries])
  | neg a ih =>
    show (a.evalR f).map1 _ = (a.evalR g).map1 _
    rw [ih h]
  | sum a b iha ihb =>
    show Res.lift2 _ (a.evalR f) (b.evalR f) = Res.lift2 _ (a.evalR g) (b.evalR g)
    rw [iha (fun q hq => h q (List.mem_append_left _ hq)), ihb (fun q hq => h q (List.mem_append_right _ hq))]
  | prod a b iha ihb =>
    show Res.lift2 _ (a.evalR f) (b.evalR f) = Res.lift2 _ (a.evalR g) (b.evalR g)
    rw [iha (fun q hq => h q (List.mem_append_left _ hq)), ihb (fun q hq => h q (List.mem_append_right _ hq))]
  | scaled a c ih =>
    show (a.evalR f).map1 _ = (a.evalR g).map1 _
    rw [ih h]

/-- Conversely evaluation succeeds only if every query is answered. -/
theorem Expr.evalR_queries_ok {f : OracleQuery → Res PiopErr F} {e : Expr F} {y : F}
    (h : e.evalR f = .ok y) : ∀ q ∈ e.queries, ∃ x, f q = .ok x := by
  unfold Expr.evalR at h
  induction e generalizing y with
  | const c => simp [Expr.queries]
  | oracle q =>
    simp only [Expr.evaluate] at h
    intro q' hq'
    simp only [Expr.queries, List.mem_singleton] at hq'
    exact ⟨y, hq' ▸ h⟩
  | neg a ih =>
    simp only [Expr.evaluate] at h
    obtain ⟨x, hx, _⟩ := Res.map1_eq_ok.1 h
    exact ih hx
  | sum a b iha ihb =>
    simp only [Expr.evaluate] at h
    obtain ⟨x, y, hx, hy, _⟩ := Res.lift2_eq_ok.1 h
    intro q hq
    rcases List.mem_append.1 hq with hq | hq
    · exact iha hx q hq
    · exact ihb hy q hq
  | prod a b iha ihb =>
    simp only [Expr.evaluate] at h
    obtain ⟨x, y, hx, hy, _⟩ := Res.lift2_eq_ok.1 h
    intro q hq
    rcases List.mem_append.1 hq with hq | hq
    · exact iha hx q hq
    · exact ihb hy q hq
  | scaled a c ih =>
    simp only [Expr.evaluate] at h
    obtain ⟨x, hx, _⟩ := Res.map1_eq_ok.1 h
    exact ih hx

theorem Expr.eval_denote (e : Expr F) (P : OracleQuery → F[X]) (x : F) :
    (e.denote C P).eval x = e.denote id (fun q => (P q).eval x) := by
  induction e <;> simp_all [Expr.denote]

omit [Field F] in
theorem Expr.degree_ok_iff (f : OracleQuery → Res PiopErr Nat) (e : Expr F) :
    (∃ d, e.degree f = .ok d) ↔ ∀ q ∈ e.queries, ∃ k, f q = .ok k := by
  induction e with
  | const c => simp [Expr.degree, Expr.queries]
  | oracle q => simp [Expr.degree, Expr.queries]
  | neg a ih => simpa [Expr.degree, Expr.queries] using ih
  | sum a b iha ihb =>
    simp only [Expr.degree, Expr.queries, List.mem_append, or_imp, forall_and]
    rw [← iha, ← ihb]
    cases a.degree f <;> cases b.degree f <;> simp
  | prod a b iha ihb =>
    simp only [Expr.degree, Expr.queries, List.mem_append, or_imp, forall_and]
    rw [← iha, ← ihb]
    cases a.degree f <;> cases b.degree f <;> simp
  | scaled a c ih => simpa [Expr.degree, Expr.queries] using ih

theorem Expr.natDegree_denote_le (f : OracleQuery → Res PiopErr Nat) (P : OracleQuery → F[X])
    (e : Expr F) (h : ∀ q ∈ e.queries, ∀ k, f q = .ok k → (P q).natDegree ≤ k) (d : Nat)
    (hd : e.degree f = .ok d) : (e.denote C P).natDegree ≤ d := by
  induction e generalizing d with
  | const c => simp [Expr.denote]
  | oracle q => exact h q (by simp [Expr.queries]) d hd
  | neg a ih => simpa [Expr.denote] using ih h d hd
  | sum a b iha ihb =>
    simp only [Expr.queries, List.mem_append, or_imp, forall_and] at h
    simp only [Expr.degree] at hd
    cases ha : a.degree f with
    | ok x =>
      rw [ha] at hd
      obtain ⟨y, hy, rfl⟩ := Res.map1_eq_ok.1 hd
      exact (natDegree_add_le _ _).trans (max_le_max (iha h.1 x ha) (ihb h.2 y hy))
    | err _ => simp [ha] at hd
    | panic => simp [ha] at hd
  | prod a b iha ihb =>
    simp only [Expr.queries, List.mem_append, or_imp, forall_and] at h
    simp only [Expr.degree] at hd
    cases ha : a.degree f with
    | ok x =>
      rw [ha] at hd
      obtain ⟨y, hy, rfl⟩ := Res.map1_eq_ok.1 hd
      exact natDegree_mul_le.trans (Nat.add_le_add (iha h.1 x ha) (ihb h.2 y hy))
    | err _ => simp [ha] at hd
    | panic => simp [ha] at hd
  | scaled a c ih =>
    exact natDegree_mul_le.trans (by simpa using ih h d hd)

theorem Registered.refl {O : Type} [OracleData O] (ty : OracleType) (os : List O) :
    Registered ty [] os os := by
  refine ⟨rfl, fun i o h => ⟨o, h, rfl, by simp⟩⟩

theorem Registered.trans {O : Type} [OracleData O] {ty : OracleType} {qs qs' : List VirtualQuery}
    {os os' os'' : List O} (h : Registered ty qs os os') (h' : Registered ty qs' os' os'') :
    Registered ty (qs ++ qs') os os'' := by
  refine ⟨h'.1.trans h.1, fun i o ho => ?_⟩
  obtain ⟨o', ho', he, hr⟩ := h.2 i o ho
  obtain ⟨o'', ho'', he', hr'⟩ := h'.2 i o' ho'
  refine ⟨o'', ho'', he'.trans he, fun r => ?_⟩
  rw [hr', hr, List.mem_append]
  tauto

theorem Registered.congr {O : Type} [OracleData O] {ty : OracleType} {qs qs' : List VirtualQuery}
    {os os' : List O} (h : Registered ty qs os os')
    (hq : ∀ i r, (⟨i, r, ty⟩ : VirtualQuery) ∈ qs ↔ (⟨i, r, ty⟩ : VirtualQuery) ∈ qs') :
    Registered ty qs' os os' := by
  refine ⟨h.1, fun i o ho => ?_⟩
  obtain ⟨o', ho', he, hr⟩ := h.2 i o ho
  exact ⟨o', ho', he, fun r => by rw [hr, hq]⟩

theorem Registered.label {O : Type} [OracleData O] {ty : OracleType} {qs : List VirtualQuery}
    {os os' : List O} (h : Registered ty qs os os') :
    os'.map ConcreteOracle.label = os.map ConcreteOracle.label := by
  apply List.ext_getElem?
  intro i
  by_cases hi : i < os.length
  · obtain ⟨o', ho', he, _⟩ := h.2 i os[i] (List.getElem?_eq_getElem hi)
    rw [List.getElem?_map, List.getElem?_map, ho', List.getElem?_eq_getElem hi]
    simp only [Option.map_some, Option.some.injEq]
    rw [← OracleData.label_erase o', he, OracleData.label_erase]
  · rw [List.getElem?_eq_none (by simp; rw [h.1]; omega), List.getElem?_eq_none (by simp; omega)]

theorem registerAt_registered {O : Type} [OracleData O] {ty : OracleType} {os os' : List O} {i : Nat}
    {r : Rotation} (h : registerAt os i r = .ok os') : i < os.length ∧ Registered ty [⟨i, r, ty⟩] os os' := by
  unfold registerAt at h
  split_ifs at h with hi
  simp only [Res.ok.injEq] at h
  subst h
  refine ⟨hi, by simp, fun j o ho => ?_⟩
  rw [List.getElem?_modify, ho]
  by_cases hij : i = j
  · subst hij
    refine ⟨_, by simp; rfl, OracleData.erase_register _ _, fun r' => ?_⟩
    rw [OracleData.rotations_register, mem_setInsert]
    simp [or_comm]
  · refine ⟨o, by simp [hij], rfl, fun r' => ?_⟩
    simp [Ne.symm hij]

variable {W I X : Type} [OracleData W] [OracleData I] [OracleData X]

theorem Oracles.register_registered {s s' : Oracles W I X} {q : VirtualQuery}
    (h : s.register q = .ok s') : q.index < s.count q.oracleType ∧ Oracles.Registered [q] s s' := by
  obtain ⟨i, r, ty⟩ := q
  unfold Oracles.register at h
  cases ty with
  | witness =>
    obtain ⟨l, hl, rfl⟩ := Res.map1_eq_ok.1 h
    obtain ⟨h1, h2⟩ := registerAt_registered (ty := .witness) hl
    exact ⟨h1, h2, (Registered.refl _ _).congr (by simp), (Registered.refl _ _).congr (by simp)⟩
  | instance_ =>
    obtain ⟨l, hl, rfl⟩ := Res.map1_eq_ok.1 h
    obtain ⟨h1, h2⟩ := registerAt_registered (ty := .instance_) hl
    exact ⟨h1, (Registered.refl _ _).congr (by simp), h2, (Registered.refl _ _).congr (by simp)⟩
  | fixed =>
    obtain ⟨l, hl, rfl⟩ := Res.map1_eq_ok.1 h
    obtain ⟨h1, h2⟩ := registerAt_registered (ty := .fixed) hl
    exact ⟨h1, (Registered.refl _ _).congr (by simp), (Registered.refl _ _).congr (by simp), h2⟩

theorem Oracles.Registered.count {qs : List VirtualQuery} {s s' : Oracles W I X}
    (h : Oracles.Registered qs s s') (ty : OracleType) : s'.count ty = s.count ty := by
  cases ty
  · exact h.1.1
  · exact h.2.1.1
  · exact h.2.2.1

theorem Oracles.register_ok_or_panic (s : Oracles W I X) (q : VirtualQuery) :
    (∃ s', s.register q = .ok s') ∨ (s.register q = .panic ∧ s.count q.oracleType ≤ q.index) := by
  unfold Oracles.register registerAt Oracles.count
  cases q.oracleType <;> simp only <;> split_ifs with h <;> simp <;> omega

/-- The registration loop succeeds with exactly the listed rotations added, or panics at an index out of
range. -/
theorem Oracles.registerAll_spec (qs : List VirtualQuery) (s : Oracles W I X) :
    (∃ s', Res.foldM Oracles.register s qs = .ok s' ∧ Oracles.Registered qs s s' ∧
      ∀ q ∈ qs, q.index < s.count q.oracleType) ∨
    (Res.foldM Oracles.register s qs = .panic ∧ ∃ q ∈ qs, s.count q.oracleType ≤ q.index) := by
  induction qs generalizing s with
  | nil =>
    exact Or.inl ⟨s, rfl, ⟨Registered.refl _ _, Registered.refl _ _, Registered.refl _ _⟩, by simp⟩
  | cons q qs ih =>
    rw [Res.foldM_cons]
    rcases Oracles.register_ok_or_panic s q with ⟨s1, hs1⟩ | ⟨hp, hle⟩
    · rw [hs1, Res.bind_ok]
      obtain ⟨hlt, hreg⟩ := Oracles.register_registered hs1
      rcases ih s1 with ⟨s', h1, h2, h3⟩ | ⟨h1, q', hq', hle⟩
      · refine Or.inl ⟨s', h1, ⟨hreg.1.trans h2.1, hreg.2.1.trans h2.2.1, hreg.2.2.trans h2.2.2⟩, ?_⟩
        intro q' hq'
        rcases List.mem_cons.1 hq' with rfl | hq'
        · exact hlt
        · rw [← hreg.count]; exact h3 q' hq'
      · exact Or.inr ⟨h1, q', by simp [hq'], by rw [← hreg.count]; exact hle⟩
    · exact Or.inr ⟨by rw [hp]; rfl, q, by simp, hle⟩

omit [Field F] in
/-- The virtual expression is resolved or an index is out of range. -/
theorem VExpr.toExpr_spec {W I X : Type} [ConcreteOracle W] [ConcreteOracle I] [ConcreteOracle X]
    (ws : List W) (is : List I) (fs : List X) (e : VExpr F) :
    (∃ e', e.toExpr ws is fs = .ok e' ∧
      (∀ q ∈ e.queries, q.index < (⟨ws, is, fs⟩ : Oracles W I X).count q.oracleType)) ∨
    (e.toExpr ws is fs = .panic ∧ ∃ q ∈ e.queries, (⟨ws, is, fs⟩ : Oracles W I X).count q.oracleType ≤ q.index) := by
  have bin : ∀ (a b : VExpr F) (g : Expr F → Expr F → Expr F),
      ((∃ e', a.toExpr ws is fs = .ok e' ∧
        (∀ q ∈ a.queries, q.index < (⟨ws, is, fs⟩ : Oracles W I X).count q.oracleType)) ∨
      (a.toExpr ws is fs = .panic ∧ ∃ q ∈ a.queries, (⟨ws, is, fs⟩ : Oracles W I X).count q.oracleType ≤ q.index)) →
      ((∃ e', b.toExpr ws is fs = .ok e' ∧
        (∀ q ∈ b.queries, q.index < (⟨ws, is, fs⟩ : Oracles W I X).count q.oracleType)) ∨
      (b.toExpr ws is fs = .panic ∧ ∃ q ∈ b.queries, (⟨ws, is, fs⟩ : Oracles W I X).count q.oracleType ≤ q.index)) →
      (∃ e', (match a.toExpr ws is fs with
        | .ok x => (b.toExpr ws is fs).map1 (fun y => g x y)
        | .err e => .err e
        | .panic => .panic) = .ok e' ∧
        (∀ q ∈ a.queries ++ b.queries, q.index < (⟨ws, is, fs⟩ : Oracles W I X).count q.oracleType)) ∨
      ((match a.toExpr ws is fs with
        | .ok x => (b.toExpr ws is fs).map1 (fun y => g x y)
        | .err e => .err e
        | .panic => .panic) = .panic ∧
        ∃ q ∈ a.queries ++ b.queries, (⟨ws, is, fs⟩ : Oracles W I X).count q.oracleType ≤ q.index) := by
    intro a b g ha hb
    rcases ha with ⟨x, hx, hxq⟩ | ⟨hx, q, hq, hle⟩
    · rcases hb with ⟨y, hy, hyq⟩ | ⟨hy, q, hq, hle⟩
      · left
        refine ⟨g x y, by rw [hx, hy]; rfl, ?_⟩
        intro q hq
        rcases List.mem_append.1 hq with hq | hq
        · exact hxq q hq
        · exact hyq q hq
      · right
        exact ⟨by rw [hx, hy]; rfl, q, by simp [hq], hle⟩
    · right
      exact ⟨by rw [hx], q, by simp [hq], hle⟩
  induction e with
  | const c => exact Or.inl ⟨_, rfl, by simp [VExpr.queries]⟩
  | oracle q =>
    have key : ∀ {O : Type} (os : List O) (g : O → OracleQuery),
        (∃ e' : Expr F, ((Res.idx os q.index : Res PiopErr O).map1 g).map1 Expr.oracle = .ok e' ∧
          q.index < os.length) ∨
        (((Res.idx os q.index : Res PiopErr O).map1 g).map1 (Expr.oracle (F := F)) = .panic ∧
          os.length ≤ q.index) := by
      intro O os g
      by_cases h : q.index < os.length
      · left; exact ⟨_, by rw [Res.idx_of_lt h]; rfl, h⟩
      · right; exact ⟨by rw [Res.idx_eq_panic.2 (by omega)]; rfl, by omega⟩
    simp only [VExpr.toExpr, VExpr.resolve, VExpr.queries, List.mem_singleton, exists_eq_left, forall_eq,
      Oracles.count]
    cases q.oracleType <;> exact key _ _
  | neg a ih =>
    rcases ih with ⟨e', h, hq⟩ | ⟨h, hq⟩
    · exact Or.inl ⟨_, by simp only [VExpr.toExpr, h]; rfl, hq⟩
    · exact Or.inr ⟨by simp only [VExpr.toExpr, h]; rfl, hq⟩
  | sum a b iha ihb => exact bin a b Expr.sum iha ihb
  | prod a b iha ihb => exact bin a b Expr.prod iha ihb
  | scaled a c ih =>
    rcases ih with ⟨e', h, hq⟩ | ⟨h, hq⟩
    · exact Or.inl ⟨_, by simp only [VExpr.toExpr, h]; rfl, hq⟩
    · exact Or.inr ⟨by simp only [VExpr.toExpr, h]; rfl, hq⟩


/-! ### Order independence -/

theorem registerAt_sorted {O : Type} [OracleData O] {os os' : List O} {i : Nat} {r : Rotation}
    (h : registerAt os i r = .ok os')
    (hs : ∀ o ∈ os, (ConcreteOracle.rotations o).Pairwise (· < ·)) :
    ∀ o ∈ os', (ConcreteOracle.rotations o).Pairwise (· < ·) := by
  unfold registerAt at h
  split_ifs at h with hi
  simp only [Res.ok.injEq] at h
  subst h
  intro o ho
  obtain ⟨j, hj⟩ := List.mem_iff_getElem?.1 ho
  rw [List.getElem?_modify] at hj
  cases hoj : os[j]? with
  | none => simp [hoj] at hj
  | some o1 =>
    have h1 := hs o1 (List.mem_of_getElem? hoj)
    rw [hoj] at hj
    by_cases hij : i = j
    · simp only [hij, if_true, Option.map_eq_map, Option.map_some, Option.some.injEq] at hj
      rw [← hj, OracleData.rotations_register]
      exact setInsert_sorted h1
    · simp only [hij, if_false, Option.map_eq_map, Option.map_some, Option.some.injEq] at hj
      exact hj ▸ h1

theorem Oracles.register_sorted {s s' : Oracles W I X} {q : VirtualQuery} (hs : s.Sorted)
    (h : s.register q = .ok s') : s'.Sorted := by
  unfold Oracles.register at h
  obtain ⟨h1, h2, h3⟩ := hs
  cases hq : q.oracleType <;> rw [hq] at h <;> obtain ⟨l, hl, rfl⟩ := Res.map1_eq_ok.1 h
  · exact ⟨registerAt_sorted hl h1, h2, h3⟩
  · exact ⟨h1, registerAt_sorted hl h2, h3⟩
  · exact ⟨h1, h2, registerAt_sorted hl h3⟩

theorem Oracles.registerAll_sorted {s s' : Oracles W I X} {qs : List VirtualQuery} (hs : s.Sorted)
    (h : Res.foldM Oracles.register s qs = .ok s') : s'.Sorted :=
  Res.foldM_inv Oracles.Sorted hs (fun _ _ _ _ hb h => Oracles.register_sorted hb h) h

/-- Sorted sets of rotations are determined by what was registered. -/
theorem Registered.unique {O : Type} [OracleData O] {ty : OracleType} {qs qs' : List VirtualQuery}
    {os o1 o2 : List O} (h1 : Registered ty qs os o1) (h2 : Registered ty qs' os o2)
    (hq : ∀ i r, (⟨i, r, ty⟩ : VirtualQuery) ∈ qs ↔ (⟨i, r, ty⟩ : VirtualQuery) ∈ qs')
    (s1 : ∀ o ∈ o1, (ConcreteOracle.rotations o).Pairwise (· < ·))
    (s2 : ∀ o ∈ o2, (ConcreteOracle.rotations o).Pairwise (· < ·)) : o1 = o2 := by
  apply List.ext_getElem?
  intro i
  by_cases hi : i < os.length
  · obtain ⟨a, ha, hae, har⟩ := h1.2 i os[i] (List.getElem?_eq_getElem hi)
    obtain ⟨b, hb, hbe, hbr⟩ := h2.2 i os[i] (List.getElem?_eq_getElem hi)
    rw [ha, hb]
    congr 1
    apply OracleData.ext' _ _ (hae.trans hbe.symm)
    apply sorted_ext (s1 a (List.mem_of_getElem? ha)) (s2 b (List.mem_of_getElem? hb))
    intro r
    rw [har, hbr, hq]
  · rw [List.getElem?_eq_none (by rw [h1.1]; omega), List.getElem?_eq_none (by rw [h2.1]; omega)]

theorem Oracles.Registered.unique {qs qs' : List VirtualQuery} {s s1 s2 : Oracles W I X}
    (h1 : Oracles.Registered qs s s1) (h2 : Oracles.Registered qs' s s2) (hq : ∀ q, q ∈ qs ↔ q ∈ qs')
    (hs1 : s1.Sorted) (hs2 : s2.Sorted) : s1 = s2 := by
  obtain ⟨w1, i1, f1⟩ := s1
  obtain ⟨w2, i2, f2⟩ := s2
  congr 1
  · exact h1.1.unique h2.1 (fun _ _ => hq _) hs1.1 hs2.1
  · exact h1.2.1.unique h2.2.1 (fun _ _ => hq _) hs1.2.1 hs2.2.1
  · exact h1.2.2.unique h2.2.2 (fun _ _ => hq _) hs1.2.2 hs2.2.2

/-! ### Resolution depends on labels only -/

section
variable {W I X W' I' X' : Type} [ConcreteOracle W] [ConcreteOracle I] [ConcreteOracle X]
  [ConcreteOracle W'] [ConcreteOracle I'] [ConcreteOracle X']

omit [Field F] in
theorem idx_map_label {O O' : Type} [ConcreteOracle O] [ConcreteOracle O'] {os : List O} {os' : List O'}
    (h : os'.map ConcreteOracle.label = os.map ConcreteOracle.label) (i : Nat)
    (g : Label → OracleQuery) :
    (Res.idx os' i : Res PiopErr O').map1 (fun o => g (ConcreteOracle.label o)) =
      (Res.idx os i).map1 (fun o => g (ConcreteOracle.label o)) := by
  have h1 : (os'[i]?).map ConcreteOracle.label = (os[i]?).map ConcreteOracle.label := by
    rw [← List.getElem?_map, ← List.getElem?_map, h]
  unfold Res.idx
  cases h2 : os'[i]? <;> cases h3 : os[i]? <;> simp_all

omit [Field F] in
theorem VExpr.toExpr_congr {s : Oracles W I X} {s' : Oracles W' I' X'} (h : s.SameLabels s')
    (e : VExpr F) :
    e.toExpr s'.witness s'.inst s'.fixed = e.toExpr s.witness s.inst s.fixed := by
  induction e with
  | const c => rfl
  | oracle q =>
    simp only [VExpr.toExpr, VExpr.resolve]
    cases q.oracleType
    · rw [idx_map_label h.1 q.index (fun l => ⟨l, q.rotation, .witness⟩)]
    · rw [idx_map_label h.2.1 q.index (fun l => ⟨l, q.rotation, .instance_⟩)]
    · rw [idx_map_label h.2.2 q.index (fun l => ⟨l, q.rotation, .fixed⟩)]
  | neg a ih => simp only [VExpr.toExpr, ih]
  | sum a b iha ihb => simp only [VExpr.toExpr, iha, ihb]
  | prod a b iha ihb => simp only [VExpr.toExpr, iha, ihb]
  | scaled a c ih => simp only [VExpr.toExpr, ih]

omit [Field F] in
/-- Resolution replaces each virtual query by the label found at its index. -/
theorem VExpr.toExpr_denote {R : Type} [CommRing R] (c : F → R) (val : OracleQuery → R)
    (s : Oracles W I X) (e : VExpr F) (e' : Expr F)
    (h : e.toExpr s.witness s.inst s.fixed = .ok e') :
    (∀ v : VirtualQuery → R, (∀ q ∈ e.queries, ∀ l, s.labelAt q.oracleType q.index = some l →
        val ⟨l, q.rotation, q.oracleType⟩ = v q) → e'.denote c val = e.denote c v) ∧
    (∀ oq, oq ∈ e'.queries ↔ ∃ q ∈ e.queries, ∃ l, s.labelAt q.oracleType q.index = some l ∧
      oq = ⟨l, q.rotation, q.oracleType⟩) := by
  induction e generalizing e' with
  | const a =>
    simp only [VExpr.toExpr, Res.ok.injEq] at h
    subst h
    simp [Expr.denote, VExpr.denote, Expr.queries, VExpr.queries]
  | oracle q =>
    simp only [VExpr.toExpr, VExpr.resolve] at h
    obtain ⟨i, r, ty⟩ := q
    have key : ∀ {O : Type} [ConcreteOracle O] (os : List O),
        ((Res.idx os i : Res PiopErr O).map1 (fun o => (⟨ConcreteOracle.label o, r, ty⟩ : OracleQuery))).map1
          (Expr.oracle (F := F)) = .ok e' → s.labelAt ty i = (os[i]?).map ConcreteOracle.label →
        ∃ l, s.labelAt ty i = some l ∧ e' = .oracle ⟨l, r, ty⟩ := by
      intro O _ os h hl
      obtain ⟨q, hq, rfl⟩ := Res.map1_eq_ok.1 h
      obtain ⟨o, ho, rfl⟩ := Res.map1_eq_ok.1 hq
      exact ⟨_, by rw [hl, Res.idx_eq_ok.1 ho]; rfl, rfl⟩
    have : ∃ l, s.labelAt ty i = some l ∧ e' = .oracle ⟨l, r, ty⟩ := by
      cases ty
      · exact key s.witness h rfl
      · exact key s.inst h rfl
      · exact key s.fixed h rfl
    obtain ⟨l, hl, rfl⟩ := this
    constructor
    · intro v hv
      exact hv ⟨i, r, ty⟩ (by simp [VExpr.queries]) l hl
    · intro oq
      simp [Expr.queries, VExpr.queries, hl]
  | neg a ih =>
    obtain ⟨x, hx, rfl⟩ := Res.map1_eq_ok.1 h
    obtain ⟨h1, h2⟩ := ih x hx
    exact ⟨fun v hv => by simp only [Expr.denote, VExpr.denote, h1 v hv], h2⟩
  | sum a b iha ihb =>
    simp only [VExpr.toExpr] at h
    cases ha : a.toExpr s.witness s.inst s.fixed with
    | ok x =>
      rw [ha] at h
      obtain ⟨y, hy, rfl⟩ := Res.map1_eq_ok.1 h
      obtain ⟨h1, h2⟩ := iha x ha
      obtain ⟨h3, h4⟩ := ihb y hy
      constructor
      · intro v hv
        simp only [VExpr.queries, List.mem_append, or_imp, forall_and] at hv
        simp only [Expr.denote, VExpr.denote, h1 v hv.1, h3 v hv.2]
      · intro oq
        simp only [Expr.queries, VExpr.queries, List.mem_append, h2, h4, or_and_right, exists_or]
    | err _ => simp [ha] at h
    | panic => simp [ha] at h
  | prod a b iha ihb =>
    simp only [VExpr.toExpr] at h
    cases ha : a.toExpr s.witness s.inst s.fixed with
    | ok x =>
      rw [ha] at h
      obtain ⟨y, hy, rfl⟩ := Res.map1_eq_ok.1 h
      obtain ⟨h1, h2⟩ := iha x ha
      obtain ⟨h3, h4⟩ := ihb y hy
      constructor
      · intro v hv
        simp only [VExpr.queries, List.mem_append, or_imp, forall_and] at hv
        simp only [Expr.denote, VExpr.denote, h1 v hv.1, h3 v hv.2]
      · intro oq
        simp only [Expr.queries, VExpr.queries, List.mem_append, h2, h4, or_and_right, exists_or]
    | err _ => simp [ha] at h
    | panic => simp [ha] at h
  | scaled a k ih =>
    obtain ⟨x, hx, rfl⟩ := Res.map1_eq_ok.1 h
    obtain ⟨h1, h2⟩ := ih x hx
    exact ⟨fun v hv => by simp only [Expr.denote, VExpr.denote, h1 v hv], h2⟩

end

theorem Oracles.Registered.sameLabels {qs : List VirtualQuery} {s s' : Oracles W I X}
    (h : Oracles.Registered qs s s') : s.SameLabels s' := ⟨h.1.label, h.2.1.label, h.2.2.label⟩

omit [OracleData W] [OracleData I] [OracleData X] in
theorem Oracles.SameLabels.labelAt {W' I' X' : Type} [ConcreteOracle W] [ConcreteOracle I]
    [ConcreteOracle X] [ConcreteOracle W'] [ConcreteOracle I'] [ConcreteOracle X'] {s : Oracles W I X}
    {s' : Oracles W' I' X'} (h : s.SameLabels s') (ty : OracleType) (i : Nat) :
    s'.labelAt ty i = s.labelAt ty i := by
  cases ty <;> simp only [Oracles.labelAt, ← List.getElem?_map]
  · rw [h.1]
  · rw [h.2.1]
  · rw [h.2.2]

omit [Field F] in
/-- All outcomes of `configure`. -/
theorem GenericVO.configure_spec (vo : GenericVO F) (s : Oracles W I X) :
    (∃ e s', vo.configure s = .ok ({ vo with expr := some e }, s') ∧
      Res.foldM Oracles.register s vo.vqueries = .ok s' ∧
      vo.vexpr.toExpr s.witness s.inst s.fixed = .ok e ∧ Oracles.Registered vo.vqueries s s' ∧
      (∀ q ∈ vo.vqueries ++ vo.vexpr.queries, q.index < s.count q.oracleType)) ∨
    (vo.configure s = .panic ∧
      ∃ q ∈ vo.vqueries ++ vo.vexpr.queries, s.count q.oracleType ≤ q.index) := by
  unfold GenericVO.configure
  rcases Oracles.registerAll_spec vo.vqueries s with ⟨s', h1, h2, h3⟩ | ⟨h1, q, hq, hle⟩
  · rw [h1]
    simp only [VExpr.toExpr_congr h2.sameLabels]
    rcases VExpr.toExpr_spec s.witness s.inst s.fixed vo.vexpr with ⟨e, he, heq⟩ | ⟨he, q, hq, hle⟩
    · left
      refine ⟨e, s', by rw [he]; rfl, rfl, he, h2, ?_⟩
      intro q hq
      rcases List.mem_append.1 hq with hq | hq
      · exact h3 q hq
      · exact heq q hq
    · right
      exact ⟨by rw [he]; rfl, q, by simp [hq], hle⟩
  · right
    exact ⟨by rw [h1], q, by simp [hq], hle⟩

end
end ZK
