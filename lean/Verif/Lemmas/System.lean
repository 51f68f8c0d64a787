import Mathlib.Algebra.Polynomial.Eval.Degree
import Verif.Spec.System
import Verif.Lemmas.Collections
import Verif.Lemmas.Expression
import Verif.Lemmas.Fft
import Verif.Properties.Oracles
/-! Resolving labels and evaluating expressions on rows, on the coset and at a challenge. -/
set_option autoImplicit false
namespace ZK
open Polynomial

theorem findOracle_eq_some {O : Type} [ConcreteOracle O] {os : List O} {l : Label} {o : O} :
    findOracle os l = some o ↔ Resolves os l o := by
  unfold findOracle Resolves
  constructor
  · intro h
    split at h
    · rename_i i hi
      obtain ⟨h1, h2⟩ := lastIndexOf_eq_some.1 hi
      refine ⟨i, h, ?_, ?_⟩
      · rw [List.getElem?_map, h] at h1
        simpa using h1
      · intro j o' hj ho' hl
        refine h2 j hj ?_
        rw [List.getElem?_map, ho']
        simp [hl]
    · simp at h
  · rintro ⟨i, h1, h2, h3⟩
    have : lastIndexOf (os.map ConcreteOracle.label) l = some i := by
      apply lastIndexOf_eq_some.2
      refine ⟨by rw [List.getElem?_map, h1]; simp [h2], ?_⟩
      intro j hj hjl
      rw [List.getElem?_map] at hjl
      cases ho : os[j]? with
      | none => rw [ho] at hjl; simp at hjl
      | some o' =>
        rw [ho] at hjl
        exact h3 j o' hj ho (by simpa using hjl)
    rw [this]
    exact h1

theorem findOracle_eq_none {O : Type} [ConcreteOracle O] {os : List O} {l : Label} :
    findOracle os l = none ↔ ∀ o ∈ os, ConcreteOracle.label o ≠ l := by
  unfold findOracle
  constructor
  · intro h
    split at h
    · rename_i i hi
      obtain ⟨h1, _⟩ := lastIndexOf_eq_some.1 hi
      rw [List.getElem?_map, h] at h1
      simp at h1
    · rename_i hi
      have := lastIndexOf_eq_none.1 hi
      intro o ho hl
      exact this (List.mem_map.2 ⟨o, ho, hl⟩)
  · intro h
    have : lastIndexOf (os.map ConcreteOracle.label) l = none := by
      apply lastIndexOf_eq_none.2
      intro hm
      obtain ⟨o, ho, hl⟩ := List.mem_map.1 hm
      exact h o ho hl
    rw [this]

theorem Resolves.unique {O : Type} [ConcreteOracle O] {os : List O} {l : Label} {o o' : O}
    (h : Resolves os l o) (h' : Resolves os l o') : o = o' := by
  have := (findOracle_eq_some.2 h).symm.trans (findOracle_eq_some.2 h')
  exact Option.some.inj this

theorem Resolves.mem {O : Type} [ConcreteOracle O] {os : List O} {l : Label} {o : O}
    (h : Resolves os l o) : o ∈ os := by
  obtain ⟨i, hi, _⟩ := h
  exact List.mem_of_getElem? hi

theorem withOracle_of {O α : Type} [ConcreteOracle O] {os : List O} {l : Label} {o : O}
    (h : Resolves os l o) (e : PiopErr) (f : O → Res PiopErr α) : withOracle os l e f = f o := by
  unfold withOracle
  rw [findOracle_eq_some.2 h]

/-- Exactly one of: the label resolves, or the missing oracle error is returned. -/
theorem withOracle_none {O α : Type} [ConcreteOracle O] {os : List O} {l : Label}
    (h : ∀ o ∈ os, ConcreteOracle.label o ≠ l) (e : PiopErr) (f : O → Res PiopErr α) :
    withOracle os l e f = .err e := by
  unfold withOracle
  rw [findOracle_eq_none.2 h]

theorem withOracle_congr {O O' α : Type} [ConcreteOracle O] [ConcreteOracle O'] {os : List O} {os' : List O'}
    {R : O → O' → Prop} (hR : List.Forall₂ R os os')
    (hl : ∀ o o', R o o' → ConcreteOracle.label o = ConcreteOracle.label o') {l : Label} {e : PiopErr}
    {f : O → Res PiopErr α} {f' : O' → Res PiopErr α} (hf : ∀ o o', R o o' → f o = f' o') :
    withOracle os l e f = withOracle os' l e f' := by
  have hm : os.map ConcreteOracle.label = os'.map ConcreteOracle.label := by
    induction hR with
    | nil => rfl
    | cons h _ ih => simp [hl _ _ h, ih]
  unfold withOracle findOracle
  rw [hm]
  cases h : lastIndexOf (os'.map ConcreteOracle.label) l with
  | none => rfl
  | some i =>
    simp only
    by_cases hi : i < os.length
    · have hi' : i < os'.length := hR.length_eq ▸ hi
      rw [List.getElem?_eq_getElem hi, List.getElem?_eq_getElem hi']
      exact hf _ _ (List.Forall₂.get hR hi hi')
    · have hi' : ¬ i < os'.length := hR.length_eq ▸ hi
      rw [List.getElem?_eq_none (by omega), List.getElem?_eq_none (by omega)]

theorem exists_resolves {O : Type} [ConcreteOracle O] {os : List O} {l : Label} {o : O} (ho : o ∈ os)
    (hl : ConcreteOracle.label o = l) : ∃ o', Resolves os l o' := by
  cases h : findOracle os l with
  | none => exact absurd hl (findOracle_eq_none.1 h o ho)
  | some o' => exact ⟨o', findOracle_eq_some.1 h⟩

section
variable {F : Type} [Field F]

theorem eval_shifted (d : Domain F) (p : F[X]) (r : Rotation) (x : F) :
    (shifted d p r).eval x = p.eval (d.omega ^ r.signed * x) := by
  simp [shifted, eval_comp]

theorem natDegree_shifted_le (d : Domain F) (p : F[X]) (r : Rotation) :
    (shifted d p r).natDegree ≤ p.natDegree := by
  unfold shifted
  refine natDegree_comp_le.trans ?_
  calc _ ≤ p.natDegree * 1 := Nat.mul_le_mul_left _ (by
        refine (natDegree_C_mul_le _ _).trans natDegree_X_le)
    _ = _ := Nat.mul_one _

theorem shifted_curr (d : Domain F) (p : F[X]) (r : Rotation) (h : r.degree = 0) : shifted d p r = p := by
  have : r.signed = 0 := by unfold Rotation.signed; cases r.sign <;> simp [h]
  simp [shifted, this]

variable [FftParams F] [LawfulFft F]

theorem Honest.row {d ext : Domain F} (hd : d.Ok) {o : ProverOracle F} (h : Honest d ext o)
    {i : Nat} (hi : i < d.size) {r : Rotation} (hr : r.degree < d.size) :
    (o.queryAtOmega i r : Res PiopErr F) = .ok ((shifted d (toPoly o.poly) r).eval (d.omega ^ i)) := by
  obtain ⟨j, hj, _, _, h2⟩ := C02_row_query hd o h.1.1 i hi r hr
  rw [h2 (toPoly o.poly) ?_, eval_shifted]
  · rw [zpow_add₀ hd.omega_ne_zero, zpow_natCast, mul_comm]
  · intro k hk
    have := h.1.2 k hk
    rw [List.getElem?_eq_getElem (by rw [h.1.1]; exact hk)] at this
    exact (Option.some.inj this).symm

theorem Honest.coset {d ext : Domain F} (hd : d.Ok) (he : ext.Ok) (hle : d.size ≤ ext.size)
    {o : ProverOracle F} (h : Honest d ext o)
    {i : Nat} (hi : i < ext.size) {r : Rotation} (hr : r.degree < d.size) :
    o.queryInCoset i r = .ok ((shifted d (toPoly o.poly) r).eval ((FftParams.gen : F) * ext.element i)) := by
  have h1 : o.computeExtended ext = o := by
    obtain ⟨_, _, h3⟩ := h
    cases o
    simp only at h3
    simp [ProverOracle.computeExtended, h3]
  have := C01_coset_query hd he hle o (h.2.1.trans hle) h.1.1 i hi r hr
  rw [h1] at this
  rw [this, eval_shifted, mul_comm]

theorem OnCoset.curr {d ext : Domain F} (hle : d.size ≤ ext.size) {o : ProverOracle F} (h : OnCoset d ext o)
    {i : Nat} (hi : i < ext.size) :
    o.queryInCoset i .curr = .ok ((toPoly o.poly).eval ((FftParams.gen : F) * ext.element i)) := by
  have h1 := Domain.cosetFft_get (d := ext) (h.1.trans hle) i hi
  unfold ProverOracle.queryInCoset ProverOracle.cosetEvals
  rw [h.2]
  simp only [Rotation.curr, if_true]
  unfold Res.idx
  rw [h1, eval_toPoly]

theorem ProverView.atRow_ok {d ext : Domain F} (hd : d.Ok) {v : ProverView F} {qs : List OracleQuery}
    {P : OracleQuery → F[X]} (h : QueryPolys d ext v qs P) {i : Nat} (hi : i < d.size) :
    ∀ q ∈ qs, v.atRow i q = .ok ((P q).eval (d.omega ^ i)) := by
  intro q hq
  obtain ⟨hr, o, ho, hon, hP⟩ := h q hq
  unfold ProverView.atRow
  cases hty : q.oracleType <;> rw [hty] at ho <;> simp only [ProverView.oracles] at ho ⊢ <;>
    rw [withOracle_of ho, hon.row hd hi hr, hP]

theorem ProverView.atCoset_ok {d ext : Domain F} (hd : d.Ok) (he : ext.Ok) (hle : d.size ≤ ext.size)
    {v : ProverView F} {qs : List OracleQuery}
    {P : OracleQuery → F[X]} (h : QueryPolys d ext v qs P) {i : Nat} (hi : i < ext.size) :
    ∀ q ∈ qs, v.atCoset i q = .ok ((P q).eval ((FftParams.gen : F) * ext.element i)) := by
  intro q hq
  obtain ⟨hr, o, ho, hon, hP⟩ := h q hq
  unfold ProverView.atCoset
  cases hty : q.oracleType <;> rw [hty] at ho <;> simp only [ProverView.oracles] at ho ⊢ <;>
    rw [withOracle_of ho, hon.coset hd he hle hi hr, hP]

theorem ProverView.tableAtRow_ok {d ext : Domain F} {v : ProverView F} {qs : List OracleQuery}
    {T : OracleQuery → F[X]} (h : TablePolys d ext v qs T) {i : Nat} (hi : i < d.size) :
    ∀ q ∈ qs, v.tableAtRow i q = .ok ((T q).eval (d.omega ^ i)) := by
  intro q hq
  obtain ⟨hty, o, ho, hon, hT⟩ := h q hq
  unfold ProverView.tableAtRow
  rw [hty]
  simp only
  rw [withOracle_of ho, hT]
  exact Res.idx_of_some (hon.1.2 i hi)

theorem ProverView.tableAtCoset_ok {d ext : Domain F} (hd : d.Ok) (he : ext.Ok) (hle : d.size ≤ ext.size)
    {v : ProverView F} {qs : List OracleQuery}
    {T : OracleQuery → F[X]} (h : TablePolys d ext v qs T) {i : Nat} (hi : i < ext.size) :
    ∀ q ∈ qs, v.tableAtCoset i q = .ok ((T q).eval ((FftParams.gen : F) * ext.element i)) := by
  intro q hq
  obtain ⟨hty, o, ho, hon, hT⟩ := h q hq
  unfold ProverView.tableAtCoset
  rw [hty]
  simp only
  rw [withOracle_of ho, hon.coset hd he hle hi hd.size_pos, hT, shifted_curr _ _ _ rfl]

omit [FftParams F] [LawfulFft F] in
theorem eval_compress (theta : F) (l : List F[X]) (x : F) :
    (compress (C theta) l).eval x = compress theta (l.map (fun p => p.eval x)) := by
  unfold compress
  induction l with
  | nil => simp
  | cons p l ih => simp [← ih]

omit [FftParams F] [LawfulFft F] in
theorem natDegree_compress_le (theta : F) (l : List F[X]) (m : Nat) (h : ∀ p ∈ l, p.natDegree ≤ m) :
    (compress (C theta) l).natDegree ≤ m := by
  unfold compress
  induction l with
  | nil => simp
  | cons p l ih =>
    simp only [List.foldr_cons]
    refine (natDegree_add_le _ _).trans (max_le (h p (by simp)) ?_)
    exact (natDegree_C_mul_le _ _).trans (ih (fun q hq => h q (by simp [hq])))

omit [FftParams F] [LawfulFft F] in
theorem thetaAgg_ok {α : Type} {f : α → Res PiopErr F} {g : α → F} (theta : F) (l : List α)
    (h : ∀ a ∈ l, f a = .ok (g a)) : thetaAgg f theta l = .ok (compress theta (l.map g)) := by
  have key : ∀ (l : List α) (acc start : F), (∀ a ∈ l, f a = .ok (g a)) →
      Res.foldM (fun (acc : F) (p : α × F) => (f p.1).map1 (fun v => acc + v * p.2)) acc
        (List.zip l (powersFrom start theta l.length)) = .ok (acc + start * compress theta (l.map g)) := by
    intro l
    induction l with
    | nil => intro acc start _; simp [compress]
    | cons a l ih =>
      intro acc start h
      simp only [List.length_cons, powersFrom, List.zip_cons_cons, Res.foldM_cons, h a (by simp), Res.map1_ok,
        Res.bind_ok]
      rw [ih _ _ (fun b hb => h b (by simp [hb]))]
      congr 1
      simp only [List.map_cons, compress, List.foldr_cons]
      ring
  have := key l 0 1 h
  unfold thetaAgg
  rw [this]
  simp

omit [FftParams F] [LawfulFft F] in
theorem thetaAgg_ok_inv {α : Type} {f : α → Res PiopErr F} (theta : F) (l : List α) {y : F}
    (h : thetaAgg f theta l = .ok y) : ∀ a ∈ l, ∃ b, f a = .ok b := by
  have key : ∀ (l : List α) (acc start : F), (∃ y, 
      Res.foldM (fun (acc : F) (p : α × F) => (f p.1).map1 (fun v => acc + v * p.2)) acc
        (List.zip l (powersFrom start theta l.length)) = .ok y) → ∀ a ∈ l, ∃ b, f a = .ok b := by
    intro l
    induction l with
    | nil => simp
    | cons a l ih =>
      rintro acc start ⟨y, hy⟩
      simp only [List.length_cons, powersFrom, List.zip_cons_cons] at hy
      obtain ⟨b, h1, h2⟩ := Res.foldM_eq_ok_cons.1 hy
      obtain ⟨c, h3, _⟩ := Res.map1_eq_ok.1 h1
      intro x hx
      rcases List.mem_cons.1 hx with rfl | hx
      · exact ⟨c, h3⟩
      · exact ih _ _ ⟨y, h2⟩ x hx
  exact key l 0 1 ⟨y, h⟩

/-- The polynomial a query refers to. -/
noncomputable def ProverView.polyOf (d : Domain F) (v : ProverView F) (q : OracleQuery) : F[X] :=
  match findOracle (v.oracles q.oracleType) q.label with
  | some o => shifted d (toPoly o.poly) q.rotation
  | none => 0

/-- The polynomial a table query refers to. -/
noncomputable def ProverView.tablePolyOf (v : ProverView F) (q : OracleQuery) : F[X] :=
  match findOracle v.table q.label with
  | some o => toPoly o.poly
  | none => 0

omit [LawfulFft F] in
theorem queryPolys_polyOf {d ext : Domain F} {v : ProverView F} {qs : List OracleQuery}
    (hall : ∀ ty, ∀ o ∈ v.oracles ty, Honest d ext o)
    (hq : ∀ q ∈ qs, q.rotation.degree < d.size ∧ (findOracle (v.oracles q.oracleType) q.label).isSome) :
    QueryPolys d ext v qs (v.polyOf d) := by
  intro q hqq
  obtain ⟨h1, h2⟩ := hq q hqq
  obtain ⟨o, ho⟩ := Option.isSome_iff_exists.1 h2
  have hr := findOracle_eq_some.1 ho
  exact ⟨h1, o, hr, hall _ o hr.mem, by simp [ProverView.polyOf, ho]⟩

omit [LawfulFft F] in
theorem tablePolys_tablePolyOf {d ext : Domain F} {v : ProverView F} {qs : List OracleQuery}
    (hall : ∀ o ∈ v.table, Honest d ext o)
    (hq : ∀ q ∈ qs, q.oracleType = .fixed ∧ (findOracle v.table q.label).isSome) :
    TablePolys d ext v qs v.tablePolyOf := by
  intro q hqq
  obtain ⟨h1, h2⟩ := hq q hqq
  obtain ⟨o, ho⟩ := Option.isSome_iff_exists.1 h2
  have hr := findOracle_eq_some.1 ho
  exact ⟨h1, o, hr, hall o hr.mem, by simp [ProverView.tablePolyOf, ho]⟩

end
end ZK
