import Mathlib.Data.List.Basic
import Mathlib.Data.List.Forall2
import Verif.Model.Collections
/-! Lemmas about outcomes. -/
set_option autoImplicit false
namespace ZK
namespace Res
variable {ε ε' α β γ δ : Type}

@[simp] theorem pure_eq (a : α) : (pure a : Res ε α) = ok a := rfl
@[simp] theorem bind_ok (a : α) (f : α → Res ε β) : ((ok a : Res ε α) >>= f) = f a := rfl
@[simp] theorem bind_err (e : ε) (f : α → Res ε β) : ((err e : Res ε α) >>= f) = err e := rfl
@[simp] theorem bind_panic (f : α → Res ε β) : ((panic : Res ε α) >>= f) = panic := rfl

theorem bind_eq_ok {x : Res ε α} {f : α → Res ε β} {b : β} :
    (x >>= f) = ok b ↔ ∃ a, x = ok a ∧ f a = ok b := by
  cases x <;> simp

theorem bind_eq_err {x : Res ε α} {f : α → Res ε β} {e : ε} :
    (x >>= f) = err e ↔ x = err e ∨ ∃ a, x = ok a ∧ f a = err e := by
  cases x <;> simp

theorem bind_eq_panic {x : Res ε α} {f : α → Res ε β} :
    (x >>= f) = panic ↔ x = panic ∨ ∃ a, x = ok a ∧ f a = panic := by
  cases x <;> simp

@[simp] theorem mapErr_ok (f : ε → ε') (a : α) : (ok a : Res ε α).mapErr f = ok a := rfl
@[simp] theorem mapErr_err (f : ε → ε') (e : ε) : (err e : Res ε α).mapErr f = err (f e) := rfl
@[simp] theorem mapErr_panic (f : ε → ε') : (panic : Res ε α).mapErr f = panic := rfl
@[simp] theorem mapErr_eq_ok {x : Res ε α} {f : ε → ε'} {a : α} : x.mapErr f = ok a ↔ x = ok a := by
  cases x <;> simp [mapErr]

@[simp] theorem map1_ok (f : α → β) (a : α) : (ok a : Res ε α).map1 f = ok (f a) := rfl
@[simp] theorem map1_err (f : α → β) (e : ε) : (err e : Res ε α).map1 f = err e := rfl
@[simp] theorem map1_panic (f : α → β) : (panic : Res ε α).map1 f = panic := rfl
theorem map1_eq_ok {x : Res ε α} {f : α → β} {b : β} : x.map1 f = ok b ↔ ∃ a, x = ok a ∧ f a = b := by
  cases x <;> simp [map1]

@[simp] theorem unwrap_some (a : α) : (unwrap (some a) : Res ε α) = ok a := rfl
@[simp] theorem unwrap_none : (unwrap (none : Option α) : Res ε α) = panic := rfl
@[simp] theorem unwrap_eq_ok {o : Option α} {a : α} : (unwrap o : Res ε α) = ok a ↔ o = some a := by
  cases o <;> simp [unwrap]

@[simp] theorem assert_true : (assert true : Res ε Unit) = ok () := rfl
@[simp] theorem assert_false : (assert false : Res ε Unit) = panic := rfl
@[simp] theorem assert_eq_ok {b : Bool} {u : Unit} : (assert b : Res ε Unit) = ok u ↔ b = true := by
  cases b <;> simp [assert]
@[simp] theorem assert_ne_err {b : Bool} {e : ε} : (assert b : Res ε Unit) ≠ err e := by
  cases b <;> simp [assert]

theorem idx_of_lt {l : List α} {i : Nat} (h : i < l.length) : (idx l i : Res ε α) = ok l[i] := by
  simp [idx, h]
theorem idx_of_some {l : List α} {i : Nat} {a : α} (h : l[i]? = some a) :
    (idx l i : Res ε α) = ok a := by
  simp [idx, h]
theorem idx_eq_ok {l : List α} {i : Nat} {a : α} : (idx l i : Res ε α) = ok a ↔ l[i]? = some a := by
  unfold idx
  cases l[i]? <;> simp
theorem idx_eq_panic {l : List α} {i : Nat} : (idx l i : Res ε α) = panic ↔ l.length ≤ i := by
  unfold idx
  cases h : l[i]? with
  | none => simpa using h
  | some a =>
    have : i < l.length := by
      by_contra hc
      rw [List.getElem?_eq_none (by omega)] at h
      simp at h
    simpa using this

@[simp] theorem lift2_ok (f : α → β → γ) (a : α) (b : β) :
    lift2 f (ok a : Res ε α) (ok b) = ok (f a b) := rfl
theorem lift2_eq_ok {f : α → β → γ} {x : Res ε α} {y : Res ε β} {c : γ} :
    lift2 f x y = ok c ↔ ∃ a b, x = ok a ∧ y = ok b ∧ f a b = c := by
  cases x <;> cases y <;> simp [lift2]

@[simp] theorem mapM_nil (f : α → Res ε β) : mapM f [] = ok [] := rfl
theorem mapM_cons (f : α → Res ε β) (a : α) (l : List α) :
    mapM f (a :: l) = (f a >>= fun b => mapM f l >>= fun bs => ok (b :: bs)) := by
  simp only [mapM]
  cases f a <;> simp
  cases mapM f l <;> simp
@[simp] theorem foldM_nil (f : β → α → Res ε β) (b : β) : foldM f b [] = ok b := rfl
theorem foldM_cons (f : β → α → Res ε β) (b : β) (a : α) (l : List α) :
    foldM f b (a :: l) = (f b a >>= fun b' => foldM f b' l) := by
  simp only [foldM]
  cases f b a <;> simp

theorem foldM_append (f : β → α → Res ε β) (b : β) (l l' : List α) :
    foldM f b (l ++ l') = (foldM f b l >>= fun b' => foldM f b' l') := by
  induction l generalizing b with
  | nil => simp
  | cons a l ih =>
    simp only [List.cons_append, foldM_cons]
    cases f b a <;> simp [ih]

theorem mapM_eq_ok {f : α → Res ε β} {l : List α} {bs : List β} :
    mapM f l = ok bs ↔ List.Forall₂ (fun a b => f a = ok b) l bs := by
  induction l generalizing bs with
  | nil => simp [eq_comm]
  | cons a l ih =>
    simp only [mapM_cons, bind_eq_ok, List.forall₂_cons_left_iff, ih]
    constructor
    · rintro ⟨b, hb, bs', hbs, h⟩
      simp only [ok.injEq] at h
      exact ⟨b, bs', hb, hbs, h.symm⟩
    · rintro ⟨b, bs', hb, hbs, rfl⟩
      exact ⟨b, hb, bs', hbs, rfl⟩

theorem mapM_length {f : α → Res ε β} {l : List α} {bs : List β} (h : mapM f l = ok bs) :
    bs.length = l.length := (mapM_eq_ok.1 h).length_eq.symm

theorem mapM_getElem {f : α → Res ε β} {l : List α} {bs : List β} (h : mapM f l = ok bs) (i : Nat)
    (hi : i < l.length) : f l[i] = ok (bs[i]'(by rw [mapM_length h]; exact hi)) :=
  List.Forall₂.get (mapM_eq_ok.1 h) hi _

theorem mapM_congr {f g : α → Res ε β} {l : List α} (h : ∀ a ∈ l, f a = g a) :
    mapM f l = mapM g l := by
  induction l with
  | nil => rfl
  | cons a l ih =>
    rw [mapM_cons, mapM_cons, h a (by simp), ih (fun a ha => h a (by simp [ha]))]

theorem foldM_congr {f g : β → α → Res ε β} {l : List α} (h : ∀ b, ∀ a ∈ l, f b a = g b a) (b : β) :
    foldM f b l = foldM g b l := by
  induction l generalizing b with
  | nil => rfl
  | cons a l ih =>
    rw [foldM_cons, foldM_cons, h b a (by simp)]
    congr 1
    funext b'
    exact ih (fun b a ha => h b a (by simp [ha])) b'

/-- If every step succeeds the loop is the pure map. -/
theorem mapM_ok_map {f : α → Res ε β} {g : α → β} {l : List α} (h : ∀ a ∈ l, f a = ok (g a)) :
    mapM f l = ok (l.map g) := by
  induction l with
  | nil => rfl
  | cons a l ih =>
    rw [mapM_cons, h a (by simp), bind_ok, ih (fun a ha => h a (by simp [ha]))]
    simp

/-- If every step succeeds the loop is the pure fold. -/
theorem foldM_ok_foldl {f : β → α → Res ε β} {g : β → α → β} {l : List α}
    (h : ∀ b, ∀ a ∈ l, f b a = ok (g b a)) (b : β) : foldM f b l = ok (l.foldl g b) := by
  induction l generalizing b with
  | nil => rfl
  | cons a l ih =>
    rw [foldM_cons, h b a (by simp), bind_ok, ih (fun b a ha => h b a (by simp [ha]))]
    simp

theorem mapM_ok_of {f : α → Res ε β} {l : List α} (h : ∀ a ∈ l, ∃ b, f a = ok b) :
    ∃ bs, mapM f l = ok bs := by
  induction l with
  | nil => exact ⟨[], rfl⟩
  | cons a l ih =>
    obtain ⟨b, hb⟩ := h a (by simp)
    obtain ⟨bs, hbs⟩ := ih (fun a ha => h a (by simp [ha]))
    exact ⟨b :: bs, by rw [mapM_cons, hb, bind_ok, hbs, bind_ok]⟩

/-- A fold that fails fails at some prefix. -/
theorem foldM_eq_ok_cons {f : β → α → Res ε β} {b c : β} {a : α} {l : List α} :
    foldM f b (a :: l) = ok c ↔ ∃ b', f b a = ok b' ∧ foldM f b' l = ok c := by
  rw [foldM_cons, bind_eq_ok]

/-- Invariants of successful loops. -/
theorem foldM_inv {f : β → α → Res ε β} (P : β → Prop) {l : List α} {b c : β} (h0 : P b)
    (hstep : ∀ b, ∀ a ∈ l, ∀ b', P b → f b a = ok b' → P b') (h : foldM f b l = ok c) : P c := by
  induction l generalizing b with
  | nil => simp at h; exact h ▸ h0
  | cons a l ih =>
    obtain ⟨b', hb', h'⟩ := foldM_eq_ok_cons.1 h
    exact ih (hstep b a (by simp) b' h0 hb') (fun b a ha => hstep b a (by simp [ha])) h'

theorem bind_eq_map1 {ε A B D : Type} {x : Res ε A} {f : A → Res ε D} {g : A → Res ε B} {h : B → D}
    (hf : ∀ a, f a = (g a).map1 h) : x.bind f = (x.bind g).map1 h := by
  cases x with
  | ok a => exact hf a
  | err e => rfl
  | panic => rfl

end Res
end ZK
