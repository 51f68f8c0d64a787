import Verif.Lemmas.Verify
import Verif.Spec.Reuse
/-! A verifier whose oracles know more behaves the same, unless the one whose oracles know less reports that something
is missing. -/
set_option autoImplicit false
set_option linter.unusedSectionVars false
namespace ZK

/-- The second outcome is the same as the first (up to `R`), or the first is an error for which `bad` holds. -/
inductive Refines {ε α β : Type} (bad : ε → Prop) (R : α → β → Prop) : Res ε α → Res ε β → Prop
  | missing {e : ε} {r : Res ε β} : bad e → Refines bad R (.err e) r
  | ok {a : α} {b : β} : R a b → Refines bad R (.ok a) (.ok b)
  | err (e : ε) : Refines bad R (.err e) (.err e)
  | panic : Refines bad R .panic .panic

namespace Refines
variable {ε ε' α β γ δ : Type} {bad : ε → Prop} {bad' : ε' → Prop}

theorem bind {R : α → β → Prop} {T : γ → δ → Prop} {x : Res ε α} {y : Res ε β} {f : α → Res ε γ} {g : β → Res ε δ}
    (h : Refines bad R x y) (hf : ∀ a b, R a b → Refines bad T (f a) (g b)) : Refines bad T (x >>= f) (y >>= g) := by
  cases h with
  | missing hb => exact .missing hb
  | ok hr => exact hf _ _ hr
  | err e => exact .err e
  | panic => exact .panic

theorem bind_same {T : γ → δ → Prop} (x : Res ε α) {f : α → Res ε γ} {g : α → Res ε δ}
    (hf : ∀ a, x = .ok a → Refines bad T (f a) (g a)) : Refines bad T (x >>= f) (x >>= g) := by
  cases x with
  | ok a => exact hf a rfl
  | err e => exact .err e
  | panic => exact .panic

theorem same {R : α → α → Prop} (hR : ∀ a, R a a) (x : Res ε α) : Refines bad R x x := by
  cases x with
  | ok a => exact .ok (hR a)
  | err e => exact .err e
  | panic => exact .panic

theorem mapErr {R : α → β → Prop} {x : Res ε α} {y : Res ε β} (f : ε → ε') (hf : ∀ e, bad e → bad' (f e))
    (h : Refines bad R x y) : Refines bad' R (x.mapErr f) (y.mapErr f) := by
  cases h with
  | missing hb => exact .missing (hf _ hb)
  | ok hr => exact .ok hr
  | err e => exact .err _
  | panic => exact .panic

theorem map1 {R : α → β → Prop} {T : γ → δ → Prop} {x : Res ε α} {y : Res ε β} {f : α → γ} {g : β → δ}
    (h : Refines bad R x y) (hf : ∀ a b, R a b → T (f a) (g b)) : Refines bad T (x.map1 f) (y.map1 g) := by
  cases h with
  | missing hb => exact .missing hb
  | ok hr => exact .ok (hf _ _ hr)
  | err e => exact .err _
  | panic => exact .panic

theorem foldM {R : γ → δ → Prop} {T : α → β → Prop} {f : γ → α → Res ε γ} {g : δ → β → Res ε δ} {l : List α} {m : List β}
    (h : List.Forall₂ T l m) (hf : ∀ c d a b, R c d → T a b → Refines bad R (f c a) (g d b)) {c : γ} {d : δ} (hcd : R c d) :
    Refines bad R (Res.foldM f c l) (Res.foldM g d m) := by
  induction h generalizing c d with
  | nil => exact .ok hcd
  | cons hab _ ih =>
    rw [Res.foldM_cons, Res.foldM_cons]
    exact (hf _ _ _ _ hcd hab).bind fun _ _ h => ih h

theorem mapM {R : γ → δ → Prop} {T : α → β → Prop} {f : α → Res ε γ} {g : β → Res ε δ} {l : List α} {m : List β}
    (h : List.Forall₂ T l m) (hf : ∀ a b, T a b → Refines bad R (f a) (g b)) :
    Refines bad (List.Forall₂ R) (Res.mapM f l) (Res.mapM g m) := by
  induction h with
  | nil => exact .ok .nil
  | cons hab _ ih =>
    rw [Res.mapM_cons, Res.mapM_cons]
    exact (hf _ _ hab).bind fun _ _ h => ih.bind fun _ _ h' => .ok (.cons h h')

theorem eq_or_bad {x y : Res ε α} (h : Refines bad Eq x y) : y = x ∨ ∃ e, bad e ∧ x = .err e := by
  cases h with
  | missing hb => exact .inr ⟨_, hb, rfl⟩
  | ok hr => exact .inl (by rw [hr])
  | err e => exact .inl rfl
  | panic => exact .inl rfl

theorem idx {R : α → β → Prop} {l : List α} {m : List β} (h : List.Forall₂ R l m) (i : Nat) :
    Refines bad R (Res.idx l i) (Res.idx m i) := by
  induction h generalizing i with
  | nil => exact .panic
  | cons hab _ ih =>
    cases i with
    | zero => exact .ok hab
    | succ i => simpa [Res.idx] using ih i

end Refines

section lists
variable {α β γ δ : Type}

theorem forall₂_zip₂ {R : α → β → Prop} {T : γ → δ → Prop} {l : List α} {m : List β} {l' : List γ} {m' : List δ}
    (h : List.Forall₂ R l m) (h' : List.Forall₂ T l' m') :
    List.Forall₂ (fun p q => R p.1 q.1 ∧ T p.2 q.2) (List.zip l l') (List.zip m m') := by
  induction h generalizing l' m' with
  | nil => exact .nil
  | cons hab _ ih =>
    cases h' with
    | nil => exact .nil
    | cons hcd h' => exact .cons ⟨hab, hcd⟩ (ih h')

theorem forall₂_zipIdx {R : α → β → Prop} {l : List α} {m : List β} (h : List.Forall₂ R l m) (k : Nat) :
    List.Forall₂ (fun p q => R p.1 q.1 ∧ p.2 = q.2) (l.zipIdx k) (m.zipIdx k) := by
  induction h generalizing k with
  | nil => exact .nil
  | cons hab _ ih => exact .cons ⟨hab, rfl⟩ (ih _)

theorem forall₂_eq (l : List α) : List.Forall₂ (· = ·) l l := List.forall₂_refl l

theorem forall₂_chunks {R : α → β → Prop} {k : Nat} {l : List α} {m : List β} (h : List.Forall₂ R l m) :
    List.Forall₂ (List.Forall₂ R) (chunks k l) (chunks k m) := by
  unfold chunks
  rw [h.length_eq]
  generalize m.length = n
  induction n generalizing l m with
  | zero => exact .nil
  | succ n ih =>
    cases h with
    | nil => exact .nil
    | cons hab h =>
      exact .cons (List.forall₂_take _ (.cons hab h)) (ih (List.forall₂_drop _ (.cons hab h)))

theorem forall₂_filter₂ {R : α → β → Prop} {p : α → Bool} {q : β → Bool} (hpq : ∀ a b, R a b → p a = q b) {l : List α} {m : List β}
    (h : List.Forall₂ R l m) : List.Forall₂ R (l.filter p) (m.filter q) := by
  induction h with
  | nil => exact .nil
  | cons hab _ ih =>
    rw [List.filter_cons, List.filter_cons, hpq _ _ hab]
    split
    · exact .cons hab ih
    · exact ih

theorem forall₂_getLast? {R : α → β → Prop} {ε : Type} {bad : ε → Prop} {l : List α} {m : List β} (h : List.Forall₂ R l m) :
    Refines bad R (Res.unwrap l.getLast?) (Res.unwrap m.getLast?) := by
  rw [List.getLast?_eq_getElem?, List.getLast?_eq_getElem?, h.length_eq]
  have := Refines.idx (bad := bad) h (m.length - 1)
  unfold Res.idx at this
  unfold Res.unwrap
  convert this using 1

end lists

section
variable {F : Type} [Field F] [LinearOrder F]
variable {C : Type}

/-- `w` is configured like `v` and knows at least as much. -/
structure Ext (v w : VerifierOracle F C) : Prop where
  kind : w.kind = v.kind
  label : w.label = v.label
  rotations : w.rotations = v.rotations
  copied : w.shouldPermute = v.shouldPermute
  query : ∀ p y, v.query p = .ok y → w.query p = .ok y
  comm : ∀ c, v.commitment = some c → w.commitment = some c

theorem Ext.refl (v : VerifierOracle F C) : Ext v v := ⟨rfl, rfl, rfl, rfl, fun _ _ h => h, fun _ h => h⟩

theorem VerifierOracle.query_registerEval (o : VerifierOracle F C) (x e p : F) :
    (o.registerEval x e).query p = if p = x then .ok e else o.query p := by
  unfold VerifierOracle.query VerifierOracle.registerEval
  by_cases h : p = x <;> simp [assocGet, h]

theorem Ext.registerEval {v w : VerifierOracle F C} (h : Ext v w) (x e : F) : Ext (v.registerEval x e) (w.registerEval x e) where
  kind := h.kind
  label := h.label
  rotations := h.rotations
  copied := h.copied
  query p y := by
    rw [VerifierOracle.query_registerEval, VerifierOracle.query_registerEval]
    split
    · exact id
    · exact h.query p y
  comm := h.comm

theorem Ext.registerCommitment {v w : VerifierOracle F C} (h : Ext v w) (c : C) :
    Ext (v.registerCommitment c) (w.registerCommitment c) where
  kind := h.kind
  label := h.label
  rotations := h.rotations
  copied := h.copied
  query := h.query
  comm _ := id

theorem Used.ext {o o' : VerifierOracle F C} (h : Used o o') (hf : FreshWitness o) : Ext o o' := by
  have hq : ∀ p y, o.query p ≠ .ok y := by
    intro p y
    simp [VerifierOracle.query, hf.1, assocGet]
  induction h with
  | refl => exact .refl _
  | eval x e _ ih => exact ⟨ih.kind, ih.label, ih.rotations, ih.copied, fun p y h => absurd h (hq p y), ih.comm⟩
  | commitment c _ ih =>
    exact ⟨ih.kind, ih.label, ih.rotations, ih.copied, ih.query, fun c h => by rw [hf.2] at h; simp at h⟩

theorem Evaluated.ext {o o' : VerifierOracle F C} (h : Evaluated o o') (hf : o.evals = []) : Ext o o' := by
  have hq : ∀ p y, o.query p ≠ .ok y := by
    intro p y
    simp [VerifierOracle.query, hf, assocGet]
  induction h with
  | refl => exact .refl _
  | eval x e _ ih => exact ⟨ih.kind, ih.label, ih.rotations, ih.copied, fun p y h => absurd h (hq p y), ih.comm⟩

local notation "Miss" => PiopErr.Missing
abbrev Exts : List (VerifierOracle F C) → List (VerifierOracle F C) → Prop := List.Forall₂ Ext

theorem Exts.refl (l : List (VerifierOracle F C)) : Exts l l := by
  induction l with
  | nil => exact .nil
  | cons a l ih => exact .cons (.refl a) ih

theorem Ext.query_refines {v w : VerifierOracle F C} (h : Ext v w) (p : F) :
    Refines Miss Eq (v.query p) (w.query p) := by
  have := h.query p
  unfold VerifierOracle.query at this ⊢
  cases hv : assocGet p v.evals with
  | none => exact .missing (.eval _)
  | some y =>
    rw [hv] at this
    simp only at this
    rw [this y rfl]
    exact .ok rfl

theorem Ext.comm_refines {v w : VerifierOracle F C} (h : Ext v w) : Refines Miss Eq v.getCommitment w.getCommitment := by
  unfold VerifierOracle.getCommitment
  cases hv : v.commitment with
  | none =>
    refine .missing ?_
    cases v.kind
    · exact .witness _
    · exact .fixed _
    · exact .fixed _
  | some c => rw [h.comm c hv]; exact .ok rfl

theorem Exts.labels {l m : List (VerifierOracle F C)} (h : Exts l m) :
    m.map ConcreteOracle.label = l.map ConcreteOracle.label := by
  induction h with
  | nil => rfl
  | cons hab _ ih =>
    rw [List.map_cons, List.map_cons, ih]
    exact congrArg (· :: _) hab.label

theorem Exts.getQuerySet {ε : Type} {l m : List (VerifierOracle F C)} (h : Exts l m) (x : F) (omegas : List F) :
    getQuerySet (ε := ε) m xiLabel x omegas = getQuerySet l xiLabel x omegas := by
  unfold ZK.getQuerySet
  generalize ([] : List (Query F)) = acc
  induction h generalizing acc with
  | nil => rfl
  | cons hab _ ih =>
    rw [Res.foldM_cons, Res.foldM_cons]
    have : ∀ {a b : VerifierOracle F C}, Ext a b → querySetOf (ε := ε) b xiLabel x omegas = querySetOf a xiLabel x omegas := by
      intro a b hab
      unfold querySetOf
      show Res.map1 _ (Res.mapM _ b.rotations) = Res.map1 _ (Res.mapM _ a.rotations)
      rw [hab.rotations]
      congr 1
      funext ps
      show setExtend [] (ps.map fun p => toLex (b.label, _)) = _
      rw [hab.label]
      rfl
    rw [this hab]
    congr 1
    funext b
    exact ih b

theorem Exts.modify {l m : List (VerifierOracle F C)} (h : Exts l m) (i : Nat) (x e : F) :
    Exts (l.modify i (fun o => o.registerEval x e)) (m.modify i (fun o => o.registerEval x e)) := by
  induction h generalizing i with
  | nil => simpa using List.Forall₂.nil
  | cons hab h ih =>
    cases i with
    | zero => exact .cons (hab.registerEval x e) h
    | succ i => exact .cons hab (ih i)

theorem Exts.registerAll {l m : List (VerifierOracle F C)} (h : Exts l m) (missing : Label → PiopErr) (x : F) (omegas evals : List F) :
    Refines Miss Exts (registerAll missing l x omegas evals) (registerAll missing m x omegas evals) := by
  unfold ZK.registerAll
  rw [h.getQuerySet]
  refine .bind_same _ fun qs _ => .bind_same _ fun _ _ => ?_
  unfold registerEvals
  refine Refines.foldM (forall₂_eq _) ?_ h
  rintro c d a _ hcd rfl
  rw [Exts.labels hcd]
  split
  · exact .ok (hcd.modify _ _ _)
  · exact .err _

theorem Exts.registerCommitments {l m : List (VerifierOracle F C)} (h : Exts l m) (cs : List C) :
    Exts (registerCommitments l cs) (registerCommitments m cs) := by
  induction h generalizing cs with
  | nil => exact .nil
  | cons hab h ih =>
    cases cs with
    | nil => exact .cons hab h
    | cons c cs => exact .cons (hab.registerCommitment c) (ih cs)

theorem Exts.withOracle {l m : List (VerifierOracle F C)} (h : Exts l m) (lb : Label) (e : PiopErr) (x : F) :
    Refines Miss Eq (withOracle l lb e (fun o => o.query x)) (withOracle m lb e (fun o => o.query x)) ∧
      ZK.withOracle l lb e (fun o => o.query x) ≠ .panic ∧ ZK.withOracle m lb e (fun o => o.query x) ≠ .panic := by
  have hq : ∀ o : VerifierOracle F C, o.query x ≠ .panic := by
    intro o; unfold VerifierOracle.query; split <;> simp
  unfold ZK.withOracle findOracle
  rw [h.labels]
  cases lastIndexOf (l.map ConcreteOracle.label) lb with
  | none => exact ⟨.err _, by simp, by simp⟩
  | some i =>
    simp only
    have := Refines.idx (bad := Miss) h i
    unfold Res.idx at this
    cases hl : l[i]? with
    | none =>
      have hm : m[i]? = none := by
        rw [List.getElem?_eq_none_iff] at hl ⊢; rw [← h.length_eq]; exact hl
      rw [hm]
      exact ⟨.err _, by simp, by simp⟩
    | some v =>
      rw [hl] at this
      cases hm : m[i]? with
      | none => rw [hm] at this; cases this
      | some w =>
        rw [hm] at this
        cases this with
        | ok hvw => exact ⟨hvw.query_refines x, hq v, hq w⟩

/-- Both panic or neither, and the second refines the first. -/
def Tight (x y : Res PiopErr F) : Prop := Refines Miss Eq x y ∧ (x = .panic ↔ y = .panic)

theorem Tight.same (x : Res PiopErr F) : Tight x x := ⟨.same (fun _ => rfl) x, Iff.rfl⟩

theorem Tight.map1 {x y : Res PiopErr F} (h : Tight x y) (f : F → F) : Tight (x.map1 f) (y.map1 f) := by
  refine ⟨h.1.map1 (fun a b hab => by rw [hab]), ?_⟩
  have := h.2
  cases x <;> cases y <;> simp_all [Res.map1]

theorem Tight.lift2 {x y x' y' : Res PiopErr F} (h : Tight x y) (h' : Tight x' y') (f : F → F → F) :
    Tight (Res.lift2 f x x') (Res.lift2 f y y') := by
  obtain ⟨h1, h2⟩ := h
  obtain ⟨h1', h2'⟩ := h'
  constructor
  · cases h1 with
    | missing hb =>
      cases x' with
      | panic =>
        rw [h2'.1 rfl]
        have : y ≠ .panic := fun h => by simpa using h2.2 h
        cases y <;> simp_all [Res.lift2] <;> exact .panic
      | ok a => exact .missing hb
      | err e => exact .missing hb
    | ok hr =>
      subst hr
      cases h1' with
      | missing hb => exact .missing hb
      | ok hr => subst hr; exact .ok rfl
      | err e => exact .err e
      | panic => exact .panic
    | err e =>
      cases x' with
      | panic => rw [h2'.1 rfl]; exact .panic
      | ok a =>
        have : y' ≠ .panic := fun h => by simpa using h2'.2 h
        cases y' <;> simp_all [Res.lift2] <;> exact .err e
      | err e' =>
        have : y' ≠ .panic := fun h => by simpa using h2'.2 h
        cases y' <;> simp_all [Res.lift2] <;> exact .err e
    | panic => exact .panic
  · cases x <;> cases y <;> cases x' <;> cases y' <;> simp_all [Res.lift2]

theorem evalR_tight {f g : OracleQuery → Res PiopErr F} (h : ∀ q, Tight (f q) (g q)) (e : Expr F) :
    Tight (e.evalR f) (e.evalR g) := by
  unfold Expr.evalR
  induction e with
  | const c => exact .same _
  | oracle q => exact h q
  | neg a ih => exact ih.map1 _
  | sum a b iha ihb => exact iha.lift2 ihb _
  | prod a b iha ihb => exact iha.lift2 ihb _
  | scaled a c ih => exact ih.map1 _

theorem Refines.eval {R : F → F → Prop} {x y : Res PiopErr F} (h : Tight x y) (hR : ∀ a, R a a) : Refines Miss R x y := by
  obtain ⟨h, _⟩ := h
  cases h with
  | missing hb => exact .missing hb
  | ok hr => subst hr; exact .ok (hR _)
  | err e => exact .err e
  | panic => exact .panic

/-- What the verifier can query. -/
structure ViewExt (v w : VerifierView F C) : Prop where
  witness : Exts v.witness w.witness
  inst : w.inst = v.inst
  fixed : Exts v.fixed w.fixed
  table : Exts v.table w.table

theorem Exts.withOracle_tight {l m : List (VerifierOracle F C)} (h : Exts l m) (lb : Label) (e : PiopErr) (x : F) :
    Tight (ZK.withOracle l lb e (fun o => o.query x)) (ZK.withOracle m lb e (fun o => o.query x)) := by
  obtain ⟨h1, h2, h3⟩ := h.withOracle lb e x
  exact ⟨h1, ⟨fun h => absurd h h2, fun h => absurd h h3⟩⟩

theorem Tight.bind_same {x : Res PiopErr F} {f g : F → Res PiopErr F} (h : ∀ a, Tight (f a) (g a)) : Tight (x >>= f) (x >>= g) := by
  cases x with
  | ok a => exact h a
  | err e => exact .same _
  | panic => exact .same _

theorem ViewExt.gateAt {v w : VerifierView F C} (h : ViewExt v w) (xi : F) (omegas : List F) (q : OracleQuery) :
    Tight (v.gateAt xi omegas q) (w.gateAt xi omegas q) := by
  unfold VerifierView.gateAt
  refine .bind_same fun x => ?_
  cases q.oracleType with
  | witness => exact h.witness.withOracle_tight _ _ _
  | instance_ => simp only [h.inst]; exact .same _
  | fixed => exact h.fixed.withOracle_tight _ _ _

theorem ViewExt.lookupAt {v w : VerifierView F C} (h : ViewExt v w) (xi : F) (omegas : List F) (q : OracleQuery) :
    Tight (v.lookupAt xi omegas q) (w.lookupAt xi omegas q) := by
  unfold VerifierView.lookupAt
  cases q.oracleType with
  | witness => exact .bind_same fun x => h.witness.withOracle_tight _ _ _
  | instance_ => simp only [h.inst]; exact .same _
  | fixed => exact h.fixed.withOracle_tight _ _ _

theorem ViewExt.tableAt {v w : VerifierView F C} (h : ViewExt v w) (xi : F) (q : OracleQuery) :
    Tight (v.tableAt xi q) (w.tableAt xi q) := by
  unfold VerifierView.tableAt
  cases q.oracleType with
  | witness => exact .same _
  | instance_ => exact .same _
  | fixed => exact h.table.withOracle_tight _ _ _

theorem thetaAgg_refines {α : Type} {f g : α → Res PiopErr F} (h : ∀ a, Tight (f a) (g a)) (theta : F) (l : List α) :
    Refines Miss Eq (thetaAgg f theta l) (thetaAgg g theta l) := by
  unfold thetaAgg
  refine Refines.foldM (forall₂_eq _) ?_ rfl
  rintro c _ a _ rfl rfl
  exact (h a.1).1.map1 (fun x y hxy => by rw [hxy])

theorem ViewExt.lookupUnpermuted {v w : VerifierView F C} (h : ViewExt v w) (i : Nat) (es : List (Expr F)) (ts : List OracleQuery)
    (theta xi : F) (omegas : List F) :
    Refines Miss Eq (lookupUnpermuted v i es ts theta xi omegas) (lookupUnpermuted w i es ts theta xi omegas) := by
  unfold ZK.lookupUnpermuted
  refine .bind_same _ fun _ _ => ?_
  refine (thetaAgg_refines (fun e => evalR_tight (h.lookupAt xi omegas) e) theta es).bind ?_
  rintro a _ rfl
  refine (thetaAgg_refines (h.tableAt xi) theta ts).bind ?_
  rintro s _ rfl
  exact .ok rfl

theorem Ext.gpOpen {qb qb' z z' : VerifierOracle F C} {sg sg' ws ws' : List (VerifierOracle F C)} (hq : Ext qb qb') (hz : Ext z z')
    (hs : Exts sg sg') (hw : Exts ws ws') (ql : F) (deltas : List F) (beta gamma : F) (d : Domain F) (xi : F) :
    Refines Miss Eq (gpOpen ql qb z sg ws deltas beta gamma d xi) (gpOpen ql qb' z' sg' ws' deltas beta gamma d xi) := by
  unfold ZK.gpOpen
  refine (hq.query_refines xi).bind ?_
  rintro a _ rfl
  refine (hz.query_refines _).bind ?_
  rintro b _ rfl
  refine (hz.query_refines _).bind ?_
  rintro c _ rfl
  refine (Refines.foldM (R := Eq) (forall₂_zip₂ (forall₂_zip₂ hw hs) (forall₂_eq deltas)) ?_ rfl).bind ?_
  · rintro x _ t t' rfl ⟨⟨h1, h2⟩, h3⟩
    refine (h1.query_refines xi).bind ?_
    rintro y _ rfl
    refine (h2.query_refines xi).bind ?_
    rintro y' _ rfl
    rw [h3]
    exact .ok rfl
  · rintro x _ rfl
    exact .ok rfl

theorem Ext.open_ {qb qb' : VerifierOracle F C} {zs zs' sg sg' ws ws' : List (VerifierOracle F C)} (hq : Ext qb qb') (hz : Exts zs zs')
    (hs : Exts sg sg') (hw : Exts ws ws') (p : PermutationArgument F) (l0 ql beta gamma : F) (d : Domain F) (xi : F) (alphas : List F) :
    Refines Miss Eq (p.open_ l0 ql qb zs sg ws beta gamma d xi alphas) (p.open_ l0 ql qb' zs' sg' ws' beta gamma d xi alphas) := by
  unfold PermutationArgument.open_
  rw [← hw.length_eq, ← hs.length_eq]
  refine .bind_same _ fun _ _ => .bind_same _ fun _ _ => ?_
  have hc : ∀ {l m : List (VerifierOracle F C)}, Exts l m →
      Refines Miss (List.Forall₂ Exts) (chunksR p.maxCols l) (chunksR p.maxCols m) := by
    intro l m h
    unfold chunksR
    split
    · exact .panic
    · exact .ok (forall₂_chunks h)
  refine (hc hw).bind fun wc wc' hwc => (hc hs).bind fun sc sc' hsc => ?_
  rw [← hwc.length_eq, ← hsc.length_eq, ← hz.length_eq]
  refine .bind_same _ fun dc _ => .bind_same _ fun _ _ => .bind_same _ fun _ _ => .bind_same _ fun _ _ =>
    .bind_same _ fun _ _ => .bind_same _ fun a0 _ => ?_
  refine (Refines.idx hz 0).bind fun z0 z0' hz0 => ?_
  refine (hz0.query_refines xi).bind ?_
  rintro v0 _ rfl
  refine (Refines.foldM (R := Eq) (forall₂_zipIdx (forall₂_zip₂ (forall₂_zip₂ hwc hsc) (forall₂_eq dc)) 0) ?_ rfl).bind ?_
  · rintro x _ t t' rfl ⟨⟨⟨h1, h2⟩, h3⟩, h4⟩
    rw [h4]
    refine .bind_same _ fun a _ => (Refines.idx hz _).bind fun z z' hz => ?_
    rw [h3]
    refine (hq.gpOpen hz h2 h1 _ _ _ _ _ _).bind ?_
    rintro g _ rfl
    exact .ok rfl
  rintro e1 _ rfl
  refine (Refines.foldM (R := Eq) (forall₂_eq _) ?_ rfl).bind ?_
  · rintro x _ j _ rfl rfl
    refine .bind_same _ fun a _ => (Refines.idx hz _).bind fun z z' hz1 => (hz1.query_refines _).bind ?_
    rintro v1 _ rfl
    refine (Refines.idx hz _).bind fun z z' hz2 => (hz2.query_refines _).bind ?_
    rintro v2 _ rfl
    exact .ok rfl
  rintro e2 _ rfl
  refine (forall₂_getLast? hz).bind fun zl zl' hzl => (hzl.query_refines _).bind ?_
  rintro v _ rfl
  exact .bind_same _ fun a _ => .ok rfl

theorem Ext.lookupOpen {qb qb' : VerifierOracle F C} (hq : Ext qb qb') (l : LookupOracles (VerifierOracle F C)) (z : VerifierOracle F C)
    (l0 ql beta gamma xi : F) (d : Domain F) (alphas : List F) :
    Refines Miss Eq (lookupOpen l0 ql qb l z beta gamma xi d alphas) (lookupOpen l0 ql qb' l z beta gamma xi d alphas) := by
  unfold ZK.lookupOpen
  refine .bind_same _ fun _ _ => ?_
  have hse : Refines Miss Eq (seOpen l0 ql qb l z beta gamma xi d (alphas.take 3)) (seOpen l0 ql qb' l z beta gamma xi d (alphas.take 3)) := by
    unfold seOpen
    refine .bind_same _ fun _ _ => .bind_same _ fun _ _ => .bind_same _ fun _ _ => .bind_same _ fun _ _ => .bind_same _ fun _ _ =>
      .bind_same _ fun _ _ => .bind_same _ fun _ _ => .bind_same _ fun _ _ => (hq.query_refines _).bind ?_
    rintro v _ rfl
    exact .same (fun _ => rfl) _
  refine hse.bind ?_
  rintro v _ rfl
  refine .bind_same _ fun _ _ => .bind_same _ fun _ _ => .bind_same _ fun _ _ => .bind_same _ fun _ _ => (hq.query_refines _).bind ?_
  rintro v _ rfl
  exact .same (fun _ => rfl) _

theorem Exts.openingSets {l m : List (VerifierOracle F C)} (h : Exts l m) :
    List.Forall₂ (fun s t => t.1 = s.1 ∧ Exts s.2 t.2) (openingSets (fun (o : VerifierOracle F C) => o.rotations) l)
      (openingSets (fun (o : VerifierOracle F C) => o.rotations) m) := by
  unfold ZK.openingSets
  have hpush : ∀ {s t : List (List Rotation × List (VerifierOracle F C))} {a b : VerifierOracle F C},
      List.Forall₂ (fun s t => t.1 = s.1 ∧ Exts s.2 t.2) s t → Ext a b →
      List.Forall₂ (fun s t => t.1 = s.1 ∧ Exts s.2 t.2) (mapPush a.rotations a s) (mapPush b.rotations b t) := by
    intro s t a b h hab
    rw [hab.rotations]
    induction h with
    | nil => exact .cons ⟨rfl, .cons hab .nil⟩ .nil
    | @cons x y s t hxy hst ih =>
      obtain ⟨k, vs⟩ := x
      obtain ⟨k', ws⟩ := y
      obtain ⟨h1, h2⟩ := hxy
      simp only at h1 h2
      subst h1
      simp only [mapPush]
      split
      · exact .cons ⟨rfl, .cons hab .nil⟩ (.cons ⟨rfl, h2⟩ hst)
      · split
        · exact .cons ⟨rfl, h2⟩ ih
        · exact .cons ⟨rfl, List.rel_append h2 (.cons hab .nil)⟩ hst
  suffices ∀ s t : List (List Rotation × List (VerifierOracle F C)), List.Forall₂ (fun s t => t.1 = s.1 ∧ Exts s.2 t.2) s t →
      List.Forall₂ (fun s t => t.1 = s.1 ∧ Exts s.2 t.2) (l.foldl (fun m o => mapPush o.rotations o m) s)
        (m.foldl (fun m o => mapPush o.rotations o m) t) from this _ _ .nil
  induction h with
  | nil => exact fun _ _ h => h
  | cons hab _ ih => exact fun s t h => ih _ _ (hpush h hab)

theorem Exts.verifierSet {S : Scheme F} {s t : List Rotation × List (VerifierOracle F S.Comm)} (h1 : t.1 = s.1) (h2 : Exts s.2 t.2)
    (x1s : List F) (xi : F) (omegas : List F) :
    Refines Miss Eq (mpVerifierSet (S := S) x1s xi omegas s) (mpVerifierSet (S := S) x1s xi omegas t) := by
  unfold mpVerifierSet
  refine (Refines.foldM (R := Eq) (forall₂_zipIdx h2 0) ?_ rfl).bind ?_
  · rintro c _ a b rfl ⟨hab, hi⟩
    refine hab.comm_refines.bind ?_
    rintro c' _ rfl
    rw [hi]
    exact .same (fun _ => rfl) _
  rintro q _ rfl
  refine Refines.bind (R := Eq) ?_ ?_
  · unfold evalSet
    rw [h1]
    refine Refines.foldM (forall₂_eq _) ?_ rfl
    rintro m _ r _ rfl rfl
    refine .bind_same _ fun p _ => Refines.bind (R := Eq) ?_ ?_
    · unfold aggQuery
      refine Refines.foldM (forall₂_zipIdx h2 0) ?_ rfl
      rintro c _ a b rfl ⟨hab, hi⟩
      rw [hi]
      refine .bind_same _ fun x _ => (hab.query_refines p).bind ?_
      rintro v _ rfl
      exact .ok rfl
    · rintro v _ rfl
      exact .same (fun _ => rfl) _
  · rintro es _ rfl
    exact .ok rfl

theorem Refines.zipEvalM {ε α β γ δ : Type} {bad : ε → Prop} {T : α → α → Prop} {f : α → Res ε β} {g : β → γ → Res ε δ}
    {l m : List α} {cs : List γ} (h : List.Forall₂ T l m) (hf : ∀ a b, T a b → Refines bad Eq (f a) (f b)) (hl : l.length ≤ cs.length) :
    Refines bad Eq (ZK.zipEvalM f g l cs) (ZK.zipEvalM f g m cs) := by
  induction h generalizing cs with
  | nil => cases cs <;> exact .ok rfl
  | cons hab _ ih =>
    cases cs with
    | nil => simp at hl
    | cons c cs =>
      simp only [ZK.zipEvalM]
      refine (hf _ _ hab).bind ?_
      rintro b _ rfl
      refine .bind_same _ fun d _ => (ih (by simpa using hl)).bind ?_
      rintro ds _ rfl
      exact .ok rfl

/-- The same for all oracles of the verifier. -/
structure StateExt {S : Scheme F} (st st' : VState S) : Prop where
  witness : Exts st.witness st'.witness
  fixed : Exts st.pre.fixed st'.pre.fixed
  table : Exts st.pre.table st'.pre.table
  perm : Exts st.pre.perm st'.pre.perm
  qBlind : Ext st.pre.qBlind st'.pre.qBlind
  quotient : st'.quotient = st.quotient
  lookups : st'.lookups = st.lookups
  lookupZs : st'.lookupZs = st.lookupZs
  zs : st'.zs = st.zs

theorem StateExt.oracles {S : Scheme F} {st st' : VState S} (h : StateExt st st') : Exts st.oracles st'.oracles := by
  unfold VState.oracles openingOrder
  rw [h.quotient, h.lookups, h.lookupZs, h.zs]
  exact List.rel_append (List.rel_append (List.rel_append (List.rel_append (List.rel_append h.witness (Exts.refl _)) (Exts.refl _))
    (Exts.refl _)) (Exts.refl _)) (List.rel_append (List.rel_append (List.rel_append h.fixed h.table) h.perm) (.cons h.qBlind .nil))

variable [FftParams F]

theorem verifyRegister_refines {S : Scheme F} {pre pre' : VerifierPreprocessed S} {ws ws' : List (VerifierOracle F S.Comm)}
    (hw : Exts ws ws') (hf : Exts pre.fixed pre'.fixed) (ht : Exts pre.table pre'.table) (hp : Exts pre.perm pre'.perm)
    (hq : Ext pre.qBlind pre'.qBlind) (vk : VerifierKey S) (proof : TPProof S) (is : List (InstanceVerifierOracle F)) (n : Nat)
    (ch : Challenges F) :
    Refines Err.Missing StateExt (verifyRegister S vk pre proof ws is n ch) (verifyRegister S vk pre' proof ws' is n ch) := by
  unfold verifyRegister
  refine .bind_same _ fun quo _ => .bind_same _ fun d _ => ?_
  refine ((hw.registerCommitments _).registerAll _ _ _ _ |>.mapErr Err.iop fun _ => .iop).bind fun w w' hw => ?_
  refine (hf.registerAll _ _ _ _ |>.mapErr Err.iop fun _ => .iop).bind fun f f' hf => ?_
  refine (ht.registerAll _ _ _ _ |>.mapErr Err.iop fun _ => .iop).bind fun t t' ht => ?_
  rw [← hp.length_eq]
  refine .bind_same _ fun _ _ => .bind_same _ fun _ _ => .bind_same _ fun _ _ => .bind_same _ fun _ _ => ?_
  refine Refines.bind (R := List.Forall₂ Eq) (Refines.mapM (forall₂_eq _) ?_) ?_
  · rintro p _ rfl
    unfold verifierLookup
    refine .bind_same _ fun es _ => .bind_same _ fun ts _ => ?_
    refine (ViewExt.lookupUnpermuted (⟨hw, rfl, hf, ht⟩ : ViewExt ⟨w, is, f, t⟩ ⟨w', is, f', t'⟩) _ _ _ _ _ _
      |>.mapErr Err.iop fun _ => .iop).bind ?_
    rintro a _ rfl
    exact .same (fun _ => rfl) _
  intro lks _ hlk
  rw [List.forall₂_eq_eq_eq] at hlk
  subst hlk
  refine .bind_same _ fun _ _ => .bind_same _ fun _ _ => .bind_same _ fun lzs _ => ?_
  have hc : (w'.filter (·.shouldPermute)).length = (w.filter (·.shouldPermute)).length :=
    (forall₂_filter₂ (fun a b h => h.copied.symm) hw).length_eq.symm
  rw [hc]
  refine .bind_same _ fun _ _ => .bind_same _ fun _ _ => .bind_same _ fun zs _ => ?_
  refine .ok ⟨hw, hf, ht, ?_, hq.registerEval _ _, rfl, rfl, rfl, rfl⟩
  show Exts (List.zipWith _ _ _) (List.zipWith _ _ _)
  generalize proof.permEvals = es
  clear hc
  generalize pre.perm = l at hp
  generalize pre'.perm = m at hp
  induction hp generalizing es with
  | nil => cases es <;> exact .nil
  | cons hab _ ih =>
    cases es with
    | nil => exact .nil
    | cons e es => exact .cons (hab.registerEval _ _) (ih es)

theorem StateExt.quotientCheck {S : Scheme F} {st st' : VState S} (h : StateExt st st') (vk : VerifierKey S)
    (is : List (InstanceVerifierOracle F)) (vos : List (GenericVO F)) (n : Nat) (vanishing : List F) (ch : Challenges F) :
    Refines Err.Missing Eq (quotientCheckValue S vk st is vos n vanishing ch) (quotientCheckValue S vk st' is vos n vanishing ch) := by
  unfold quotientCheckValue
  rw [h.quotient, h.lookups, h.lookupZs, h.zs]
  have hc : Exts (st.witness.filter (·.shouldPermute)) (st'.witness.filter (·.shouldPermute)) :=
    forall₂_filter₂ (fun a b h => h.copied.symm) h.witness
  refine .bind_same _ fun d _ => .bind_same _ fun al _ => .bind_same _ fun l0 _ => .bind_same _ fun lu _ => ?_
  refine Refines.bind (R := Eq) (Refines.foldM (forall₂_eq _) ?_ rfl) ?_
  · rintro x _ p _ rfl rfl
    refine .bind_same _ fun ex _ => ?_
    refine ((evalR_tight (ViewExt.gateAt (⟨h.witness, rfl, h.fixed, h.table⟩ : ViewExt ⟨st.witness, is, st.pre.fixed, st.pre.table⟩
      ⟨st'.witness, is, st'.pre.fixed, st'.pre.table⟩) ch.xi d.elements) ex).1.mapErr Err.iop fun _ => .iop).bind ?_
    rintro v _ rfl
    exact .same (fun _ => rfl) _
  rintro e _ rfl
  have hrest : ∀ pe : F, Refines Err.Missing Eq (do
      let e ← Res.foldM (fun (acc : F)
        (p : (LookupOracles (VerifierOracle F S.Comm) × VerifierOracle F S.Comm) × List F) => do
        let le ← (ZK.lookupOpen (peval l0 ch.xi) (peval lu ch.xi) st.pre.qBlind p.1.1 p.1.2 ch.beta ch.gamma ch.xi d
          p.2).mapErr (Err.iop (E := S.E))
        pure (acc + le)) (e + pe) (List.zip (List.zip st.lookups st.lookupZs) al.lookups)
      let tPart ← Res.foldM (fun (acc : F) (p : F × VerifierOracle F S.Comm) => do
        let v ← (p.2.query ch.xi).mapErr Err.iop
        pure (acc + p.1 * v)) 0 (List.zip (powersFrom 1 (ch.xi ^ n) st.quotient.length) st.quotient)
      pure (e - tPart * peval vanishing ch.xi)) (do
      let e ← Res.foldM (fun (acc : F)
        (p : (LookupOracles (VerifierOracle F S.Comm) × VerifierOracle F S.Comm) × List F) => do
        let le ← (ZK.lookupOpen (peval l0 ch.xi) (peval lu ch.xi) st'.pre.qBlind p.1.1 p.1.2 ch.beta ch.gamma ch.xi d
          p.2).mapErr (Err.iop (E := S.E))
        pure (acc + le)) (e + pe) (List.zip (List.zip st.lookups st.lookupZs) al.lookups)
      let tPart ← Res.foldM (fun (acc : F) (p : F × VerifierOracle F S.Comm) => do
        let v ← (p.2.query ch.xi).mapErr Err.iop
        pure (acc + p.1 * v)) 0 (List.zip (powersFrom 1 (ch.xi ^ n) st.quotient.length) st.quotient)
      pure (e - tPart * peval vanishing ch.xi)) := by
    intro pe
    refine Refines.bind (R := Eq) (Refines.foldM (forall₂_eq _) ?_ rfl) ?_
    · rintro x _ p _ rfl rfl
      refine (h.qBlind.lookupOpen _ _ _ _ _ _ _ _ _ |>.mapErr Err.iop fun _ => .iop).bind ?_
      rintro v _ rfl
      exact .ok rfl
    rintro e _ rfl
    exact .same (fun _ => rfl) _
  have hl := hc.length_eq
  simp only [← hl]
  split
  · refine (h.qBlind.open_ (Exts.refl st.zs) h.perm hc _ _ _ _ _ _ _ _ |>.mapErr Err.iop fun _ => .iop).bind ?_
    rintro pe _ rfl
    exact hrest pe
  · exact .bind_same _ fun pe _ => hrest pe

/-- The errors of the multi-opening saying that something is missing. -/
inductive MpErr.Missing {E : Type} : MpErr E → Prop
  | piop {e : PiopErr} : e.Missing → Missing (.piop e)

theorem Exts.mpVerify {S : Scheme F} {l m : List (VerifierOracle F S.Comm)} (h : Exts l m) (vk : S.VK) (proof : MpProof S)
    (hq : (ZK.openingSets (fun (o : VerifierOracle F S.Comm) => o.rotations) l).length ≤ proof.qEvals.length)
    (xi : F) (n : Nat) (t : S.T) :
    Refines MpErr.Missing Eq (mpVerify S vk proof l xi n t) (mpVerify S vk proof m xi n t) := by
  unfold ZK.mpVerify
  refine .bind_same _ fun d _ => ?_
  generalize mpChallenges S proof t = c
  obtain ⟨x1, x2, x3, x4⟩ := c
  simp only
  unfold mpVerifyWith
  simp only [← h.length_eq]
  refine ((Refines.zipEvalM h.openingSets (fun a b hab => Exts.verifierSet hab.1 hab.2 _ _ _) hq).mapErr MpErr.piop
    fun _ => .piop).bind ?_
  rintro fs _ rfl
  refine .bind_same _ fun e0 _ => ?_
  refine ((Refines.zipEvalM h.openingSets (fun a b hab => Exts.verifierSet hab.1 hab.2 _ _ _) hq).mapErr MpErr.piop
    fun _ => .piop).bind ?_
  rintro qc _ rfl
  exact .same (fun _ => rfl) _

theorem verify_refines {S : Scheme F} {pre pre' : VerifierPreprocessed S} {ws ws' : List (VerifierOracle F S.Comm)}
    (hw : Exts ws ws') (hf : Exts pre.fixed pre'.fixed) (ht : Exts pre.table pre'.table) (hp : Exts pre.perm pre'.perm)
    (hq : Ext pre.qBlind pre'.qBlind) (vk : VerifierKey S) (proof : TPProof S) (is : List (InstanceVerifierOracle F))
    (vos : List (GenericVO F)) (n : Nat) (vanishing : List F)
    (hfull : ∀ st, verifyRegister S vk pre proof ws is n (verifierChallenges S proof).1 = .ok st →
      (openingSets (fun (o : VerifierOracle F S.Comm) => o.rotations) st.oracles).length ≤ proof.multiopen.qEvals.length) :
    Refines Err.Missing Eq (verify S vk pre proof ws is vos n vanishing) (verify S vk pre' proof ws' is vos n vanishing) := by
  unfold verify
  generalize hch : verifierChallenges S proof = ch
  rw [hch] at hfull
  obtain ⟨ch, t⟩ := ch
  simp only at hfull ⊢
  have h1 := verifyRegister_refines hw hf ht hp hq vk proof is n ch
  generalize verifyRegister S vk pre proof ws is n ch = r at h1 hfull
  generalize verifyRegister S vk pre' proof ws' is n ch = r' at h1
  cases h1 with
  | panic => exact .panic
  | missing hb => exact .missing hb
  | err e => exact .err e
  | @ok st st' hst =>
    simp only [Res.bind_ok]
    refine (hst.quotientCheck vk is vos n vanishing ch).bind ?_
    rintro q _ rfl
    split
    · exact .err _
    · exact (hst.oracles.mpVerify _ _ (hfull st rfl) _ _ _).mapErr Err.multiproof fun e he => by
          cases he with
          | piop h => exact .multiproof h

end
end ZK
