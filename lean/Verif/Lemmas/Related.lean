import Verif.Lemmas.Refine
import Verif.Spec.Soundness
/-!
Two verifiers with different commitment schemes. If the commitments of one are related to those of the other, and the
relation is respected by the group operations, then both verifiers do the same up to the final opening check.
-/
set_option autoImplicit false
set_option linter.unusedSectionVars false
namespace ZK

/-- The same outcome up to `R`; errors may differ. -/
inductive Same {ε ε' α β : Type} (R : α → β → Prop) : Res ε α → Res ε' β → Prop
  | ok {a : α} {b : β} : R a b → Same R (.ok a) (.ok b)
  | err (e : ε) (e' : ε') : Same R (.err e) (.err e')
  | panic : Same R .panic .panic

namespace Same
variable {ε ε' ε₁ ε₁' α β γ δ : Type}

theorem bind {R : α → β → Prop} {T : γ → δ → Prop} {x : Res ε α} {y : Res ε' β} {f : α → Res ε γ} {g : β → Res ε' δ}
    (h : Same R x y) (hf : ∀ a b, R a b → Same T (f a) (g b)) : Same T (x >>= f) (y >>= g) := by
  cases h with
  | ok hr => exact hf _ _ hr
  | err e e' => exact .err e e'
  | panic => exact .panic

theorem refl {R : α → α → Prop} (hR : ∀ a, R a a) (x : Res ε α) : Same R x x := by
  cases x with
  | ok a => exact .ok (hR a)
  | err e => exact .err e e
  | panic => exact .panic

theorem bind_eq {T : γ → δ → Prop} {x : Res ε α} {f : α → Res ε γ} {g : α → Res ε δ} (h : ∀ a, Same T (f a) (g a)) :
    Same T (x >>= f) (x >>= g) := by
  cases x with
  | ok a => exact h a
  | err e => exact .err e e
  | panic => exact .panic

theorem of_eq {x y : Res ε α} (h : x = y) : Same Eq x y := h ▸ refl (fun _ => rfl) x

theorem mapErr {R : α → β → Prop} {x : Res ε α} {y : Res ε' β} (f : ε → ε₁) (f' : ε' → ε₁') (h : Same R x y) :
    Same R (x.mapErr f) (y.mapErr f') := by
  cases h with
  | ok hr => exact .ok hr
  | err e e' => exact .err _ _
  | panic => exact .panic

theorem map1 {R : α → β → Prop} {T : γ → δ → Prop} {x : Res ε α} {y : Res ε' β} {f : α → γ} {g : β → δ}
    (h : Same R x y) (hf : ∀ a b, R a b → T (f a) (g b)) : Same T (x.map1 f) (y.map1 g) := by
  cases h with
  | ok hr => exact .ok (hf _ _ hr)
  | err e e' => exact .err _ _
  | panic => exact .panic

theorem lift2 {x : Res ε α} {y : Res ε' α} {x' : Res ε α} {y' : Res ε' α} (h : Same Eq x y) (h' : Same Eq x' y') (f : α → α → α) :
    Same Eq (Res.lift2 f x x') (Res.lift2 f y y') := by
  cases h with
  | ok hr =>
    subst hr
    cases h' with
    | ok hr => subst hr; exact .ok rfl
    | err e e' => exact .err _ _
    | panic => exact .panic
  | err e e' =>
    cases h' with
    | ok hr => exact .err _ _
    | err e e' => exact .err _ _
    | panic => exact .panic
  | panic => exact .panic

theorem foldM {R : γ → δ → Prop} {T : α → β → Prop} {f : γ → α → Res ε γ} {g : δ → β → Res ε' δ} {l : List α} {m : List β}
    (h : List.Forall₂ T l m) (hf : ∀ c d a b, R c d → T a b → Same R (f c a) (g d b)) {c : γ} {d : δ} (hcd : R c d) :
    Same R (Res.foldM f c l) (Res.foldM g d m) := by
  induction h generalizing c d with
  | nil => exact .ok hcd
  | cons hab _ ih =>
    rw [Res.foldM_cons, Res.foldM_cons]
    exact (hf _ _ _ _ hcd hab).bind fun _ _ h => ih h

theorem mapM {R : γ → δ → Prop} {T : α → β → Prop} {f : α → Res ε γ} {g : β → Res ε' δ} {l : List α} {m : List β}
    (h : List.Forall₂ T l m) (hf : ∀ a b, T a b → Same R (f a) (g b)) :
    Same (List.Forall₂ R) (Res.mapM f l) (Res.mapM g m) := by
  induction h with
  | nil => exact .ok .nil
  | cons hab _ ih =>
    rw [Res.mapM_cons, Res.mapM_cons]
    exact (hf _ _ hab).bind fun _ _ h => ih.bind fun _ _ h' => .ok (.cons h h')

theorem idx {R : α → β → Prop} {l : List α} {m : List β} (h : List.Forall₂ R l m) (i : Nat) :
    Same R (Res.idx l i : Res ε α) (Res.idx m i : Res ε' β) := by
  induction h generalizing i with
  | nil => exact .panic
  | cons hab _ ih =>
    cases i with
    | zero => exact .ok hab
    | succ i => simpa [Res.idx] using ih i

theorem idx_eq (l : List α) (i : Nat) : Same Eq (Res.idx l i : Res ε α) (Res.idx l i : Res ε' α) := idx (forall₂_eq l) i

theorem assert (b : Bool) : Same Eq (Res.assert b : Res ε Unit) (Res.assert b : Res ε' Unit) := by
  cases b
  · exact .panic
  · exact .ok rfl

theorem unwrap (o : Option α) : Same Eq (Res.unwrap o : Res ε α) (Res.unwrap o : Res ε' α) := by
  cases o
  · exact .panic
  · exact .ok rfl

theorem getLast? {R : α → β → Prop} {l : List α} {m : List β} (h : List.Forall₂ R l m) :
    Same R (Res.unwrap l.getLast? : Res ε α) (Res.unwrap m.getLast? : Res ε' β) := by
  rw [List.getLast?_eq_getElem?, List.getLast?_eq_getElem?, h.length_eq]
  have := idx (ε := ε) (ε' := ε') h (m.length - 1)
  unfold Res.idx at this
  unfold Res.unwrap
  convert this using 1

theorem zipEvalM {α' β' γ' : Type} {T : α → α' → Prop} {U : β → β' → Prop} {V : δ → γ' → Prop} {f : α → Res ε β} {f' : α' → Res ε' β'}
    {g : β → γ → Res ε δ} {g' : β' → γ → Res ε' γ'} {l : List α} {m : List α'} (cs : List γ) (h : List.Forall₂ T l m)
    (hf : ∀ a b, T a b → Same U (f a) (f' b)) (hg : ∀ a b c, U a b → Same V (g a c) (g' b c)) :
    Same (List.Forall₂ V) (ZK.zipEvalM f g l cs) (ZK.zipEvalM f' g' m cs) := by
  induction h generalizing cs with
  | nil => cases cs <;> exact .ok .nil
  | cons hab _ ih =>
    cases cs with
    | nil =>
      simp only [ZK.zipEvalM]
      generalize hx : f _ = x
      generalize hy : f' _ = y
      have h0 := hf _ _ hab
      rw [hx, hy] at h0
      cases h0 with
      | ok _ => exact .ok .nil
      | err _ _ => exact .ok .nil
      | panic => exact .panic
    | cons c cs =>
      simp only [ZK.zipEvalM]
      exact (hf _ _ hab).bind fun b b' hb => (hg _ _ c hb).bind fun d d' hd => (ih cs).bind fun ds ds' hds => .ok (.cons hd hds)

end Same

section
variable {F : Type} [Field F] [LinearOrder F] {C C' : Type} {K : C → C' → Prop}

/-- The two oracles differ only in their commitments, which are related. -/
structure Sim (K : C → C' → Prop) (v : VerifierOracle F C) (w : VerifierOracle F C') : Prop where
  kind : w.kind = v.kind
  label : w.label = v.label
  rotations : w.rotations = v.rotations
  copied : w.shouldPermute = v.shouldPermute
  evals : w.evals = v.evals
  comm : Option.Rel K v.commitment w.commitment

abbrev Sims (K : C → C' → Prop) : List (VerifierOracle F C) → List (VerifierOracle F C') → Prop := List.Forall₂ (Sim K)

theorem Sim.query {v : VerifierOracle F C} {w : VerifierOracle F C'} (h : Sim K v w) (p : F) : v.query p = w.query p := by
  unfold VerifierOracle.query
  rw [h.evals, h.label]

theorem Sim.query_same {v : VerifierOracle F C} {w : VerifierOracle F C'} (h : Sim K v w) (p : F) : Same Eq (v.query p) (w.query p) :=
  .of_eq (h.query p)

theorem Sim.comm_same {v : VerifierOracle F C} {w : VerifierOracle F C'} (h : Sim K v w) :
    Same K v.getCommitment w.getCommitment := by
  have h0 := h.comm
  unfold VerifierOracle.getCommitment
  generalize v.commitment = x at h0
  generalize w.commitment = y at h0
  cases h0 with
  | none => exact .err _ _
  | some hc => exact .ok hc

theorem Sim.registerEval {v : VerifierOracle F C} {w : VerifierOracle F C'} (h : Sim K v w) (x e : F) :
    Sim K (v.registerEval x e) (w.registerEval x e) :=
  ⟨h.kind, h.label, h.rotations, h.copied, by unfold VerifierOracle.registerEval; rw [h.evals], h.comm⟩

theorem Sims.labels {l : List (VerifierOracle F C)} {m : List (VerifierOracle F C')} (h : Sims K l m) :
    m.map ConcreteOracle.label = l.map ConcreteOracle.label := by
  induction h with
  | nil => rfl
  | cons hab _ ih =>
    rw [List.map_cons, List.map_cons, ih]
    exact congrArg (· :: _) hab.label

theorem Sims.getQuerySet {ε : Type} {l : List (VerifierOracle F C)} {m : List (VerifierOracle F C')} (h : Sims K l m) (x : F)
    (omegas : List F) : getQuerySet (ε := ε) m xiLabel x omegas = getQuerySet l xiLabel x omegas := by
  unfold ZK.getQuerySet
  generalize ([] : List (Query F)) = acc
  induction h generalizing acc with
  | nil => rfl
  | cons hab _ ih =>
    rw [Res.foldM_cons, Res.foldM_cons]
    have : ∀ {a : VerifierOracle F C} {b : VerifierOracle F C'}, Sim K a b →
        querySetOf (ε := ε) b xiLabel x omegas = querySetOf a xiLabel x omegas := by
      intro a b hab
      unfold querySetOf
      show Res.map1 _ (Res.mapM _ b.rotations) = Res.map1 _ (Res.mapM _ a.rotations)
      rw [hab.rotations]
      congr 1
      funext ps
      show setExtend [] (ps.map fun p => toLex (b.label, _)) = _
      rw [hab.label]
      rfl
    rw [this hab]
    congr 1
    funext b
    exact ih b

theorem Sims.modify {l : List (VerifierOracle F C)} {m : List (VerifierOracle F C')} (h : Sims K l m) (i : Nat) (x e : F) :
    Sims K (l.modify i (fun o => o.registerEval x e)) (m.modify i (fun o => o.registerEval x e)) := by
  induction h generalizing i with
  | nil => simpa using List.Forall₂.nil
  | cons hab h ih =>
    cases i with
    | zero => exact .cons (hab.registerEval x e) h
    | succ i => exact .cons hab (ih i)

theorem Sims.registerAll {l : List (VerifierOracle F C)} {m : List (VerifierOracle F C')} (h : Sims K l m) (missing : Label → PiopErr)
    (x : F) (omegas evals : List F) : Same (Sims K) (registerAll missing l x omegas evals) (registerAll missing m x omegas evals) := by
  unfold ZK.registerAll
  rw [h.getQuerySet]
  refine (Same.refl (fun _ => rfl) _).bind (R := Eq) ?_
  rintro qs _ rfl
  refine (Same.assert _).bind ?_
  rintro _ _ -
  unfold registerEvals
  refine Same.foldM (forall₂_eq _) ?_ h
  rintro c d a _ hcd rfl
  rw [Sims.labels hcd]
  split
  · exact .ok (hcd.modify _ _ _)
  · exact .err _ _

theorem Sims.registerCommitments {l : List (VerifierOracle F C)} {m : List (VerifierOracle F C')} (h : Sims K l m) {cs : List C}
    {cs' : List C'} (hc : List.Forall₂ K cs cs') : Sims K (registerCommitments l cs) (registerCommitments m cs') := by
  induction h generalizing cs cs' with
  | nil => exact .nil
  | cons hab h ih =>
    cases hc with
    | nil => exact .cons hab h
    | cons hk hc => exact .cons ⟨hab.kind, hab.label, hab.rotations, hab.copied, hab.evals, .some hk⟩ (ih hc)

theorem Sims.withOracle {l : List (VerifierOracle F C)} {m : List (VerifierOracle F C')} (h : Sims K l m) (lb : Label) (e : PiopErr)
    (x : F) : Same Eq (withOracle l lb e (fun o => o.query x)) (withOracle m lb e (fun o => o.query x)) := by
  unfold ZK.withOracle findOracle
  rw [h.labels]
  cases lastIndexOf (l.map ConcreteOracle.label) lb with
  | none => exact .err _ _
  | some i =>
    simp only
    have := Same.idx (ε := Unit) (ε' := Unit) h i
    unfold Res.idx at this
    cases hl : l[i]? with
    | none =>
      have hm : m[i]? = none := by
        rw [List.getElem?_eq_none_iff] at hl ⊢; rw [← h.length_eq]; exact hl
      rw [hm]
      exact .err _ _
    | some v =>
      rw [hl] at this
      cases hm : m[i]? with
      | none => rw [hm] at this; cases this
      | some w =>
        rw [hm] at this
        cases this with
        | ok hvw => exact hvw.query_same x

theorem evalR_same {f g : OracleQuery → Res PiopErr F} (h : ∀ q, Same Eq (f q) (g q)) (e : Expr F) :
    Same Eq (e.evalR f) (e.evalR g) := by
  unfold Expr.evalR
  induction e with
  | const c => exact .ok rfl
  | oracle q => exact h q
  | neg a ih => exact ih.map1 (fun _ _ h => by rw [h])
  | sum a b iha ihb => exact iha.lift2 ihb _
  | prod a b iha ihb => exact iha.lift2 ihb _
  | scaled a c ih => exact ih.map1 (fun _ _ h => by rw [h])

/-- What the verifier can query. -/
structure ViewSim (K : C → C' → Prop) (v : VerifierView F C) (w : VerifierView F C') : Prop where
  witness : Sims K v.witness w.witness
  inst : w.inst = v.inst
  fixed : Sims K v.fixed w.fixed
  table : Sims K v.table w.table

theorem ViewSim.gateAt {v : VerifierView F C} {w : VerifierView F C'} (h : ViewSim K v w) (xi : F) (omegas : List F) (q : OracleQuery) :
    Same Eq (v.gateAt xi omegas q) (w.gateAt xi omegas q) := by
  unfold VerifierView.gateAt
  refine (Same.refl (fun _ => rfl) _).bind (R := Eq) ?_
  rintro x _ rfl
  cases q.oracleType with
  | witness => exact h.witness.withOracle _ _ _
  | instance_ => simp only [h.inst]; exact .refl (fun _ => rfl) _
  | fixed => exact h.fixed.withOracle _ _ _

theorem ViewSim.lookupAt {v : VerifierView F C} {w : VerifierView F C'} (h : ViewSim K v w) (xi : F) (omegas : List F) (q : OracleQuery) :
    Same Eq (v.lookupAt xi omegas q) (w.lookupAt xi omegas q) := by
  unfold VerifierView.lookupAt
  cases q.oracleType with
  | witness =>
    refine (Same.refl (fun _ => rfl) _).bind (R := Eq) ?_
    rintro x _ rfl
    exact h.witness.withOracle _ _ _
  | instance_ => simp only [h.inst]; exact .refl (fun _ => rfl) _
  | fixed => exact h.fixed.withOracle _ _ _

theorem ViewSim.tableAt {v : VerifierView F C} {w : VerifierView F C'} (h : ViewSim K v w) (xi : F) (q : OracleQuery) :
    Same Eq (v.tableAt xi q) (w.tableAt xi q) := by
  unfold VerifierView.tableAt
  cases q.oracleType with
  | witness => exact .err _ _
  | instance_ => exact .err _ _
  | fixed => exact h.table.withOracle _ _ _

theorem thetaAgg_same {α : Type} {f g : α → Res PiopErr F} (h : ∀ a, Same Eq (f a) (g a)) (theta : F) (l : List α) :
    Same Eq (thetaAgg f theta l) (thetaAgg g theta l) := by
  unfold thetaAgg
  refine Same.foldM (forall₂_eq _) ?_ rfl
  rintro c _ a _ rfl rfl
  exact (h a.1).map1 (fun x y hxy => by rw [hxy])

/-- The four oracles of a lookup. -/
structure LookupSim (K : C → C' → Prop) (l : LookupOracles (VerifierOracle F C)) (l' : LookupOracles (VerifierOracle F C')) : Prop where
  a : Sim K l.a l'.a
  s : Sim K l.s l'.s
  aPrime : Sim K l.aPrime l'.aPrime
  sPrime : Sim K l.sPrime l'.sPrime

theorem seOpen_same {l0 lu : F} {qb z : VerifierOracle F C} {qb' z' : VerifierOracle F C'} {l : LookupOracles (VerifierOracle F C)}
    {l' : LookupOracles (VerifierOracle F C')} (hq : Sim K qb qb') (hl : LookupSim K l l') (hz : Sim K z z') (beta gamma xi : F)
    (d : Domain F) (al : List F) : seOpen l0 lu qb l z beta gamma xi d al = seOpen l0 lu qb' l' z' beta gamma xi d al := by
  unfold seOpen
  simp only [hq.query, hl.a.query, hl.s.query, hl.aPrime.query, hl.sPrime.query, hz.query]

theorem lookupOpen_same {l0 lu : F} {qb z : VerifierOracle F C} {qb' z' : VerifierOracle F C'} {l : LookupOracles (VerifierOracle F C)}
    {l' : LookupOracles (VerifierOracle F C')} (hq : Sim K qb qb') (hl : LookupSim K l l') (hz : Sim K z z') (beta gamma xi : F)
    (d : Domain F) (al : List F) : lookupOpen l0 lu qb l z beta gamma xi d al = lookupOpen l0 lu qb' l' z' beta gamma xi d al := by
  unfold lookupOpen
  simp only [seOpen_same hq hl hz, hq.query, hl.a.query, hl.s.query, hl.aPrime.query, hl.sPrime.query]

theorem gpOpen_same {lu : F} {qb z : VerifierOracle F C} {qb' z' : VerifierOracle F C'} {sg ws : List (VerifierOracle F C)}
    {sg' ws' : List (VerifierOracle F C')} (hq : Sim K qb qb') (hz : Sim K z z') (hs : Sims K sg sg') (hw : Sims K ws ws')
    (deltas : List F) (beta gamma : F) (d : Domain F) (xi : F) :
    Same Eq (gpOpen lu qb z sg ws deltas beta gamma d xi) (gpOpen lu qb' z' sg' ws' deltas beta gamma d xi) := by
  unfold gpOpen
  simp only [hq.query, hz.query]
  refine (Same.refl (fun _ => rfl) _).bind (R := Eq) ?_
  rintro q _ rfl
  refine (Same.refl (fun _ => rfl) _).bind (R := Eq) ?_
  rintro a _ rfl
  refine (Same.refl (fun _ => rfl) _).bind (R := Eq) ?_
  rintro b _ rfl
  refine (Same.foldM (R := Eq) (forall₂_zip₂ (forall₂_zip₂ hw hs) (forall₂_eq deltas)) ?_ rfl).bind ?_
  · rintro c _ ⟨⟨x, y⟩, t⟩ ⟨⟨x', y'⟩, t'⟩ rfl ⟨⟨h1, h2⟩, h3⟩
    obtain rfl : t = t' := h3
    simp only [h1.query, h2.query]
    exact .refl (fun _ => rfl) _
  · rintro x _ rfl
    exact .ok rfl

theorem open_same (p : PermutationArgument F) {l0 lu : F} {qb : VerifierOracle F C} {qb' : VerifierOracle F C'}
    {agg sg ws : List (VerifierOracle F C)} {agg' sg' ws' : List (VerifierOracle F C')} (hq : Sim K qb qb') (hz : Sims K agg agg')
    (hs : Sims K sg sg') (hw : Sims K ws ws') (beta gamma : F) (d : Domain F) (xi : F) (al : List F) :
    Same Eq (p.open_ l0 lu qb agg sg ws beta gamma d xi al) (p.open_ l0 lu qb' agg' sg' ws' beta gamma d xi al) := by
  unfold PermutationArgument.open_
  rw [← hw.length_eq, ← hs.length_eq]
  refine .bind_eq fun _ => .bind_eq fun _ => ?_
  have hc : ∀ {l : List (VerifierOracle F C)} {m : List (VerifierOracle F C')}, Sims K l m →
      Same (ε := PiopErr) (ε' := PiopErr) (List.Forall₂ (Sims K)) (chunksR p.maxCols l) (chunksR p.maxCols m) := by
    intro l m h
    unfold chunksR
    split
    · exact .panic
    · exact .ok (forall₂_chunks h)
  refine (hc hw).bind fun wc wc' hwc => (hc hs).bind fun sc sc' hsc => ?_
  rw [← hwc.length_eq, ← hsc.length_eq, ← hz.length_eq]
  refine .bind_eq fun dc => .bind_eq fun _ => .bind_eq fun _ => .bind_eq fun _ => .bind_eq fun _ => .bind_eq fun a0 => ?_
  refine (Same.idx hz 0).bind fun z0 z0' hz0 => ?_
  refine (hz0.query_same xi).bind ?_
  rintro v0 _ rfl
  refine (Same.foldM (R := Eq) (forall₂_zipIdx (forall₂_zip₂ (forall₂_zip₂ hwc hsc) (forall₂_eq dc)) 0) ?_ rfl).bind ?_
  · rintro x _ t t' rfl ⟨⟨⟨h1, h2⟩, h3⟩, h4⟩
    rw [h4]
    refine .bind_eq fun a => (Same.idx hz _).bind fun z z' hz => ?_
    rw [h3]
    refine (gpOpen_same hq hz h2 h1 _ _ _ _ _).bind ?_
    rintro g _ rfl
    exact .ok rfl
  rintro e1 _ rfl
  refine (Same.foldM (R := Eq) (forall₂_eq _) ?_ rfl).bind ?_
  · rintro x _ j _ rfl rfl
    refine .bind_eq fun a => (Same.idx hz _).bind fun z z' hz1 => (hz1.query_same _).bind ?_
    rintro v1 _ rfl
    refine (Same.idx hz _).bind fun z z' hz2 => (hz2.query_same _).bind ?_
    rintro v2 _ rfl
    exact .ok rfl
  rintro e2 _ rfl
  refine (Same.getLast? hz).bind fun zl zl' hzl => (hzl.query_same _).bind ?_
  rintro v _ rfl
  exact .bind_eq fun a => .ok rfl

theorem ViewSim.lookupUnpermuted {v : VerifierView F C} {w : VerifierView F C'} (h : ViewSim K v w) (i : Nat) (es : List (Expr F))
    (ts : List OracleQuery) (theta xi : F) (omegas : List F) :
    Same (fun a b => Sim K a.1 b.1 ∧ Sim K a.2 b.2) (lookupUnpermuted v i es ts theta xi omegas)
      (lookupUnpermuted w i es ts theta xi omegas) := by
  unfold ZK.lookupUnpermuted
  refine .bind_eq fun _ => ?_
  refine (thetaAgg_same (fun e => evalR_same (h.lookupAt xi omegas) e) theta es).bind ?_
  rintro a _ rfl
  refine (thetaAgg_same (h.tableAt xi) theta ts).bind ?_
  rintro s _ rfl
  exact .ok ⟨⟨rfl, rfl, rfl, rfl, rfl, .none⟩, ⟨rfl, rfl, rfl, rfl, rfl, .none⟩⟩

theorem Sims.openingSets {l : List (VerifierOracle F C)} {m : List (VerifierOracle F C')} (h : Sims K l m) :
    List.Forall₂ (fun s t => t.1 = s.1 ∧ Sims K s.2 t.2) (openingSets (fun (o : VerifierOracle F C) => o.rotations) l)
      (openingSets (fun (o : VerifierOracle F C') => o.rotations) m) := by
  unfold ZK.openingSets
  have hpush : ∀ {s : List (List Rotation × List (VerifierOracle F C))} {t : List (List Rotation × List (VerifierOracle F C'))}
      {a : VerifierOracle F C} {b : VerifierOracle F C'},
      List.Forall₂ (fun s t => t.1 = s.1 ∧ Sims K s.2 t.2) s t → Sim K a b →
      List.Forall₂ (fun s t => t.1 = s.1 ∧ Sims K s.2 t.2) (mapPush a.rotations a s) (mapPush b.rotations b t) := by
    intro s t a b h hab
    rw [hab.rotations]
    induction h with
    | nil => exact .cons ⟨rfl, .cons hab .nil⟩ .nil
    | @cons x y s t hxy hst ih =>
      obtain ⟨k, vs⟩ := x
      obtain ⟨k', ws⟩ := y
      obtain ⟨h1, h2⟩ := hxy
      simp only at h1 h2
      subst h1
      simp only [mapPush]
      split
      · exact .cons ⟨rfl, .cons hab .nil⟩ (.cons ⟨rfl, h2⟩ hst)
      · split
        · exact .cons ⟨rfl, h2⟩ ih
        · exact .cons ⟨rfl, List.rel_append h2 (.cons hab .nil)⟩ hst
  suffices ∀ (s : List (List Rotation × List (VerifierOracle F C))) (t : List (List Rotation × List (VerifierOracle F C'))),
      List.Forall₂ (fun s t => t.1 = s.1 ∧ Sims K s.2 t.2) s t →
      List.Forall₂ (fun s t => t.1 = s.1 ∧ Sims K s.2 t.2) (l.foldl (fun m o => mapPush o.rotations o m) s)
        (m.foldl (fun m o => mapPush o.rotations o m) t) from this _ _ .nil
  induction h with
  | nil => exact fun _ _ h => h
  | cons hab _ ih => exact fun s t h => ih _ _ (hpush h hab)

end

section
variable {F : Type} [Field F] [LinearOrder F] {S S' : Scheme F} {K : S.Comm → S'.Comm → Prop}

/-- The group operations preserve the relation between commitments. -/
structure Respects (S S' : Scheme F) (K : S.Comm → S'.Comm → Prop) : Prop where
  zero : K S.zero S'.zero
  add : ∀ a b a' b', K a a' → K b b' → K (S.add a b) (S'.add a' b')
  scale : ∀ a a' k, K a a' → K (S.scale a k) (S'.scale a' k)

theorem Sims.verifierSet (hK : Respects S S' K) {s : List Rotation × List (VerifierOracle F S.Comm)}
    {t : List Rotation × List (VerifierOracle F S'.Comm)} (h1 : t.1 = s.1) (h2 : Sims K s.2 t.2) (x1s : List F) (xi : F)
    (omegas : List F) :
    Same (fun a b => K a.1 b.1 ∧ a.2 = b.2) (mpVerifierSet (S := S) x1s xi omegas s) (mpVerifierSet (S := S') x1s xi omegas t) := by
  unfold mpVerifierSet
  refine (Same.foldM (R := K) (forall₂_zipIdx h2 0) ?_ hK.zero).bind ?_
  · rintro c c' a b hc ⟨hab, hi⟩
    refine hab.comm_same.bind fun x x' hx => ?_
    rw [hi]
    exact .bind_eq fun y => .ok (hK.add _ _ _ _ hc (hK.scale _ _ _ hx))
  intro q q' hq
  refine Same.bind (R := Eq) ?_ ?_
  · unfold evalSet
    rw [h1]
    refine Same.foldM (forall₂_eq _) ?_ rfl
    rintro m _ r _ rfl rfl
    refine .bind_eq fun p => Same.bind (R := Eq) ?_ ?_
    · unfold aggQuery
      refine Same.foldM (forall₂_zipIdx h2 0) ?_ rfl
      rintro c _ a b rfl ⟨hab, hi⟩
      rw [hi]
      refine .bind_eq fun x => (hab.query_same p).bind ?_
      rintro v _ rfl
      exact .ok rfl
    · rintro v _ rfl
      exact .refl (fun _ => rfl) _
  · rintro es _ rfl
    exact .ok ⟨hq, rfl⟩

/-- Everything of `mpVerifyWith` before the opening is checked: the aggregated commitment and the value it is claimed to
have. -/
def mpFinal (S : Scheme F) (qEvals : List F) (fCommit : S.Comm) (oracles : List (VerifierOracle F S.Comm)) (xi : F)
    (domain : Domain F) (x1 x2 x3 x4 : F) : Res PiopErr (S.Comm × F) := do
  let sets := openingSets (fun (o : VerifierOracle F S.Comm) => o.rotations) oracles
  let x1s := powersFrom 1 x1 oracles.length
  let fEvals ← zipEvalM (mpVerifierSet (S := S) x1s xi domain.elements) (fun q qe => fEval x3 q.2 qe) sets qEvals
  let x2s := powersFrom 1 x2 oracles.length
  let e0 ← Res.foldM (fun (acc : F) (p : F × Nat) => do
      let x ← Res.idx x2s p.2
      pure (acc + x * p.1)) 0 fEvals.zipIdx
  let x4s := powersFrom x4 x4 qEvals.length
  let qc ← zipEvalM (mpVerifierSet (S := S) x1s xi domain.elements) (fun q qe => .ok (q.1, qe)) sets qEvals
  Res.foldM (fun (acc : S.Comm × F) (p : (S.Comm × F) × Nat) => do
      let x ← Res.idx x4s p.2
      pure (S.add acc.1 (S.scale p.1.1 x), acc.2 + x * p.1.2)) (fCommit, e0) qc.zipIdx

theorem Res.mapErr_bind {ε ε' α β : Type} (f : ε → ε') (x : Res ε α) (g : α → Res ε β) :
    (x >>= g).mapErr f = x.mapErr f >>= fun a => (g a).mapErr f := by
  cases x <;> rfl

theorem Res.mapErr_foldM {ε ε' α β : Type} (f : ε → ε') (g : α → β → Res ε α) (a : α) (l : List β) :
    (Res.foldM g a l).mapErr f = Res.foldM (fun a b => (g a b).mapErr f) a l := by
  induction l generalizing a with
  | nil => rfl
  | cons b l ih =>
    rw [Res.foldM_cons, Res.foldM_cons, Res.mapErr_bind]
    congr 1
    funext x
    exact ih x

theorem Res.mapErr_pure {ε ε' α : Type} (f : ε → ε') (a : α) : (pure a : Res ε α).mapErr f = pure a := rfl

theorem Res.bind_assoc' {ε α β γ : Type} (x : Res ε α) (f : α → Res ε β) (g : β → Res ε γ) :
    (x >>= f) >>= g = x >>= fun a => f a >>= g := by
  cases x <;> rfl

theorem Res.mapErr_idx {ε ε' α : Type} (f : ε → ε') (l : List α) (i : Nat) : (Res.idx l i : Res ε α).mapErr f = Res.idx l i := by
  unfold Res.idx
  cases l[i]? <;> rfl

theorem mpVerifyWith_eq (S : Scheme F) (vk : S.VK) (proof : MpProof S) (oracles : List (VerifierOracle F S.Comm)) (xi : F)
    (domain : Domain F) (x1 x2 x3 x4 : F) :
    mpVerifyWith S vk proof oracles xi domain x1 x2 x3 x4
      = ((mpFinal S proof.qEvals proof.fCommit oracles xi domain x1 x2 x3 x4).mapErr MpErr.piop).bind fun fin =>
        ((S.check vk fin.1 x3 fin.2 proof.opening).mapErr MpErr.pc).bind fun ok => if ok then .ok () else .err .openingCheckFailed := by
  unfold mpVerifyWith mpFinal
  simp only [Res.mapErr_bind, Res.mapErr_foldM, Res.mapErr_idx, Res.mapErr_pure]
  change _ = ((_ : Res (MpErr S.E) _) >>= fun fin => ((_ : Res (MpErr S.E) _) >>= _))
  simp only [Res.bind_assoc']
  rfl

theorem Sims.mpFinal (hK : Respects S S' K) {l : List (VerifierOracle F S.Comm)} {m : List (VerifierOracle F S'.Comm)}
    (h : Sims K l m) (qEvals : List F) {c : S.Comm} {c' : S'.Comm} (hc : K c c') (xi : F) (d : Domain F) (x1 x2 x3 x4 : F) :
    Same (fun a b => K a.1 b.1 ∧ a.2 = b.2) (mpFinal S qEvals c l xi d x1 x2 x3 x4) (mpFinal S' qEvals c' m xi d x1 x2 x3 x4) := by
  unfold ZK.mpFinal
  simp only [← h.length_eq]
  refine Same.bind (R := List.Forall₂ Eq) (Same.zipEvalM _ h.openingSets (fun a b hab => Sims.verifierSet hK hab.1 hab.2 _ _ _) ?_) ?_
  · rintro ⟨a, e⟩ ⟨b, e'⟩ x ⟨-, h2⟩
    obtain rfl : e = e' := h2
    exact .refl (fun _ => rfl) _
  intro fs fs' hfs
  rw [List.forall₂_eq_eq_eq] at hfs
  subst hfs
  refine .bind_eq fun e0 => ?_
  refine Same.bind (Same.zipEvalM (V := fun a b => K a.1 b.1 ∧ a.2 = b.2) _ h.openingSets
    (fun a b hab => Sims.verifierSet hK hab.1 hab.2 _ _ _) ?_) ?_
  · rintro ⟨a, e⟩ ⟨b, e'⟩ x ⟨h1, -⟩
    exact .ok ⟨h1, rfl⟩
  intro qc qc' hqc
  refine Same.foldM (forall₂_zipIdx hqc 0) ?_ ⟨hc, rfl⟩
  rintro ⟨a, e⟩ ⟨b, e'⟩ p q ⟨h1, h2⟩ ⟨⟨h3, h4⟩, h5⟩
  obtain rfl : e = e' := h2
  rw [h5, h4]
  exact .bind_eq fun x => .ok ⟨hK.add _ _ _ _ h1 (hK.scale _ _ _ h3), rfl⟩

/-- All oracles of the two verifiers are related. -/
structure StateSim (K : S.Comm → S'.Comm → Prop) (st : VState S) (st' : VState S') : Prop where
  witness : Sims K st.witness st'.witness
  fixed : Sims K st.pre.fixed st'.pre.fixed
  table : Sims K st.pre.table st'.pre.table
  perm : Sims K st.pre.perm st'.pre.perm
  qBlind : Sim K st.pre.qBlind st'.pre.qBlind
  quotient : Sims K st.quotient st'.quotient
  lookups : List.Forall₂ (LookupSim K) st.lookups st'.lookups
  lookupZs : Sims K st.lookupZs st'.lookupZs
  zs : Sims K st.zs st'.zs

theorem StateSim.oracles {st : VState S} {st' : VState S'} (h : StateSim K st st') : Sims K st.oracles st'.oracles := by
  unfold VState.oracles openingOrder
  have hp : Sims K (primes st.lookups) (primes st'.lookups) := by
    have := h.lookups
    unfold primes
    generalize st.lookups = l at this
    generalize st'.lookups = m at this
    induction this with
    | nil => exact .nil
    | cons hab _ ih =>
      rw [List.flatMap_cons, List.flatMap_cons]
      exact List.rel_append (.cons hab.aPrime (.cons hab.sPrime .nil)) ih
  exact List.rel_append (List.rel_append (List.rel_append (List.rel_append (List.rel_append h.witness hp) h.lookupZs)
    h.quotient) h.zs) (List.rel_append (List.rel_append (List.rel_append h.fixed h.table) h.perm) (.cons h.qBlind .nil))

/-- The two proofs differ only in their commitments, which are related. The multi-point opening is not compared. -/
structure ProofSim (K : S.Comm → S'.Comm → Prop) (p : TPProof S) (q : TPProof S') : Prop where
  witness : List.Forall₂ K p.witnessCommitments q.witnessCommitments
  lookups : List.Forall₂ K p.lookupCommitments q.lookupCommitments
  lookupZs : List.Forall₂ K p.lookupZCommitments q.lookupZCommitments
  zs : List.Forall₂ K p.zCommitments q.zCommitments
  quotient : List.Forall₂ K p.quotientCommitments q.quotientCommitments
  witnessEvals : q.witnessEvals = p.witnessEvals
  fixedEvals : q.fixedEvals = p.fixedEvals
  tableEvals : q.tableEvals = p.tableEvals
  permEvals : q.permEvals = p.permEvals
  qBlindEval : q.qBlindEval = p.qBlindEval
  lookupEvals : q.lookupEvals = p.lookupEvals
  lookupZEvals : q.lookupZEvals = p.lookupZEvals
  zEvals : q.zEvals = p.zEvals
  quotientEvals : q.quotientEvals = p.quotientEvals

variable [FftParams F]

theorem verifyRegister_same {pre : VerifierPreprocessed S} {pre' : VerifierPreprocessed S'} {ws : List (VerifierOracle F S.Comm)}
    {ws' : List (VerifierOracle F S'.Comm)} {vk : VerifierKey S} {vk' : VerifierKey S'} {proof : TPProof S} {proof' : TPProof S'}
    (hP : ProofSim K proof proof')
    (hw : Sims K (registerCommitments ws proof.witnessCommitments) (registerCommitments ws' proof'.witnessCommitments))
    (hf : Sims K pre.fixed pre'.fixed) (ht : Sims K pre.table pre'.table) (hp : Sims K pre.perm pre'.perm)
    (hq : Sim K pre.qBlind pre'.qBlind) (hvk : vk'.index = vk.index) (is : List (InstanceVerifierOracle F)) (n : Nat)
    (ch : Challenges F) :
    Same (StateSim K) (verifyRegister S vk pre proof ws is n ch) (verifyRegister S' vk' pre' proof' ws' is n ch) := by
  unfold verifyRegister
  rw [hvk, hP.witnessEvals, hP.fixedEvals, hP.tableEvals, hP.permEvals, hP.qBlindEval, hP.lookupEvals, hP.lookupZEvals, hP.zEvals,
    hP.quotientEvals]
  refine Same.bind (R := Sims K) (Same.mapM (forall₂_zipIdx hP.quotient 0) ?_) ?_
  · rintro ⟨c, i⟩ ⟨c', i'⟩ ⟨h1, h2⟩
    obtain rfl : i = i' := h2
    refine (Same.idx_eq _ _).bind ?_
    rintro e _ rfl
    exact .ok ⟨rfl, rfl, rfl, rfl, rfl, .some h1⟩
  intro quo quo' hquo
  refine (Same.unwrap _).bind ?_
  rintro d _ rfl
  refine (hw.registerAll _ _ _ _ |>.mapErr Err.iop Err.iop).bind fun w w' hw => ?_
  refine (hf.registerAll _ _ _ _ |>.mapErr Err.iop Err.iop).bind fun f f' hf => ?_
  refine (ht.registerAll _ _ _ _ |>.mapErr Err.iop Err.iop).bind fun t t' ht => ?_
  simp only [← hp.length_eq, ← (forall₂_chunks (k := 2) hP.lookups).length_eq, ← hP.lookupZs.length_eq, ← hP.zs.length_eq]
  refine (Same.assert _).bind fun _ _ _ => (Same.assert _).bind fun _ _ _ => (Same.assert _).bind fun _ _ _ =>
    (Same.assert _).bind fun _ _ _ => ?_
  refine Same.bind (R := List.Forall₂ (LookupSim K)) (Same.mapM (forall₂_zipIdx (forall₂_zip₂ (forall₂_zip₂ (forall₂_eq _)
    (forall₂_chunks hP.lookups)) (forall₂_eq _)) 0) ?_) ?_
  · rintro ⟨⟨⟨l, c⟩, es⟩, i⟩ ⟨⟨⟨l', c'⟩, es'⟩, i'⟩ ⟨⟨⟨h1, h2⟩, h3⟩, h4⟩
    obtain rfl : l = l' := h1
    obtain rfl : es = es' := h3
    obtain rfl : i = i' := h4
    unfold verifierLookup
    refine ((Same.refl (fun _ => rfl) _).mapErr Err.vo Err.vo).bind (R := Eq) ?_
    rintro ex _ rfl
    refine ((Same.refl (fun _ => rfl) _).mapErr Err.vo Err.vo).bind (R := Eq) ?_
    rintro ts _ rfl
    refine (ViewSim.lookupUnpermuted (⟨hw, rfl, hf, ht⟩ : ViewSim K ⟨w, is, f, t⟩ ⟨w', is, f', t'⟩) _ _ _ _ _ _
      |>.mapErr Err.iop Err.iop).bind fun a a' ha => ?_
    refine (Same.idx_eq _ _).bind ?_
    rintro e0 _ rfl
    refine (Same.idx_eq _ _).bind ?_
    rintro e1 _ rfl
    refine (Same.idx h2 _).bind fun c0 c0' h0 => ?_
    refine (Same.idx_eq _ _).bind ?_
    rintro e2 _ rfl
    refine (Same.idx h2 _).bind fun c1 c1' h1 => ?_
    exact .ok ⟨ha.1, ha.2, ⟨rfl, rfl, rfl, rfl, rfl, .some h0⟩, ⟨rfl, rfl, rfl, rfl, rfl, .some h1⟩⟩
  intro lks lks' hlk
  refine (Same.assert _).bind fun _ _ _ => (Same.assert _).bind fun _ _ _ => ?_
  refine Same.bind (R := Sims K) (Same.mapM (forall₂_zipIdx (forall₂_zip₂ hP.lookupZs (forall₂_eq _)) 0) ?_) ?_
  · rintro ⟨⟨c, es⟩, i⟩ ⟨⟨c', es'⟩, i'⟩ ⟨⟨h2, h3⟩, h4⟩
    obtain rfl : es = es' := h3
    obtain rfl : i = i' := h4
    unfold verifierLookupZ
    refine (Same.idx_eq _ _).bind ?_
    rintro e0 _ rfl
    refine (Same.idx_eq _ _).bind ?_
    rintro e1 _ rfl
    exact .ok ⟨rfl, rfl, rfl, rfl, rfl, .some h2⟩
  intro lzs lzs' hlz
  have hc : (w'.filter (·.shouldPermute)).length = (w.filter (·.shouldPermute)).length :=
    (forall₂_filter₂ (fun a b h => h.copied.symm) hw).length_eq.symm
  rw [hc]
  refine Same.bind (R := Eq) ?_ ?_
  · unfold PermutationArgument.numberOfZPolys
    split
    · exact .ok rfl
    · split
      · exact .panic
      · exact .ok rfl
  rintro numZ _ rfl
  refine (Same.assert _).bind fun _ _ _ => ?_
  have hz : Sims K (proof.zCommitments.zipIdx.map (verifierZ (S := S) vk.index.perm.usableRows numZ))
      (proof'.zCommitments.zipIdx.map (verifierZ (S := S') vk.index.perm.usableRows numZ)) := by
    rw [Sims, List.forall₂_map_left_iff, List.forall₂_map_right_iff]
    refine (forall₂_zipIdx hP.zs 0).imp ?_
    rintro ⟨c, i⟩ ⟨c', i'⟩ ⟨h1, h2⟩
    obtain rfl : i = i' := h2
    exact ⟨rfl, rfl, rfl, rfl, rfl, .some h1⟩
  refine (hz.registerAll _ _ _ _ |>.mapErr Err.iop Err.iop).bind fun zs zs' hzs => ?_
  refine .ok ⟨hw, hf, ht, ?_, hq.registerEval _ _, hquo, hlk, hlz, hzs⟩
  show Sims K (List.zipWith _ _ _) (List.zipWith _ _ _)
  generalize proof.permEvals = es
  clear hc
  generalize pre.perm = l at hp
  generalize pre'.perm = m at hp
  induction hp generalizing es with
  | nil => cases es <;> exact .nil
  | cons hab _ ih =>
    cases es with
    | nil => exact .nil
    | cons e es => exact .cons (hab.registerEval _ _) (ih es)

theorem StateSim.quotientCheck {st : VState S} {st' : VState S'} (h : StateSim K st st') {vk : VerifierKey S} {vk' : VerifierKey S'}
    (hvk : vk'.index = vk.index) (is : List (InstanceVerifierOracle F)) (vos : List (GenericVO F)) (n : Nat) (vanishing : List F)
    (ch : Challenges F) :
    Same Eq (quotientCheckValue S vk st is vos n vanishing ch) (quotientCheckValue S' vk' st' is vos n vanishing ch) := by
  unfold quotientCheckValue
  rw [hvk]
  have hc : Sims K (st.witness.filter (·.shouldPermute)) (st'.witness.filter (·.shouldPermute)) :=
    forall₂_filter₂ (fun a b h => h.copied.symm) h.witness
  simp only [← h.zs.length_eq, ← h.quotient.length_eq]
  refine (Same.unwrap _).bind ?_
  rintro d _ rfl
  refine Same.bind (R := Eq) ?_ ?_
  · unfold mkAlphas
    refine (Same.unwrap _).bind ?_
    rintro a _ rfl
    exact .ok rfl
  rintro al _ rfl
  have hl : ∀ i, Same (ε := Err S.E) (ε' := Err S'.E) Eq (lagrangeRow d n i) (lagrangeRow d n i) := by
    intro i
    unfold lagrangeRow unitVec
    split
    · exact .ok rfl
    · exact .panic
  refine (hl _).bind ?_
  rintro l0 _ rfl
  refine (hl _).bind ?_
  rintro lu _ rfl
  refine Same.bind (R := Eq) (Same.foldM (forall₂_eq _) ?_ rfl) ?_
  · rintro x _ p _ rfl rfl
    refine ((Same.refl (fun _ => rfl) _).mapErr Err.vo Err.vo).bind (R := Eq) ?_
    rintro ex _ rfl
    refine ((evalR_same (ViewSim.gateAt (⟨h.witness, rfl, h.fixed, h.table⟩ : ViewSim K ⟨st.witness, is, st.pre.fixed, st.pre.table⟩
      ⟨st'.witness, is, st'.pre.fixed, st'.pre.table⟩) ch.xi d.elements) ex).mapErr Err.iop Err.iop).bind ?_
    rintro v _ rfl
    refine (Same.idx_eq _ _).bind ?_
    rintro a _ rfl
    exact .ok rfl
  rintro e _ rfl
  have hrest : ∀ pe : F, Same Eq (do
      let e ← Res.foldM (fun (acc : F)
        (p : (LookupOracles (VerifierOracle F S.Comm) × VerifierOracle F S.Comm) × List F) => do
        let le ← (ZK.lookupOpen (peval l0 ch.xi) (peval lu ch.xi) st.pre.qBlind p.1.1 p.1.2 ch.beta ch.gamma ch.xi d
          p.2).mapErr (Err.iop (E := S.E))
        pure (acc + le)) (e + pe) (List.zip (List.zip st.lookups st.lookupZs) al.lookups)
      let tPart ← Res.foldM (fun (acc : F) (p : F × VerifierOracle F S.Comm) => do
        let v ← (p.2.query ch.xi).mapErr Err.iop
        pure (acc + p.1 * v)) 0 (List.zip (powersFrom 1 (ch.xi ^ n) st.quotient.length) st.quotient)
      pure (e - tPart * peval vanishing ch.xi)) (do
      let e ← Res.foldM (fun (acc : F)
        (p : (LookupOracles (VerifierOracle F S'.Comm) × VerifierOracle F S'.Comm) × List F) => do
        let le ← (ZK.lookupOpen (peval l0 ch.xi) (peval lu ch.xi) st'.pre.qBlind p.1.1 p.1.2 ch.beta ch.gamma ch.xi d
          p.2).mapErr (Err.iop (E := S'.E))
        pure (acc + le)) (e + pe) (List.zip (List.zip st'.lookups st'.lookupZs) al.lookups)
      let tPart ← Res.foldM (fun (acc : F) (p : F × VerifierOracle F S'.Comm) => do
        let v ← (p.2.query ch.xi).mapErr Err.iop
        pure (acc + p.1 * v)) 0 (List.zip (powersFrom 1 (ch.xi ^ n) st.quotient.length) st'.quotient)
      pure (e - tPart * peval vanishing ch.xi)) := by
    intro pe
    refine Same.bind (R := Eq) (Same.foldM (forall₂_zip₂ (forall₂_zip₂ h.lookups h.lookupZs) (forall₂_eq al.lookups)) ?_ rfl) ?_
    · rintro x _ ⟨⟨l, z⟩, as⟩ ⟨⟨l', z'⟩, as'⟩ rfl ⟨⟨h1, h2⟩, h3⟩
      obtain rfl : as = as' := h3
      simp only [lookupOpen_same h.qBlind h1 h2]
      refine ((Same.refl (fun _ => rfl) _).mapErr Err.iop Err.iop).bind (R := Eq) ?_
      rintro v _ rfl
      exact .ok rfl
    rintro e _ rfl
    refine Same.bind (R := Eq) (Same.foldM (forall₂_zip₂ (forall₂_eq _) h.quotient) ?_ rfl) ?_
    · rintro x _ ⟨a, o⟩ ⟨a', o'⟩ rfl ⟨h1, h2⟩
      obtain rfl : a = a' := h1
      refine ((h2.query_same _).mapErr Err.iop Err.iop).bind ?_
      rintro v _ rfl
      exact .ok rfl
    rintro t _ rfl
    exact .ok rfl
  have hl := hc.length_eq
  simp only [← hl]
  split
  · refine (open_same _ h.qBlind h.zs h.perm hc _ _ _ _ _ |>.mapErr Err.iop Err.iop).bind ?_
    rintro pe _ rfl
    exact hrest pe
  · exact hrest 0

end
end ZK
