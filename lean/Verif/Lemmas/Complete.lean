import Verif.Lemmas.Rounds
import Verif.Properties.Mock
import Verif.Spec.Completeness
/-! The polynomials of an honest run of the prover satisfy the constraints. -/
set_option autoImplicit false
set_option linter.unusedSectionVars false
namespace ZK
open Polynomial

theorem forall₂_of_getElem? {α β : Type} {R : α → β → Prop} {l : List α} {m : List β} (hlen : l.length = m.length)
    (h : ∀ (i : Nat) (a : α) (b : β), l[i]? = some a → m[i]? = some b → R a b) : List.Forall₂ R l m := by
  induction l generalizing m with
  | nil =>
    cases m with
    | nil => exact List.Forall₂.nil
    | cons b m => simp at hlen
  | cons a l ih =>
    cases m with
    | nil => simp at hlen
    | cons b m =>
      exact List.Forall₂.cons (h 0 a b rfl rfl) (ih (by simpa using hlen) (fun i a' b' h1 h2 => h (i + 1) a' b'
        (by simpa using h1) (by simpa using h2)))

theorem Forall₂.left {α β : Type} {R : α → β → Prop} {l : List α} {m : List β} (h : List.Forall₂ R l m) {i : Nat} {a : α}
    (ha : l[i]? = some a) : ∃ b, m[i]? = some b ∧ R a b := by
  induction h generalizing i with
  | nil => simp at ha
  | cons h _ ih =>
    cases i with
    | zero => simp at ha; subst ha; exact ⟨_, rfl, h⟩
    | succ i => simpa using ih (by simpa using ha)

theorem Forall₂.right {α β : Type} {R : α → β → Prop} {l : List α} {m : List β} (h : List.Forall₂ R l m) {i : Nat} {b : β}
    (hb : m[i]? = some b) : ∃ a, l[i]? = some a ∧ R a b := by
  obtain ⟨a, h1, h2⟩ := Forall₂.left h.flip hb
  exact ⟨a, h1, h2⟩

theorem Resolves.of_forall₂ {O O' : Type} [ConcreteOracle O] [ConcreteOracle O'] {R : O → O' → Prop} {os : List O}
    {vs : List O'} (h : List.Forall₂ R os vs) (hR : ∀ o v, R o v → ConcreteOracle.label v = ConcreteOracle.label o)
    {l : Label} {o : O} (ho : Resolves os l o) : ∃ v, Resolves vs l v ∧ R o v := by
  obtain ⟨i, h1, h2, h3⟩ := ho
  obtain ⟨v, hv, hr⟩ := Forall₂.left h h1
  refine ⟨v, ⟨i, hv, (hR _ _ hr).trans h2, ?_⟩, hr⟩
  intro j v' hj hv'
  obtain ⟨o', ho', hr'⟩ := Forall₂.right h hv'
  rw [hR _ _ hr']
  exact h3 j o' hj ho'

section
variable {F : Type} [Field F]

theorem forall₂_map_self {α β : Type} (f : α → β) (l : List α) : List.Forall₂ (fun a b => b = f a) l (l.map f) := by
  rw [List.forall₂_map_right_iff]
  exact List.forall₂_same.2 (fun _ _ => rfl)

theorem resolves_extend [FftParams F] {ext : Domain F} {os : List (ProverOracle F)} {l : Label} {o : ProverOracle F}
    (h : Resolves os l o) : Resolves (os.map (·.computeExtended ext)) l (o.computeExtended ext) := by
  obtain ⟨v, hv, rfl⟩ := Resolves.of_forall₂ (forall₂_map_self (fun o => ProverOracle.computeExtended o ext) os)
    (by rintro o _ rfl; rfl) h
  exact hv

theorem ProverView.extend_oracles [FftParams F] (v : ProverView F) (ext : Domain F) (ty : OracleType) :
    (v.extend ext).oracles ty = (v.oracles ty).map (·.computeExtended ext) := by
  cases ty <;> rfl

theorem Answerable.extend [FftParams F] {n : Nat} {v : ProverView F} {q : OracleQuery} (ext : Domain F)
    (h : Answerable n v q) : Answerable n (v.extend ext) q := by
  obtain ⟨h1, o, h2, h3⟩ := h
  exact ⟨h1, o.computeExtended ext, by rw [ProverView.extend_oracles]; exact resolves_extend h2, h3⟩

/-- Both arguments agree about the usable rows, and the blinding selector marks the rows after the last one. -/
theorem lookupRows_of {d : Domain F} {u usableRows : Nat} {qBlind : ProverOracle F} (hint : Interpolates d qBlind)
    (hq : ∀ i < d.size, qBlind.evals[i]? = some (ZK.blinding u i)) (hu : usableRows = u) (h0 : 0 < usableRows) (hlt : u < d.size) :
    LookupRows d u usableRows qBlind := by
  subst hu
  refine ⟨h0, hlt, hint, .inl rfl, fun i hi hle => ?_⟩
  rw [hq i hi, ZK.blinding]
  by_cases h : i = usableRows
  · rw [if_pos h.le, if_pos h]
  · rw [if_neg (by omega), if_neg h]

/-- The conditions in case the blinding selector is always a column. -/
theorem Supported.of_columns {d : Domain F} {index : Index F} {v : ProverView F} {sigmas : List (ProverOracle F)}
    {qBlind : ProverOracle F} {vos : List (GenericVO F)}
    (columns : ∀ o ∈ v.witness ++ v.inst ++ v.fixed ++ v.table ++ sigmas ++ [qBlind], IsColumn d o)
    (labels : (v.witness.map (·.label)).Nodup ∧ (v.fixed.map (·.label)).Nodup ∧ (v.table.map (·.label)).Nodup)
    (rotations : ∀ o ∈ v.witness ++ v.fixed ++ v.table, ∀ r ∈ o.rotations, r.degree < d.size)
    (unrotated : ∀ o ∈ sigmas ++ [qBlind], ∀ r ∈ o.rotations, r.degree = 0)
    (gates : ∀ vo ∈ vos, ∃ e, vo.getExpression = .ok e ∧ ∀ q ∈ e.queries, Answerable d.size v q)
    (copied : ∀ o ∈ v.witness, o.shouldPermute = true → OpenedUnrotated o)
    (lookups : ∀ l ∈ index.lookups, ∃ es ts, l.getExpressions = .ok es ∧ l.getTableQueries = .ok ts ∧
      (∀ e ∈ es, (∀ q ∈ e.queries, Answerable d.size v q ∧ (q.oracleType ≠ .witness → q.rotation.degree = 0)) ∧
        ∃ k, e.degree (fun _ => .ok (d.size - 1)) = .ok k ∧ k < index.ext.size) ∧
      ∀ t ∈ ts, t.oracleType = .fixed ∧ ∃ o, Resolves v.table t.label o ∧ OpenedUnrotated o)
    (hblind : (∃ o ∈ v.witness, o.shouldPermute = true) ∨ index.lookups ≠ [] → ∀ i < d.size,
      qBlind.evals[i]? = some (ZK.blinding index.perm.usableRows i))
    (usable : index.lookups ≠ [] → index.usableRows = index.perm.usableRows ∧ 0 < index.usableRows)
    (hlast : index.lookups ≠ [] → index.perm.usableRows < d.size) :
    Supported d index v sigmas qBlind vos :=
  ⟨⟨fun o ho => columns o (List.mem_append_left _ ho), (columns qBlind (by simp)).2, labels, rotations, unrotated, gates, copied,
    lookups, fun h => ⟨(columns qBlind (by simp)).1, hblind (.inl h)⟩, fun h => (usable h).1 ▸ hlast h⟩, fun h =>
      lookupRows_of (columns qBlind (by simp)).1 (hblind (.inr h)) (usable h).1 (usable h).2 (hlast h)⟩

/-- A supported circuit remains one when the values on the coset are added. -/
theorem SupportedShape.extend [FftParams F] {d : Domain F} {index : Index F} {v : ProverView F} {sigmas : List (ProverOracle F)}
    {qBlind : ProverOracle F} {vos : List (GenericVO F)} (ext : Domain F) (h : SupportedShape d index v sigmas qBlind vos) :
    SupportedShape d index (v.extend ext) (sigmas.map (·.computeExtended ext)) (qBlind.computeExtended ext) vos where
  columns := by
    intro o ho
    obtain ⟨o', ho', rfl⟩ : ∃ o' ∈ v.witness ++ v.inst ++ v.fixed ++ v.table ++ sigmas, o'.computeExtended ext = o := by
      rw [← List.mem_map]
      simpa [ProverView.extend] using ho
    exact h.columns o' ho'
  selector := h.selector
  labels := by
    have := h.labels
    simpa [ProverView.extend, Function.comp_def, ProverOracle.computeExtended] using this
  rotations := by
    intro o ho
    obtain ⟨o', ho', rfl⟩ : ∃ o' ∈ v.witness ++ v.fixed ++ v.table, o'.computeExtended ext = o := by
      rw [← List.mem_map]
      simpa [ProverView.extend] using ho
    exact h.rotations o' ho'
  unrotated := by
    intro o ho
    obtain ⟨o', ho', rfl⟩ : ∃ o' ∈ sigmas ++ [qBlind], o'.computeExtended ext = o := by
      rw [← List.mem_map]
      simpa using ho
    exact h.unrotated o' ho'
  gates := by
    intro vo hvo
    obtain ⟨e, h1, h2⟩ := h.gates vo hvo
    exact ⟨e, h1, fun q hq => (h2 q hq).extend ext⟩
  copied := by
    intro o ho hp
    obtain ⟨o', ho', rfl⟩ := List.mem_map.1 (show o ∈ v.witness.map (·.computeExtended ext) from ho)
    exact h.copied o' ho' hp
  lookups := by
    intro l hl
    obtain ⟨es, ts, h1, h2, h3, h4⟩ := h.lookups l hl
    refine ⟨es, ts, h1, h2, fun e he => ⟨fun q hq => ⟨((h3 e he).1 q hq).1.extend ext, ((h3 e he).1 q hq).2⟩, (h3 e he).2⟩, ?_⟩
    intro t ht
    obtain ⟨h5, o, h6, h7⟩ := h4 t ht
    exact ⟨h5, o.computeExtended ext, resolves_extend h6, h7⟩
  blinding := by
    intro hc
    obtain ⟨o, ho, hp⟩ := hc
    obtain ⟨o', ho', rfl⟩ := List.mem_map.1 (show o ∈ v.witness.map (·.computeExtended ext) from ho)
    exact h.blinding ⟨o', ho', hp⟩
  unusable := h.unusable

theorem Supported.extend [FftParams F] {d : Domain F} {index : Index F} {v : ProverView F} {sigmas : List (ProverOracle F)}
    {qBlind : ProverOracle F} {vos : List (GenericVO F)} (ext : Domain F) (h : Supported d index v sigmas qBlind vos) :
    Supported d index (v.extend ext) (sigmas.map (·.computeExtended ext)) (qBlind.computeExtended ext) vos :=
  ⟨h.toSupportedShape.extend ext, h.usable⟩

theorem ReadsCell.of_extend [FftParams F] {n : Nat} {v : ProverView F} {i : Nat} {q : OracleQuery} {y : F} {ext : Domain F}
    (h : ReadsCell n (v.extend ext) i q y) : ReadsCell n v i q y := by
  obtain ⟨h1, o, h2, h3⟩ := h
  rw [ProverView.extend_oracles] at h2
  obtain ⟨k, hk, hl, hlast⟩ := h2
  rw [List.getElem?_map, Option.map_eq_some_iff] at hk
  obtain ⟨o', ho', rfl⟩ := hk
  refine ⟨h1, o', ⟨k, ho', hl, ?_⟩, h3⟩
  intro j o'' hj ho''
  exact hlast j (o''.computeExtended ext) hj (by rw [List.getElem?_map, ho'']; rfl)

theorem GatesHold.extend [FftParams F] {d : Domain F} {v : ProverView F} {vos : List (GenericVO F)} {zh : F[X]}
    (ext : Domain F) (h : GatesHold d v vos zh) : GatesHold d (v.extend ext) vos zh := by
  intro vo hvo e he i hi hz y hy
  exact h vo hvo e he i hi hz y (fun q hq => (hy q hq).of_extend)

theorem forall₂_extend [FftParams F] {α : Type} {R : ProverOracle F → α → Prop} {os : List (ProverOracle F)} {vs : List α}
    (ext : Domain F) (hR : ∀ o v, R o v → R (o.computeExtended ext) v) (h : List.Forall₂ R os vs) :
    List.Forall₂ R (os.map (·.computeExtended ext)) vs := by
  rw [List.forall₂_map_left_iff]
  exact h.imp (fun o v => hR o v)

theorem SetUp.extend [FftParams F] {S : Scheme F} {com : F[X] → S.Rand → S.Comm} {v : ProverView F}
    {sigmas : List (ProverOracle F)} {qBlind : ProverOracle F} {ws : List (VerifierOracle F S.Comm)}
    {is : List (InstanceVerifierOracle F)} {pre : VerifierPreprocessed S} (ext : Domain F)
    (h : SetUp S com v sigmas qBlind ws is pre) :
    SetUp S com (v.extend ext) (sigmas.map (·.computeExtended ext)) (qBlind.computeExtended ext) ws is pre where
  witness := forall₂_extend ext (fun _ _ h => h) h.witness
  inst := forall₂_extend ext (fun _ _ h => h) h.inst
  fixed := forall₂_extend ext (fun _ _ h => h) h.fixed
  table := forall₂_extend ext (fun _ _ h => h) h.table
  perm := forall₂_extend ext (fun _ _ h => h) h.perm
  qBlind := h.qBlind

end

section
variable {F : Type} [Field F] [FftParams F] [LawfulFft F] [LinearOrder F]

/-- The polynomial of a gate. -/
noncomputable def gatePoly (d : Domain F) (v : ProverView F) (vo : GenericVO F) : F[X] :=
  match vo.getExpression with
  | .ok e => e.denote C (v.polyOf d)
  | _ => 0

/-- The polynomials of one lookup and its grand product. -/
noncomputable def lookupPair (l : LookupOracles (ProverOracle F)) (o : ProverOracle F) : LookupPolys F × F[X] :=
  (⟨toPoly l.a.poly, toPoly l.s.poly, toPoly l.aPrime.poly, toPoly l.sPrime.poly⟩, toPoly o.poly)

/-- The polynomials of a run of the prover. -/
noncomputable def runPolys (d : Domain F) (v : ProverView F) (vos : List (GenericVO F)) (sigmas : List (ProverOracle F))
    (qBlind : ProverOracle F) (r : ProverRounds F) : CircuitPolys F :=
  ⟨vos.map (gatePoly d v), (v.witness.filter (·.shouldPermute)).map (fun o => toPoly o.poly),
    sigmas.map (fun o => toPoly o.poly), r.zs.map (fun o => toPoly o.poly),
    List.zipWith lookupPair r.lookups r.lookupZs, toPoly qBlind.poly⟩

/-- What the rounds before the quotient have computed. -/
structure RoundsRan (S : Scheme F) (d : Domain F) (index : Index F) (v : ProverView F) (sigmas : List (ProverOracle F))
    (theta beta gamma : F) (r : ProverRounds F) : Prop where
  lookups : ∃ z1 z2, lookupRound (S := S) v index d theta z1 = .ok (r.lookups, z2)
  permutation : ∃ z1 z2, permutationRound (S := S) (ε := Err S.E) index (v.witness.filter (·.shouldPermute)) sigmas d
    beta gamma z1 = .ok (r.zs, z2)
  subsetEquality : ∃ z1 z2, subsetEqualityRound (S := S) (ε := Err S.E) index r.lookups d beta gamma z1 = .ok (r.lookupZs, z2)

variable {S : Scheme F} {d : Domain F} {index : Index F} {v : ProverView F} {sigmas : List (ProverOracle F)}
  {qBlind : ProverOracle F} {vos : List (GenericVO F)} {theta beta gamma : F} {r : ProverRounds F}

omit [LawfulFft F] in
theorem RoundsRan.lookup (h : RoundsRan S d index v sigmas theta beta gamma r) :
    r.lookups.length = index.lookups.length ∧ ∀ (i : Nat) (l : LookupOracles (ProverOracle F)) (vo : GenericLookupVO F),
      r.lookups[i]? = some l → index.lookups[i]? = some vo →
      ∃ es ts z z', vo.getExpressions = .ok es ∧ vo.getTableQueries = .ok ts ∧
        lookupConstruct S.next v index.usableRows i es ts theta d index.ext z = .ok (l, z') := by
  obtain ⟨z1, z2, h1⟩ := h.lookups
  unfold lookupRound at h1
  obtain ⟨bs, e, hbs⟩ := Res.foldM_push (fun (p : GenericLookupVO F × Nat) (l : LookupOracles (ProverOracle F)) =>
    ∃ es ts z z', p.1.getExpressions = .ok es ∧ p.1.getTableQueries = .ok ts ∧
        lookupConstruct S.next v index.usableRows p.2 es ts theta d index.ext z = .ok (l, z')) (by
      intro acc a out hout
      simp only [Res.bind_eq_ok, Res.mapErr_eq_ok] at hout
      obtain ⟨es, h2, ts, h3, ⟨l, z'⟩, h4, h5⟩ := hout
      obtain ⟨⟩ := Res.ok.inj h5
      exact ⟨l, ⟨es, ts, _, z', h2, h3, h4⟩, rfl⟩) h1
  simp only [List.nil_append] at e
  subst e
  refine ⟨by rw [← hbs.length_eq, List.length_zipIdx], ?_⟩
  intro i l vo hl hvo
  obtain ⟨p, hp, h⟩ := Forall₂.right hbs hl
  rw [List.getElem?_zipIdx, hvo] at hp
  simp only [Option.map_some, Nat.zero_add, Option.some.injEq] at hp
  subst hp
  exact h

omit [LawfulFft F] in
theorem RoundsRan.lookupZ_made (h : RoundsRan S d index v sigmas theta beta gamma r) :
    r.lookupZs.length = r.lookups.length ∧ ∀ (i : Nat) (l : LookupOracles (ProverOracle F)) (o : ProverOracle F),
      r.lookups[i]? = some l → r.lookupZs[i]? = some o → ∃ z z',
      (seConstruct S.next l beta gamma i index.usableRows d index.ext z : Res (Err S.E) _) = .ok (o, z') := by
  obtain ⟨z1, z2, h1⟩ := h.subsetEquality
  unfold subsetEqualityRound at h1
  obtain ⟨bs, e, hbs⟩ := Res.foldM_push (fun (p : LookupOracles (ProverOracle F) × Nat) (o : ProverOracle F) => ∃ z z',
    (seConstruct S.next p.1 beta gamma p.2 index.usableRows d index.ext z : Res (Err S.E) _) = .ok (o, z')) (by
      intro acc a out hout
      simp only [Res.bind_eq_ok] at hout
      obtain ⟨⟨o, z'⟩, h4, h5⟩ := hout
      obtain ⟨⟩ := Res.ok.inj h5
      exact ⟨o, ⟨_, _, h4⟩, rfl⟩) h1
  simp only [List.nil_append] at e
  subst e
  refine ⟨by rw [← hbs.length_eq, List.length_zipIdx], ?_⟩
  intro i l o hl ho
  obtain ⟨p, hp, h⟩ := Forall₂.right hbs ho
  rw [List.getElem?_zipIdx, hl] at hp
  simp only [Option.map_some, Nat.zero_add, Option.some.injEq] at hp
  subst hp
  exact h

omit [LawfulFft F] in
theorem RoundsRan.lookupZ (h : RoundsRan S d index v sigmas theta beta gamma r) :
    r.lookupZs.length = r.lookups.length ∧ ∀ (i : Nat) (l : LookupOracles (ProverOracle F)) (o : ProverOracle F),
      r.lookups[i]? = some l → r.lookupZs[i]? = some o →
      LookupAgg d index.ext index.usableRows i l beta gamma o := by
  refine ⟨h.lookupZ_made.1, fun i l o hl ho => ?_⟩
  obtain ⟨z, z', h1⟩ := h.lookupZ_made.2 i l o hl ho
  exact seConstruct_inv h1

/-- All columns have their values on the coset. -/
structure AllHonest (d ext : Domain F) (v : ProverView F) (sigmas : List (ProverOracle F)) (qBlind : ProverOracle F) :
    Prop where
  witness : ∀ o ∈ v.witness, Honest d ext o
  inst : ∀ o ∈ v.inst, Honest d ext o
  fixed : ∀ o ∈ v.fixed, Honest d ext o
  table : ∀ o ∈ v.table, Honest d ext o
  sigmas : ∀ o ∈ sigmas, Honest d ext o
  qBlind : OnCoset d ext qBlind

omit [LawfulFft F] [LinearOrder F] in
theorem SupportedShape.allHonest (ext : Domain F) (h : SupportedShape d index v sigmas qBlind vos) :
    AllHonest d ext (v.extend ext) (sigmas.map (·.computeExtended ext)) (qBlind.computeExtended ext) := by
  have key : ∀ o ∈ v.witness ++ v.inst ++ v.fixed ++ v.table ++ sigmas,
      Honest d ext (o.computeExtended ext) := fun o ho => ⟨(h.columns o ho).1, (h.columns o ho).2, rfl⟩
  constructor
  all_goals first
    | exact ⟨h.selector, rfl⟩
    | (intro o ho
       obtain ⟨o', ho', rfl⟩ := List.mem_map.1 ho
       exact key o' (by simp [ho']))

variable (hd : d.Ok) (he : index.ext.Ok) (hle : d.size ≤ index.ext.size) (hH : AllHonest d index.ext v sigmas qBlind)
  (hs : SupportedShape d index v sigmas qBlind vos)

omit [LawfulFft F] [LinearOrder F] in
include hH in
theorem AllHonest.oracles (ty : OracleType) : ∀ o ∈ v.oracles ty, Honest d index.ext o := by
  cases ty
  · exact hH.witness
  · exact hH.inst
  · exact hH.fixed

omit [LawfulFft F] [LinearOrder F] in
include hH in
theorem AllHonest.queryPolys {qs : List OracleQuery} (h : ∀ q ∈ qs, Answerable d.size v q) :
    QueryPolys d index.ext v qs (v.polyOf d) := by
  refine queryPolys_polyOf (hH.oracles) ?_
  intro q hq
  obtain ⟨h1, o, h2, -⟩ := h q hq
  exact ⟨h1, by rw [findOracle_eq_some.2 h2]; rfl⟩

include hd he hle hH hs in
/-- The oracles of a lookup. -/
theorem RoundsRan.built (h : RoundsRan S d index v sigmas theta beta gamma r) {i : Nat} {l : LookupOracles (ProverOracle F)}
    (hl : r.lookups[i]? = some l) : ∃ A T, LookupBuilt d index.ext index.usableRows i A T l := by
  obtain ⟨hlen, hlk⟩ := h.lookup
  have hi := getElem?_some_lt hl
  rw [hlen] at hi
  have hvo : index.lookups[i]? = some index.lookups[i] := List.getElem?_eq_getElem hi
  obtain ⟨es, ts, z, z', h1, h2, h3⟩ := hlk i l _ hl hvo
  obtain ⟨es', ts', h4, h5, h6, h7⟩ := hs.lookups _ (List.getElem_mem hi)
  rw [h4] at h1; rw [h5] at h2
  obtain ⟨⟩ := Res.ok.inj h1
  obtain ⟨⟩ := Res.ok.inj h2
  refine ⟨_, _, (lookupConstruct_inv (P := v.polyOf d) (T := v.tablePolyOf) hd he hle ?_ ?_ (fun e hee => (h6 e hee).2) h3).2.2⟩
  · intro e hee
    exact hH.queryPolys (fun q hq => ((h6 e hee).1 q hq).1)
  · refine tablePolys_tablePolyOf hH.table ?_
    intro t ht
    obtain ⟨h8, o, h9, -⟩ := h7 t ht
    exact ⟨h8, by rw [findOracle_eq_some.2 h9]; rfl⟩

omit [LawfulFft F] [LinearOrder F] in
theorem gatePoly_eq {vo : GenericVO F} {e : Expr F} (h : vo.getExpression = .ok e) :
    gatePoly d v vo = e.denote C (v.polyOf d) := by
  unfold gatePoly; rw [h]

include hd he hle hH hs in
/-- The oracles of the prover stand for the polynomials of the run. -/
theorem RoundsRan.proverPolys (h : RoundsRan S d index v sigmas theta beta gamma r) (hzs : ∀ o ∈ r.zs, Honest d index.ext o) :
    ProverPolys d index.ext v vos sigmas qBlind r (runPolys d v vos sigmas qBlind r) where
  gates := by
    unfold runPolys
    rw [List.forall₂_map_right_iff]
    refine List.forall₂_same.2 (fun vo hvo => ?_)
    obtain ⟨e, h1, h2⟩ := hs.gates vo hvo
    exact ⟨e, _, h1, hH.queryPolys h2, gatePoly_eq h1⟩
  ws := by
    unfold runPolys
    rw [List.forall₂_map_right_iff]
    exact List.forall₂_same.2 (fun o ho => ⟨hH.witness o (List.mem_filter.1 ho).1, rfl⟩)
  sigmas := by
    unfold runPolys
    rw [List.forall₂_map_right_iff]
    exact List.forall₂_same.2 (fun o ho => ⟨hH.sigmas o ho, rfl⟩)
  zs := by
    unfold runPolys
    rw [List.forall₂_map_right_iff]
    exact List.forall₂_same.2 (fun o ho => ⟨hzs o ho, rfl⟩)
  lookups := by
    have hlen := h.lookupZ.1
    refine forall₂_of_getElem? (by simp [runPolys, hlen]) ?_
    intro i l p hl hp
    obtain ⟨A, T, hb⟩ := h.built hd he hle hH hs hl
    obtain ⟨l', o, h1, -, rfl⟩ := List.getElem?_zipWith_eq_some.1 hp
    obtain rfl := Option.some.inj (hl.symm.trans h1)
    exact ⟨⟨hb.aHonest, rfl⟩, ⟨hb.sHonest, rfl⟩, ⟨hb.aPrimeHonest, rfl⟩, ⟨hb.sPrimeHonest, rfl⟩⟩
  lookupZs := by
    have hlen := h.lookupZ.1
    refine forall₂_of_getElem? (by simp [runPolys, hlen]) ?_
    intro i o p ho hp
    obtain ⟨l', o', h1, h2, rfl⟩ := List.getElem?_zipWith_eq_some.1 hp
    obtain rfl := Option.some.inj (ho.symm.trans h2)
    exact ⟨(h.lookupZ.2 i l' o h1 ho).honest hd, rfl⟩
  qBlind := ⟨hH.qBlind, rfl⟩

include hH in
/-- The grand products of the permutation argument. -/
theorem RoundsRan.agg (h : RoundsRan S d index v sigmas theta beta gamma r)
    (hne : v.witness.filter (·.shouldPermute) ≠ []) :
    0 < index.perm.maxCols ∧ (v.witness.filter (·.shouldPermute)).length = sigmas.length ∧
    (v.witness.filter (·.shouldPermute)).length = index.perm.deltas.length ∧ index.perm.usableRows + 1 ≤ d.size ∧
    (∀ i < index.perm.usableRows, ∀ t ∈ List.zip (List.zip (v.witness.filter (·.shouldPermute)) sigmas) index.perm.deltas,
      (rowCol d i t).den beta gamma ≠ 0) ∧
    AggSpec index.perm beta gamma d index.ext
      (List.zip (List.zip (v.witness.filter (·.shouldPermute)) sigmas) index.perm.deltas) r.zs ∧
    fullRatio beta gamma d index.perm.usableRows
      (List.zip (List.zip (v.witness.filter (·.shouldPermute)) sigmas) index.perm.deltas) = 1 := by
  obtain ⟨z1, z2, h1⟩ := h.permutation
  unfold permutationRound at h1
  rw [if_neg (by simpa using hne)] at h1
  exact constructAggPolys_inv hne (fun o ho => (hH.witness o (List.mem_filter.1 ho).1).1.1) (fun o ho => (hH.sigmas o ho).1.1) h1

omit [LawfulFft F] in
theorem RoundsRan.noAgg (h : RoundsRan S d index v sigmas theta beta gamma r)
    (hne : v.witness.filter (·.shouldPermute) = []) : r.zs = [] := by
  obtain ⟨z1, z2, h1⟩ := h.permutation
  unfold permutationRound at h1
  rw [if_pos (by simp [hne])] at h1
  exact (congrArg Prod.fst (Res.ok.inj h1)).symm

include hH in
/-- The number of grand products. -/
theorem RoundsRan.zs_length (h : RoundsRan S d index v sigmas theta beta gamma r)
    (hne : v.witness.filter (·.shouldPermute) ≠ []) :
    r.zs.length = (chunks index.perm.maxCols (v.witness.filter (·.shouldPermute))).length := by
  obtain ⟨h1, h2, h3, -, -, h4, -⟩ := h.agg hH hne
  rw [h4.len]
  refine chunks_length_congr h1 ?_
  simp only [List.length_zip]
  omega

include hH in
theorem RoundsRan.aggPoly (h : RoundsRan S d index v sigmas theta beta gamma r) {i : Nat} {o : ProverOracle F}
    (ho : r.zs[i]? = some o) :
    ∃ init ratio, AggPoly d index.ext index.perm.usableRows i (decide (i = r.zs.length - 1)) init ratio o := by
  by_cases hne : v.witness.filter (·.shouldPermute) = []
  · rw [h.noAgg hne] at ho; simp at ho
  · obtain ⟨h1, h2, h3, -, -, h4, -⟩ := h.agg hH hne
    have hi := getElem?_some_lt ho
    have := h4.each i o _ ho (List.getElem?_eq_getElem (by rw [← h4.len]; exact hi))
    have hdec : decide (i = r.zs.length - 1) = decide (i = (chunks index.perm.maxCols
        (List.zip (List.zip (v.witness.filter (·.shouldPermute)) sigmas) index.perm.deltas)).length - 1) := by
      rw [h4.len]
    rw [hdec]
    exact ⟨_, _, this⟩

include hd hH in
theorem RoundsRan.zs_honest (h : RoundsRan S d index v sigmas theta beta gamma r) : ∀ o ∈ r.zs, Honest d index.ext o := by
  intro o ho
  obtain ⟨i, hi⟩ := List.getElem?_of_mem ho
  obtain ⟨_, _, h1⟩ := h.aggPoly hH hi
  exact h1.honest hd

omit [LawfulFft F] in
/-- The quotient round needs a gate and a last usable row. -/
theorem quotientRound_inv {zhInverses : List F} {alpha : F} {qs : List (ProverOracle F)}
    (h : quotientRound v vos index zhInverses sigmas qBlind r d alpha beta gamma = .ok qs) :
    vos ≠ [] ∧ index.perm.usableRows < d.size := by
  unfold quotientRound at h
  simp only [Res.bind_eq_ok] at h
  obtain ⟨al, h1, l0, h2, lu, h3, -⟩ := h
  constructor
  · rintro rfl
    unfold mkAlphas at h1
    simp [powersFrom] at h1
  · unfold lagrangeRow unitVec at h3
    by_contra hc
    rw [if_neg hc] at h3
    simp at h3

include hH in
/-- The run fits the parameters of the permutation argument. -/
theorem RoundsRan.fits (h : RoundsRan S d index v sigmas theta beta gamma r) (hvos : vos ≠ [])
    (hu : index.perm.usableRows < d.size) : (runPolys d v vos sigmas qBlind r).Fits d index.perm where
  usable := hu
  gates := by simpa [runPolys] using hvos
  zs := by
    intro h0
    have : v.witness.filter (·.shouldPermute) = [] := by simpa [runPolys] using h0
    simp [runPolys, h.noAgg this]
  cols := by
    intro h0
    have hne : v.witness.filter (·.shouldPermute) ≠ [] := by simpa [runPolys] using h0
    obtain ⟨h1, h2, h3, -⟩ := h.agg hH hne
    refine ⟨h1, by simpa [runPolys] using h2, by simpa [runPolys] using h3, ?_⟩
    have := h.zs_length hH hne
    simp only [runPolys, List.length_map]
    rw [this]
    exact chunks_length_congr h1 (by simp)

omit [LawfulFft F] [LinearOrder F] in
theorem Honest.natDegree {ext : Domain F} {o : ProverOracle F} (h : Honest d ext o) :
    (toPoly o.poly).natDegree ≤ d.size - 1 := by
  refine (natDegree_toPoly_le _).trans ?_
  have := h.2.1
  omega

include hd he hle hH hs in
theorem RoundsRan.bounded (h : RoundsRan S d index v sigmas theta beta gamma r) :
    (runPolys d v vos sigmas qBlind r).Bounded d.size where
  ws := by
    intro p hp
    obtain ⟨o, ho, rfl⟩ := List.mem_map.1 hp
    exact (hH.witness o (List.mem_filter.1 ho).1).natDegree
  sigmas := by
    intro p hp
    obtain ⟨o, ho, rfl⟩ := List.mem_map.1 hp
    exact (hH.sigmas o ho).natDegree
  zs := by
    intro p hp
    obtain ⟨o, ho, rfl⟩ := List.mem_map.1 hp
    exact (h.zs_honest hd hH o ho).natDegree
  lookups := by
    intro p hp
    obtain ⟨i, hi⟩ := List.getElem?_of_mem hp
    obtain ⟨l, o, h1, h2, rfl⟩ := List.getElem?_zipWith_eq_some.1 hi
    obtain ⟨A, T, hb⟩ := h.built hd he hle hH hs h1
    exact ⟨hb.aHonest.natDegree, hb.sHonest.natDegree, hb.aPrimeHonest.natDegree, hb.sPrimeHonest.natDegree,
      ((h.lookupZ.2 i l o h1 h2).honest hd).natDegree⟩
  qBlind := (natDegree_toPoly_le _).trans (by have := hH.qBlind.1; omega)

include hH hs in
theorem blinding_rows (hc : v.witness.filter (·.shouldPermute) ≠ []) :
    ∀ i < d.size, (toPoly qBlind.poly).eval (d.omega ^ i) = blinding index.perm.usableRows i := by
  intro i hi
  have ⟨h0, h1⟩ := hs.blinding (by
    obtain ⟨o, ho⟩ := List.exists_mem_of_ne_nil _ hc
    exact ⟨o, (List.mem_filter.1 ho).1, by simpa using (List.mem_filter.1 ho).2⟩)
  have h1 := h1 i hi
  rw [h0.2 i hi] at h1
  exact Option.some.inj h1

/-- Every run of the rounds satisfies the lookup constraints on every row. -/
def LookupsVanish (S : Scheme F) (d : Domain F) (index : Index F) (v : ProverView F) (sigmas : List (ProverOracle F))
    (qBlind : ProverOracle F) : Prop :=
  ∀ (theta beta gamma : F) (r : ProverRounds F), RoundsRan S d index v sigmas theta beta gamma r → ∀ i < d.size,
    ∀ l ∈ List.zipWith lookupPair r.lookups r.lookupZs,
      ∀ x ∈ lookupPolys d index.perm.usableRows (toPoly qBlind.poly) beta gamma l, x.eval (d.omega ^ i) = 0

include hd he hle hH in
/-- The lookup constraints hold if the selectors fit the usable rows. -/
theorem Supported.lookupsVanish (hs : Supported d index v sigmas qBlind vos) : LookupsVanish S d index v sigmas qBlind := by
  intro theta beta gamma r h i hi p hp
  obtain ⟨k, hk⟩ := List.getElem?_of_mem hp
  obtain ⟨l, o, h1, h2, rfl⟩ := List.getElem?_zipWith_eq_some.1 hk
  obtain ⟨A, T, hb⟩ := h.built hd he hle hH hs.toSupportedShape h1
  have hlne : index.lookups ≠ [] := by
    rw [← List.length_pos_iff, ← h.lookup.1]
    have := getElem?_some_lt h1
    omega
  obtain ⟨hu0, -, hint, hu, hmark⟩ := hs.usable hlne
  refine lookup_rows_zero hd hu0 hb (h.lookupZ.2 k l o h1 h2) hu (fun i hi hle => ?_) hi
  have h3 := hmark i hi hle
  rw [hint.2 i hi] at h3
  exact Option.some.inj h3

variable (hlv : LookupsVanish S d index v sigmas qBlind)

include hd hH hs hlv in
/-- On every row the permutation and lookup constraints hold. -/
theorem RoundsRan.rows (h : RoundsRan S d index v sigmas theta beta gamma r) {i : Nat} (hi : i < d.size) :
    (∀ x ∈ (runPolys d v vos sigmas qBlind r).permutation d index.perm beta gamma, x.eval (d.omega ^ i) = 0) ∧
    ∀ l ∈ (runPolys d v vos sigmas qBlind r).lookups,
      ∀ x ∈ lookupPolys d index.perm.usableRows (toPoly qBlind.poly) beta gamma l, x.eval (d.omega ^ i) = 0 := by
  constructor
  · by_cases hne : v.witness.filter (·.shouldPermute) = []
    · intro x hx
      unfold CircuitPolys.permutation at hx
      rw [if_pos (by simp [runPolys, hne])] at hx
      simp at hx
    · obtain ⟨h1, h2, h3, h4, h5, h6, h7⟩ := h.agg hH hne
      exact agg_rows_zero hd h1 hne h2 h3 h4 h5 h6 h7 (fun o ho => (hH.witness o (List.mem_filter.1 ho).1).1)
        (fun o ho => (hH.sigmas o ho).1) rfl rfl rfl (blinding_rows hH hs hne) hi
  · exact hlv _ _ _ _ h i hi

include hd hH hs in
/-- The gates hold on the rows where they are required to. -/
theorem GatesHold.rows {zh : F[X]} (h : GatesHold d v vos zh) {i : Nat} (hi : i < d.size)
    (hz : zh.eval (d.omega ^ i) = 0) : ∀ g ∈ vos.map (gatePoly d v), g.eval (d.omega ^ i) = 0 := by
  intro g hg
  obtain ⟨vo, hvo, rfl⟩ := List.mem_map.1 hg
  obtain ⟨e, h1, h2⟩ := hs.gates vo hvo
  rw [gatePoly_eq h1, Expr.eval_denote]
  refine h vo hvo e h1 i hi hz _ ?_
  intro q hq
  obtain ⟨h3, o, h4, -⟩ := h2 q hq
  refine ⟨h3, o, h4, ?_⟩
  obtain ⟨j, hj, he⟩ := (hH.oracles _ o h4.mem).1.eval_zpow hd ((i : ℤ) + q.rotation.signed)
  refine ⟨j, hj, ?_⟩
  rw [he, ProverView.polyOf, findOracle_eq_some.2 h4]
  simp only [eval_shifted, eval_toPoly]
  rw [zpow_add₀ hd.omega_ne_zero, zpow_natCast, mul_comm]

omit [FftParams F] [LawfulFft F] [LinearOrder F] in
theorem aggregate_zero {R : Type} [CommRing R] (alpha : R) (gates perm : List R) (m : Nat) (ls : List (List R))
    (h1 : ∀ g ∈ gates, g = 0) (h2 : ∀ g ∈ perm, g = 0) (h3 : ∀ l ∈ ls, ∀ g ∈ l, g = 0) : aggregate alpha gates perm m ls = 0 := by
  have key : ∀ (f : Nat → Nat) (l : List R), (∀ g ∈ l, g = 0) → (l.zipIdx.map (fun g => alpha ^ f g.2 * g.1)).sum = 0 := by
    intro f l hl
    refine List.sum_eq_zero ?_
    intro x hx
    obtain ⟨p, hp, rfl⟩ := List.mem_map.1 hx
    rw [hl _ (List.fst_mem_of_mem_zipIdx hp), mul_zero]
  unfold aggregate
  rw [key (fun i => i) _ h1, key (fun i => gates.length + i) _ h2, List.sum_eq_zero]
  · simp
  · intro x hx
    obtain ⟨p, hp, rfl⟩ := List.mem_map.1 hx
    exact key (fun i => gates.length + 2 * m + 5 * p.2 + i) _ (h3 _ (List.fst_mem_of_mem_zipIdx hp))

include hd in
omit [LinearOrder F] in
/-- A divisor of `X^n - 1` divides every polynomial which is zero on the rows where the divisor is. -/
theorem Domain.Ok.dvd_of_dvd {zh p : F[X]} (hz : zh ∣ X ^ d.size - 1)
    (hp : ∀ i < d.size, zh.eval (d.omega ^ i) = 0 → p.eval (d.omega ^ i) = 0) : zh ∣ p := by
  obtain ⟨k, hk⟩ := hz
  have hk0 : k ≠ 0 := by
    rintro rfl
    rw [mul_zero] at hk
    exact (monic_X_pow_sub_C (1 : F) hd.size_pos.ne').ne_zero (by simpa using hk)
  have h1 : (X ^ d.size - 1 : F[X]) ∣ p * k := by
    refine hd.dvd_of_rows ?_
    intro i hi
    rw [Domain.element, eval_mul]
    have h2 := congrArg (eval (d.omega ^ i)) hk
    have h3 : (d.omega ^ i) ^ d.size = 1 := by
      rw [← pow_mul, mul_comm, pow_mul, hd.prim.pow_eq_one, one_pow]
    simp only [eval_sub, eval_pow, eval_X, eval_one, eval_mul, h3, sub_self] at h2
    rcases mul_eq_zero.1 h2.symm with h | h
    · rw [hp i hi h, zero_mul]
    · rw [h, mul_zero]
  rw [hk] at h1
  exact (mul_dvd_mul_iff_right hk0).1 h1

include hd hH hs hlv in
/-- The aggregated constraint polynomial is a multiple of the vanishing polynomial. -/
theorem RoundsRan.divides (h : RoundsRan S d index v sigmas theta beta gamma r) {zh : F[X]} (hz : zh ∣ X ^ d.size - 1)
    (hg : GatesHold d v vos zh) (alpha : F) :
    zh ∣ (runPolys d v vos sigmas qBlind r).numerator d index.perm alpha beta gamma := by
  refine hd.dvd_of_dvd hz ?_
  intro i hi hzi
  obtain ⟨h1, h2⟩ := h.rows (vos := vos) hd hH hs hlv hi
  rw [CircuitPolys.eval_numerator]
  refine aggregate_zero _ _ _ _ _ ?_ ?_ ?_
  · intro y hy
    obtain ⟨g, hgm, rfl⟩ := List.mem_map.1 hy
    exact hg.rows hd hH hs hi hzi g hgm
  · intro y hy
    obtain ⟨g, hgm, rfl⟩ := List.mem_map.1 hy
    exact h1 g hgm
  · intro l hl y hy
    obtain ⟨l', hl', rfl⟩ := List.mem_map.1 hl
    obtain ⟨g, hgm, rfl⟩ := List.mem_map.1 hy
    exact h2 l' hl' g hgm

end
end ZK
