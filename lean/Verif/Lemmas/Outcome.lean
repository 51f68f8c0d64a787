import Verif.Lemmas.Success
/-! What the rounds of the prover do for challenges with which they do not succeed. -/
set_option autoImplicit false
set_option linter.unusedSectionVars false
namespace ZK
open Polynomial

/-- The call does not return an error (it may panic). -/
def Res.NoErr {ε α : Type} (x : Res ε α) : Prop := ∀ e, x ≠ .err e

namespace Res.NoErr
variable {ε α β : Type}

theorem bind {x : Res ε α} {f : α → Res ε β} (h : x.NoErr) (hf : ∀ a, x = .ok a → (f a).NoErr) : (x >>= f).NoErr := by
  intro e he
  rcases Res.bind_eq_err.1 he with h1 | ⟨a, h1, h2⟩
  · exact h e h1
  · exact hf a h1 e h2

theorem ok (a : α) : (Res.ok a : Res ε α).NoErr := by intro e h; cases h

theorem panic : (Res.panic : Res ε α).NoErr := by intro e h; cases h

theorem idx (l : List α) (i : Nat) : (Res.idx l i : Res ε α).NoErr := by
  unfold Res.idx
  split
  · exact ok _
  · exact panic

theorem unwrap (o : Option α) : (Res.unwrap o : Res ε α).NoErr := by
  cases o
  · exact panic
  · exact ok _

theorem assert (b : Bool) : (Res.assert b : Res ε Unit).NoErr := by
  cases b
  · exact panic
  · exact ok _

theorem foldM {f : β → α → Res ε β} {l : List α} (h : ∀ b, ∀ a ∈ l, (f b a).NoErr) (b : β) : (Res.foldM f b l).NoErr := by
  induction l generalizing b with
  | nil => exact ok _
  | cons a l ih =>
    rw [Res.foldM_cons]
    exact bind (h b a (by simp)) (fun b' _ => ih (fun b a ha => h b a (by simp [ha])) b')

theorem mapM {f : α → Res ε β} {l : List α} (h : ∀ a ∈ l, (f a).NoErr) : (Res.mapM f l).NoErr := by
  induction l with
  | nil => exact ok _
  | cons a l ih =>
    rw [Res.mapM_cons]
    exact bind (h a (by simp)) (fun b _ => bind (ih (fun a ha => h a (by simp [ha]))) (fun _ _ => ok _))

theorem panic_of {x : Res ε α} (h : x.NoErr) (h' : ∀ a, x ≠ .ok a) : x = .panic := by
  cases x with
  | ok a => exact absurd rfl (h' a)
  | err e => exact absurd rfl (h e)
  | panic => rfl

end Res.NoErr

/-- A loop in which every step succeeds or returns an error of a certain kind. -/
theorem Res.foldM_ok_or {ε α β : Type} {f : β → α → Res ε β} (P : ε → Prop) {l : List α}
    (h : ∀ b, ∀ a ∈ l, (∃ b', f b a = .ok b') ∨ ∃ e, P e ∧ f b a = .err e) (b : β) :
    (∃ c, Res.foldM f b l = .ok c) ∨ ∃ e, P e ∧ Res.foldM f b l = .err e := by
  induction l generalizing b with
  | nil => exact .inl ⟨b, rfl⟩
  | cons a l ih =>
    rw [Res.foldM_cons]
    rcases h b a (by simp) with ⟨b', hb⟩ | ⟨e, he, hb⟩
    · rw [hb, Res.bind_ok]
      exact ih (fun b a ha => h b a (by simp [ha])) b'
    · rw [hb]
      exact .inr ⟨e, he, rfl⟩

theorem Res.mapM_ok_or {ε α β : Type} {f : α → Res ε β} (P : ε → Prop) {l : List α}
    (h : ∀ a ∈ l, (∃ b, f a = .ok b) ∨ ∃ e, P e ∧ f a = .err e) :
    (∃ c, Res.mapM f l = .ok c) ∨ ∃ e, P e ∧ Res.mapM f l = .err e := by
  induction l with
  | nil => exact .inl ⟨[], rfl⟩
  | cons a l ih =>
    rw [Res.mapM_cons]
    rcases h a (by simp) with ⟨b, hb⟩ | ⟨e, he, hb⟩
    · rw [hb, Res.bind_ok]
      rcases ih (fun a ha => h a (by simp [ha])) with ⟨c, hc⟩ | ⟨e, he, hc⟩
      · exact .inl ⟨b :: c, by rw [hc]; rfl⟩
      · exact .inr ⟨e, he, by rw [hc]; rfl⟩
    · rw [hb]
      exact .inr ⟨e, he, rfl⟩

section
variable {F : Type} [Field F]

/-! ### The grand products panic or succeed -/

theorem mulInv_noErr {ε : Type} [DecidableEq F] (a b : F) : (mulInv a b : Res ε F).NoErr := by
  unfold mulInv
  split
  · exact .panic
  · exact .ok _

theorem zRun_noErr {ε : Type} {factor : Nat → Res ε F} {rows : List Nat} (h : ∀ i ∈ rows, (factor i).NoErr) (z : F) :
    (zRun factor z rows).NoErr := by
  induction rows generalizing z with
  | nil => exact .ok _
  | cons i rows ih =>
    have h1 := h i (by simp)
    have h2 := fun z => ih (fun i hi => h i (by simp [hi])) z
    simp only [zRun]
    generalize factor i = x at h1
    cases x with
    | ok f =>
      have h3 := h2 (z * f)
      simp only
      generalize zRun factor (z * f) rows = y at h3
      cases y with
      | ok l => exact .ok _
      | err e => exact absurd rfl (h3 e)
      | panic => exact .panic
    | err e => exact absurd rfl (h1 e)
    | panic => exact .panic

theorem gpConstruct_noErr {ε Z : Type} [DecidableEq F] [FftParams F] (next : Z → F × Z) (idx : Nat) (isLast : Bool) (init : F)
    (sigmas ws : List (ProverOracle F)) (deltas : List F) (beta gamma : F) (u : Nat) (d ext : Domain F) (z : Z) :
    (gpConstruct next idx isLast init sigmas ws deltas beta gamma u d ext z : Res ε _).NoErr := by
  unfold gpConstruct
  refine .bind (zRun_noErr (fun i _ => ?_) _) (fun _ _ => .bind (.assert _) (fun _ _ => .bind (.assert _) (fun _ _ => .ok _)))
  unfold gpFactor
  exact .bind (.foldM (fun _ _ _ => .bind (.idx _ _) (fun _ _ => .bind (.idx _ _) (fun _ _ => .ok _))) _)
    (fun _ _ => mulInv_noErr _ _)

theorem chunksR_noErr {ε α : Type} (k : Nat) (l : List α) : (chunksR k l : Res ε _).NoErr := by
  unfold chunksR
  split
  · exact .panic
  · exact .ok _

theorem constructAggPolys_noErr {ε Z : Type} [DecidableEq F] [FftParams F] (p : PermutationArgument F) (next : Z → F × Z)
    (ws sigmas : List (ProverOracle F)) (beta gamma : F) (d ext : Domain F) (z : Z) :
    (p.constructAggPolys next ws sigmas beta gamma d ext z : Res ε _).NoErr := by
  unfold PermutationArgument.constructAggPolys
  refine .bind (.assert _) (fun _ _ => .bind (.assert _) (fun _ _ => .bind (chunksR_noErr _ _) (fun _ _ =>
    .bind (chunksR_noErr _ _) (fun _ _ => .bind (chunksR_noErr _ _) (fun _ _ => .bind (.foldM (fun _ _ _ => ?_) _) (fun _ _ =>
    .bind (.unwrap _) (fun _ _ => .bind (.idx _ _) (fun _ _ => .bind (.assert _) (fun _ _ => .ok _)))))))))
  unfold PermutationArgument.aggStep
  dsimp only
  split
  · exact .bind (.ok _) (fun _ _ => .bind (gpConstruct_noErr _ _ _ _ _ _ _ _ _ _ _ _ _) (fun _ _ => .ok _))
  · exact .bind (.idx _ _) (fun _ _ => .bind (.idx _ _) (fun _ _ =>
      .bind (gpConstruct_noErr _ _ _ _ _ _ _ _ _ _ _ _ _) (fun _ _ => .ok _)))

theorem permutationRound_noErr {S : Scheme F} {ε : Type} [DecidableEq F] [FftParams F] (index : Index F)
    (toCopy sigmas : List (ProverOracle F)) (d : Domain F) (beta gamma : F) (z : S.Z) :
    (permutationRound (S := S) index toCopy sigmas d beta gamma z : Res ε _).NoErr := by
  unfold permutationRound
  split
  · exact .ok _
  · exact constructAggPolys_noErr _ _ _ _ _ _ _ _ _

theorem subsetEqualityRound_noErr {S : Scheme F} {ε : Type} [DecidableEq F] [FftParams F] (index : Index F)
    (ls : List (LookupOracles (ProverOracle F))) (d : Domain F) (beta gamma : F) (z : S.Z) :
    (subsetEqualityRound (S := S) index ls d beta gamma z : Res ε _).NoErr := by
  unfold subsetEqualityRound
  refine .foldM (fun _ _ _ => .bind ?_ (fun _ _ => .ok _)) _
  unfold seConstruct
  refine .bind (zRun_noErr (fun i _ => ?_) _) (fun _ _ => .bind (.idx _ _) (fun _ _ => .bind (.assert _) (fun _ _ =>
    .bind (.assert _) (fun _ _ => .ok _))))
  unfold seFactor
  exact .bind (.idx _ _) (fun _ _ => .bind (.idx _ _) (fun _ _ => .bind (.idx _ _) (fun _ _ => .bind (.idx _ _) (fun _ _ =>
    mulInv_noErr _ _))))

end

/-! ### When they succeed no denominator vanishes -/

section
variable {F : Type} [Field F] [FftParams F] [LawfulFft F] [LinearOrder F] {S : Scheme F} {d : Domain F} {index : Index F}
  {v : ProverView F} {sigmas : List (ProverOracle F)} {qBlind : ProverOracle F} {vos : List (GenericVO F)} {theta beta gamma : F}
  (hd : d.Ok) (hH : AllHonest d index.ext v sigmas qBlind)
  (hs : SupportedShape d index v sigmas qBlind vos) (hp : Provable d index v sigmas qBlind vos)

omit [LawfulFft F] in
include hs in
/-- The permutation round succeeds only when no denominator vanishes. -/
theorem permutationRound_draw {ε : Type} {z z' : S.Z} {zs : List (ProverOracle F)}
    (h : permutationRound (S := S) (ε := ε) index (v.witness.filter (·.shouldPermute)) sigmas d beta gamma z = .ok (zs, z')) :
    (∀ c : Fin (v.witness.filter (·.shouldPermute)).length × Fin index.perm.usableRows,
      cell (v.witness.filter (·.shouldPermute)) c + beta * cell sigmas c + gamma ≠ 0) ∧
    (∀ o ∈ zs, ∃ i l init ratio, AggPoly d index.ext index.perm.usableRows i l init ratio o) := by
  unfold permutationRound at h
  split at h
  · rename_i h0
    obtain ⟨⟩ := Res.ok.inj h
    refine ⟨fun c => ?_, by simp⟩
    rw [h0] at c
    exact c.1.elim0
  · rename_i h0
    have hne : v.witness.filter (·.shouldPermute) ≠ [] := by
      intro h
      rw [h] at h0
      exact h0 rfl
    obtain ⟨h1, h2, h3, -, h4, h5, -⟩ := constructAggPolys_inv hne
      (fun o ho => (hs.columns o (by simp [(List.mem_filter.1 ho).1])).1.1) (fun o ho => (hs.columns o (by simp [ho])).1.1) h
    constructor
    · intro c
      have hk : c.1.val < (List.zip (List.zip (v.witness.filter (·.shouldPermute)) sigmas) index.perm.deltas).length := by
        have := c.1.2
        simp only [List.length_zip]
        omega
      have := h4 c.2 c.2.2 _ (List.getElem_mem hk)
      have hc := c.1.2
      simpa [cell, colVal, rowCol, PermCol.den, hc, show c.1.val < sigmas.length by omega] using this
    · intro o ho
      obtain ⟨i, hi⟩ := List.getElem?_of_mem ho
      have hlt := getElem?_some_lt hi
      exact ⟨_, _, _, _, h5.each i o _ hi (List.getElem?_eq_getElem (by rw [← h5.len]; exact hlt))⟩

include hd in
/-- The grand product of a lookup is constructed only when no denominator vanishes. -/
theorem seConstruct_draw {ε : Type} {k : Nat} {A T : F[X]} {l : LookupOracles (ProverOracle F)}
    (hl : LookupBuilt d index.ext index.usableRows k A T l) (hu : index.usableRows < d.size) {k' : Nat} {z z' : S.Z}
    {o : ProverOracle F}
    (h : (seConstruct S.next l beta gamma k' index.usableRows d index.ext z : Res ε _) = .ok (o, z')) :
    (∀ i < index.usableRows, A.eval (d.omega ^ i) + beta ≠ 0) ∧ ∀ i < index.usableRows, T.eval (d.omega ^ i) + gamma ≠ 0 := by
  unfold seConstruct at h
  simp only [Res.bind_eq_ok] at h
  obtain ⟨zs, hz, -⟩ := h
  have hfac := zRun_inv hz
  have ha' : ∀ i < index.usableRows, l.aPrime.evals[i]? = some ((toPoly l.aPrime.poly).eval (d.omega ^ i)) :=
    fun i hi => hl.aPrimeHonest.1.2 i (by omega)
  have hs' : ∀ i < index.usableRows, l.sPrime.evals[i]? = some ((toPoly l.sPrime.poly).eval (d.omega ^ i)) :=
    fun i hi => hl.sPrimeHonest.1.2 i (by omega)
  have pa := prod_perm_add hl.aPerm beta _ ha'
  have ps := prod_perm_add hl.sPerm gamma _ hs'
  have hne : ∀ i < index.usableRows, (toPoly l.aPrime.poly).eval (d.omega ^ i) + beta ≠ 0 ∧
      (toPoly l.sPrime.poly).eval (d.omega ^ i) + gamma ≠ 0 := by
    intro i hi
    obtain ⟨f, hf⟩ := hfac i (List.mem_range.2 hi)
    unfold seFactor at hf
    simp only [Res.bind_eq_ok, Res.idx_eq_ok, ha' i hi, hs' i hi, Option.some.injEq, exists_eq_left', mulInv] at hf
    obtain ⟨_, _, _, _, hf⟩ := hf
    split at hf
    · simp at hf
    · rename_i h0
      exact mul_ne_zero_iff.1 h0
  constructor
  · intro i hi h0
    have : ((List.range index.usableRows).map (fun i => A.eval (d.omega ^ i) + beta)).prod = 0 :=
      List.prod_eq_zero_iff.2 (List.mem_map.2 ⟨i, List.mem_range.2 hi, h0⟩)
    rw [← pa, List.prod_eq_zero_iff] at this
    obtain ⟨j, hj, hz⟩ := List.mem_map.1 this
    exact (hne j (List.mem_range.1 hj)).1 hz
  · intro i hi h0
    have : ((List.range index.usableRows).map (fun i => T.eval (d.omega ^ i) + gamma)).prod = 0 :=
      List.prod_eq_zero_iff.2 (List.mem_map.2 ⟨i, List.mem_range.2 hi, h0⟩)
    rw [← ps, List.prod_eq_zero_iff] at this
    obtain ⟨j, hj, hz⟩ := List.mem_map.1 this
    exact (hne j (List.mem_range.1 hj)).2 hz

omit [FftParams F] [LawfulFft F] [LinearOrder F] [Field F] in
theorem Res.foldM_step {ε α β : Type} {f : β → α → Res ε β} {l : List α} {b c : β} (h : Res.foldM f b l = .ok c) :
    ∀ a ∈ l, ∃ b1 b2, f b1 a = .ok b2 := by
  induction l generalizing b with
  | nil => simp
  | cons x l ih =>
    obtain ⟨b', h1, h2⟩ := Res.foldM_eq_ok_cons.1 h
    intro a ha
    rcases List.mem_cons.1 ha with rfl | ha
    · exact ⟨b, b', h1⟩
    · exact ih h2 a ha

include hd hH hs hp in
/-- The round of the grand products of the lookups succeeds only when no denominator vanishes. -/
theorem subsetEqualityRound_draw {ε : Type} {ls : List (LookupOracles (ProverOracle F))}
    (hls : List.Forall₂ (fun (p : GenericLookupVO F × Nat) l => LookupFor d index v theta p.2 p.1 l) index.lookups.zipIdx ls)
    {z z' : S.Z} {zs : List (ProverOracle F)}
    (h : subsetEqualityRound (S := S) (ε := ε) index ls d beta gamma z = .ok (zs, z')) :
    ∀ l ∈ index.lookups, ∀ es ts, l.getExpressions = .ok es → l.getTableQueries = .ok ts →
      ∀ i < index.usableRows, ∀ vals, (InputRow d.size v es i vals → compress theta vals + beta ≠ 0) ∧
        (TableRow v ts i vals → compress theta vals + gamma ≠ 0) := by
  intro vo hvo es ts h1 h2 i hi vals
  obtain ⟨j, hj⟩ := List.getElem?_of_mem hvo
  have hj' : index.lookups.zipIdx[j]? = some (vo, j) := by rw [List.getElem?_zipIdx, hj]; simp
  obtain ⟨l, hl, ⟨es', ts', h1', h2', h3⟩⟩ := Forall₂.left hls hj'
  obtain rfl := Res.ok.inj (h1.symm.trans h1')
  obtain rfl := Res.ok.inj (h2.symm.trans h2')
  have hus := hs.unusable (List.ne_nil_of_mem hvo)
  obtain ⟨es', ts', h1', h2', h4, h5⟩ := hs.lookups vo hvo
  obtain rfl := Res.ok.inj (h1.symm.trans h1')
  obtain rfl := Res.ok.inj (h2.symm.trans h2')
  unfold subsetEqualityRound at h
  obtain ⟨b1, b2, h6⟩ := Res.foldM_step h (l, j) (List.mem_of_getElem? (i := j) (by rw [List.getElem?_zipIdx, hl]; simp))
  obtain ⟨⟨o, z1⟩, h6, -⟩ := Res.bind_eq_ok.1 h6
  obtain ⟨hA, hT⟩ := seConstruct_draw (S := S) hd h3 (by omega) h6
  constructor
  · intro hin
    have := hin.unique (hH.inputRow hd (fun e hee q hq => ((h4 e hee).1 q hq).1) i)
    have h7 := hA i hi
    rw [eval_compress, List.map_map] at h7
    rw [this]
    exact h7
  · intro htab
    have h8 := hH.tableRow (ts := ts) (fun t ht => by
          obtain ⟨-, o, ho, -⟩ := h5 t ht
          exact ⟨o, ho⟩) (i := i) (by omega)
    have h7 := hT i hi
    rw [eval_compress, List.map_map] at h7
    have := htab.unique h8
    rw [this]
    exact h7

omit [FftParams F] [LawfulFft F] [LinearOrder F] [Field F] in
theorem Res.bind_panic_of {ε α β : Type} {x : Res ε α} {f : α → Res ε β} (hx : x.NoErr) (h : ∀ a, x = .ok a → f a = .panic) :
    (x >>= f) = .panic := by
  cases x with
  | ok a => exact h a rfl
  | err e => exact absurd rfl (hx e)
  | panic => rfl

omit [FftParams F] [LawfulFft F] [LinearOrder F] [Field F] in
theorem Res.NoErr.mapErr_ok {ε ε' α : Type} {x : Res ε α} {a : α} {f : ε → ε'} (h : x = .ok a) : (x.mapErr f).NoErr := by
  rw [h]
  exact .ok a

section
variable (he : index.ext.Ok) (hle : d.size ≤ index.ext.size)

include hd he hle hH hs hp in
/-- A lookup that is provable is built, if its compressed inputs are in the compressed table, and panics otherwise. -/
theorem lookupConstruct_either {vo : GenericLookupVO F} (hvo : vo ∈ index.lookups) {es : List (Expr F)} {ts : List OracleQuery}
    (h1 : vo.getExpressions = .ok es) (h2 : vo.getTableQueries = .ok ts) (k : Nat) (z : S.Z) :
    (∃ r, lookupConstruct S.next v index.usableRows k es ts theta d index.ext z = .ok r ∧
      ∀ i < index.usableRows, ∃ j < index.usableRows, ∃ a s,
        InputRow d.size v es i a ∧ TableRow v ts j s ∧ compress theta a = compress theta s) ∨
    lookupConstruct S.next v index.usableRows k es ts theta d index.ext z = .panic := by
  obtain ⟨es', ts', h1', h2', h3, h4⟩ := hs.lookups vo hvo
  obtain rfl := Res.ok.inj (h1.symm.trans h1')
  obtain rfl := Res.ok.inj (h2.symm.trans h2')
  obtain ⟨hlen, haff⟩ := hp.lookups vo hvo es ts h1 h2
  have hus := hs.unusable (List.ne_nil_of_mem hvo)
  have hP : ∀ e ∈ es, QueryPolys d index.ext v e.queries (v.polyOf d) :=
    fun e hee => hH.queryPolys (fun q hq => ((h3 e hee).1 q hq).1)
  have hT : TablePolys d index.ext v ts v.tablePolyOf := by
    refine tablePolys_tablePolyOf hH.table ?_
    intro t ht
    obtain ⟨h8, o, h9, -⟩ := h4 t ht
    exact ⟨h8, by rw [findOracle_eq_some.2 h9]; rfl⟩
  have hAdeg : (compress (C theta) (es.map (Expr.denote C (v.polyOf d)))).degree < d.size := by
    refine natDegree_lt_degree hd.size_pos (natDegree_compress_le _ _ _ ?_)
    intro p hpm
    obtain ⟨e, hee, rfl⟩ := List.mem_map.1 hpm
    obtain ⟨k, hk1, hk⟩ := haff e hee
    obtain ⟨k', hk', hle'⟩ := degree_const_eq e (d.size - 1) k hk
    refine ((hP e hee).natDegree_denote hk').trans (hle'.trans ?_)
    calc k * (d.size - 1) ≤ 1 * (d.size - 1) := Nat.mul_le_mul_right _ hk1
      _ = _ := Nat.one_mul _
  obtain ⟨-, h5⟩ := lookupConstruct_outcome S.next v index.usableRows k es ts theta z hd he hle hlen (by omega) (v.polyOf d)
    v.tablePolyOf hP hT (hAdeg.trans_le (by exact_mod_cast hle))
  obtain ⟨h6, h7⟩ := h5 hAdeg
  by_cases hall : ∀ i < index.usableRows, ∃ j < index.usableRows,
      (compress (C theta) (es.map (Expr.denote C (v.polyOf d)))).eval (d.omega ^ i)
        = (compress (C theta) (ts.map v.tablePolyOf)).eval (d.omega ^ j)
  · obtain ⟨l, h8, -⟩ := h6 hall
    refine .inl ⟨_, h8, fun i hi => ?_⟩
    obtain ⟨j, hj, h9⟩ := hall i hi
    rw [eval_compress, eval_compress, List.map_map, List.map_map] at h9
    exact ⟨j, hj, _, _, hH.inputRow hd (fun e hee q hq => ((h3 e hee).1 q hq).1) i,
      hH.tableRow (fun t ht => ⟨_, (h4 t ht).2.choose_spec.1⟩) (by omega : j < d.size), h9⟩
  · exact .inr (h7 hall)

include hd he hle hH hs hp in
/-- The lookup round panics when a compressed lookup fails. -/
theorem lookupRound_panics (hl : ¬ CompressedLookups d.size index.usableRows v index.lookups theta) (z : S.Z) :
    lookupRound (S := S) v index d theta z = .panic := by
  refine Res.NoErr.panic_of ?_ ?_
  · refine .foldM ?_ _
    intro acc p hpm
    obtain ⟨es, ts, h1, h2, -⟩ := hs.lookups p.1 (List.fst_mem_of_mem_zipIdx hpm)
    refine .bind (.mapErr_ok h1) (fun es' he' => .bind (.mapErr_ok h2) (fun ts' ht' => .bind ?_ (fun _ _ => .ok _)))
    rcases lookupConstruct_either (S := S) (theta := theta) hd hH hs hp he hle (List.fst_mem_of_mem_zipIdx hpm)
      (Res.mapErr_eq_ok.1 he') (Res.mapErr_eq_ok.1 ht') p.2 acc.2 with ⟨r, h, -⟩ | h <;> rw [h]
    · exact .ok _
    · exact .panic
  · intro r hr
    refine hl ?_
    intro l hlm es ts h1 h2
    obtain ⟨k, hk⟩ := List.getElem?_of_mem hlm
    obtain ⟨acc, c, hstep⟩ := Res.foldM_mem hr (List.mem_zipIdx_iff_getElem?.2 hk : (l, k) ∈ index.lookups.zipIdx)
    simp only [h1, h2, Res.mapErr_ok, Res.bind_ok] at hstep
    obtain ⟨r', hr', -⟩ := Res.bind_eq_ok.1 hstep
    rcases lookupConstruct_either (S := S) (theta := theta) hd hH hs hp he hle hlm h1 h2 k acc.2 with ⟨r, -, h⟩ | h
    · exact h
    · rw [h] at hr'
      cases hr'

end

/-- When the first messages are exchanged the compressed lookups hold. -/
theorem FirstMessages.compressed {pk : ProverKey S} {ws is fixed table : List (ProverOracle F)} (hd : d.Ok)
    (he : pk.vk.index.ext.Ok) (hle : d.size ≤ pk.vk.index.ext.size)
    (hs : SupportedShape d pk.vk.index ⟨ws, is, fixed, table⟩ sigmas qBlind vos)
    (hp : Provable d pk.vk.index ⟨ws, is, fixed, table⟩ sigmas qBlind vos) {z : S.Z}
    (hf : FirstMessages S pk ⟨ws, is, fixed, table⟩ d z theta beta gamma) :
    CompressedLookups d.size pk.vk.index.usableRows ⟨ws, is, fixed, table⟩ pk.vk.index.lookups theta := by
  obtain ⟨wc, z1, ls, z2, lc, z3, c1, r1, -⟩ := hf
  by_contra hl
  have := lookupRound_panics (S := S) hd (hs.allHonest pk.vk.index.ext) (hs.extend _) (hp.extend _) he hle
    (fun h => hl h.of_extend) z1
  rw [this] at r1
  cases r1

/-- The prover panics when a compressed lookup fails. -/
theorem proveRounds_panics_lookup {pk : ProverKey S} {ws is fixed table : List (ProverOracle F)} (hd : d.Ok)
    (he : pk.vk.index.ext.Ok) (hle : d.size ≤ pk.vk.index.ext.size)
    (hs : SupportedShape d pk.vk.index ⟨ws, is, fixed, table⟩ sigmas qBlind vos)
    (hp : Provable d pk.vk.index ⟨ws, is, fixed, table⟩ sigmas qBlind vos) {z : S.Z}
    (hf : FirstAnswer S pk ⟨ws, is, fixed, table⟩ z theta)
    (hl : ¬ CompressedLookups d.size pk.vk.index.usableRows ⟨ws, is, fixed, table⟩ pk.vk.index.lookups theta) :
    proveRounds S pk (.new S fixed sigmas table qBlind pk.vk.index) ws is vos d.size z = .panic := by
  obtain ⟨wc, z1, c1, rfl⟩ := hf
  have := lookupRound_panics (S := S) hd (hs.allHonest pk.vk.index.ext) (hs.extend _) (hp.extend _) he hle
    (fun h => hl h.of_extend) z1
  refine Res.bind_eq_panic.2 (.inr ⟨(wc, z1), Res.mapErr_eq_ok.2 c1, ?_⟩)
  refine Res.bind_eq_panic.2 (.inr ⟨d, Res.unwrap_eq_ok.2 hd.new_self, ?_⟩)
  refine Res.bind_eq_panic.2 (.inl ?_)
  exact congrArg (Res.mapErr Err.iop) this

/-- The prover panics when a denominator vanishes or the products differ. -/
theorem proveRounds_panics {pk : ProverKey S} {ws is fixed table : List (ProverOracle F)} (hd : d.Ok)
    (he : pk.vk.index.ext.Ok) (hle : d.size ≤ pk.vk.index.ext.size)
    (hs : SupportedShape d pk.vk.index ⟨ws, is, fixed, table⟩ sigmas qBlind vos)
    (hp : Provable d pk.vk.index ⟨ws, is, fixed, table⟩ sigmas qBlind vos)
    (hn : SupportsDegree S pk.ck d.size) {z : S.Z}
    (hf : FirstMessages S pk ⟨ws, is, fixed, table⟩ d z theta beta gamma)
    (hbad : ¬ (GoodDraw d pk.vk.index ⟨ws, is, fixed, table⟩ sigmas theta beta gamma ∧
      EqualProducts d pk.vk.index ⟨ws, is, fixed, table⟩ sigmas beta gamma)) :
    proveRounds S pk (.new S fixed sigmas table qBlind pk.vk.index) ws is vos d.size z = .panic := by
  have hl := hf.compressed hd he hle hs hp
  obtain ⟨wc, z1, ls, z2, lc, z3, c1, r1, c2, e1, e2, e3⟩ := hf
  set v : ProverView F := ⟨ws, is, fixed, table⟩ with hv
  set ext := pk.vk.index.ext with hext
  have hH := hs.allHonest ext
  have hs' := hs.extend ext
  have hp' := hp.extend ext
  have hl' := hl.extend ext
  obtain ⟨ls', z2', r1', hls⟩ := lookupRound_succeeds_at (S := S) hd he hle hH hs' hp' hl' z1
  obtain ⟨rfl, rfl⟩ := Prod.mk.inj (Res.ok.inj (r1.symm.trans r1'))
  have key : ∀ zs z4, permutationRound (S := S) (ε := Err S.E) pk.vk.index
      ((ws.map (·.computeExtended ext)).filter (·.shouldPermute)) (sigmas.map (·.computeExtended ext)) d beta gamma z3
        = .ok (zs, z4) → (∀ o ∈ zs, o.poly.length ≤ d.size) ∧
      ∀ z5 lzs z6, subsetEqualityRound (S := S) (ε := Err S.E) pk.vk.index ls d beta gamma z5 ≠ .ok (lzs, z6) := by
    intro zs z4 r2
    obtain ⟨h1, h2⟩ := permutationRound_draw (S := S) hs' r2
    refine ⟨?_, ?_⟩
    · intro o ho
      obtain ⟨_, _, _, _, h3⟩ := h2 o ho
      exact (h3.honest hd).2.1
    · intro z5 lzs z6 r3
      have h3 := subsetEqualityRound_draw (S := S) hd hH hs' hp' hls r3
      refine hbad ⟨⟨?_, fun l hlm es ts g1 g2 i hi vals => ⟨fun g => (h3 l hlm es ts g1 g2 i hi vals).1 (g.extend ext),
        fun g => (h3 l hlm es ts g1 g2 i hi vals).2 (g.extend ext)⟩⟩, ?_⟩
      swap
      · refine (EqualProducts.iff_extend ext).1 ?_
        by_contra hne
        cases r2.symm.trans ((permutationRound_outcome (S := S) hs' hp' h1 z3).2 hne)
      have hlen : ((v.extend ext).witness.filter (·.shouldPermute)).length = (v.witness.filter (·.shouldPermute)).length := by
        show (List.filter _ (ws.map _)).length = _
        rw [filter_extend, List.length_map]
      intro c
      have h4 := h1 (⟨c.1.1, by rw [hlen]; exact c.1.2⟩, c.2)
      unfold cell at h4 ⊢
      have h5 : ∀ k r, colVal ((v.extend ext).witness.filter (·.shouldPermute)) k r = colVal (v.witness.filter (·.shouldPermute)) k r := by
        intro k r
        show colVal (List.filter _ (ws.map _)) _ _ = _
        rw [filter_extend, colVal_extend]
      rw [h5, colVal_extend] at h4
      exact h4
  subst e1 e2 e3
  refine Res.bind_eq_panic.2 (.inr ⟨(wc, z1), Res.mapErr_eq_ok.2 c1, ?_⟩)
  refine Res.bind_eq_panic.2 (.inr ⟨d, Res.unwrap_eq_ok.2 hd.new_self, ?_⟩)
  refine Res.bind_eq_panic.2 (.inr ⟨(ls, z2), Res.mapErr_eq_ok.2 r1, ?_⟩)
  refine Res.bind_eq_panic.2 (.inr ⟨(lc, z3), Res.mapErr_eq_ok.2 c2, ?_⟩)
  refine Res.bind_panic_of (permutationRound_noErr _ _ _ _ _ _ _) ?_
  rintro ⟨zs, z4⟩ r2
  obtain ⟨h3, h4⟩ := key zs z4 r2
  obtain ⟨⟨zc, z5⟩, c3⟩ := hn.commit (zs.map (·.toLabeled)) z4 (by
    intro p hpm
    obtain ⟨o, ho, rfl⟩ := List.mem_map.1 hpm
    exact h3 o ho)
  refine Res.bind_eq_panic.2 (.inr ⟨(zc, z5), Res.mapErr_eq_ok.2 c3, ?_⟩)
  refine Res.bind_panic_of (subsetEqualityRound_noErr _ _ _ _ _ _) ?_
  rintro ⟨lzs, z6⟩ r3
  exact absurd r3 (h4 _ _ _)

end

/-! ### The multi-opening -/

section
variable {F : Type} [Field F] [FftParams F] [LawfulFft F] [LinearOrder F] {S : Scheme F} {d : Domain F}

/-- The prover of the multi-opening returns an error when two rotations give the same point. -/
theorem mpProve_err (hd : d.Ok) {ck : S.CK} {os : List (ProverOracle F)} {rands : List S.Rand} (hlen : os.length = rands.length)
    {xi : F} (hrot : ∀ o ∈ os, ∀ r ∈ o.rotations, r.degree < d.size)
    (hdup : ∃ o ∈ os, ¬ (o.rotations.map (fun r => xi * d.omega ^ r.signed)).Nodup) (t : S.T) (z : S.Z) :
    ∃ r, mpProve S ck os rands xi d.size t z = .err (.piop (.repeatedRotation r)) := by
  have hpart := (C39_partition (fun (o : OracleRand S) => o.1.rotations) (List.zip os rands))
  obtain ⟨x1, hx1⟩ : ∃ x, x = (S.fsRand t).1 := ⟨_, rfl⟩
  obtain ⟨x2, hx2⟩ : ∃ x, x = (S.fsRand (S.fsRand t).2).1 := ⟨_, rfl⟩
  have hsets := Res.mapM_ok_or (f := mpProverSet (S := S) (powersFrom 1 x1 os.length) xi d.elements)
    (l := openingSets (fun (o : OracleRand S) => o.1.rotations) (List.zip os rands))
    (fun e => ∃ r, e = PiopErr.repeatedRotation r) (by
      intro s hs
      obtain ⟨h1, h2⟩ := hpart.2.1 s hs
      have hl : s.2.length ≤ os.length := by
        rw [h1]
        refine le_trans (List.length_filter_le _ _) ?_
        rw [List.length_zip]; omega
      have hr : ∀ r ∈ s.1, r.degree < d.size := by
        obtain ⟨o, ho⟩ := List.exists_mem_of_ne_nil _ h2
        rw [h1] at ho
        obtain ⟨ho1, ho2⟩ := List.mem_filter.1 ho
        have ho2 : o.1.rotations = s.1 := by simpa using ho2
        rw [← ho2]
        exact hrot o.1 (List.of_mem_zip (a := o.1) (b := o.2) ho1).1
      have hidx : ∀ {ε α : Type} {l : List α} {a : α × Nat}, l.length ≤ os.length → a ∈ l.zipIdx →
          Res.idx (ε := ε) (powersFrom 1 x1 os.length) a.2 = .ok (1 * x1 ^ a.2) := by
        intro ε α l a hl ha
        exact powersFrom_idx _ _ _ _ (lt_of_lt_of_le (snd_lt_of_mem_zipIdx ha) hl)
      obtain ⟨q, hq⟩ := Res.foldM_ok_of (f := fun (acc : List F × S.Rand) (o : OracleRand S × Nat) => (do
          let x ← Res.idx (ε := PiopErr) (powersFrom 1 x1 os.length) o.2
          pure (dadd acc.1 (dscale x o.1.1.poly), S.addRand acc.2 (S.scaleRand o.1.2 x)) : Res PiopErr _))
        (l := s.2.zipIdx) (by
          intro b a ha
          exact ⟨_, by rw [hidx hl ha]; rfl⟩) ([], S.emptyRand)
      have hag : ∀ p, ∃ y, aggQuery (fun (o : OracleRand S) p => .ok (o.1.query p)) (powersFrom 1 x1 os.length) s.2 p = .ok y := by
        intro p
        unfold aggQuery
        refine Res.foldM_ok_of ?_ _
        intro b a ha
        exact ⟨_, by rw [hidx hl ha]; rfl⟩
      have hev := Res.foldM_ok_or (f := fun (m : List (F × F)) (r : Rotation) => (do
          let p ← r.point xi d.elements
          let v ← aggQuery (fun (o : OracleRand S) p => .ok (o.1.query p)) (powersFrom 1 x1 os.length) s.2 p
          match mapInsert p v m with
          | (m', none) => .ok m'
          | (_, some _) => .err (.repeatedRotation r) : Res PiopErr (List (F × F)))) (l := s.1)
        (fun e => ∃ r, e = PiopErr.repeatedRotation r) (by
          intro b r hrm
          rw [Rotation.point_ok hd r xi (hr r hrm)]
          obtain ⟨y, hy⟩ := hag (xi * d.omega ^ r.signed)
          simp only [Res.bind_ok, hy]
          split
          · exact .inl ⟨_, rfl⟩
          · exact .inr ⟨_, ⟨r, rfl⟩, rfl⟩) []
      rcases hev with ⟨es, hev⟩ | ⟨e, he, hev⟩
      · exact .inl ⟨(q, es), Res.bind_eq_ok.2 ⟨q, hq, Res.bind_eq_ok.2 ⟨es, hev, rfl⟩⟩⟩
      · exact .inr ⟨e, he, Res.bind_eq_err.2 (.inr ⟨q, hq, Res.bind_eq_err.2 (.inl hev)⟩)⟩)
  rcases hsets with ⟨qes, hq⟩ | ⟨e, ⟨r, rfl⟩, hq⟩
  · exfalso
    obtain ⟨o, ho, h2⟩ := hdup
    obtain ⟨i, hi, rfl⟩ := List.getElem_of_mem ho
    have hz : (os[i], rands[i]'(by omega)) ∈ List.zip os rands := by
      rw [← List.getElem_zip (h := by simp; omega)]
      exact List.getElem_mem _
    obtain ⟨s, ⟨hs, hos⟩, -⟩ := hpart.2.2.2 _ hz
    obtain ⟨j, hj, hsj⟩ := List.getElem_of_mem hs
    have h3 := Res.mapM_getElem hq j (by rw [← Res.mapM_length hq] at hj; omega)
    rw [hsj] at h3
    unfold mpProverSet at h3
    simp only [Res.bind_eq_ok] at h3
    obtain ⟨_, -, es, h4, -⟩ := h3
    have h5 := ((evalSet_iff hd (by simp)).1 h4).2.1
    rw [(hpart.2.1 s hs).1] at hos
    have h6 : os[i].rotations = s.1 := by simpa using (List.mem_filter.1 hos).2
    rw [h6] at h2
    exact h2 h5
  · refine ⟨r, ?_⟩
    have h3 : mpFirstRound (S := S) (openingSets (fun (o : OracleRand S) => o.1.rotations) (List.zip os rands)) os.length d
        xi x1 x2 = .err (.repeatedRotation r) := Res.bind_eq_err.2 (.inl hq)
    rw [hx1, hx2] at h3
    unfold mpProve
    simp only [hd.new_self, Res.unwrap_some, Res.bind_ok, h3]
    rfl

omit [FftParams F] [LawfulFft F] in
theorem fEval_noErr {ε : Type} (x3 : F) (es : List (F × F)) (qe : F) : (fEval x3 es qe : Res ε F).NoErr := by
  unfold fEval
  refine .bind ?_ (fun _ _ => mulInv_noErr _ _)
  unfold lagrangeBasis
  refine .mapM (fun p _ => ?_)
  unfold lagrangeOne
  refine .foldM (fun b a _ => ?_) _
  split
  · exact .ok _
  · split
    · exact .panic
    · exact .ok _

omit [FftParams F] [LawfulFft F] [LinearOrder F] [Field F] in
theorem zipEvalM_noErr {ε α β γ δ : Type} {f : α → Res ε β} {g : β → γ → Res ε δ} {as : List α} {cs : List γ}
    (hf : ∀ a ∈ as, (f a).NoErr) (hg : ∀ b c, (g b c).NoErr) : (zipEvalM f g as cs).NoErr := by
  induction as generalizing cs with
  | nil => exact .ok _
  | cons a as ih =>
    cases cs with
    | nil =>
      rw [zipEvalM]
      split
      · exact .panic
      · exact .ok _
    | cons c cs =>
      rw [zipEvalM]
      exact .bind (hf a (by simp)) (fun b _ => .bind (hg b c) (fun _ _ => .bind (ih (fun a ha => hf a (by simp [ha]))) (fun _ _ => .ok _)))

/-- The verifier of the multi-opening panics when `x3` is a point at which an honest proof is opened. -/
theorem mpVerify_panics {ck : S.CK} {vk : S.VK} {com : F[X] → S.Rand → S.Comm} (hS : HomomorphicScheme S ck vk com)
    (hd : d.Ok) (os : List (ProverOracle F)) (rands : List S.Rand)
    (vs : List (VerifierOracle F S.Comm)) (xi : F) (t : S.T) (proof : MpProof S)
    (hlen : os.length = rands.length) (hc : List.Forall₂ (OpeningPair S com d xi) (List.zip os rands) vs)
    (hp : OpenedWith S ck os rands xi d (mpChallenges S proof t).1 (mpChallenges S proof t).2.1
      (mpChallenges S proof t).2.2.1 (mpChallenges S proof t).2.2.2 proof)
    (hx3 : ∃ o ∈ os, ∃ r ∈ o.rotations, (mpChallenges S proof t).2.2.1 = xi * d.omega ^ r.signed) :
    mpVerify S vk proof vs xi d.size t = .panic := by
  obtain ⟨qs, f, fc, z0, z1, fr, fin, h1, h2, h3, h4, h5, fc', h6, h7⟩ := hp.run
  unfold mpVerify
  rw [hd.new_self]
  simp only [Res.unwrap_some, Res.bind_ok]
  revert hx3 h1 h4 h5 h7
  generalize mpChallenges S proof t = x
  obtain ⟨x1, x2, x3, x4⟩ := x
  intro hx3 h1 h4 h5 h7
  simp only at *
  unfold mpFirstRound at h1
  simp only [Res.bind_eq_ok] at h1
  obtain ⟨qes, hqes, fs, hfs, f', hf', he⟩ := h1
  obtain ⟨he1, he2⟩ := Prod.mk.inj (Res.ok.inj he)
  subst he2
  have hzl : (List.zip os rands).length = os.length := by rw [List.length_zip, hlen, min_self]
  have hvl : vs.length = os.length := by rw [← hc.length_eq, hzl]
  have hagree := C39_agree (fun (o : OracleRand S) => o.1.rotations) (fun (o : VerifierOracle F S.Comm) => o.rotations)
    (OpeningPair S com d xi) (fun _ _ h => h.rotations) _ _ hc
  have hpart := (C39_partition (fun (o : OracleRand S) => o.1.rotations) (List.zip os rands)).2.1
  have hset : ∀ s ∈ openingSets (fun (o : OracleRand S) => o.1.rotations) (List.zip os rands), ∀ o ∈ s.2, o.1.rotations = s.1 := by
    intro s hs o ho
    rw [(hpart s hs).1] at ho
    simpa using (List.mem_filter.1 ho).2
  -- every set of the verifier is computed
  have hok : ∀ s ∈ openingSets (fun (o : VerifierOracle F S.Comm) => o.rotations) vs, ∃ q,
      mpVerifierSet (S := S) (powersFrom 1 x1 vs.length) xi d.elements s = .ok q := by
    intro s hs
    obtain ⟨i, hi⟩ := List.getElem?_of_mem hs
    obtain ⟨s', hs', he, hpair⟩ := Forall₂.right hagree hi
    have hi' := getElem?_some_lt hs'
    rw [List.getElem?_eq_getElem hi'] at hs'
    have hq := Res.mapM_getElem hqes i hi'
    rw [Option.some.inj hs'] at hq
    obtain ⟨rs, ov⟩ := s
    simp only at he hpair
    subst he
    refine ⟨_, by
      rw [hvl]
      exact openSet_commitment hS hd hpair (hset s' (by rw [← Option.some.inj hs']; exact List.getElem_mem hi')) (q := _) (es := _) hq⟩
  have hql : proof.qEvals.length = (openingSets (fun (o : VerifierOracle F S.Comm) => o.rotations) vs).length := by
    rw [h4, List.length_map, ← he1, List.length_map, Res.mapM_length hqes, hagree.length_eq]
  have hz : zipEvalM (mpVerifierSet (S := S) (powersFrom 1 x1 vs.length) xi d.elements)
      (fun q qe => fEval (ε := PiopErr) x3 q.2 qe) (openingSets (fun (o : VerifierOracle F S.Comm) => o.rotations) vs) proof.qEvals
      = .panic := by
    refine Res.NoErr.panic_of (zipEvalM_noErr ?_ (fun _ _ => fEval_noErr _ _ _)) ?_
    · intro s hs
      obtain ⟨q, hq⟩ := hok s hs
      rw [hq]
      exact .ok _
    · intro ds hds
      obtain ⟨-, bs, hb1, hb2⟩ := zipEvalM_iff.1 hds
      rw [hql, List.take_length] at hb1
      have hx := x3_of_fEvals hd proof.qEvals vs xi x1 x3 (le_of_eq hql.symm) hb1 hb2
      obtain ⟨o, ho, r, hr, hxe⟩ := hx3
      obtain ⟨i, hi, rfl⟩ := List.getElem_of_mem ho
      have hzi : (List.zip os rands)[i]? = some (os[i], rands[i]'(by omega)) := by
        rw [List.getElem?_eq_getElem (by omega), List.getElem_zip]
      obtain ⟨v, hv, hpair⟩ := Forall₂.left hc hzi
      refine hx v (List.mem_of_getElem? hv) r ?_ hxe
      have := hpair.rotations
      simp only at this
      rw [this]
      exact hr
  exact Res.bind_eq_panic.2 (.inl (by rw [hz]; rfl))

end
end ZK
