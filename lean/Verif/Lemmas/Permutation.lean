import Mathlib.Tactic.LinearCombination
import Verif.Lemmas.Constraints
/-! The outcome of building the permutation grand products. -/
set_option autoImplicit false
namespace ZK

theorem Res.foldM_map {ε α β γ : Type} (f : β → γ → Res ε β) (g : α → γ) (b : β) (l : List α) :
    Res.foldM f b (l.map g) = Res.foldM (fun b a => f b (g a)) b l := by
  induction l generalizing b with
  | nil => rfl
  | cons a l ih => rw [List.map_cons, Res.foldM_cons, Res.foldM_cons]; congr 1; funext b'; exact ih b'

open PermutationArgument
section
variable {F : Type} [Field F] {ε Z : Type}

omit [Field F] in
theorem drawN_length (next : Z → F × Z) (t : Nat) (z : Z) : (drawN next t z).1.length = t := by
  induction t generalizing z with
  | zero => rfl
  | succ t ih => simp [drawN, ih]

/-- The accumulation loop multiplies the factors up. -/
theorem zRun_ok {factor : Nat → Res ε F} {f : Nat → F} (z : F) (rows : List Nat)
    (h : ∀ i ∈ rows, factor i = .ok (f i)) :
    zRun factor z rows = .ok ((List.range (rows.length + 1)).map
      (fun i => z * ((rows.take i).map f).prod)) := by
  induction rows generalizing z with
  | nil => simp [zRun]
  | cons i is ih =>
    simp only [zRun, h i (by simp)]
    rw [ih (z * f i) (fun j hj => h j (by simp [hj])), Res.map1_ok]
    congr 1
    rw [List.length_cons, List.range_succ_eq_map (n := is.length + 1), List.map_cons, List.map_map]
    congr 1
    · simp
    · apply List.map_congr_left
      intro k _
      simp [mul_assoc]

/-- A column of the permutation argument at a row. -/
def rowCol (d : Domain F) (i : Nat) (t : (ProverOracle F × ProverOracle F) × F) : PermCol F :=
  ⟨t.1.1.evals.getD i 0, t.1.2.evals.getD i 0, t.2 * d.element i⟩

/-- Numerator over denominator of a chunk of columns at a row. -/
def chunkRatio (beta gamma : F) (d : Domain F) (c : List ((ProverOracle F × ProverOracle F) × F))
    (i : Nat) : F :=
  (c.map (fun t => (rowCol d i t).num beta gamma)).prod *
    ((c.map (fun t => (rowCol d i t).den beta gamma)).prod)⁻¹

variable [DecidableEq F]

theorem gpFactor_ok (ws sigmas : List (ProverOracle F)) (deltas : List F) (beta gamma : F)
    (d : Domain F) (i : Nat) (hw : ∀ o ∈ ws, i < o.evals.length) (hs : ∀ o ∈ sigmas, i < o.evals.length) :
    (gpFactor (ws.map (·.evals)) (sigmas.map (·.evals)) deltas beta gamma d i : Res ε F)
      = if ((List.zip (List.zip ws sigmas) deltas).map (fun t => (rowCol d i t).den beta gamma)).prod = 0
        then .panic else .ok (chunkRatio beta gamma d (List.zip (List.zip ws sigmas) deltas) i) := by
  unfold gpFactor
  have hz : List.zip (List.zip (ws.map (·.evals)) (sigmas.map (·.evals))) deltas
      = (List.zip (List.zip ws sigmas) deltas).map (fun t => ((t.1.1.evals, t.1.2.evals), t.2)) := by
    rw [List.zip_map, List.zip_map_left]
    rfl
  rw [hz, Res.foldM_map]
  rw [Res.foldM_mul (g := fun t => (rowCol d i t).num beta gamma)
    (k := fun t => (rowCol d i t).den beta gamma)]
  · simp only [Res.bind_ok, one_mul, mulInv, chunkRatio]
  · intro b t ht
    have h1 := (List.of_mem_zip (a := t.1) (b := t.2) ht).1
    have h2 := List.of_mem_zip (a := t.1.1) (b := t.1.2) h1
    have e1 := hw _ h2.1
    have e2 := hs _ h2.2
    simp only [Res.idx_of_lt e1, Res.idx_of_lt e2, Res.bind_ok, rowCol, PermCol.num, PermCol.den,
      List.getD_eq_getElem _ _ e1, List.getD_eq_getElem _ _ e2, Res.pure_eq, mul_assoc]

/-- The rotations a grand product is opened at. -/
def aggRotations (u : Nat) (isLast : Bool) : List Rotation :=
  if isLast then setExtend [] [Rotation.curr, Rotation.next]
  else setInsert ⟨u, .plus⟩ (setExtend [] [Rotation.curr, Rotation.next])

/-- A grand product starting at `init` with the given factors. -/
structure AggPoly [FftParams F] (d ext : Domain F) (u idx : Nat) (isLast : Bool) (init : F)
    (ratio : Nat → F) (o : ProverOracle F) : Prop where
  kind : o.kind = .witness
  label : o.label = bytes "agg_permutation_" ++ natBytes idx
  poly : o.poly = trim (d.ifft o.evals)
  len : o.evals.length = d.size
  rows : ∀ i ≤ u, o.evals[i]? = some (init * ((List.range i).map ratio).prod)
  coset : o.coset = some (ext.cosetFft o.poly)
  rotations : o.rotations = aggRotations u isLast
  noPermute : o.shouldPermute = false

theorem gpConstruct_ok [FftParams F] (next : Z → F × Z) (idx : Nat) (isLast : Bool) (init : F)
    (sigmas ws : List (ProverOracle F)) (deltas : List F) (beta gamma : F) (u : Nat)
    (d ext : Domain F) (z : Z) (hu : u + 1 ≤ d.size)
    (hw : ∀ o ∈ ws, u ≤ o.evals.length) (hs : ∀ o ∈ sigmas, u ≤ o.evals.length)
    (hden : ∀ i < u, ∀ t ∈ List.zip (List.zip ws sigmas) deltas, (rowCol d i t).den beta gamma ≠ 0) :
    ∃ o, gpConstruct next idx isLast init sigmas ws deltas beta gamma u d ext z
        = (.ok (o, (drawN next (d.size - 1 - u) z).2) : Res ε _) ∧
      AggPoly d ext u idx isLast init (chunkRatio beta gamma d (List.zip (List.zip ws sigmas) deltas)) o ∧
      o.evals.drop (u + 1) = (drawN next (d.size - 1 - u) z).1 := by
  have hrun := zRun_ok (ε := ε) (factor := gpFactor (ws.map (·.evals)) (sigmas.map (·.evals)) deltas beta gamma d)
    (f := chunkRatio beta gamma d (List.zip (List.zip ws sigmas) deltas)) init (List.range u) (by
      intro i hi
      have hi := List.mem_range.1 hi
      rw [gpFactor_ok _ _ _ _ _ _ _ (fun o ho => lt_of_lt_of_le hi (hw o ho))
        (fun o ho => lt_of_lt_of_le hi (hs o ho)), if_neg]
      intro h0
      obtain ⟨t, ht, h0⟩ := List.mem_map.1 (List.prod_eq_zero_iff.1 h0)
      exact hden i hi t ht h0)
  rw [List.length_range] at hrun
  have hlen : ((List.range (u + 1)).map (fun i => init * (((List.range u).take i).map
      (chunkRatio beta gamma d (List.zip (List.zip ws sigmas) deltas))).prod)).length = u + 1 := by simp
  unfold gpConstruct
  rw [hrun]
  simp only [Res.bind_ok, hu, decide_true, Res.assert_true, List.length_append, hlen, drawN_length,
    show u + 1 + (d.size - 1 - u) = d.size by omega, Res.pure_eq]
  refine ⟨_, rfl, ⟨rfl, rfl, rfl, ?_, ?_, rfl, ?_, rfl⟩, ?_⟩
  · simp [drawN_length]; omega
  · intro i hi
    have hi' : i < u + 1 := by omega
    rw [List.getElem?_append_left (by rw [hlen]; exact hi')]
    simp only [List.getElem?_map, List.getElem?_range hi', Option.map_some]
    rw [List.take_range, Nat.min_eq_left hi]
  · cases isLast <;> rfl
  · show List.drop (u + 1) (_ ++ _) = _
    rw [List.drop_append_of_le_length (by rw [hlen]), List.drop_of_length_le (by rw [hlen]), List.nil_append]

/-- The columns of a chunk triple. -/
def tripleCols {O : Type} (c : (List O × List O) × List F) : List ((O × O) × F) :=
  List.zip (List.zip c.1.1 c.1.2) c.2

/-- The loop over the chunks. -/
theorem agg_fold [FftParams F] (p : PermutationArgument F) (next : Z → F × Z) (beta gamma : F)
    (d ext : Domain F) (num : Nat) (hu : p.usableRows + 1 ≤ d.size) :
    ∀ (cs : List ((List (ProverOracle F) × List (ProverOracle F)) × List F))
      (k : Nat) (acc : List (ProverOracle F)) (z : Z) (P : F),
      (∀ c ∈ cs, (∀ o ∈ c.1.1, p.usableRows ≤ o.evals.length) ∧
        (∀ o ∈ c.1.2, p.usableRows ≤ o.evals.length) ∧
        (∀ i < p.usableRows, ∀ t ∈ tripleCols c, (rowCol d i t).den beta gamma ≠ 0)) →
      acc.length = k → (k = 0 → P = 1) →
      (0 < k → ∃ o, acc[k - 1]? = some o ∧ o.evals[p.usableRows]? = some P) →
      ∃ new z', Res.foldM (p.aggStep next beta gamma d ext num) (acc, z) (cs.zipIdx k)
          = (.ok (acc ++ new, z') : Res ε _) ∧ new.length = cs.length ∧
        ∀ (j : Nat) (o : ProverOracle F) (c : (List (ProverOracle F) × List (ProverOracle F)) × List F),
          new[j]? = some o → cs[j]? = some c →
          AggPoly d ext p.usableRows (k + j) (decide (k + j = num - 1))
            (P * ((cs.take j).map (fun c => ((List.range p.usableRows).map
              (chunkRatio beta gamma d (tripleCols c))).prod)).prod)
            (chunkRatio beta gamma d (tripleCols c)) o := by
  intro cs
  induction cs with
  | nil => intro k acc z P _ _ _ _; exact ⟨[], z, by simp, rfl, by simp⟩
  | cons c cs ih =>
    intro k acc z P hc hk h0 hP
    obtain ⟨hw, hs, hden⟩ := hc c (by simp)
    obtain ⟨o, ho, hagg, _⟩ := gpConstruct_ok (ε := ε) next k (decide (k = num - 1)) P c.1.2 c.1.1 c.2 beta gamma
      p.usableRows d ext z hu hw hs hden
    have hstep : p.aggStep next beta gamma d ext num (acc, z) (c, k)
        = (.ok (acc ++ [o], (drawN next (d.size - 1 - p.usableRows) z).2) : Res ε _) := by
      unfold aggStep
      by_cases hk0 : k = 0
      · subst hk0
        rw [h0 rfl] at ho
        simp only [if_true, Res.pure_eq, Res.bind_ok]
        rw [show (0 : Nat) = acc.length from hk.symm] at *
        rw [ho]
        rfl
      · obtain ⟨o', ho', hu'⟩ := hP (by omega)
        simp only [hk0, if_false, Res.idx_of_some ho', Res.bind_ok, Res.idx_of_some hu']
        rw [ho]
        rfl
    have hlast : (acc ++ [o])[k]? = some o := by rw [← hk]; simp
    obtain ⟨new, z', hf, hl, hnew⟩ := ih (k + 1) (acc ++ [o]) _
      (P * ((List.range p.usableRows).map (chunkRatio beta gamma d (tripleCols c))).prod)
      (fun c hc' => hc c (by simp [hc'])) (by simp [hk]) (by simp)
      (fun _ => ⟨o, by simpa using hlast, hagg.rows _ le_rfl⟩)
    refine ⟨o :: new, z', ?_, by simp [hl], ?_⟩
    · rw [List.zipIdx_cons, Res.foldM_cons, hstep, Res.bind_ok, hf]
      simp
    · intro j o' c' hj hc'
      cases j with
      | zero =>
        simp only [List.getElem?_cons_zero, Option.some.injEq] at hj hc'
        subst hj hc'
        simpa [tripleCols] using hagg
      | succ j =>
        simp only [List.getElem?_cons_succ] at hj hc'
        have := hnew j o' c' hj hc'
        rw [show k + 1 + j = k + (j + 1) by omega] at this
        simpa [mul_assoc] using this

/-- The product of numerator over denominator over columns and rows. -/
def fullRatio (beta gamma : F) (d : Domain F) (u : Nat)
    (cols : List ((ProverOracle F × ProverOracle F) × F)) : F :=
  (cols.map (fun t => ((List.range u).map (fun i =>
    (rowCol d i t).num beta gamma * ((rowCol d i t).den beta gamma)⁻¹)).prod)).prod

omit [DecidableEq F] in
theorem fullRatio_append (beta gamma : F) (d : Domain F) (u : Nat)
    (c c' : List ((ProverOracle F × ProverOracle F) × F)) :
    fullRatio beta gamma d u (c ++ c') = fullRatio beta gamma d u c * fullRatio beta gamma d u c' := by
  simp [fullRatio]

omit [DecidableEq F] in
theorem chunkRatio_eq (beta gamma : F) (d : Domain F)
    (c : List ((ProverOracle F × ProverOracle F) × F)) (i : Nat) :
    chunkRatio beta gamma d c i = (c.map (fun t =>
      (rowCol d i t).num beta gamma * ((rowCol d i t).den beta gamma)⁻¹)).prod := by
  unfold chunkRatio
  induction c with
  | nil => simp
  | cons t c ih =>
    simp only [List.map_cons, List.prod_cons, mul_inv]
    rw [← ih]; ring

omit [DecidableEq F] in
theorem prod_chunkRatio (beta gamma : F) (d : Domain F) (u : Nat)
    (c : List ((ProverOracle F × ProverOracle F) × F)) :
    ((List.range u).map (chunkRatio beta gamma d c)).prod = fullRatio beta gamma d u c := by
  unfold fullRatio
  induction c with
  | nil =>
    have : chunkRatio beta gamma d [] = fun _ => 1 := by funext i; simp [chunkRatio]
    simp [this]
  | cons t c ih =>
    rw [List.map_cons, List.prod_cons, ← ih, ← List.prod_map_mul]
    congr 1
    apply List.map_congr_left
    intro i _
    rw [chunkRatio_eq, chunkRatio_eq, List.map_cons, List.prod_cons]

omit [DecidableEq F] in
theorem prod_fullRatio_chunks {k : Nat} (hk : 0 < k) (beta gamma : F) (d : Domain F) (u : Nat)
    (cols : List ((ProverOracle F × ProverOracle F) × F)) :
    ((chunks k cols).map (fullRatio beta gamma d u)).prod = fullRatio beta gamma d u cols := by
  induction cols using chunks_induction hk with
  | h0 => simp [fullRatio]
  | hs l hl ih =>
    rw [chunks_cons hk hl, List.map_cons, List.prod_cons, ih, ← fullRatio_append, List.take_append_drop]

/-- What the grand products are. -/
structure AggSpec [FftParams F] (p : PermutationArgument F) (beta gamma : F) (d ext : Domain F)
    (cols : List ((ProverOracle F × ProverOracle F) × F)) (agg : List (ProverOracle F)) : Prop where
  len : agg.length = (chunks p.maxCols cols).length
  each : ∀ (j : Nat) (o : ProverOracle F) (c : List ((ProverOracle F × ProverOracle F) × F)),
    agg[j]? = some o → (chunks p.maxCols cols)[j]? = some c →
    AggPoly d ext p.usableRows j (decide (j = (chunks p.maxCols cols).length - 1))
      (((chunks p.maxCols cols).take j).map (fullRatio beta gamma d p.usableRows)).prod
      (chunkRatio beta gamma d c) o

theorem constructAggPolys_outcome [FftParams F] (p : PermutationArgument F) (next : Z → F × Z)
    (ws sigmas : List (ProverOracle F)) (beta gamma : F) (d ext : Domain F) (z : Z)
    (hk : 0 < p.maxCols) (hne : ws ≠ []) (hs : ws.length = sigmas.length)
    (hd : ws.length = p.deltas.length) (hu : p.usableRows + 1 ≤ d.size)
    (hwl : ∀ o ∈ ws, p.usableRows ≤ o.evals.length) (hsl : ∀ o ∈ sigmas, p.usableRows ≤ o.evals.length)
    (hden : ∀ i < p.usableRows, ∀ t ∈ List.zip (List.zip ws sigmas) p.deltas,
      (rowCol d i t).den beta gamma ≠ 0) :
    ∃ agg z', AggSpec p beta gamma d ext (List.zip (List.zip ws sigmas) p.deltas) agg ∧
      (p.constructAggPolys next ws sigmas beta gamma d ext z : Res ε _)
        = if fullRatio beta gamma d p.usableRows (List.zip (List.zip ws sigmas) p.deltas) = 1
          then .ok (agg, z') else .panic := by
  set cs := List.zip (List.zip (chunks p.maxCols ws) (chunks p.maxCols sigmas)) (chunks p.maxCols p.deltas)
    with hcs
  set cols := List.zip (List.zip ws sigmas) p.deltas with hcols
  have hmap : cs.map tripleCols = chunks p.maxCols cols := zip_chunks hk ws sigmas p.deltas hs hd
  have hlen : cs.length = (chunks p.maxCols ws).length := by
    rw [hcs, List.length_zip, List.length_zip, chunks_length_congr hk hs.symm, chunks_length_congr hk hd.symm]
    simp
  have hlen' : (chunks p.maxCols cols).length = cs.length := by rw [← hmap, List.length_map]
  have hcspos : 0 < cs.length := by
    rw [hlen]
    exact List.length_pos_iff.2 (fun h => hne ((chunks_eq_nil hk).1 h))
  obtain ⟨agg, z', hf, hl, hspec⟩ := agg_fold (ε := ε) p next beta gamma d ext (chunks p.maxCols ws).length hu cs 0 [] z 1
    (by
      intro c hc
      have h2 := (List.of_mem_zip (a := c.1) (b := c.2) hc).1
      have h3 := List.of_mem_zip (a := c.1.1) (b := c.1.2) h2
      have sub : ∀ {l : List (ProverOracle F)} {x : List (ProverOracle F)}, x ∈ chunks p.maxCols l →
          ∀ o ∈ x, o ∈ l := by
        intro l x hx o ho
        rw [← chunks_flatten hk l]; exact List.mem_flatten.2 ⟨x, hx, ho⟩
      refine ⟨fun o ho => hwl o (sub h3.1 o ho), fun o ho => hsl o (sub h3.2 o ho), fun i hi t ht => hden i hi t ?_⟩
      have : tripleCols c ∈ chunks p.maxCols cols := by rw [← hmap]; exact List.mem_map.2 ⟨c, hc, rfl⟩
      rw [← chunks_flatten hk cols]
      exact List.mem_flatten.2 ⟨_, this, ht⟩)
    rfl (fun _ => rfl) (by simp)
  have hspec' : AggSpec p beta gamma d ext cols agg := by
    refine ⟨by rw [hl, hlen'], ?_⟩
    intro j o c hj hc
    rw [← hmap, List.getElem?_map] at hc
    obtain ⟨c', hc', rfl⟩ := Option.map_eq_some_iff.1 hc
    have := hspec j o c' hj hc'
    rw [Nat.zero_add] at this
    rw [hlen', hlen, ← hmap, ← List.map_take, List.map_map]
    simp only [prod_chunkRatio, one_mul] at this
    exact this
  refine ⟨agg, z', hspec', ?_⟩
  unfold constructAggPolys
  simp only [hs.symm, hd.symm, decide_true, Res.assert_true, Res.bind_ok, chunksR_of_pos hk]
  rw [hf, Res.bind_ok, List.nil_append]
  have hapos : 0 < agg.length := by rw [hl]; exact hcspos
  have hl0 : agg.getLast? = some (agg[agg.length - 1]'(by omega)) := by
    rw [List.getLast?_eq_getElem?, List.getElem?_eq_getElem]
  have hidx : agg.length - 1 < (chunks p.maxCols cols).length := by rw [hlen', ← hl]; omega
  have hrow := (hspec'.each (agg.length - 1) _ _ (List.getElem?_eq_getElem (by omega))
    (List.getElem?_eq_getElem hidx)).rows p.usableRows le_rfl
  have hprod : (((chunks p.maxCols cols).take (agg.length - 1)).map (fullRatio beta gamma d p.usableRows)).prod
      * ((List.range p.usableRows).map (chunkRatio beta gamma d (chunks p.maxCols cols)[agg.length - 1])).prod
      = fullRatio beta gamma d p.usableRows cols := by
    rw [prod_chunkRatio, ← prod_fullRatio_chunks hk beta gamma d p.usableRows cols]
    conv_rhs => rw [← List.take_append_drop (agg.length - 1) (chunks p.maxCols cols)]
    rw [List.map_append, List.prod_append, List.drop_eq_getElem_cons hidx,
      List.drop_of_length_le (by rw [hlen', ← hl]; omega)]
    simp
  rw [hprod] at hrow
  rw [hl0, Res.unwrap_some, Res.bind_ok, Res.idx_of_some hrow, Res.bind_ok]
  by_cases h1 : fullRatio beta gamma d p.usableRows cols = 1
  · simp [h1]
  · simp [h1]

omit [DecidableEq F] in
/-- Membership in the list of permutation constraints. -/
theorem mem_permConstraints {beta gamma l0 lu qb : F} {z zN zU : Nat → F}
    {cs : List (List (PermCol F))} {x : F} :
    x ∈ permConstraints beta gamma l0 lu qb z zN zU cs ↔
      x = l0 * (1 - z 0) ∨
      (∃ j c, cs[j]? = some c ∧ x = (1 - (lu + qb)) * (zN j * (c.map (PermCol.den beta gamma)).prod
        - z j * (c.map (PermCol.num beta gamma)).prod)) ∨
      (∃ j, j + 1 < cs.length ∧ x = l0 * (z (j + 1) - zU j)) ∨
      x = lu * (z (cs.length - 1) * z (cs.length - 1) - z (cs.length - 1)) := by
  unfold permConstraints
  simp only [List.mem_append, List.mem_singleton, List.mem_map, List.mem_range, Prod.exists,
    List.mem_zipIdx_iff_getElem?]
  constructor
  · rintro (((h | ⟨c, j, hj, rfl⟩) | ⟨j, hj, rfl⟩) | h)
    · exact Or.inl h
    · exact Or.inr (Or.inl ⟨j, c, hj, rfl⟩)
    · exact Or.inr (Or.inr (Or.inl ⟨j, by omega, rfl⟩))
    · exact Or.inr (Or.inr (Or.inr h))
  · rintro (h | ⟨j, c, hj, rfl⟩ | ⟨j, hj, rfl⟩ | h)
    · exact Or.inl (Or.inl (Or.inl h))
    · exact Or.inl (Or.inl (Or.inr ⟨c, j, hj, rfl⟩))
    · exact Or.inl (Or.inr ⟨j, by omega, rfl⟩)
    · exact Or.inr h

omit [DecidableEq F] in
/-- Honest grand products satisfy every constraint at every row. -/
theorem perm_rows_zero (beta gamma : F) (u : Nat) (cols : Nat → List (List (PermCol F))) (m : Nat) (hm : 0 < m)
    (hcols : ∀ i, (cols i).length = m)
    (ratio : Nat → Nat → F)
    (hratio : ∀ i < u, ∀ j c, (cols i)[j]? = some c →
      ratio j i * (c.map (PermCol.den beta gamma)).prod = (c.map (PermCol.num beta gamma)).prod)
    (Z : Nat → Nat → F)
    (hZ : ∀ j < m, ∀ i ≤ u, Z j i = ((List.range j).map (fun k => ((List.range u).map (ratio k)).prod)).prod
      * ((List.range i).map (ratio j)).prod)
    (htot : ((List.range m).map (fun k => ((List.range u).map (ratio k)).prod)).prod = 1)
    (i : Nat) (l0 lu qb : F) (hl0 : l0 = if i = 0 then 1 else 0) (hlu : lu = if i = u then 1 else 0)
    (hqb : qb = if i ≤ u then 0 else 1) (zN zU : Nat → F)
    (hzN : i < u → ∀ j < m, zN j = Z j (i + 1)) (hzU : i = 0 → ∀ j < m, zU j = Z j u) :
    ∀ x ∈ permConstraints beta gamma l0 lu qb (fun j => Z j i) zN zU (cols i), x = 0 := by
  intro x hx
  rw [mem_permConstraints, hcols] at hx
  rcases hx with rfl | ⟨j, c, hj, rfl⟩ | ⟨j, hj, rfl⟩ | rfl
  · by_cases h : i = 0
    · subst h
      rw [hZ 0 hm 0 (Nat.zero_le _)]; simp
    · simp [hl0, h]
  · have hjm : j < m := by
      rw [← hcols i]
      by_contra hc
      rw [List.getElem?_eq_none (by omega)] at hj
      simp at hj
    rcases lt_trichotomy i u with h | h | h
    · rw [hzN h j hjm, hZ j hjm (i + 1) (by omega), hZ j hjm i (by omega), List.range_succ, List.map_append,
        List.prod_append, ← hratio i h j c hj]
      simp; right; ring
    · subst h; simp [hlu, hqb]
    · simp [hlu, hqb, h.ne', Nat.not_le.2 h]
  · by_cases h : i = 0
    · subst h
      rw [hzU rfl j (by omega), hZ (j + 1) hj 0 (Nat.zero_le _), hZ j (by omega) u le_rfl, List.range_succ,
        List.map_append, List.prod_append]
      simp
    · simp [hl0, h]
  · by_cases h : i = u
    · subst h
      have : Z (m - 1) i = 1 := by
        rw [hZ (m - 1) (by omega) i le_rfl, ← htot]
        obtain ⟨m', rfl⟩ : ∃ m', m = m' + 1 := ⟨m - 1, by omega⟩
        rw [Nat.add_sub_cancel, List.range_succ, List.map_append, List.prod_append]
        simp
      simp [this]
    · simp [hlu, h]

omit [DecidableEq F] in
/-- What the constraints on all rows force. -/
theorem perm_rows_force (beta gamma : F) (u : Nat) (cols : Nat → List (List (PermCol F))) (m : Nat)
    (hm : 0 < m) (hcols : ∀ i, (cols i).length = m) (Z : Nat → Nat → F)
    (h : ∀ i ≤ u, ∀ x ∈ permConstraints beta gamma (if i = 0 then 1 else 0) (if i = u then 1 else 0) 0
      (fun j => Z j i) (fun j => Z j (i + 1)) (fun j => Z j (i + u)) (cols i), x = 0) :
    let num := ((List.range u).map (fun i => ((cols i).map (fun c => (c.map (PermCol.num beta gamma)).prod)).prod)).prod
    let den := ((List.range u).map (fun i => ((cols i).map (fun c => (c.map (PermCol.den beta gamma)).prod)).prod)).prod
    num * (num - den) = 0 := by
  intro num den
  have h0 : Z 0 0 = 1 := by
    have := h 0 (Nat.zero_le _) _ (mem_permConstraints.2 (Or.inl rfl))
    simp only [if_true, one_mul] at this
    exact (sub_eq_zero.1 this).symm
  have hlink : ∀ j, j + 1 < m → Z (j + 1) 0 = Z j u := by
    intro j hj
    have := h 0 (Nat.zero_le _) _ (mem_permConstraints.2 (Or.inr (Or.inr (Or.inl ⟨j, by rw [hcols]; exact hj, rfl⟩))))
    simp only [if_true, one_mul, Nat.zero_add] at this
    exact sub_eq_zero.1 this
  have hstep : ∀ i < u, ∀ j c, (cols i)[j]? = some c →
      Z j (i + 1) * (c.map (PermCol.den beta gamma)).prod = Z j i * (c.map (PermCol.num beta gamma)).prod := by
    intro i hi j c hc
    have := h i hi.le _ (mem_permConstraints.2 (Or.inr (Or.inl ⟨j, c, hc, rfl⟩)))
    simp only [hi.ne, if_false, add_zero, sub_zero, one_mul] at this
    exact sub_eq_zero.1 this
  have hlast : Z (m - 1) u * Z (m - 1) u - Z (m - 1) u = 0 := by
    have := h u le_rfl _ (mem_permConstraints.2 (Or.inr (Or.inr (Or.inr rfl))))
    simpa [hcols] using this
  set N : Nat → Nat → F := fun j i => (((cols i).getD j []).map (PermCol.num beta gamma)).prod with hN
  set D : Nat → Nat → F := fun j i => (((cols i).getD j []).map (PermCol.den beta gamma)).prod with hD
  have hcol : ∀ j < m, ∀ i ≤ u, Z j i * ((List.range i).map (D j)).prod = Z j 0 * ((List.range i).map (N j)).prod := by
    intro j hj i
    induction i with
    | zero => simp
    | succ i ih =>
      intro hi
      have hs := hstep i (by omega) j ((cols i).getD j []) (by
        rw [List.getD_eq_getElem _ _ (by rw [hcols]; exact hj), List.getElem?_eq_getElem])
      have ih := ih (by omega)
      rw [List.range_succ, List.map_append, List.map_append, List.prod_append, List.prod_append]
      simp only [List.map_cons, List.map_nil, List.prod_cons, List.prod_nil, mul_one]
      calc Z j (i + 1) * (((List.range i).map (D j)).prod * D j i)
          = (Z j (i + 1) * D j i) * ((List.range i).map (D j)).prod := by ring
        _ = (Z j i * N j i) * ((List.range i).map (D j)).prod := by rw [hs]
        _ = (Z j i * ((List.range i).map (D j)).prod) * N j i := by ring
        _ = _ := by rw [ih]; ring
  have hall : ∀ k, k < m → Z k u * ((List.range (k + 1)).map (fun j => ((List.range u).map (D j)).prod)).prod
      = ((List.range (k + 1)).map (fun j => ((List.range u).map (N j)).prod)).prod := by
    intro k
    induction k with
    | zero =>
      intro hk
      have := hcol 0 hk u le_rfl
      rw [h0, one_mul] at this
      simpa using this
    | succ k ih =>
      intro hk
      have e := hcol (k + 1) hk u le_rfl
      rw [hlink k hk] at e
      have ih := ih (by omega)
      rw [List.range_succ (n := k + 1), List.map_append, List.map_append, List.prod_append, List.prod_append, ← ih]
      simp only [List.map_cons, List.map_nil, List.prod_cons, List.prod_nil, mul_one]
      calc _ = (Z (k + 1) u * ((List.range u).map (D (k + 1))).prod) *
            ((List.range (k + 1)).map (fun j => ((List.range u).map (D j)).prod)).prod := by ring
        _ = _ := by rw [e]; ring
  have swap : ∀ G : List (PermCol F) → F,
      ((List.range m).map (fun j => ((List.range u).map (fun i => G ((cols i).getD j []))).prod)).prod
      = ((List.range u).map (fun i => ((cols i).map G).prod)).prod := by
    intro G
    have e : ∀ i, ((cols i).map G).prod = ((List.range m).map (fun j => G ((cols i).getD j []))).prod := by
      intro i
      congr 1
      apply List.ext_getElem
      · simp [hcols]
      · intro j h1 h2
        simp at h1
        simp [h1]
    simp only [e]
    generalize List.range m = l1
    induction List.range u with
    | nil => simp
    | cons a l ih => simp only [List.map_cons, List.prod_cons, List.prod_map_mul, ih]
  have hfin := hall (m - 1) (by omega)
  rw [Nat.sub_add_cancel hm] at hfin
  have hn : ((List.range m).map (fun j => ((List.range u).map (N j)).prod)).prod = num :=
    swap (fun c => (c.map (PermCol.num beta gamma)).prod)
  have hd : ((List.range m).map (fun j => ((List.range u).map (D j)).prod)).prod = den :=
    swap (fun c => (c.map (PermCol.den beta gamma)).prod)
  rw [hn, hd] at hfin
  have hz : Z (m - 1) u = 0 ∨ Z (m - 1) u = 1 := by
    have : Z (m - 1) u * (Z (m - 1) u - 1) = 0 := by linear_combination hlast
    rcases mul_eq_zero.1 this with h | h
    · exact Or.inl h
    · exact Or.inr (sub_eq_zero.1 h)
  rcases hz with h | h
  · rw [h, zero_mul] at hfin; rw [← hfin, zero_mul]
  · rw [h, one_mul] at hfin; rw [hfin]; ring

end
end ZK
