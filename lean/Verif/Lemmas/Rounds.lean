import Verif.Properties.Lookup
import Verif.Properties.Permutation
import Verif.Properties.Separation
/-! What successful prover rounds have built: their own assertions make the permutation and lookup constraints hold. -/
set_option autoImplicit false
set_option linter.unusedSectionVars false
namespace ZK
open Polynomial

theorem Res.foldM_mem {ε α β : Type} {f : β → α → Res ε β} {l : List α} {b c : β} (h : Res.foldM f b l = .ok c)
    {a : α} (ha : a ∈ l) : ∃ b' c', f b' a = .ok c' := by
  induction l generalizing b with
  | nil => simp at ha
  | cons x l ih =>
    obtain ⟨b', h1, h2⟩ := Res.foldM_eq_ok_cons.1 h
    rcases List.mem_cons.1 ha with rfl | ha
    · exact ⟨b, b', h1⟩
    · exact ih h2 ha

/-- A loop appending one result per element. -/
theorem Res.foldM_push {ε α β Z : Type} {g : List β × Z → α → Res ε (List β × Z)} (P : α → β → Prop)
    (hg : ∀ acc a out, g acc a = .ok out → ∃ b, P a b ∧ out.1 = acc.1 ++ [b]) {l : List α} {acc out : List β × Z}
    (h : Res.foldM g acc l = .ok out) : ∃ bs, out.1 = acc.1 ++ bs ∧ List.Forall₂ P l bs := by
  induction l generalizing acc with
  | nil =>
    simp only [Res.foldM_nil, Res.ok.injEq] at h
    exact ⟨[], by rw [← h]; simp, List.Forall₂.nil⟩
  | cons a l ih =>
    obtain ⟨b', h1, h2⟩ := Res.foldM_eq_ok_cons.1 h
    obtain ⟨b, hb, e1⟩ := hg _ _ _ h1
    obtain ⟨bs, e, hbs⟩ := ih h2
    exact ⟨b :: bs, by rw [e, e1]; simp, List.Forall₂.cons hb hbs⟩

section
variable {F : Type} [Field F]

theorem zRun_inv {ε : Type} {factor : Nat → Res ε F} {z : F} {rows : List Nat} {out : List F}
    (h : zRun factor z rows = .ok out) : ∀ i ∈ rows, ∃ f, factor i = .ok f := by
  induction rows generalizing z out with
  | nil => intro i hi; simp at hi
  | cons j rows ih =>
    intro i hi
    simp only [zRun] at h
    cases hf : factor j with
    | ok f =>
      rw [hf] at h
      obtain ⟨o', h1, _⟩ := Res.map1_eq_ok.1 h
      rcases List.mem_cons.1 hi with rfl | hi
      · exact ⟨f, hf⟩
      · exact ih h1 i hi
    | err e => rw [hf] at h; simp at h
    | panic => rw [hf] at h; simp at h

/-- What a successful permutation round says. -/
theorem constructAggPolys_inv {Z ε : Type} [DecidableEq F] [FftParams F] {p : PermutationArgument F}
    {next : Z → F × Z} {ws sigmas : List (ProverOracle F)} {beta gamma : F} {d ext : Domain F} {z z' : Z}
    {agg : List (ProverOracle F)} (hne : ws ≠ [])
    (hw : ∀ o ∈ ws, o.evals.length = d.size) (hs : ∀ o ∈ sigmas, o.evals.length = d.size)
    (h : (p.constructAggPolys next ws sigmas beta gamma d ext z : Res ε _) = .ok (agg, z')) :
    0 < p.maxCols ∧ ws.length = sigmas.length ∧ ws.length = p.deltas.length ∧ p.usableRows + 1 ≤ d.size ∧
    (∀ i < p.usableRows, ∀ t ∈ List.zip (List.zip ws sigmas) p.deltas, (rowCol d i t).den beta gamma ≠ 0) ∧
    AggSpec p beta gamma d ext (List.zip (List.zip ws sigmas) p.deltas) agg ∧
    fullRatio beta gamma d p.usableRows (List.zip (List.zip ws sigmas) p.deltas) = 1 := by
  have h' := h
  unfold PermutationArgument.constructAggPolys at h
  simp only [Res.bind_eq_ok, Res.assert_eq_ok, decide_eq_true_eq] at h
  obtain ⟨_, hsl, _, hdl, wc, hwc, sc, hsc, dc, hdc, r, hr, -⟩ := h
  have hk : 0 < p.maxCols := by
    rcases Nat.eq_zero_or_pos p.maxCols with h0 | h0
    · rw [h0] at hwc; simp [chunksR] at hwc
    · exact h0
  rw [chunksR_of_pos hk, Res.ok.injEq] at hwc hsc hdc
  subst hwc hsc hdc
  set cs := List.zip (List.zip (chunks p.maxCols ws) (chunks p.maxCols sigmas)) (chunks p.maxCols p.deltas) with hcs
  have hmap : cs.map tripleCols = chunks p.maxCols (List.zip (List.zip ws sigmas) p.deltas) :=
    zip_chunks hk ws sigmas p.deltas hsl hdl
  have sub : ∀ {l x : List (ProverOracle F)}, x ∈ chunks p.maxCols l → ∀ o ∈ x, o ∈ l := by
    intro l x hx o ho
    rw [← chunks_flatten hk l]; exact List.mem_flatten.2 ⟨x, hx, ho⟩
  -- every chunk was processed
  have hchunk : ∀ c ∈ cs, p.usableRows + 1 ≤ d.size ∧
      ∀ i < p.usableRows, ∃ f, (gpFactor (c.1.1.map (·.evals)) (c.1.2.map (·.evals)) c.2 beta gamma d i : Res ε F) = .ok f := by
    intro c hc
    obtain ⟨k, hk', hget⟩ := List.mem_iff_getElem.1 hc
    have hmem : (c, k) ∈ cs.zipIdx := by
      rw [List.mem_zipIdx_iff_getElem?, List.getElem?_eq_getElem hk', hget]
    obtain ⟨b', c', hstep⟩ := Res.foldM_mem hr hmem
    unfold PermutationArgument.aggStep at hstep
    obtain ⟨init, r', h3⟩ : ∃ init r', (gpConstruct next k (decide (k = (chunks p.maxCols ws).length - 1)) init c.1.2 c.1.1
        c.2 beta gamma p.usableRows d ext b'.2 : Res ε _) = .ok r' := by
      simp only at hstep
      split at hstep
      · obtain ⟨init, _, h2⟩ := Res.bind_eq_ok.1 hstep
        obtain ⟨r', h3, _⟩ := Res.bind_eq_ok.1 h2
        exact ⟨init, r', h3⟩
      · obtain ⟨prev, _, h1⟩ := Res.bind_eq_ok.1 hstep
        obtain ⟨init, _, h2⟩ := Res.bind_eq_ok.1 h1
        obtain ⟨r', h3, _⟩ := Res.bind_eq_ok.1 h2
        exact ⟨init, r', h3⟩
    unfold gpConstruct at h3
    simp only [Res.bind_eq_ok, Res.assert_eq_ok, decide_eq_true_eq] at h3
    obtain ⟨zs, hz, _, hu, -⟩ := h3
    exact ⟨hu, fun i hi => zRun_inv hz i (List.mem_range.2 hi)⟩
  have hcsne : cs ≠ [] := by
    intro h0
    have h1 : chunks p.maxCols (List.zip (List.zip ws sigmas) p.deltas) = [] := by rw [← hmap, h0]; rfl
    have h2 := (chunks_eq_nil hk).1 h1
    have h3 := congrArg List.length h2
    simp only [List.length_zip, List.length_nil, ← hsl, ← hdl, Nat.min_self] at h3
    exact hne (List.length_eq_zero_iff.1 h3)
  obtain ⟨c0, hc0⟩ := List.exists_mem_of_ne_nil _ hcsne
  have hu := (hchunk c0 hc0).1
  have hden : ∀ i < p.usableRows, ∀ t ∈ List.zip (List.zip ws sigmas) p.deltas, (rowCol d i t).den beta gamma ≠ 0 := by
    intro i hi t ht h0
    rw [← chunks_flatten hk (List.zip (List.zip ws sigmas) p.deltas), ← hmap] at ht
    obtain ⟨x, hx, htx⟩ := List.mem_flatten.1 ht
    obtain ⟨c, hc, rfl⟩ := List.mem_map.1 hx
    obtain ⟨f, hf⟩ := (hchunk c hc).2 i hi
    have m1 := (List.of_mem_zip (a := c.1) (b := c.2) hc).1
    have m2 := List.of_mem_zip (a := c.1.1) (b := c.1.2) m1
    rw [gpFactor_ok _ _ _ _ _ _ _ (fun o ho => by rw [hw o (sub m2.1 o ho)]; omega)
      (fun o ho => by rw [hs o (sub m2.2 o ho)]; omega), if_pos] at hf
    · simp at hf
    · exact List.prod_eq_zero_iff.2 (List.mem_map.2 ⟨t, htx, h0⟩)
  obtain ⟨agg', z'', hspec, hout⟩ := constructAggPolys_outcome (ε := ε) p next ws sigmas beta gamma d ext z hk hne hsl hdl hu
    (fun o ho => by rw [hw o ho]; omega) (fun o ho => by rw [hs o ho]; omega) hden
  rw [h'] at hout
  split at hout
  · rename_i h1
    obtain ⟨⟩ := Res.ok.inj hout
    exact ⟨hk, hsl, hdl, hu, hden, hspec, h1⟩
  · simp at hout

/-- The grand product of one lookup. -/
structure LookupAgg [FftParams F] [DecidableEq F] (d ext : Domain F) (u idx : Nat) (l : LookupOracles (ProverOracle F)) (beta gamma : F)
    (o : ProverOracle F) : Prop where
  kind : o.kind = .witness
  label : o.label = bytes "lookup_" ++ natBytes idx ++ bytes "_agg_poly"
  poly : o.poly = trim (d.ifft o.evals)
  len : o.evals.length = d.size
  usable : u + 1 ≤ d.size
  first : o.evals[0]? = some 1
  last : o.evals[u]? = some 1
  step : ∀ i < u, ∃ a s a' s' z0 z1, l.a.evals[i]? = some a ∧ l.s.evals[i]? = some s ∧ l.aPrime.evals[i]? = some a' ∧
    l.sPrime.evals[i]? = some s' ∧ o.evals[i]? = some z0 ∧ o.evals[i + 1]? = some z1 ∧
    z1 * (a' + beta) * (s' + gamma) = z0 * (a + beta) * (s + gamma)
  coset : o.coset = some (ext.cosetFft o.poly)
  rotations : o.rotations = setExtend [] [Rotation.curr, Rotation.next]
  noPermute : o.shouldPermute = false

theorem seConstruct_inv {Z ε : Type} [DecidableEq F] [FftParams F] {next : Z → F × Z}
    {l : LookupOracles (ProverOracle F)} {beta gamma : F} {idx u : Nat} {d ext : Domain F} {z z' : Z} {o : ProverOracle F}
    (h : (seConstruct next l beta gamma idx u d ext z : Res ε _) = .ok (o, z')) :
    LookupAgg d ext u idx l beta gamma o := by
  unfold seConstruct at h
  simp only [Res.bind_eq_ok, Res.assert_eq_ok, decide_eq_true_eq] at h
  obtain ⟨zs, hz, zu, hzu, _, h1, _, hu, h⟩ := h
  obtain ⟨⟩ := Res.ok.inj h
  have hfac : ∀ i ∈ List.range u, ∃ f, (seFactor l beta gamma i : Res ε F) = .ok f := zRun_inv hz
  choose! f hf using hfac
  have hrun := zRun_ok 1 (List.range u) hf
  rw [hz, Res.ok.injEq] at hrun
  simp only [List.length_range, one_mul] at hrun
  have hrow : ∀ i ≤ u, zs[i]? = some ((List.range i).map f).prod := by
    intro i hi
    rw [hrun, List.getElem?_map, List.getElem?_range (by omega)]
    simp only [Option.map_some]
    rw [List.take_range, Nat.min_eq_left hi]
  have hlen : zs.length = u + 1 := by rw [hrun]; simp
  have hget : ∀ i ≤ u, (zs ++ (drawN next (d.size - 1 - u) z).1)[i]? = zs[i]? := by
    intro i hi
    rw [List.getElem?_append_left (by omega)]
  refine ⟨rfl, rfl, rfl, ?_, hu, ?_, ?_, ?_, rfl, rfl, rfl⟩
  · simp only [List.length_append, hlen, drawN_length]; omega
  · show (zs ++ _)[0]? = _
    rw [hget 0 (Nat.zero_le _), hrow 0 (Nat.zero_le _)]; simp
  · show (zs ++ _)[u]? = _
    rw [hget u le_rfl, Res.idx_eq_ok.1 hzu, h1]
  · intro i hi
    have hfi := hf i (List.mem_range.2 hi)
    unfold seFactor at hfi
    simp only [Res.bind_eq_ok, Res.idx_eq_ok, mulInv] at hfi
    obtain ⟨a, ha, s, hs, a', ha', s', hs', hm⟩ := hfi
    split at hm
    · simp at hm
    · rename_i hnz
      have hm := Res.ok.inj hm
      refine ⟨a, s, a', s', _, _, ha, hs, ha', hs', (hget i hi.le).trans (hrow i hi.le), (hget (i + 1) hi).trans (hrow (i + 1) hi), ?_⟩
      rw [List.range_succ, List.map_append, List.prod_append]
      simp only [List.map_cons, List.map_nil, List.prod_cons, List.prod_nil, mul_one]
      rw [← hm]
      rw [show ∀ P q n : F, P * (n * q⁻¹) * (a' + beta) * (s' + gamma) = P * n * (q⁻¹ * ((a' + beta) * (s' + gamma))) from
        fun P q n => by ring, inv_mul_cancel₀ hnz]
      ring

section
variable [FftParams F] [LawfulFft F] [LinearOrder F]

/-- A successful lookup round: its own assertions say that the compressed input has small degree and is contained. -/
theorem lookupConstruct_inv {Z : Type} {next : Z → F × Z} {v : ProverView F} {u idx : Nat} {exprs : List (Expr F)}
    {tables : List OracleQuery} {theta : F} {d ext : Domain F} {z z' : Z} (hd : d.Ok) (he : ext.Ok)
    (hle : d.size ≤ ext.size) {P T : OracleQuery → F[X]}
    (hP : ∀ e ∈ exprs, QueryPolys d ext v e.queries P) (hT : TablePolys d ext v tables T)
    (hdeg : ∀ e ∈ exprs, ∃ k, e.degree (fun _ => .ok (d.size - 1)) = .ok k ∧ k < ext.size)
    {l : LookupOracles (ProverOracle F)}
    (hl : lookupConstruct next v u idx exprs tables theta d ext z = .ok (l, z')) :
    exprs.length = tables.length ∧ u ≤ d.size ∧
    LookupBuilt d ext u idx (compress (C theta) (exprs.map (Expr.denote C P))) (compress (C theta) (tables.map T)) l := by
  have hl' := hl
  unfold lookupConstruct at hl'
  simp only [Res.bind_eq_ok, Res.assert_eq_ok, decide_eq_true_eq] at hl'
  obtain ⟨_, hlen, aRows, ha, _, _, _, _, _, _, _, _, _, _, _, hu, -⟩ := hl'
  rw [Res.mapM_length ha, List.length_range] at hu
  have hAdeg : (compress (C theta) (exprs.map (Expr.denote C P))).degree < ext.size := by
    refine natDegree_lt_degree he.size_pos (natDegree_compress_le _ _ _ ?_)
    intro p hp
    obtain ⟨e, hee, rfl⟩ := List.mem_map.1 hp
    obtain ⟨k, hk, hlt⟩ := hdeg e hee
    have := (hP e hee).natDegree_denote hk
    omega
  obtain ⟨h1, h2⟩ := lookupConstruct_outcome next v u idx exprs tables theta z hd he hle hlen hu P T hP hT hAdeg
  have hsmall := lt_of_not_ge (fun h => by rw [h1 h] at hl; simp at hl)
  obtain ⟨h3, h4⟩ := h2 hsmall
  have hin := Classical.byContradiction (fun h => by rw [h4 h] at hl; simp at hl)
  obtain ⟨l', h5, hb⟩ := h3 hin
  rw [hl] at h5
  simp only [Res.ok.injEq, Prod.mk.injEq] at h5
  rw [← h5.1] at hb
  exact ⟨hlen, hu, hb⟩

/-- The grand product of a lookup is honest. -/
theorem LookupAgg.honest {d ext : Domain F} (hd : d.Ok) {u idx : Nat} {l : LookupOracles (ProverOracle F)}
    {beta gamma : F} {o : ProverOracle F} (h : LookupAgg d ext u idx l beta gamma o) : Honest d ext o :=
  honest_of_evals hd h.len h.poly rfl (by rw [h.coset, h.poly])

theorem AggPoly.honest {d ext : Domain F} (hd : d.Ok) {u idx : Nat} {isLast : Bool} {init : F} {ratio : Nat → F}
    {o : ProverOracle F} (h : AggPoly d ext u idx isLast init ratio o) : Honest d ext o :=
  honest_of_evals hd h.len h.poly rfl (by rw [h.coset, h.poly])

theorem inv_omega_row {d : Domain F} (hd : d.Ok) {i : Nat} (hi : 0 < i) : d.omega⁻¹ * d.omega ^ i = d.omega ^ (i - 1) := by
  obtain ⟨j, rfl⟩ : ∃ j, i = j + 1 := ⟨i - 1, by omega⟩
  rw [Nat.add_sub_cancel, pow_succ', ← mul_assoc, inv_mul_cancel₀ hd.omega_ne_zero, one_mul]

/-- The constraints of a lookup hold on every row. -/
theorem lookup_rows_zero {d ext : Domain F} (hd : d.Ok) {u idx : Nat} (hu0 : 0 < u) {A S : F[X]}
    {l : LookupOracles (ProverOracle F)} {o : ProverOracle F} {beta gamma : F}
    (hb : LookupBuilt d ext u idx A S l) (ha : LookupAgg d ext u idx l beta gamma o) {qBlind : F[X]}
    {w : Nat} (hw : w = u ∨ w = 0) (hq : ∀ i < d.size, u ≤ i → qBlind.eval (d.omega ^ i) = if i = w then 0 else 1)
    {i : Nat} (hi : i < d.size) :
    ∀ x ∈ lookupPolys d w qBlind beta gamma
      (⟨toPoly l.a.poly, toPoly l.s.poly, toPoly l.aPrime.poly, toPoly l.sPrime.poly⟩, toPoly o.poly),
      x.eval (d.omega ^ i) = 0 := by
  intro x hx
  have hx' := List.mem_map_of_mem (f := fun p : F[X] => p.eval (d.omega ^ i)) hx
  rw [eval_lookupPolys] at hx'
  have hou := ha.usable
  rw [rowPoly_eval hd hi hd.size_pos, rowPoly_eval hd hi (by omega)] at hx'
  have hho := (ha.honest hd).1.2
  have ga := hb.aHonest.1.2
  have gs := hb.sHonest.1.2
  have ga' := hb.aPrimeHonest.1.2
  have gs' := hb.sPrimeHonest.1.2
  have hfirst : (toPoly o.poly).eval (d.omega ^ 0) = 1 := by
    have h1 := hho 0 hd.size_pos
    rw [ha.first] at h1
    exact (Option.some.inj h1).symm
  have hlast : (toPoly o.poly).eval (d.omega ^ u) = 1 := by
    have h1 := hho u (by omega)
    rw [ha.last] at h1
    exact (Option.some.inj h1).symm
  simp only [lookupConstraints, List.mem_cons, List.not_mem_nil, or_false] at hx'
  have hcase : ∀ y : F, (i < u → y = 0) →
      (1 - ((if i = w then (1 : F) else 0) + qBlind.eval (d.omega ^ i))) * y = 0 := by
    intro y hy
    rcases Nat.lt_or_ge i u with h | h
    · rw [hy h, mul_zero]
    · rw [hq i hi h]
      by_cases h0 : i = w
      · rw [if_pos h0, if_pos h0]; ring
      · rw [if_neg h0, if_neg h0]; ring
  rcases hx' with h | h | h | h | h
  · rw [h]
    by_cases h0 : i = 0
    · subst h0; rw [hfirst]; ring
    · rw [if_neg h0]; ring
  · rw [h]
    refine hcase _ (fun hlt => ?_)
    obtain ⟨a, s, a', s', z0, z1, e1, e2, e3, e4, e5, e6, e7⟩ := ha.step i hlt
    have e1' := (ga i hi).symm.trans e1
    have e2' := (gs i hi).symm.trans e2
    have e3' := (ga' i hi).symm.trans e3
    have e4' := (gs' i hi).symm.trans e4
    have e5' := (hho i hi).symm.trans e5
    have e6' := (hho (i + 1) (by omega)).symm.trans e6
    rw [← pow_succ']
    simp only [Option.some.inj e1', Option.some.inj e2', Option.some.inj e3', Option.some.inj e4', Option.some.inj e5',
      Option.some.inj e6', e7, sub_self]
  · rw [h]
    by_cases h0 : i = w
    · have h1 : (toPoly o.poly).eval (d.omega ^ i) = 1 := by
        rcases hw with h2 | h2
        · rw [h0, h2]; exact hlast
        · rw [h0, h2]; exact hfirst
      rw [h1]; ring
    · rw [if_neg h0]; ring
  · rw [h]
    by_cases h0 : i = 0
    · subst h0
      rcases hb.rows 0 hu0 with h1 | h1
      · rw [ga' 0 hi, gs' 0 hi] at h1
        simp only [Option.some.inj h1]; ring
      · omega
    · rw [if_neg h0]; ring
  · rw [h, mul_assoc]
    refine hcase _ (fun hlt => ?_)
    rcases hb.rows i hlt with h1 | ⟨h0, h1⟩
    · rw [ga' i hi, gs' i hi] at h1
      simp only [Option.some.inj h1]; ring
    · rw [ga' i hi, ga' (i - 1) (by omega)] at h1
      rw [inv_omega_row hd h0]
      simp only [Option.some.inj h1]; ring

/-- The permutation constraints hold on every row. -/
theorem agg_rows_zero {p : PermutationArgument F} {ws sigmas agg : List (ProverOracle F)} {beta gamma : F} {d ext : Domain F}
    (hd : d.Ok) (hk : 0 < p.maxCols) (hne : ws ≠ []) (hsl : ws.length = sigmas.length) (hdl : ws.length = p.deltas.length)
    (hu : p.usableRows + 1 ≤ d.size)
    (hden : ∀ i < p.usableRows, ∀ t ∈ List.zip (List.zip ws sigmas) p.deltas, (rowCol d i t).den beta gamma ≠ 0)
    (hspec : AggSpec p beta gamma d ext (List.zip (List.zip ws sigmas) p.deltas) agg)
    (hone : fullRatio beta gamma d p.usableRows (List.zip (List.zip ws sigmas) p.deltas) = 1)
    (hw : ∀ o ∈ ws, Interpolates d o) (hs : ∀ o ∈ sigmas, Interpolates d o) {c : CircuitPolys F}
    (hcw : c.ws = ws.map (fun o => toPoly o.poly)) (hcs : c.sigmas = sigmas.map (fun o => toPoly o.poly))
    (hcz : c.zs = agg.map (fun o => toPoly o.poly))
    (hq : ∀ i < d.size, c.qBlind.eval (d.omega ^ i) = blinding p.usableRows i) {i : Nat} (hi : i < d.size) :
    ∀ x ∈ c.permutation d p beta gamma, x.eval (d.omega ^ i) = 0 := by
  intro x hx
  have hx' := List.mem_map_of_mem (f := fun p : F[X] => p.eval (d.omega ^ i)) hx
  have hcne : c.ws ≠ [] := by rw [hcw]; simpa using hne
  rw [CircuitPolys.eval_permutation _ _ _ _ _ _ hcne, rowPoly_eval hd hi hd.size_pos, rowPoly_eval hd hi (by omega),
    hq i hi] at hx'
  have hzg : ∀ (j : Nat) (o : ProverOracle F), agg[j]? = some o → c.zs.getD j 0 = toPoly o.poly := by
    intro j o ho
    rw [hcz, List.getD_eq_getElem?_getD, List.getElem?_map, ho]; rfl
  have hcols : (chunks p.maxCols (List.zip (List.zip c.ws c.sigmas) p.deltas)).map
      (List.map (fun t => (⟨t.1.1.eval (d.omega ^ i), t.1.2.eval (d.omega ^ i), t.2 * d.omega ^ i⟩ : PermCol F)))
      = (chunks p.maxCols (List.zip (List.zip ws sigmas) p.deltas)).map (List.map (rowCol d i)) := by
    have e1 : List.zip (List.zip c.ws c.sigmas) p.deltas
        = (List.zip (List.zip ws sigmas) p.deltas).map (fun t => ((toPoly t.1.1.poly, toPoly t.1.2.poly), t.2)) := by
      rw [hcw, hcs, List.zip_map, List.zip_map_left]; rfl
    rw [e1, chunks_map hk, List.map_map]
    apply List.map_congr_left
    intro ch hch
    rw [Function.comp_apply, List.map_map]
    apply List.map_congr_left
    intro t ht
    have hmem : t ∈ List.zip (List.zip ws sigmas) p.deltas := by
      rw [← chunks_flatten hk (List.zip (List.zip ws sigmas) p.deltas)]
      exact List.mem_flatten.2 ⟨ch, hch, ht⟩
    have m1 := (List.of_mem_zip (a := t.1) (b := t.2) hmem).1
    have m2 := List.of_mem_zip (a := t.1.1) (b := t.1.2) m1
    have v1 := (hw _ m2.1).2 i hi
    have v2 := (hs _ m2.2).2 i hi
    simp only [Function.comp_apply, rowCol, List.getD_eq_getElem?_getD, v1, v2, Option.getD_some, Domain.element]
  rw [hcols] at hx'
  refine AggSpec.rows_zero hk hspec ?_ hden hone i (fun j i => (c.zs.getD j 0).eval (d.omega ^ i)) ?_ _ _ ?_ ?_ _ hx'
  · intro h0
    have h3 := congrArg List.length h0
    simp only [List.length_zip, List.length_nil, ← hsl, ← hdl, Nat.min_self] at h3
    exact hne (List.length_eq_zero_iff.1 h3)
  · intro j o ho k hk'
    have hj : j < (chunks p.maxCols (List.zip (List.zip ws sigmas) p.deltas)).length := by
      rw [← hspec.len]
      exact (List.getElem?_eq_some_iff.1 ho).1
    have hh := ((hspec.each j o _ ho (List.getElem?_eq_getElem hj)).honest hd).1.2 k (by omega)
    rw [hh, hzg j o ho]
  · intro _ j _
    rw [← pow_succ']
  · intro h0 j _
    subst h0
    simp

end
end
end ZK
