import Verif.Model.ProductTest
import Verif.Spec.ArgumentTest
import Verif.Lemmas.LookupTest
import Verif.Lemmas.Outcome
/-! What the test of one grand product computes. -/
set_option autoImplicit false
set_option linter.unusedSectionVars false
namespace ZK
open Polynomial
section
variable {F : Type} [Field F] [FftParams F] [LawfulFft F] [LinearOrder F]

/-- Dividing a multiple of the vanishing polynomial leaves no remainder. -/
theorem pdiv_vanishing_ok {ε : Type} {d ext : Domain F} (hd : d.Ok) (he : ext.Ok) {N : F[X]}
    (hdvd : (X ^ d.size - 1 : F[X]) ∣ N) (hdeg : N.natDegree < ext.size) :
    ∃ q, (pdiv (trim (ext.cosetIfft ((List.range ext.size).map (fun i => N.eval ((FftParams.gen : F) * ext.element i))))) d.vanishing
        : Res ε (List F)) = .ok q ∧
      trim (ext.cosetIfft ((List.range ext.size).map (fun i => N.eval ((FftParams.gen : F) * ext.element i))))
        = trim (pmul q d.vanishing) ∧
      ∀ x, N.eval x = peval q x * peval d.vanishing x := by
  have hnum : toPoly (ext.cosetIfft ((List.range ext.size).map (fun i => N.eval ((FftParams.gen : F) * ext.element i)))) = N := by
    refine he.toPoly_cosetIfft (q := N) (by simp) ?_ ?_
    · exact lt_of_le_of_lt degree_le_natDegree (by exact_mod_cast hdeg)
    · intro i hi
      simp
  have hcheck := divisionCheck_ok (ε := ε) hd he hdvd hdeg
  unfold divisionCheck at hcheck
  simp only [Res.bind_eq_ok, Res.assert_eq_ok, decide_eq_true_eq] at hcheck
  obtain ⟨q, h1, h2⟩ := hcheck
  refine ⟨q, h1, h2, fun x => ?_⟩
  have h3 : N = toPoly q * toPoly d.vanishing := by
    rw [← toPoly_pmul, ← toPoly_trim (pmul q d.vanishing), ← h2, toPoly_trim, hnum]
  rw [← eval_toPoly, ← eval_toPoly, ← eval_mul, ← h3]

/-- The constraint of one grand product. -/
noncomputable def gpPoly (d : Domain F) (u : Nat) (qBlind z : F[X]) (cols : List ((ProverOracle F × ProverOracle F) × F))
    (beta gamma : F) : F[X] :=
  (1 - (rowPoly d u + qBlind)) *
    (shifted d z .next * (cols.map (fun t => toPoly t.1.1.poly + C beta * toPoly t.1.2.poly + C gamma)).prod
      - z * (cols.map (fun t => toPoly t.1.1.poly + C beta * (C t.2 * X) + C gamma)).prod)

theorem gpPoly_eval (d : Domain F) (u : Nat) (qBlind z : F[X]) (cols : List ((ProverOracle F × ProverOracle F) × F))
    (beta gamma x : F) : (gpPoly d u qBlind z cols beta gamma).eval x =
      (1 - ((rowPoly d u).eval x + qBlind.eval x)) *
        (z.eval (d.omega * x) * (cols.map (fun t => (toPoly t.1.1.poly).eval x + beta * (toPoly t.1.2.poly).eval x + gamma)).prod
          - z.eval x * (cols.map (fun t => (toPoly t.1.1.poly).eval x + beta * (t.2 * x) + gamma)).prod) := by
  unfold gpPoly
  rw [eval_mul, eval_sub, eval_sub, eval_mul, eval_mul, eval_add, eval_one, shifted_next_eval, eval_list_prod, eval_list_prod, List.map_map,
    List.map_map]
  simp [Function.comp_def]

/-- The degree of the constraint of one grand product. -/
theorem gpPoly_natDegree {d : Domain F} (hd : d.Ok) (hn : 1 < d.size) {u : Nat} (hu : u < d.size) {qBlind z : F[X]}
    {cols : List ((ProverOracle F × ProverOracle F) × F)} (hq : qBlind.natDegree ≤ d.size - 1) (hz : z.natDegree ≤ d.size - 1)
    (hc : ∀ t ∈ cols, (toPoly t.1.1.poly).natDegree ≤ d.size - 1 ∧ (toPoly t.1.2.poly).natDegree ≤ d.size - 1) (beta gamma : F) :
    (gpPoly d u qBlind z cols beta gamma).natDegree ≤ (cols.length + 2) * (d.size - 1) := by
  have h1 : (cols.map (fun t : (ProverOracle F × ProverOracle F) × F => toPoly t.1.1.poly + C beta * toPoly t.1.2.poly + C gamma)).prod.natDegree
      ≤ cols.length * (d.size - 1) := by
    refine natDegree_list_prod_le _ _ fun t ht => ?_
    exact natDegree_add_le'' (natDegree_add_le'' (hc t ht).1 (natDegree_mul_le' (natDegree_C _).le (hc t ht).2 (Nat.zero_add _).le)) (by simp)
  have h2 : (cols.map (fun t : (ProverOracle F × ProverOracle F) × F => toPoly t.1.1.poly + C beta * (C t.2 * X) + C gamma)).prod.natDegree
      ≤ cols.length * (d.size - 1) := by
    refine natDegree_list_prod_le _ _ fun t ht => ?_
    refine natDegree_add_le'' (natDegree_add_le'' (hc t ht).1 (natDegree_mul_le' (natDegree_C _).le (b := 1) ?_ (by omega))) (by simp)
    exact natDegree_mul_le' (natDegree_C _).le natDegree_X_le (by omega)
  have hs : (cols.length + 2) * (d.size - 1) = (d.size - 1) + ((d.size - 1) + cols.length * (d.size - 1)) := by ring
  rw [hs]
  refine natDegree_mul_le' (natDegree_one_sub (natDegree_rowPoly hd hu) hq) (natDegree_sub_le' ?_ ?_) le_rfl
  · exact natDegree_mul_le' ((natDegree_shifted_le _ _ _).trans hz) h1 le_rfl
  · exact natDegree_mul_le' hz h2 le_rfl

/-- The grand product that has been constructed meets the constraint on all rows. -/
theorem gpPoly_rows {d ext : Domain F} (hd : d.Ok) {u : Nat} (hu : u < d.size) {qBlind : F[X]}
    (hq : ∀ i < d.size, qBlind.eval (d.omega ^ i) = blinding u i) {o : ProverOracle F}
    {cols : List ((ProverOracle F × ProverOracle F) × F)} {beta gamma : F} {idx : Nat} {isLast : Bool} {init : F}
    (ho : AggPoly d ext u idx isLast init (chunkRatio beta gamma d cols) o)
    (hc : ∀ t ∈ cols, Interpolates d t.1.1 ∧ Interpolates d t.1.2)
    (hden : ∀ i < u, ∀ t ∈ cols, (rowCol d i t).den beta gamma ≠ 0) {i : Nat} (hi : i < d.size) :
    (gpPoly d u qBlind (toPoly o.poly) cols beta gamma).eval (d.element i) = 0 := by
  rw [gpPoly_eval, Domain.element, rowPoly_eval hd hi hu, hq i hi]
  rcases lt_trichotomy i u with h | h | h
  · have hrow : ∀ (p : ProverOracle F), Interpolates d p → p.evals.getD i 0 = (toPoly p.poly).eval (d.omega ^ i) := by
      intro p hp
      rw [List.getD_eq_getElem?_getD, hp.2 i hi]
      rfl
    have hz : ∀ j ≤ u, (toPoly o.poly).eval (d.omega ^ j) = init * ((List.range j).map (chunkRatio beta gamma d cols)).prod := by
      intro j hj
      exact Option.some.inj (((ho.honest hd).1.2 j (by omega)).symm.trans (ho.rows j hj))
    have hden' : (cols.map (fun t => (rowCol d i t).den beta gamma)).prod ≠ 0 := by
      intro h0
      obtain ⟨t, ht, h0⟩ := List.mem_map.1 (List.prod_eq_zero_iff.1 h0)
      exact hden i h t ht h0
    have e1 : cols.map (fun t => (toPoly t.1.1.poly).eval (d.omega ^ i) + beta * (toPoly t.1.2.poly).eval (d.omega ^ i) + gamma)
        = cols.map (fun t => (rowCol d i t).den beta gamma) := by
      refine List.map_congr_left fun t ht => ?_
      simp only [rowCol, PermCol.den, hrow _ (hc t ht).1, hrow _ (hc t ht).2]
    have e2 : cols.map (fun t => (toPoly t.1.1.poly).eval (d.omega ^ i) + beta * (t.2 * d.omega ^ i) + gamma)
        = cols.map (fun t => (rowCol d i t).num beta gamma) := by
      refine List.map_congr_left fun t ht => ?_
      simp only [rowCol, PermCol.num, hrow _ (hc t ht).1, Domain.element]
    rw [e1, e2, show d.omega * d.omega ^ i = d.omega ^ (i + 1) by ring, hz (i + 1) h, hz i h.le, List.range_succ, List.map_append,
      List.prod_append, List.map_singleton, List.prod_singleton, chunkRatio]
    field_simp
    ring
  · rw [if_pos h, blinding, if_pos h.le]
    ring
  · rw [if_neg h.ne', blinding, if_neg (by omega)]
    ring

/-- The value of the argument on the coset. -/
theorem gpInstantiate_eq {qLast : List F} {qBlind z : ProverOracle F} {sigmas ws : List (ProverOracle F)} {deltas : List F}
    {beta gamma omega : F} {i : Nat} {ql qb a b : F} {W : ProverOracle F → F} (hql : qLast[i]? = some ql)
    (hqb : qBlind.queryInCoset i .curr = .ok qb) (ha : z.queryInCoset i .next = .ok a) (hb : z.queryInCoset i .curr = .ok b)
    (hw : ∀ o ∈ ws, o.queryInCoset i .curr = .ok (W o)) (hs : ∀ o ∈ sigmas, o.queryInCoset i .curr = .ok (W o)) :
    gpInstantiate qLast qBlind z sigmas ws deltas beta gamma omega i =
      .ok ((1 - (ql + qb)) *
        (a * ((List.zip (List.zip ws sigmas) deltas).map (fun t => W t.1.1 + beta * W t.1.2 + gamma)).prod
          - b * ((List.zip (List.zip ws sigmas) deltas).map
            (fun t => W t.1.1 + beta * (t.2 * (FftParams.gen * omega)) + gamma)).prod)) := by
  unfold gpInstantiate
  simp only [Res.idx_of_some hql, Res.bind_ok, hqb, ha, hb]
  rw [Res.foldM_mul (g := fun t : (ProverOracle F × ProverOracle F) × F => W t.1.1 + beta * W t.1.2 + gamma)
    (k := fun t => W t.1.1 + beta * (t.2 * (FftParams.gen * omega)) + gamma)]
  · rfl
  · intro b' t ht
    have h1 := (List.of_mem_zip (a := t.1) (b := t.2) ht).1
    have h2 := List.of_mem_zip (a := t.1.1) (b := t.1.2) h1
    rw [hw _ h2.1, hs _ h2.2]
    simp [mul_assoc]

/-- The value of the argument at the point. -/
theorem gpOpen_eq {D : Type} {qLastEval : F} {qBlind z : VerifierOracle F D} {sigmas ws : List (ProverOracle F)} {deltas : List F}
    {beta gamma x : F} {d : Domain F} {qb a b : F} {f : ProverOracle F → VerifierOracle F D} {W : ProverOracle F → F}
    (hqb : qBlind.query x = .ok qb) (ha : z.query (d.element 1 * x) = .ok a) (hb : z.query x = .ok b)
    (hf : ∀ o, (f o).query x = .ok (W o)) :
    gpOpen qLastEval qBlind z (sigmas.map f) (ws.map f) deltas beta gamma d x =
      .ok ((1 - (qLastEval + qb)) *
        (a * ((List.zip (List.zip ws sigmas) deltas).map (fun t => W t.1.1 + beta * W t.1.2 + gamma)).prod
          - b * ((List.zip (List.zip ws sigmas) deltas).map (fun t => W t.1.1 + beta * (t.2 * x) + gamma)).prod)) := by
  have hz : List.zip (List.zip (ws.map f) (sigmas.map f)) deltas
      = (List.zip (List.zip ws sigmas) deltas).map (fun t => ((f t.1.1, f t.1.2), t.2)) := by
    rw [List.zip_map, List.zip_map_left]
    rfl
  unfold gpOpen
  simp only [Res.bind_ok, hqb, ha, hb]
  rw [hz, Res.foldM_map, Res.foldM_mul (g := fun t : (ProverOracle F × ProverOracle F) × F => W t.1.1 + beta * W t.1.2 + gamma)
    (k := fun t => W t.1.1 + beta * (t.2 * x) + gamma)]
  · rfl
  · intro b' t _
    simp [hf, mul_assoc]

set_option maxHeartbeats 1000000 in
/-- The test passes once the product computed by hand has closed. -/
theorem productChecks_ok {Z : Type} (D : Type) {t : PermutationTest F} {d ext : Domain F} {beta gamma : F} {zPoly : List F} (hd : d.Ok) (he : ext.Ok)
    (hle : d.size ≤ ext.size) (hn : 1 < d.size) (ht : t.Wellformed d.size)
    {ws sigmas : List (ProverOracle F)} (hws : ws = t.columns.map (testOracle d ext .witness true))
    (hsig : sigmas = t.sigmas.map (testOracle d ext .fixed false))
    (hden : ∀ i < t.u, ∀ c ∈ List.zip (List.zip ws sigmas) t.deltas, (rowCol d i c).den beta gamma ≠ 0)
    (hzp : ∀ i ≤ t.u, peval zPoly (d.element i)
      = ((List.range i).map (chunkRatio beta gamma d (List.zip (List.zip ws sigmas) t.deltas))).prod)
    (hdeg : (t.columns.length + 2) * (d.size - 1) < ext.size) (next : Z → F × Z) (z : Z) :
    productChecks D t d ext zPoly beta gamma next z = .ok () := by
  obtain ⟨hsize, -, hsl, hdl, hcr, hsr, hu, -⟩ := ht
  obtain ⟨lu, hlu, hlul, hlup⟩ := lagrangeRow_eq (ε := PiopErr) hd (i := t.u) hu
  have hwH : ∀ o ∈ ws, Honest d ext o := by
    intro o ho
    rw [hws] at ho
    obtain ⟨c, hc, rfl⟩ := List.mem_map.1 ho
    exact testOracle_honest hd (hcr c hc)
  have hsH : ∀ o ∈ sigmas, Honest d ext o := by
    intro o ho
    rw [hsig] at ho
    obtain ⟨c, hc, rfl⟩ := List.mem_map.1 ho
    exact testOracle_honest hd (hsr c hc)
  obtain ⟨qB, hqB⟩ : ∃ qB, qB = testOracle d ext .fixed false (bytes "q_blind", testBlinding (F := F) d.size t.u) := ⟨_, rfl⟩
  have hqH : Honest d ext qB := by rw [hqB]; exact testOracle_honest hd (by simp [testBlinding])
  obtain ⟨o, hcon, hagg, -⟩ := gpConstruct_ok (ε := PiopErr) next 0 true 1 sigmas ws t.deltas beta gamma t.u d ext z hu
    (fun o ho => by rw [(hwH o ho).1.1]; exact hu.le) (fun o ho => by rw [(hsH o ho).1.1]; exact hu.le) hden
  obtain ⟨z', hz'⟩ : ∃ z', z' = (drawN next (d.size - 1 - t.u) z).2 := ⟨_, rfl⟩
  rw [← hz'] at hcon
  have hoH : Honest d ext o := hagg.honest hd
  obtain ⟨cols, hcols⟩ : ∃ cols, cols = List.zip (List.zip ws sigmas) t.deltas := ⟨_, rfl⟩
  have hmem : ∀ c ∈ cols, c.1.1 ∈ ws ∧ c.1.2 ∈ sigmas := by
    intro c hc
    rw [hcols] at hc
    exact List.of_mem_zip (a := c.1.1) (b := c.1.2) (List.of_mem_zip (a := c.1) (b := c.2) hc).1
  obtain ⟨N, hN⟩ : ∃ N, N = gpPoly d t.u (toPoly qB.poly) (toPoly o.poly) cols beta gamma := ⟨_, rfl⟩
  rw [← hcols] at hden hzp hagg
  have hdvd : (X ^ d.size - 1 : F[X]) ∣ N := by
    refine hd.dvd_of_rows fun i hi => ?_
    rw [hN]
    exact gpPoly_rows hd hu (fun i hi => by rw [hqB]; exact testBlinding_eval hd _ hi) hagg
      (fun c hc => ⟨(hwH _ (hmem c hc).1).1, (hsH _ (hmem c hc).2).1⟩) hden hi
  have hNdeg : N.natDegree < ext.size := by
    rw [hN]
    refine lt_of_le_of_lt (gpPoly_natDegree hd hn hu (natDegree_toPoly_pred hqH.2.1) (natDegree_toPoly_pred hoH.2.1)
      (fun c hc => ⟨natDegree_toPoly_pred (hwH _ (hmem c hc).1).2.1, natDegree_toPoly_pred (hsH _ (hmem c hc).2).2.1⟩) beta gamma) ?_
    rwa [show cols.length = t.columns.length by rw [hcols, hws, hsig]; simp [hsl, hdl]]
  have hsame : Res.mapM (ε := PiopErr) (fun i => Res.assert (decide (peval o.poly (d.element i) = peval zPoly (d.element i))))
      (List.range (t.u + 1)) = .ok ((List.range (t.u + 1)).map fun _ => ()) := by
    refine Res.mapM_ok_map fun i hi => ?_
    have hi' : i ≤ t.u := Nat.lt_succ_iff.1 (List.mem_range.1 hi)
    rw [decide_eq_true]
    · rfl
    · rw [hzp i hi', ← eval_toPoly]
      have h1 := Option.some.inj ((hoH.1.2 i (by omega)).symm.trans (hagg.rows i hi'))
      rw [one_mul] at h1
      exact h1
  have hnums : Res.mapM (ε := PiopErr) (fun i => (gpInstantiate (ext.cosetFft lu) qB o sigmas ws t.deltas beta gamma
      (ext.element i) i).expect) (List.range ext.size)
      = .ok ((List.range ext.size).map (fun i => N.eval ((FftParams.gen : F) * ext.element i))) := by
    refine Res.mapM_ok_map fun i hi => ?_
    replace hi := List.mem_range.1 hi
    obtain ⟨x, hx⟩ : ∃ x, x = (FftParams.gen : F) * ext.element i := ⟨_, rfl⟩
    have hcurr : ∀ o : ProverOracle F, Honest d ext o → o.queryInCoset i .curr = .ok ((toPoly o.poly).eval x) := by
      intro o ho
      rw [hx, ho.coset hd he hle hi (by simpa [Rotation.curr] using hd.size_pos), shifted_curr _ _ _ rfl]
    have hnext : o.queryInCoset i .next = .ok ((toPoly o.poly).eval (d.omega * x)) := by
      rw [hx, hoH.coset hd he hle hi (by simpa [Rotation.next] using hn), shifted_next_eval]
    have hcu : (ext.cosetFft lu)[i]? = some ((rowPoly d t.u).eval x) := by
      rw [hx, Domain.cosetFft_get _ (hlul.trans hle) i hi, ← eval_toPoly, hlup]
    rw [gpInstantiate_eq (W := fun o => (toPoly o.poly).eval x) hcu (hcurr qB hqH) hnext (hcurr o hoH)
      (fun o ho => hcurr o (hwH o ho)) (fun o ho => hcurr o (hsH o ho)), ← hcols, ← hx, hN, gpPoly_eval]
    rfl
  obtain ⟨q, hq, hqm, hqv⟩ := pdiv_vanishing_ok (ε := PiopErr) hd he hdvd hNdeg
  have hopen : ∀ xi : F, gpOpen (C := D) (peval lu xi) (testColumn xi qB)
      (testVerifierOracle .witness (bytes "agg_permutation_0") [Rotation.curr, Rotation.next] false o.poly [xi, d.element 1 * xi])
      (sigmas.map (testColumn xi)) (ws.map (testColumn xi)) t.deltas beta gamma d xi = .ok (N.eval xi) := by
    intro xi
    have hcol : ∀ o : ProverOracle F, (testColumn (C := D) xi o).query xi = .ok ((toPoly o.poly).eval xi) := by
      intro o
      rw [eval_toPoly]
      exact testVerifierOracle_query _ _ _ _ _ _ (by simp)
    have hω : d.element 1 = d.omega := by simp [Domain.element]
    rw [gpOpen_eq (W := fun o => (toPoly o.poly).eval xi) (a := (toPoly o.poly).eval (d.omega * xi)) (b := (toPoly o.poly).eval xi)
      (hcol qB) (by rw [eval_toPoly, ← hω]; exact testVerifierOracle_query _ _ _ _ _ _ (by simp))
      (by rw [eval_toPoly]; exact testVerifierOracle_query _ _ _ _ _ _ (by simp)) hcol, ← hcols, hN, gpPoly_eval, ← eval_toPoly, hlup]
  unfold productChecks
  rw [hsize, ← hws, ← hsig, ← hqB]
  simp only [hlu, Res.bind_ok, hcon, hsame, hnums, hq]
  rw [decide_eq_true hqm]
  simp only [Res.assert_true, Res.bind_ok, hopen]
  show Res.assert (decide _) = _
  rw [decide_eq_true (hqv _)]
  rfl

/-- The sanity check holds on every row. -/
theorem productSanity_ok {ε : Type} {t : PermutationTest F} {d ext : Domain F} {beta gamma : F} {zEvals : List F} (ht : t.Wellformed d.size)
    {ws sigmas : List (ProverOracle F)} (hws : ws = t.columns.map (testOracle d ext .witness true))
    (hsig : sigmas = t.sigmas.map (testOracle d ext .fixed false))
    (hden : ∀ i < t.u, ∀ c ∈ List.zip (List.zip ws sigmas) t.deltas, (rowCol d i c).den beta gamma ≠ 0)
    (hlen : zEvals.length = d.size + 1)
    (hz : ∀ i ≤ t.u, zEvals[i]? = some (((List.range i).map (chunkRatio beta gamma d (List.zip (List.zip ws sigmas) t.deltas))).prod))
    {i : Nat} (hi : i < d.size) : productSanity (ε := ε) t d zEvals beta gamma i = .ok () := by
  obtain ⟨hsize, -, hsl, hdl, hcr, hsr, hu, -⟩ := ht
  obtain ⟨cols, hcols⟩ : ∃ cols, cols = List.zip (List.zip ws sigmas) t.deltas := ⟨_, rfl⟩
  rw [← hcols] at hden hz
  have hzip : List.zip (List.zip (t.columns.map (·.2)) (t.sigmas.map (·.2))) t.deltas
      = cols.map (fun c => ((c.1.1.evals, c.1.2.evals), c.2)) := by
    rw [hcols, hws, hsig, List.zip_map, List.zip_map, List.zip_map_left, List.zip_map_left, List.map_map]
    rfl
  have hmem : ∀ c ∈ cols, c.1.1.evals.length = d.size ∧ c.1.2.evals.length = d.size := by
    intro c hc
    rw [hcols] at hc
    obtain ⟨h1, h2⟩ := List.of_mem_zip (a := c.1.1) (b := c.1.2) (List.of_mem_zip (a := c.1) (b := c.2) hc).1
    rw [hws] at h1
    rw [hsig] at h2
    obtain ⟨x, hx, h1⟩ := List.mem_map.1 h1
    obtain ⟨y, hy, h2⟩ := List.mem_map.1 h2
    rw [← h1, ← h2]
    exact ⟨hcr x hx, hsr y hy⟩
  unfold productSanity
  rw [hsize, unitVec, if_pos hu, Res.idx_of_lt (l := testBlinding d.size t.u) (i := i) (by simpa [testBlinding] using hi), Res.bind_ok,
    Res.bind_ok, Res.idx_of_lt (l := (List.range d.size).map (fun j => if j = t.u then (1 : F) else 0)) (i := i) (by simpa using hi),
    Res.bind_ok, Res.idx_of_lt (l := zEvals) (i := i + 1) (by omega), Res.bind_ok, Res.idx_of_lt (l := zEvals) (i := i) (by omega),
    Res.bind_ok, hzip, Res.foldM_map, Res.foldM_mul (g := fun c => (rowCol d i c).den beta gamma) (k := fun c => (rowCol d i c).num beta gamma)]
  · rw [Res.bind_ok, decide_eq_true]
    · rfl
    · simp only [testBlinding, List.getElem_map, List.getElem_range]
      rcases lt_trichotomy i t.u with h | h | h
      · have h0 := hz i h.le
        have h1 := hz (i + 1) h
        rw [List.getElem?_eq_getElem (by omega)] at h0 h1
        have hden' : (cols.map (fun t => (rowCol d i t).den beta gamma)).prod ≠ 0 := by
          intro h0
          obtain ⟨c, hc, h0⟩ := List.mem_map.1 (List.prod_eq_zero_iff.1 h0)
          exact hden i h c hc h0
        rw [Option.some.inj h0, Option.some.inj h1, List.range_succ, List.map_append, List.prod_append, List.map_singleton,
          List.prod_singleton, chunkRatio]
        field_simp
        ring
      · rw [if_pos (by omega), if_pos h]
        ring
      · rw [if_neg (by omega), if_neg (by omega)]
        ring
  · intro b c hc
    obtain ⟨h1, h2⟩ := hmem c hc
    simp only
    rw [Res.idx_of_lt (l := c.1.1.evals) (i := i) (by omega), Res.bind_ok, Res.idx_of_lt (l := c.1.2.evals) (i := i) (by omega), Res.bind_ok]
    have e1 : c.1.1.evals.getD i 0 = c.1.1.evals[i]'(by omega) := by simp [List.getD_eq_getElem?_getD, show i < c.1.1.evals.length by omega]
    have e2 : c.1.2.evals.getD i 0 = c.1.2.evals[i]'(by omega) := by simp [List.getD_eq_getElem?_getD, show i < c.1.2.evals.length by omega]
    simp only [rowCol, PermCol.den, PermCol.num, e1, e2, mul_assoc]
    rfl

end
end ZK
