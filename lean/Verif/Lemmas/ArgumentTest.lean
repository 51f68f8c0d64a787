import Verif.Model.ArgumentTest
import Verif.Lemmas.Rounds
import Verif.Properties.Quotient
/-! What the tests of one argument compute. -/
set_option autoImplicit false
set_option linter.unusedSectionVars false
namespace ZK
open Polynomial
section
variable {F : Type} [Field F] [FftParams F] [LawfulFft F] [LinearOrder F]

/-- The quotient computed on the coset is the quotient. -/
theorem testQuotient_ok {ε : Type} {d ext : Domain F} (hd : d.Ok) (he : ext.Ok) (hlt : d.size < ext.size) {N : F[X]}
    (hdvd : (X ^ d.size - 1 : F[X]) ∣ N) (hdeg : N.natDegree < ext.size + d.size) :
    ∃ q, testQuotient (ε := ε) ext d.size ((List.range ext.size).map
        (fun i => N.eval ((FftParams.gen : F) * ext.element i))) = .ok q ∧
      ∀ x, peval q x * peval d.vanishing x = N.eval x := by
  obtain ⟨Q, rfl⟩ := hdvd
  unfold testQuotient
  simp only [vanishingOverCoset, hlt, if_true, Res.bind_ok]
  refine ⟨_, rfl, fun x => ?_⟩
  rw [← eval_toPoly, ← eval_toPoly, toPoly_vanishing d hd.size_pos, toPoly_trim,
    he.toPoly_cosetIfft (q := Q) (by simp), eval_mul, mul_comm]
  · have hm : (X ^ d.size - 1 : F[X]).Monic := monic_X_pow_sub_C 1 hd.size_pos.ne'
    have hn : (X ^ d.size - 1 : F[X]).natDegree = d.size := natDegree_X_pow_sub_C (r := (1 : F))
    by_cases h0 : Q = 0
    · rw [h0, degree_zero]; exact WithBot.bot_lt_coe _
    · rw [hm.natDegree_mul' h0, hn] at hdeg
      rw [degree_eq_natDegree h0]
      exact_mod_cast (by omega : Q.natDegree < ext.size)
  · intro i hi
    have hne := hd.coset_pow_ne he i
    simp only [List.getElem_zipWith, List.getElem_map, List.getElem_range, eval_mul, eval_sub, eval_pow, eval_X, eval_one]
    rw [show (FftParams.gen : F) ^ d.size * ext.element 1 ^ (d.size * i) = ((FftParams.gen : F) * ext.element i) ^ d.size by
      rw [mul_pow, Domain.element, Domain.element, pow_one, ← pow_mul, mul_comm i]]
    rw [mul_comm, ← mul_assoc, inv_mul_cancel₀ (sub_ne_zero.2 hne), one_mul]

/-- An oracle written down from its values. -/
theorem testOracle_honest {d ext : Domain F} (hd : d.Ok) {kind : OracleType} {copied : Bool} {c : Label × List F}
    (hc : c.2.length = d.size) : Honest d ext (testOracle d ext kind copied c) :=
  honest_of_evals hd hc rfl rfl rfl

theorem testVerifierOracle_query {C : Type} (kind : OracleType) (label : Label) (rots : List Rotation) (copied : Bool)
    (poly points : List F) {x : F} (hx : x ∈ points) :
    (testVerifierOracle (C := C) kind label rots copied poly points).query x = .ok (peval poly x) := by
  have : ∀ l : List F, x ∈ l → assocGet x (l.map (fun y => (y, peval poly y))) = some (peval poly x) := by
    intro l hl
    induction l with
    | nil => cases hl
    | cons y l ih =>
      by_cases h : y = x
      · subst h; simp [assocGet]
      · rcases List.mem_cons.1 hl with h' | h'
        · exact absurd h'.symm h
        · simpa [assocGet, h, Ne.symm h] using ih h'
  unfold VerifierOracle.query testVerifierOracle
  simp only
  rw [← List.map_reverse, this _ (List.mem_reverse.2 hx)]

theorem testBlinding_eval {d ext : Domain F} (hd : d.Ok) (u : Nat) {i : Nat} (hi : i < d.size) :
    (toPoly (testOracle d ext .fixed false (bytes "q_blind", testBlinding d.size u)).poly).eval (d.omega ^ i)
      = blinding u i := by
  have h := (testOracle_honest (ext := ext) hd (kind := .fixed) (copied := false)
    (c := (bytes "q_blind", testBlinding (F := F) d.size u)) (by simp [testBlinding])).1.2 i hi
  have h2 : (testOracle d ext .fixed false (bytes "q_blind", testBlinding d.size u)).evals[i]?
      = some (blinding (F := F) u i) := by
    simp only [testOracle, testBlinding, List.getElem?_map, List.getElem?_range hi, Option.map_some, blinding]
    congr 1
    by_cases h : i ≤ u
    · rw [if_pos h, if_pos (by omega)]
    · rw [if_neg h, if_neg (by omega)]
  exact Option.some.inj (h.symm.trans h2)

theorem weighted_map_eval (as : List F) (ps : List F[X]) (x : F) :
    (weighted (as.map C) ps).eval x = weighted as (ps.map (·.eval x)) := by
  unfold weighted
  induction as generalizing ps with
  | nil => simp
  | cons a as ih =>
    cases ps with
    | nil => simp
    | cons p ps => simpa using ih ps

theorem weighted_natDegree {as : List F} {ps : List F[X]} {B : Nat} (h : ∀ p ∈ ps, p.natDegree ≤ B) :
    (weighted (as.map C) ps).natDegree ≤ B := by
  unfold weighted
  induction as generalizing ps with
  | nil => simp
  | cons a as ih =>
    cases ps with
    | nil => simp
    | cons p ps =>
      simp only [List.map_cons, List.zipWith_cons_cons, List.sum_cons]
      exact natDegree_add_le'' ((natDegree_C_mul_le _ _).trans (h p (by simp))) (ih fun q hq => h q (by simp [hq]))

/-- The polynomials of a test of the permutation argument. -/
noncomputable def testPolys (qBlind : ProverOracle F) (ws sigmas agg : List (ProverOracle F)) : CircuitPolys F where
  gates := [0]
  ws := ws.map (fun o => toPoly o.poly)
  sigmas := sigmas.map (fun o => toPoly o.poly)
  zs := agg.map (fun o => toPoly o.poly)
  lookups := []
  qBlind := toPoly qBlind.poly

theorem natDegree_toPoly_pred {l : List F} {n : Nat} (h : l.length ≤ n) : (toPoly l).natDegree ≤ n - 1 := by
  by_cases h0 : toPoly l = 0
  · simp [h0]
  · have h1 := degree_toPoly_lt l
    rw [degree_eq_natDegree h0] at h1
    have h2 : (toPoly l).natDegree < l.length := by exact_mod_cast h1
    omega

set_option maxHeartbeats 1000000 in
/-- The test passes once the grand products have been constructed. -/
theorem permutationChecks_ok (C : Type) {t : PermutationTest F} {p : PermutationArgument F} {d ext : Domain F}
    {ws sigmas agg : List (ProverOracle F)} {beta gamma : F} (hd : d.Ok) (he : ext.Ok) (hlt : d.size < ext.size)
    (hn : 1 < d.size) (hsize : t.size = d.size) (hu' : t.u = p.usableRows)
    (hk : 0 < p.maxCols) (hne : ws ≠ []) (hsl : ws.length = sigmas.length) (hdl : ws.length = p.deltas.length)
    (hu : p.usableRows + 1 ≤ d.size)
    (hden : ∀ i < p.usableRows, ∀ t ∈ List.zip (List.zip ws sigmas) p.deltas, (rowCol d i t).den beta gamma ≠ 0)
    (hspec : AggSpec p beta gamma d ext (List.zip (List.zip ws sigmas) p.deltas) agg)
    (hone : fullRatio beta gamma d p.usableRows (List.zip (List.zip ws sigmas) p.deltas) = 1)
    (hw : ∀ o ∈ ws, Honest d ext o) (hs : ∀ o ∈ sigmas, Honest d ext o)
    (hdeg : (p.maxCols + 2) * (d.size - 1) < ext.size + d.size) (alpha xi : F) :
    permutationChecks C t p d ext ws sigmas agg beta gamma alpha xi = .ok () := by
  obtain ⟨l0, hl0, hl0l, hl0p⟩ := lagrangeRow_eq (ε := PiopErr) hd hd.size_pos
  obtain ⟨lu, hlu, hlul, hlup⟩ := lagrangeRow_eq (ε := PiopErr) hd (i := p.usableRows) hu
  have hcols : (List.zip (List.zip ws sigmas) p.deltas).length = ws.length := by
    simp [← hsl, ← hdl]
  have hagg : agg.length = (chunks p.maxCols ws).length := by
    rw [hspec.len]; exact chunks_length_congr hk hcols
  have hz : ∀ o ∈ agg, Honest d ext o := by
    intro o ho
    obtain ⟨j, hj, rfl⟩ := List.getElem_of_mem ho
    have h := hspec.each j _ _ (List.getElem?_eq_getElem hj) (List.getElem?_eq_getElem (by rw [← hspec.len]; exact hj))
    exact h.honest hd
  unfold permutationChecks
  rw [hsize, hu']
  set qB := testOracle d ext .fixed false (bytes "q_blind", testBlinding (F := F) d.size p.usableRows) with hqB
  have hqH : Honest d ext qB := testOracle_honest hd (by simp [testBlinding])
  set c := testPolys qB ws sigmas agg with hc
  have hcw : c.ws ≠ [] := by rw [hc]; simpa [testPolys] using hne
  have hF : c.Fits d p := by
    refine ⟨hu, by simp [hc, testPolys], fun h => absurd h hcw, fun _ => ⟨hk, ?_, ?_, ?_⟩⟩
    · simpa [hc, testPolys] using hsl
    · simpa [hc, testPolys] using hdl
    · rw [hc]
      simp only [testPolys, List.length_map]
      rw [hagg]
      exact chunks_length_congr hk (by simp)
  have hB : c.Bounded d.size := by
    have hm : ∀ l : List (ProverOracle F), (∀ o ∈ l, Honest d ext o) →
        ∀ q ∈ l.map (fun o => toPoly o.poly), q.natDegree ≤ d.size - 1 := by
      intro l hl q hq
      obtain ⟨o, ho, rfl⟩ := List.mem_map.1 hq
      exact natDegree_toPoly_pred (hl o ho).2.1
    exact ⟨hm ws hw, hm sigmas hs, hm agg hz, by simp [hc, testPolys], natDegree_toPoly_pred hqH.2.1⟩
  have hpow : powersFrom 1 alpha (2 * agg.length + 1 + 1 - 1) = (List.range (2 * agg.length + 1)).map (fun i => 1 * alpha ^ i) := by
    rw [powersFrom_eq]; rfl
  rw [hpow]
  obtain ⟨as, has⟩ : ∃ as, as = (List.range (2 * agg.length + 1)).map (fun i => 1 * alpha ^ i) := ⟨_, rfl⟩
  have hasl : as.length = 2 * agg.length + 1 := by rw [has]; simp
  rw [← has]
  set N : F[X] := weighted (as.map Polynomial.C) (c.permutation d p beta gamma) with hN
  have hdvd : (X ^ d.size - 1 : F[X]) ∣ N := by
    refine hd.dvd_of_rows fun i hi => ?_
    rw [hN, weighted_map_eval]
    refine weighted_of_zero fun x hx => ?_
    obtain ⟨q, hq, rfl⟩ := List.mem_map.1 hx
    exact agg_rows_zero hd hk hne hsl hdl hu hden hspec hone (fun o ho => (hw o ho).1) (fun o ho => (hs o ho).1)
      (c := c) rfl rfl rfl (fun i hi => testBlinding_eval hd _ hi) hi q hq
  have hNdeg : N.natDegree < ext.size + d.size :=
    lt_of_le_of_lt (weighted_natDegree (natDegree_permutation hd hF le_rfl hB (fun _ => le_rfl) hn beta gamma)) hdeg
  have hzg : ∀ (j : Nat) (o : ProverOracle F), agg[j]? = some o → c.zs.getD j 0 = toPoly o.poly := by
    intro j o ho
    rw [hc]
    simp only [testPolys]
    rw [List.getD_eq_getElem?_getD, List.getElem?_map, ho]; rfl
  have hnums : Res.mapM (ε := PiopErr) (fun i => (p.instantiate (ext.cosetFft l0) (ext.cosetFft lu) qB ws sigmas agg i
      (ext.element i) beta gamma as).expect) (List.range ext.size)
      = .ok ((List.range ext.size).map (fun i => N.eval ((FftParams.gen : F) * ext.element i))) := by
    refine Res.mapM_ok_map fun i hi => ?_
    replace hi := List.mem_range.1 hi
    obtain ⟨x, hx⟩ : ∃ x, x = (FftParams.gen : F) * ext.element i := ⟨_, rfl⟩
    have hcurr : ∀ o : ProverOracle F, Honest d ext o → o.queryInCoset i .curr = .ok ((toPoly o.poly).eval x) := by
      intro o ho
      rw [hx, ho.coset hd he hlt.le hi (by simpa [Rotation.curr] using hd.size_pos), shifted_curr _ _ _ rfl]
    have hnext : ∀ o : ProverOracle F, Honest d ext o →
        o.queryInCoset i .next = .ok ((toPoly o.poly).eval (d.omega * x)) := by
      intro o ho
      rw [hx, ho.coset hd he hlt.le hi (by simpa [Rotation.next] using hn), shifted_next_eval]
    have hplus : ∀ o : ProverOracle F, Honest d ext o →
        o.queryInCoset i ⟨p.usableRows, .plus⟩ = .ok ((toPoly o.poly).eval (d.omega ^ p.usableRows * x)) := by
      intro o ho
      rw [hx, ho.coset hd he hlt.le hi (by simpa using hu), shifted_plus_eval]
    have hc0 : (ext.cosetFft l0)[i]? = some ((rowPoly d 0).eval x) := by
      rw [hx, Domain.cosetFft_get _ (hl0l.trans hlt.le) i hi, ← eval_toPoly, hl0p]
    have hcu : (ext.cosetFft lu)[i]? = some ((rowPoly d p.usableRows).eval x) := by
      rw [hx, Domain.cosetFft_get _ (hlul.trans hlt.le) i hi, ← eval_toPoly, hlup]
    rw [PermutationArgument.instantiate_eq p _ _ qB ws sigmas agg i (ext.element i) beta gamma as hk hne hsl hdl hagg hasl
      (fun o => (toPoly o.poly).eval x) (fun o => (toPoly o.poly).eval x)
      (fun j => (c.zs.getD j 0).eval x) (fun j => (c.zs.getD j 0).eval (d.omega * x))
      (fun j => (c.zs.getD j 0).eval (d.omega ^ p.usableRows * x)) (c.qBlind.eval x) _ _ hc0 hcu
      (fun o ho => hcurr o (hw o ho)) (fun o ho => hcurr o (hs o ho))
      (fun j o hj => by rw [hcurr o (hz o (List.mem_of_getElem? hj)), hzg j o hj])
      (fun j o hj => by rw [hnext o (hz o (List.mem_of_getElem? hj)), hzg j o hj])
      (fun j o _ hj => by rw [hplus o (hz o (List.mem_of_getElem? hj)), hzg j o hj]) (hcurr qB hqH)]
    rw [hN, weighted_map_eval, ← hx, CircuitPolys.eval_permutation c d p beta gamma x hcw,
      permCols_eq hk _ _ _ x x (P := c.ws) (Q := c.sigmas) (by simp [hc, testPolys]) (by simp [hc, testPolys])]
    rfl
  obtain ⟨q, hq, hqv⟩ := testQuotient_ok (ε := PiopErr) hd he hlt hdvd hNdeg
  have hopen : p.open_ (C := C) (peval l0 xi) (peval lu xi) (testColumn xi qB)
      (agg.zipIdx.map (testProduct d p.usableRows agg.length xi)) (sigmas.map (testColumn xi)) (ws.map (testColumn xi))
      beta gamma d xi as = .ok (N.eval xi) := by
    have hcol : ∀ o : ProverOracle F, (testColumn (C := C) xi o).query xi = .ok ((toPoly o.poly).eval xi) := by
      intro o
      rw [eval_toPoly]
      exact testVerifierOracle_query _ _ _ _ _ _ (by simp)
    have hprod : ∀ (j : Nat) (v : VerifierOracle F C),
        (agg.zipIdx.map (testProduct d p.usableRows agg.length xi))[j]? = some v →
        ∃ o, agg[j]? = some o ∧ v = testProduct d p.usableRows agg.length xi (o, j) := by
      intro j v hv
      rw [List.getElem?_map, List.getElem?_zipIdx] at hv
      cases hj : agg[j]? with
      | none => rw [hj] at hv; simp at hv
      | some o =>
        rw [hj] at hv
        refine ⟨o, rfl, ?_⟩
        simpa using hv.symm
    have hω : d.element 1 = d.omega := by simp [Domain.element]
    rw [PermutationArgument.open_eq p _ _ _ _ _ _ beta gamma d xi as hk (by simpa using hne) (by simpa using hsl) (by simpa using hdl)
      (by rw [List.length_map, List.length_zipIdx, hagg]; exact chunks_length_congr hk (by simp)) (by simpa using hasl)
      (fun o => match o.query xi with | .ok a => a | _ => 0) (fun o => match o.query xi with | .ok a => a | _ => 0)
      (fun j => (c.zs.getD j 0).eval xi) (fun j => (c.zs.getD j 0).eval (d.omega * xi))
      (fun j => (c.zs.getD j 0).eval (d.omega ^ p.usableRows * xi)) (c.qBlind.eval xi)]
    · rw [hN, weighted_map_eval, CircuitPolys.eval_permutation c d p beta gamma xi hcw, ← eval_toPoly, ← eval_toPoly, hl0p, hlup,
        permCols_eq hk _ _ _ xi xi (P := c.ws) (Q := c.sigmas) (by simp [hc, testPolys, hcol]) (by simp [hc, testPolys, hcol])]
    · intro o ho
      obtain ⟨o', -, rfl⟩ := List.mem_map.1 ho
      rw [hcol]
    · intro o ho
      obtain ⟨o', -, rfl⟩ := List.mem_map.1 ho
      rw [hcol]
    · intro j v hv
      obtain ⟨o, ho, rfl⟩ := hprod j v hv
      rw [hzg j o ho, eval_toPoly]
      unfold testProduct
      split <;> exact testVerifierOracle_query _ _ _ _ _ _ (by simp)
    · intro j v hv
      obtain ⟨o, ho, rfl⟩ := hprod j v hv
      rw [hzg j o ho, eval_toPoly, hω]
      unfold testProduct
      split <;> exact testVerifierOracle_query _ _ _ _ _ _ (by simp [hω, mul_comm])
    · intro j v hlt hv
      obtain ⟨o, ho, rfl⟩ := hprod j v hv
      rw [List.length_map, List.length_zipIdx] at hlt
      rw [hzg j o ho, eval_toPoly]
      unfold testProduct
      rw [if_neg (by simp only; omega)]
      exact testVerifierOracle_query _ _ _ _ _ _ (by simp [Domain.element, mul_comm])
    · exact hcol qB
  rw [hl0, Res.bind_ok, hlu, Res.bind_ok]
  simp only [hnums, Res.bind_ok, hq, hopen, hqv]
  show Res.assert (decide (eval xi N = eval xi N)) = _
  rw [decide_eq_true rfl]
  rfl

end
end ZK
