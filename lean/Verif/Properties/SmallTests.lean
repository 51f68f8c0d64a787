import Verif.Model.SmallTests
import Verif.Properties.Setup
import Verif.Properties.SuccessExamples
import Verif.Lemmas.PermuteLookup
import Verif.Lemmas.Configure
/-! C90: the outcome of the five short tests. -/
set_option autoImplicit false
set_option linter.unusedSectionVars false
namespace ZK
open Polynomial

section
variable {F : Type} [Field F]

/-- **C90** (`test_stitches`) For every input, table and dummy value the test passes exactly when the input is shorter than the table and
all input values and the dummy value are in the table, and panics otherwise. -/
theorem C90_stitches {ε : Type} [LinearOrder F] (a s : List F) (dummy : F) :
    (stitchProgram a s dummy : Res ε Unit) =
      if a.length < s.length ∧ dummy ∈ s ∧ ∀ x ∈ a, x ∈ s then .ok () else .panic := by
  unfold stitchProgram
  by_cases hlen : a.length < s.length
  swap
  · rw [decide_eq_false hlen, if_neg (fun h => hlen h.1)]
    rfl
  have hL : (a ++ List.replicate (s.length - a.length) dummy).length = s.length := by simp; omega
  have hall : (∀ x ∈ a ++ List.replicate (s.length - a.length) dummy, x ∈ s) ↔ dummy ∈ s ∧ ∀ x ∈ a, x ∈ s := by
    have h0 : s.length - a.length ≠ 0 := by omega
    constructor
    · intro h
      exact ⟨h _ (List.mem_append_right _ (List.mem_replicate.2 ⟨h0, rfl⟩)), fun x hx => h x (List.mem_append_left _ hx)⟩
    · rintro ⟨h1, h2⟩ x hx
      rcases List.mem_append.1 hx with hx | hx
      · exact h2 x hx
      · rw [(List.mem_replicate.1 hx).2]; exact h1
  rw [decide_eq_true hlen, Res.assert_true, Res.bind_ok]
  simp only []
  rw [decide_eq_true hL, Res.assert_true, Res.bind_ok]
  rcases permuteForLookup_outcome (ε := ε) (a ++ List.replicate (s.length - a.length) dummy) s with
    ⟨-, hin, s', hok, hs', hrows⟩ | ⟨hno, hp⟩
  swap
  · rw [hp, if_neg (fun h => hno ⟨hL, hall.2 h.2⟩)]
    rfl
  obtain ⟨a', hadef⟩ : ∃ a', a' = (a ++ List.replicate (s.length - a.length) dummy).insertionSort (· ≤ ·) := ⟨_, rfl⟩
  have ha' : a'.length = s.length := by rw [hadef, List.length_insertionSort]; exact hL
  rw [← hadef] at hok hrows
  rw [hL] at hrows
  rw [hok, if_pos ⟨hlen, hall.1 hin⟩, Res.bind_ok]
  have hls : s'.length = s.length := hs'.length_eq
  have hga : ∀ i, i < s.length → a'[i]? = some (a'.getD i 0) := by
    intro i hi
    rw [List.getD_eq_getElem?_getD, List.getElem?_eq_getElem (by omega)]
    rfl
  have hgs : ∀ i, i < s.length → s'[i]? = some (s'.getD i 0) := by
    intro i hi
    rw [List.getD_eq_getElem?_getD, List.getElem?_eq_getElem (by omega)]
    rfl
  have hrow : ∀ i < s.length, s'.getD i 0 = a'.getD i 0 ∨ (0 < i ∧ a'.getD (i - 1) 0 = a'.getD i 0) := by
    intro i hi
    rcases hrows i (by omega) with h | ⟨h0, h⟩
    · exact Or.inl (by rw [List.getD_eq_getElem?_getD, h, ← List.getD_eq_getElem?_getD])
    · exact Or.inr ⟨h0, by rw [List.getD_eq_getElem?_getD, h, ← List.getD_eq_getElem?_getD]⟩
  simp only []
  rw [Res.idx_of_some (hga 0 (by omega)), Res.bind_ok, Res.idx_of_some (hgs 0 (by omega)), Res.bind_ok, decide_eq_true, Res.assert_true,
    Res.bind_ok]
  swap
  · rcases hrow 0 (by omega) with h | h
    · exact h.symm
    · omega
  rw [Res.mapM_ok_map (g := fun _ => ()), Res.bind_ok]
  · rfl
  · intro i hi
    replace hi := List.mem_range.1 hi
    rw [Res.idx_of_some (hga (i + 1) (by omega)), Res.bind_ok, Res.idx_of_some (hga i (by omega)), Res.bind_ok]
    split
    · rename_i hx
      rw [Res.idx_of_some (hgs (i + 1) (by omega)), Res.bind_ok, decide_eq_true]
      · rfl
      · rcases hrow (i + 1) (by omega) with h | ⟨-, h⟩
        · exact h.symm
        · exact absurd h.symm hx
    · rfl

/-- **C90** `test_stitches` passes over every field. -/
theorem C90_stitches_test {ε : Type} [LinearOrder F] : (stitchTest (F := F) : Res ε Unit) = .ok () := by
  unfold stitchTest
  rw [C90_stitches, if_pos]
  refine ⟨by simp [stitchInput, stitchTable], List.mem_map.2 ⟨99, by decide, rfl⟩, fun x hx => ?_⟩
  obtain ⟨v, hv, rfl⟩ := List.mem_map.1 hx
  exact List.mem_map.2 ⟨v, (by decide : ∀ v ∈ stitchInput, v ∈ stitchTable) v hv, rfl⟩

/-- **C90** (`x_in_coset`) On every domain of at least two elements the second and the third loop print the same lines, and the first prints
the elements of the domain. -/
theorem C90_x_in_coset [FftParams F] (d : Domain F) (hd : 1 < d.size) :
    (xInCoset d).1 = d.elements ∧ (xInCoset d).2.1 = (xInCoset d).2.2 := by
  constructor
  · show d.elements.map (peval [0, 1]) = d.elements
    conv_rhs => rw [← List.map_id d.elements]
    exact List.map_congr_left fun x _ => by simp [peval_eq_eval]
  · refine List.ext_getElem? fun i => ?_
    show (d.cosetFft [0, 1])[i]? = ((List.range d.size).map _)[i]?
    by_cases hi : i < d.size
    · rw [Domain.cosetFft_get d (p := [0, 1]) (show 2 ≤ d.size by omega) i hi, List.getElem?_map, List.getElem?_range hi]
      simp [peval_eq_eval]
    · rw [List.getElem?_eq_none (by simp; omega), List.getElem?_eq_none (by simp; omega)]

/-- **C90** (`works`) On every domain the test prints the value of the Lagrange polynomial: away from row `i` it is
`ω^i (ch^n - 1) / (n (ch - ω^i))`, and on the domain it is one at row `i` and zero elsewhere. -/
theorem C90_works {ε : Type} [DecidableEq F] [FftParams F] [LawfulFft F] {d : Domain F} (hd : d.Ok) {i : Nat} (hi : i < d.size) (ch : F) :
    ∃ v, (lagrangeValue d.size i ch : Res ε F) = .ok v ∧
      (ch ≠ d.element i → v = d.element i * (ch ^ d.size - 1) / (d.size * (ch - d.element i))) ∧
      ∀ j < d.size, ch = d.element j → v = if j = i then 1 else 0 := by
  refine ⟨_, by
    unfold lagrangeValue lagrangeRow unitVec
    rw [hd.new_self, if_pos hi]
    rfl, ?_, ?_⟩
  · intro hne
    have h0 := hd.omega_ne_zero
    have hn := hd.natCast_ne_zero
    have hprim := hd.prim.pow_eq_one
    have hco : ∀ j, peval (resize d.size ((List.range d.size).map fun k => if k = i then (1 : F) else 0)) (d.omega⁻¹ ^ j) =
        (d.omega⁻¹ ^ j) ^ i := by
      intro j
      rw [peval_resize (by simp), peval_map_range]
      simp [Finset.sum_ite_eq', Finset.mem_range.2 hi]
    rw [peval_trim, Domain.ifft, peval_map_range]
    simp only [hco]
    have hg := mul_geom_sum (ch * (d.omega⁻¹) ^ i) d.size
    have hsum : ∑ j ∈ Finset.range d.size, (d.size : F)⁻¹ * (d.omega⁻¹ ^ j) ^ i * ch ^ j =
        (d.size : F)⁻¹ * ∑ j ∈ Finset.range d.size, (ch * d.omega⁻¹ ^ i) ^ j := by
      rw [Finset.mul_sum]
      refine Finset.sum_congr rfl fun j _ => ?_
      rw [mul_pow, ← pow_mul, ← pow_mul, mul_comm i j]
      ring
    have hpow : (ch * d.omega⁻¹ ^ i) ^ d.size = ch ^ d.size := by
      rw [mul_pow, ← pow_mul, mul_comm i, pow_mul, inv_pow, hprim]
      simp
    rw [hpow] at hg
    have hsub : ch - d.omega ^ i ≠ 0 := sub_ne_zero.2 hne
    rw [hsum]
    unfold Domain.element
    rw [eq_div_iff (mul_ne_zero hn hsub), ← hg]
    have : d.omega ^ i * (ch * d.omega⁻¹ ^ i - 1) = ch - d.omega ^ i := by
      rw [inv_pow]
      field_simp
    rw [← mul_assoc (d.omega ^ i), this]
    field_simp
  · intro j hj hch
    rw [hch, peval_trim, hd.peval_ifft (by simp) j hj]
    simp

/-- **C90** `works` does not panic if the field has a domain of eight rows. -/
theorem C90_works_test {ε : Type} [DecidableEq F] [FftParams F] [LawfulFft F] {d : Domain F} (hd : d.Ok) (h8 : d.size = 8) :
    ∃ v, (worksTest (F := F) : Res ε F) = .ok v ∧
      (((1231 : Nat) : F) ≠ d.omega → v = d.omega * (((1231 : Nat) : F) ^ 8 - 1) / (8 * (((1231 : Nat) : F) - d.omega))) := by
  obtain ⟨v, h1, h2, -⟩ := C90_works (ε := ε) hd (i := 1) (by omega) ((1231 : Nat) : F)
  rw [h8] at h1 h2
  refine ⟨v, h1, fun h => ?_⟩
  have := h2 (by simpa [Domain.element] using h)
  simpa [Domain.element] using this

section
variable {W I X Y : Type} [OracleData W] [OracleData I] [OracleData X] [OracleData Y]

/-- **C90** (`test_simple_lookup_configuration`) With fewer than three witness columns or fewer than three tables the test panics. -/
theorem C90_configuration_panics {ε : Type} (s : Oracles W I X) (ts : List Y) (h : s.witness.length < 3 ∨ ts.length < 3) :
    (lookupConfigurationProgram F s ts : Res ε _) = .panic := by
  have key := (configureAll_ok_iff (calls := [Call.lookup (Gates.simple3 (F := F)).1 (Gates.simple3 (F := F)).2.1 (Gates.simple3 (F := F)).2.2])
    (s := s) (ts := ts)).not.2 (fun H => by
      obtain ⟨H1, -, H2⟩ := H _ (List.mem_singleton.2 rfl)
      have h1 := H1 (Gates.wq 2) (by simp [Call.queries, Gates.simple3])
      have h2 := (H2 (Gates.fq 2) (by simp [Call.tables, Gates.simple3])).2
      have h1 : 2 < s.witness.length := h1
      have h2 : 2 < ts.length := h2
      omega)
  unfold lookupConfigurationProgram
  have e : ∀ r : LookupConfigured F W I X Y, (∀ c, r.result ≠ .ok c) →
      (do r.result.expect; pure r.vo : Res ε (GenericLookupVO F)) = .panic := by
    intro r hr
    cases hh : r.result with
    | ok c => exact absurd hh (hr c)
    | err _ => rfl
    | panic => rfl
  refine e _ fun c hc => key ?_
  have : configureAll [Call.lookup (Gates.simple3 (F := F)).1 (Gates.simple3 (F := F)).2.1 (Gates.simple3 (F := F)).2.2] s ts = .ok
      ⟨[], [((GenericLookupVO.init Gates.simple3).configure s ts).vo], ((GenericLookupVO.init (F := F) Gates.simple3).configure s ts).oracles,
        ((GenericLookupVO.init (F := F) Gates.simple3).configure s ts).tables⟩ := by
    unfold configureAll
    rw [show GenericLookupVO.init ((Gates.simple3 (F := F)).1, (Gates.simple3 (F := F)).2.1, (Gates.simple3 (F := F)).2.2) =
      GenericLookupVO.init (F := F) Gates.simple3 from rfl]
    simp only [hc]
    rfl
  exact ⟨_, this⟩

/-- **C90** (`test_simple_lookup_configuration`) Otherwise it passes: the lookup compresses the first three witness columns and
the first three tables at the current row. -/
theorem C90_configuration {ε : Type} (w0 w1 w2 : W) (ws : List W) (is : List I) (fs : List X) (t0 t1 t2 : Y) (ts : List Y) :
    (lookupConfigurationProgram F ⟨w0 :: w1 :: w2 :: ws, is, fs⟩ (t0 :: t1 :: t2 :: ts) : Res ε _) =
      .ok { GenericLookupVO.init (F := F) Gates.simple3 with
        tables := some ([t0, t1, t2].map fun t => ⟨ConcreteOracle.label t, Rotation.curr, .fixed⟩)
        exprs := some ([w0, w1, w2].map fun w => .oracle ⟨ConcreteOracle.label w, Rotation.curr, .witness⟩) } := by
  have hW : ∀ (o : W) r, ConcreteOracle.label (ConcreteOracle.register o r) = ConcreteOracle.label o := fun o r => by
    rw [← OracleData.label_erase, OracleData.erase_register, OracleData.label_erase]
  have hY : ∀ (o : Y) r, ConcreteOracle.label (ConcreteOracle.register o r) = ConcreteOracle.label o := fun o r => by
    rw [← OracleData.label_erase, OracleData.erase_register, OracleData.label_erase]
  simp [lookupConfigurationProgram, GenericLookupVO.configure, GenericLookupVO.init, Gates.simple3, Res.foldM, Oracles.register, Gates.wq,
    Gates.fq, Gates.v, registerAt, Res.map1, tableLoop, Res.mapM, VExpr.toExpr, VExpr.resolve, Res.idx, List.modify, hW, hY, Res.expect]

/-- **C90** `test_simple_lookup_configuration` passes. -/
theorem C90_configuration_test {ε : Type} : ∃ vo, (lookupConfigurationTest (F := F) : Res ε _) = .ok vo :=
  ⟨_, C90_configuration ..⟩

end

variable {G G2 GT : Type} [AddCommGroup G] [Module F G] [AddCommGroup G2] [Module F G2] [AddCommGroup GT] [Module F GT] [DecidableEq GT]
  [DecidableEq F]

/-- **C90** (what `test_rands_homomorphism` detects) With commitments to `p` and `q` with randomness `rp` and `rq`, combined with `x1`, and randomness
combined with `y`, the check against the value `v` passes exactly when the pairing does not see the error of the value
and the error of the randomness at the secret of the setup; otherwise the test panics. -/
theorem C90_rands_detects {ε : Type} (e : G →ₗ[F] G2 →ₗ[F] GT) {beta : F} {ck : KzgKey G} {vk : KzgVk G G2} (hs : KzgSetup beta ck vk)
    {p q rp rq : List F} {c c' : G} (hc : kzgCommitWith ck p rp = .ok c) (hc' : kzgCommitWith ck q rq = .ok c') (x1 y challenge v : F) :
    (randsChecks e ck vk p q (c, rp) (c', rq) x1 y challenge v : Res ε Unit) =
      if e (((toPoly p).eval challenge + x1 * (toPoly q).eval challenge - v) • vk.g + ((x1 - y) * (toPoly rq).eval beta) • vk.gammaG) vk.h = 0
      then .ok () else .panic := by
  obtain ⟨h1, h2, rfl⟩ := (kzgCommitWith_iff ..).1 hc
  obtain ⟨h3, h4, rfl⟩ := (kzgCommitWith_iff ..).1 hc'
  have deg : ∀ {f : F[X]} {n : Nat}, f.natDegree < n → f.degree < n := fun h =>
    degree_le_natDegree.trans_lt (by exact_mod_cast h)
  set r := dadd p (dscale x1 q) with hr
  set rr := kzgAddRands rp (kzgScaleRand rq y) with hrr
  have er : toPoly r = toPoly p + C x1 * toPoly q := by rw [hr, toPoly_dadd, toPoly_dscale]
  have err : toPoly rr = toPoly rp + C y * toPoly rq := by rw [hrr, kzgAddRands, toPoly_dadd, kzgScaleRand, toPoly_dscale]
  have hrn : (toPoly r).natDegree < ck.powers.length := by
    rw [er]
    exact (natDegree_add_le _ _).trans_lt (max_lt h1 ((natDegree_C_mul_le _ _).trans_lt h3))
  have hrrd : (toPoly rr).degree < ck.gammaPowers.length := by
    rw [err]
    refine (degree_add_le _ _).trans_lt (max_lt h2 ?_)
    rw [← smul_eq_C_mul]
    exact (degree_smul_le _ _).trans_lt h4
  obtain ⟨w, hw⟩ := pdiv_linear_ok (ε := KzgErr) r challenge
  obtain ⟨w', hw'⟩ := pdiv_linear_ok (ε := KzgErr) rr challenge
  have hopen : kzgOpen ck r challenge rr = .ok ⟨kzgMulti ck.powers w + kzgMulti ck.gammaPowers w', peval rr challenge⟩ := by
    unfold kzgOpen
    rw [if_neg (by rw [pdegree_eq]; omega)]
    exact Res.bind_eq_ok.2 ⟨w, hw, Res.bind_eq_ok.2 ⟨w', hw', rfl⟩⟩
  have hwc : kzgMulti ck.powers w + kzgMulti ck.gammaPowers w' =
      (toPoly w).eval beta • vk.g + (toPoly w').eval beta • vk.gammaG := by
    rw [← kzgCom_eval hs _ _ (natDegree_div_lt hw (deg hrn)) (natDegree_div_lt hw' hrrd), kzgMulti_eq, kzgMulti_eq]
    rfl
  unfold randsChecks
  simp only []
  rw [← hr, ← hrr, hopen]
  show Res.assert (kzgCheck e vk _ challenge v _) = _
  unfold kzgCheck Res.assert
  simp only [decide_eq_true_eq]
  refine if_congr ?_ rfl rfl
  rw [hwc, kzgAdd, kzgScale, kzgCom_eval hs _ _ (deg h1) h2, kzgCom_eval hs _ _ (deg h3) h4, hs.betaH, ← sub_smul, map_smul, peval_eq_eval,
    ← LinearMap.smul_apply, ← map_smul, ← sub_eq_zero, ← LinearMap.sub_apply, ← map_sub]
  have e1 := eval_div_sub hw beta
  have e2 := eval_div_sub hw' beta
  rw [er] at e1
  rw [err] at e2 ⊢
  simp only [eval_add, eval_mul, eval_C] at e1 e2 ⊢
  rw [smul_add (beta - challenge), smul_smul (beta - challenge), smul_smul (beta - challenge), ← e1, ← e2]
  have : (eval beta (toPoly p) • vk.g + eval beta (toPoly rp) • vk.gammaG + x1 • (eval beta (toPoly q) • vk.g + eval beta (toPoly rq) • vk.gammaG) -
        v • vk.g - (eval challenge (toPoly rp) + y * eval challenge (toPoly rq)) • vk.gammaG -
      ((eval beta (toPoly p) + x1 * eval beta (toPoly q) - (eval challenge (toPoly p) + x1 * eval challenge (toPoly q))) • vk.g +
        (eval beta (toPoly rp) + y * eval beta (toPoly rq) - (eval challenge (toPoly rp) + y * eval challenge (toPoly rq))) • vk.gammaG)) =
      (eval challenge (toPoly p) + x1 * eval challenge (toPoly q) - v) • vk.g + ((x1 - y) * eval beta (toPoly rq)) • vk.gammaG := by
    module
  rw [this]

/-- **C90** (what `test_rands_homomorphism` detects) If pairing with `h` loses nothing and the generators are not zero: with the right randomness the
check passes for the value of the combination only, and with the right value it passes only for the right randomness or if
the blinding polynomial of `q` is zero at the secret of the setup. -/
theorem C90_rands_exact {ε : Type} (e : G →ₗ[F] G2 →ₗ[F] GT) {beta : F} {ck : KzgKey G} {vk : KzgVk G G2} (hs : KzgSetup beta ck vk)
    (he : ∀ a : G, e a vk.h = 0 → a = 0) (hg : vk.g ≠ 0) (hgg : vk.gammaG ≠ 0)
    {p q rp rq : List F} {c c' : G} (hc : kzgCommitWith ck p rp = .ok c) (hc' : kzgCommitWith ck q rq = .ok c') (x1 challenge : F) :
    (∀ v, (randsChecks e ck vk p q (c, rp) (c', rq) x1 x1 challenge v : Res ε Unit) = .ok () ↔
      v = (toPoly p).eval challenge + x1 * (toPoly q).eval challenge) ∧
    ∀ y, (randsChecks e ck vk p q (c, rp) (c', rq) x1 y challenge ((toPoly p).eval challenge + x1 * (toPoly q).eval challenge) : Res ε Unit) =
      .ok () ↔ y = x1 ∨ (toPoly rq).eval beta = 0 := by
  have hok : ∀ P : Prop, ∀ [Decidable P], ((if P then .ok () else .panic : Res ε Unit) = .ok ()) ↔ P := by
    intro P _
    by_cases h : P <;> simp [h]
  have hz : ∀ a : G, e a vk.h = 0 ↔ a = 0 := fun a => ⟨he a, by rintro rfl; simp⟩
  constructor
  · intro v
    rw [C90_rands_detects e hs hc hc', hok, hz]
    simp only [sub_self, zero_mul, zero_smul, add_zero, smul_eq_zero, hg, or_false, sub_eq_zero]
    exact eq_comm
  · intro y
    rw [C90_rands_detects e hs hc hc', hok, hz]
    simp only [sub_self, zero_smul, zero_add, smul_eq_zero, hgg, or_false, mul_eq_zero, sub_eq_zero]
    exact or_congr_left eq_comm

/-- **C90** (`test_rands_homomorphism`) For every setup, every pairing, all polynomials and all random values the test passes exactly when
the setup has a positive degree that bounds the degrees of both polynomials, and panics otherwise. -/
theorem C90_rands {ε Z : Type} (e : G →ₗ[F] G2 →ₗ[F] GT) (next : Z → F × Z) (maxDegree : Nat) (beta : F) (g gammaG : G) (h : G2)
    (p q : List F) (z : Z) :
    (randsTest e next maxDegree beta g gammaG h p q z : Res ε Unit) =
      if 0 < maxDegree ∧ (toPoly p).natDegree ≤ maxDegree ∧ (toPoly q).natDegree ≤ maxDegree then .ok () else .panic := by
  obtain ⟨hk0, hk1⟩ := C59_keys maxDegree beta g gammaG h
  unfold randsTest
  rcases Nat.eq_zero_or_pos maxDegree with hm | hm
  · rw [show kzgSetup maxDegree beta g gammaG h = _ from hk0 hm, if_neg (by omega)]
    rfl
  obtain ⟨srs, ck, vk, hsrs, hkeys, hf⟩ := hk1 (by omega)
  rw [show kzgSetup maxDegree beta g gammaG h = _ from hsrs]
  simp only [Res.expect, Res.bind_ok]
  rw [show kzgTrim srs srs.maxDegree 1 = _ from hkeys]
  simp only [Res.bind_ok]
  have hpl : ck.powers.length = maxDegree + 1 := by rw [hf.powers]; simp
  have hgl : ck.gammaPowers.length = 3 := by rw [hf.gammaPowers]; rfl
  have hblind : ∀ z : Z, (toPoly (kzgBlinding next z).1).degree < ck.gammaPowers.length := fun z => by
    rw [hgl]
    exact (degree_toPoly_lt _).trans_le (by simp [kzgBlinding])
  have hcom : ∀ (f : List F) (z : Z), (toPoly f).natDegree ≤ maxDegree →
      kzgCommitWith ck f (kzgBlinding next z).1 = .ok (kzgCom ck (toPoly f) (toPoly (kzgBlinding next z).1)) := fun f z hf' =>
    (kzgCommitWith_iff ..).2 ⟨by omega, hblind z, rfl⟩
  have hbad : ∀ (f r : List F), ¬ (toPoly f).natDegree ≤ maxDegree → kzgCommitWith ck f r = .err .tooManyCoefficients := fun f r hf' => by
    unfold kzgCommitWith
    rw [if_pos (by rw [pdegree_eq]; omega)]
  by_cases hp : (toPoly p).natDegree ≤ maxDegree
  swap
  · rw [if_neg (fun h => hp h.2.1)]
    simp only [kzgCommit, if_true, hbad p _ hp]
    rfl
  by_cases hq : (toPoly q).natDegree ≤ maxDegree
  swap
  · rw [if_neg (fun h => hq h.2.2)]
    simp only [kzgCommit, if_true, hcom p _ hp, hbad q _ hq]
    rfl
  rw [if_pos ⟨hm, hp, hq⟩]
  simp only [kzgCommit, if_true, hcom p _ hp, hcom q _ hq, Res.bind_ok]
  show randsChecks e ck vk p q _ _ _ _ _ _ = _
  rw [C90_rands_detects e hf.kzgSetup (hcom p _ hp) (hcom q _ hq), if_pos]
  rw [peval_eq_eval, toPoly_dadd, toPoly_dscale]
  simp

end

/-- Concrete cases: a table with and without the dummy value, too few witness columns, and a setup (secret 3, the field as the group and
multiplication as the pairing) where randomness combined with another factor is detected. -/
example : (stitchProgram ([1, 2, 1] : List F97) [1, 2, 3, 4] 5 : Res Unit Unit) = .panic ∧
    (stitchProgram ([1, 2, 1] : List F97) [1, 2, 3, 4] 4 : Res Unit Unit) = .ok () ∧
    (lookupConfigurationProgram F97 (⟨[bareOracle .witness (bytes "a")], [], []⟩ : Oracles (ProverOracle F97) (ProverOracle F97) (ProverOracle F97))
      ([] : List (ProverOracle F97)) : Res Unit _) = .panic ∧
    ∃ (ck : KzgKey ℚ) (vk : KzgVk ℚ ℚ) (c c' : ℚ), KzgSetup (3 : ℚ) ck vk ∧ kzgCommitWith ck [(1 : ℚ), 2] [5, 6, 7] = .ok c ∧
      kzgCommitWith ck [(0 : ℚ), 4] [1, 1] = .ok c' ∧
      (randsChecks (LinearMap.mul ℚ ℚ) ck vk [(1 : ℚ), 2] [0, 4] (c, [5, 6, 7]) (c', [1, 1]) 10 10 2 85 : Res Unit Unit) = .ok () ∧
      (randsChecks (LinearMap.mul ℚ ℚ) ck vk [(1 : ℚ), 2] [0, 4] (c, [5, 6, 7]) (c', [1, 1]) 10 1 2 85 : Res Unit Unit) ≠ .ok () := by
  refine ⟨by decide +kernel, by decide +kernel, C90_configuration_panics _ _ (by simp), ?_⟩
  have hs : KzgSetup (3 : ℚ) (⟨[1, 3, 9, 27], [2, 6, 18]⟩ : KzgKey ℚ) (⟨1, 2, 1, 3⟩ : KzgVk ℚ ℚ) := by
    refine ⟨?_, ?_, ?_⟩
    · intro i h
      have : i < 4 := h
      interval_cases i <;> norm_num
    · intro i h
      have : i < 3 := h
      interval_cases i <;> norm_num
    · norm_num
  have hc : kzgCommitWith (⟨[1, 3, 9, 27], [2, 6, 18]⟩ : KzgKey ℚ) [(1 : ℚ), 2] [5, 6, 7] = .ok 179 := by decide +kernel
  have hc' : kzgCommitWith (⟨[1, 3, 9, 27], [2, 6, 18]⟩ : KzgKey ℚ) [(0 : ℚ), 4] [1, 1] = .ok 20 := by decide +kernel
  refine ⟨_, _, 179, 20, hs, hc, hc', ?_⟩
  obtain ⟨h1, h2⟩ := C90_rands_exact (ε := Unit) (LinearMap.mul ℚ ℚ) hs (fun a h => by simpa using h) (by norm_num) (by norm_num) hc hc' 10 2
  have hv : (85 : ℚ) = (toPoly [(1 : ℚ), 2]).eval 2 + 10 * (toPoly [(0 : ℚ), 4]).eval 2 := by norm_num
  refine ⟨(h1 85).2 hv, ?_⟩
  rw [hv, Ne, h2]
  norm_num

/-- The domain of eight rows over the field with 97 elements. -/
example : ∃ v, (worksTest (F := F97) : Res Unit F97) = .ok v := by
  obtain ⟨v, h, -⟩ := C90_works_test (ε := Unit) (d := F97.dom 3) (F97.dom_ok (by norm_num)) (by decide +kernel)
  exact ⟨v, h⟩

end ZK
