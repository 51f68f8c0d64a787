import Verif.Spec.ArgumentTest
import Verif.Lemmas.ArgumentTest
import Verif.Lemmas.Outcome
import Verif.Properties.WrongWitness
import Verif.Properties.RealTest
/-! # The tests of one argument: C85. -/
set_option autoImplicit false
set_option linter.unusedSectionVars false
namespace ZK
open Polynomial
section
variable {F : Type} [Field F] [FftParams F] [LawfulFft F] [LinearOrder F]

theorem testOracle_length {d ext : Domain F} {kind : OracleType} {b : Bool} (cols : List (Label × List F)) (n : Nat)
    (h : ∀ c ∈ cols, c.2.length = n) : ∀ o ∈ cols.map (testOracle d ext kind b), o.evals.length = n := by
  intro o ho
  obtain ⟨c, hc, rfl⟩ := List.mem_map.1 ho
  exact h c hc

theorem testOracle_colVal {d ext : Domain F} {kind : OracleType} {b : Bool} (cols : List (Label × List F)) (k r : Nat) :
    colVal (cols.map (testOracle d ext kind b)) k r = valueAt cols k r := by
  unfold colVal valueAt
  rw [List.map_map]
  rfl

/-- The two products in terms of the factors. -/
theorem PermutationTest.total_eq {t : PermutationTest F} {d ext : Domain F} {beta gamma : F} :
    ∏ k ∈ Finset.range (t.columns.map (testOracle d ext .witness true)).length, ∏ r ∈ Finset.range t.u,
      copyRatio d beta gamma t.deltas (t.columns.map (testOracle d ext .witness true))
        (t.sigmas.map (testOracle d ext .fixed false)) k r = t.idProduct d beta gamma / t.sigmaProduct beta gamma := by
  unfold PermutationTest.idProduct PermutationTest.sigmaProduct
  rw [← Finset.prod_div_distrib, List.length_map]
  refine Finset.prod_congr rfl fun k _ => ?_
  rw [← Finset.prod_div_distrib]
  refine Finset.prod_congr rfl fun r _ => ?_
  simp only [copyRatio, testOracle_colVal]

/-- **C85** The tests of the permutation argument pass exactly when the product over the cells with the sigmas is not zero and equals the
product with the names of the cells, and panic otherwise. Neither `alpha` nor the point nor the blinds matter. -/
theorem C85_permutation_test {Z C : Type} (byHand : Bool) {t : PermutationTest F} {d ext : Domain F} (hd : d.Ok) (hn : 1 < d.size)
    (ht : t.Wellformed d.size) (hext : Domain.new (F := F) (t.scaling * d.size) = some ext) (next : Z → F × Z) (z : Z) :
    permutationTest C byHand t next z =
      if t.sigmaProduct (next z).1 (next (next z).2).1 ≠ 0 ∧
        t.idProduct d (next z).1 (next (next z).2).1 = t.sigmaProduct (next z).1 (next (next z).2).1
      then .ok () else .panic := by
  obtain ⟨hsize, hne, hsl, hdl, hcr, hsr, hu, hscal⟩ := ht
  have he : ext.Ok := Domain.new_ok hext
  have hle := Domain.le_new_size hext
  obtain ⟨beta, hbeta⟩ : ∃ beta, beta = (next z).1 := ⟨_, rfl⟩
  obtain ⟨gamma, hgamma⟩ : ∃ gamma, gamma = (next (next z).2).1 := ⟨_, rfl⟩
  rw [← hbeta, ← hgamma]
  set ws := t.columns.map (testOracle d ext .witness true) with hws
  set sigmas := t.sigmas.map (testOracle d ext .fixed false) with hsig
  have hwne : ws ≠ [] := by rw [hws]; simpa using hne
  have hwsl : ws.length = sigmas.length := by rw [hws, hsig]; simp [hsl]
  have hwdl : ws.length = t.deltas.length := by rw [hws]; simp [hdl]
  have hwlen : ∀ o ∈ ws, o.evals.length = d.size := testOracle_length _ _ hcr
  have hslen : ∀ o ∈ sigmas, o.evals.length = d.size := testOracle_length _ _ hsr
  have hwH : ∀ o ∈ ws, Honest d ext o := by
    intro o ho
    obtain ⟨c, hc, rfl⟩ := List.mem_map.1 ho
    exact testOracle_honest hd (hcr c hc)
  have hsH : ∀ o ∈ sigmas, Honest d ext o := by
    intro o ho
    obtain ⟨c, hc, rfl⟩ := List.mem_map.1 ho
    exact testOracle_honest hd (hsr c hc)
  have hhand : productByHand (ε := PiopErr) t d beta gamma =
      (zRun (gpFactor (ws.map (·.evals)) (sigmas.map (·.evals)) t.deltas beta gamma d) 1 (List.range t.u) >>= fun zs => Res.idx zs t.u) := by
    rw [hws, hsig, List.map_map, List.map_map]
    rfl
  set p : PermutationArgument F := ⟨t.scaling - 1, t.u, t.deltas⟩ with hp
  have hnew : PermutationArgument.new (ε := PiopErr) t.scaling ⟨t.u, t.deltas⟩ = .ok p := by
    rw [PermutationArgument.new, if_neg (by omega)]
  have hfull := fullRatio_eq d beta gamma p ws sigmas hwsl hwdl
  have htot : fullRatio beta gamma d p.usableRows (List.zip (List.zip ws sigmas) p.deltas)
      = t.idProduct d beta gamma / t.sigmaProduct beta gamma := hfull.trans PermutationTest.total_eq
  have hrun : ∀ byHand, permutationTest C byHand t next z = (do
      if byHand then
        let zu ← productByHand t d beta gamma
        Res.assert (decide (zu = 1))
      let r ← p.constructAggPolys next ws sigmas beta gamma d ext (next (next z).2).2
      permutationChecks C t p d ext ws sigmas r.1 beta gamma (next r.2).1 (next (next r.2).2).1) := by
    intro byHand
    unfold permutationTest
    rw [hsize, hd.new_self]
    rw [hext]
    simp only [Res.unwrap, Res.bind_ok, hnew, ← hbeta, ← hgamma]
    rfl
  rw [hrun]
  have hNoErr : (productByHand (ε := PiopErr) t d beta gamma).NoErr := by
    rw [hhand]
    refine .bind (zRun_noErr (fun i _ => ?_) _) (fun _ _ => .idx _ _)
    unfold gpFactor
    exact .bind (.foldM (fun _ _ _ => .bind (.idx _ _) (fun _ _ => .bind (.idx _ _) (fun _ _ => .ok _))) _)
      (fun _ _ => mulInv_noErr _ _)
  by_cases hcond : t.sigmaProduct beta gamma ≠ 0 ∧ t.idProduct d beta gamma = t.sigmaProduct beta gamma
  · rw [if_pos hcond]
    have hone : fullRatio beta gamma d p.usableRows (List.zip (List.zip ws sigmas) p.deltas) = 1 := by
      rw [htot, hcond.2, div_self hcond.1]
    have hden : ∀ i < p.usableRows, ∀ x ∈ List.zip (List.zip ws sigmas) p.deltas, (rowCol d i x).den beta gamma ≠ 0 := by
      refine den_prod_ne d beta gamma p ws sigmas hwsl hwdl fun c => ?_
      have h0 := hcond.1
      unfold PermutationTest.sigmaProduct at h0
      have h1 := Finset.prod_ne_zero_iff.1 h0 c.1 (Finset.mem_range.2 (lt_of_lt_of_eq c.1.2 (List.length_map _)))
      have h2 := Finset.prod_ne_zero_iff.1 h1 c.2 (Finset.mem_range.2 c.2.2)
      show colVal (t.columns.map (testOracle d ext .witness true)) c.1 c.2
        + beta * colVal (t.sigmas.map (testOracle d ext .fixed false)) c.1 c.2 + gamma ≠ 0
      rw [testOracle_colVal, testOracle_colVal]
      exact h2
    obtain ⟨agg, z', hspec, hout⟩ := constructAggPolys_outcome (ε := PiopErr) p next ws sigmas beta gamma d ext (next (next z).2).2
      (show 0 < t.scaling - 1 by omega) hwne hwsl hwdl hu (fun o ho => by rw [hwlen o ho]; exact hu.le)
      (fun o ho => by rw [hslen o ho]; exact hu.le) hden
    rw [if_pos hone] at hout
    have hprod : productByHand (ε := PiopErr) t d beta gamma = .ok 1 := by
      rw [hhand, zRun_ok (f := chunkRatio beta gamma d (List.zip (List.zip ws sigmas) p.deltas)) 1 (List.range t.u)]
      · rw [Res.bind_ok, List.length_range, Res.idx_of_some (a := 1)]
        rw [List.getElem?_map, List.getElem?_range (by omega), Option.map_some, List.take_of_length_le (by simp), one_mul,
          prod_chunkRatio]
        exact congrArg some hone
      · intro i hi
        have hi := List.mem_range.1 hi
        rw [gpFactor_ok _ _ _ _ _ _ _ (fun o ho => by rw [hwlen o ho]; omega) (fun o ho => by rw [hslen o ho]; omega), if_neg]
        intro h0
        obtain ⟨x, hx, h0⟩ := List.mem_map.1 (List.prod_eq_zero_iff.1 h0)
        exact hden i hi x hx h0
    have hchecks := fun alpha xi => permutationChecks_ok C (t := t) (p := p) (d := d) (ext := ext) (ws := ws) (sigmas := sigmas) (agg := agg)
      (beta := beta) (gamma := gamma) hd he (by nlinarith) hn hsize rfl (show 0 < t.scaling - 1 by omega) hwne hwsl hwdl hu hden hspec hone hwH hsH
      (by
        obtain ⟨s, hs⟩ : ∃ s, t.scaling = s + 2 := ⟨t.scaling - 2, by omega⟩
        obtain ⟨n, hn'⟩ : ∃ n, d.size = n + 2 := ⟨d.size - 2, by omega⟩
        show (t.scaling - 1 + 2) * (d.size - 1) < _
        rw [hs, hn'] at hle ⊢
        simp only [show s + 2 - 1 + 2 = s + 3 by omega, show n + 2 - 1 = n + 1 by omega]
        nlinarith) alpha xi
    have hrest : (p.constructAggPolys (ε := PiopErr) next ws sigmas beta gamma d ext (next (next z).2).2 >>= fun r =>
        permutationChecks C t p d ext ws sigmas r.1 beta gamma (next r.2).1 (next (next r.2).2).1) = .ok () := by
      rw [hout, Res.bind_ok]
      exact hchecks _ _
    cases byHand with
    | false => exact hrest
    | true =>
      rw [if_pos rfl, hprod, Res.bind_ok]
      simp only [decide_true, Res.assert_true, Res.bind_ok]
      exact hrest
  · rw [if_neg hcond]
    have hrest : (p.constructAggPolys (ε := PiopErr) next ws sigmas beta gamma d ext (next (next z).2).2 >>= fun r =>
        permutationChecks C t p d ext ws sigmas r.1 beta gamma (next r.2).1 (next (next r.2).2).1) = .panic := by
      refine Res.bind_panic_of (constructAggPolys_noErr _ _ _ _ _ _ _ _ _) fun r hr => absurd ?_ hcond
      obtain ⟨agg, z'⟩ := r
      obtain ⟨-, -, -, -, hden, -, hone⟩ := constructAggPolys_inv hwne hwlen hslen hr
      rw [htot] at hone
      have h0 : t.sigmaProduct beta gamma ≠ 0 := by
        intro h0
        rw [h0, div_zero] at hone
        exact zero_ne_one hone
      exact ⟨h0, (div_eq_one_iff_eq h0).1 hone⟩
    cases byHand with
    | false => exact hrest
    | true =>
      rw [if_pos rfl]
      exact Res.bind_panic_of hNoErr fun _ _ => Res.bind_panic_of (.assert _) fun _ _ => hrest

theorem PermutationTest.sigmaProduct_eq (t : PermutationTest F) (beta gamma : F) : t.sigmaProduct beta gamma =
    ∏ c : Fin t.columns.length × Fin t.u, (valueAt t.columns c.1 c.2 + beta * valueAt t.sigmas c.1 c.2 + gamma) := by
  unfold PermutationTest.sigmaProduct
  rw [Fintype.prod_prod_type, ← Fin.prod_univ_eq_prod_range (fun k => ∏ i ∈ Finset.range t.u,
    (valueAt t.columns k i + beta * valueAt t.sigmas k i + gamma))]
  refine Finset.prod_congr rfl (fun k _ => ?_)
  rw [← Fin.prod_univ_eq_prod_range (fun i => valueAt t.columns k i + beta * valueAt t.sigmas k i + gamma)]

theorem PermutationTest.idProduct_eq (t : PermutationTest F) (d : Domain F) (beta gamma : F) : t.idProduct d beta gamma =
    ∏ c : Fin t.columns.length × Fin t.u, (valueAt t.columns c.1 c.2 + beta * (t.deltas.getD c.1 0 * d.omega ^ (c.2 : Nat)) + gamma) := by
  unfold PermutationTest.idProduct
  rw [Fintype.prod_prod_type, ← Fin.prod_univ_eq_prod_range (fun k => ∏ i ∈ Finset.range t.u,
    (valueAt t.columns k i + beta * (t.deltas.getD k 0 * d.omega ^ i) + gamma))]
  refine Finset.prod_congr rfl (fun k _ => ?_)
  rw [← Fin.prod_univ_eq_prod_range (fun i => valueAt t.columns k i + beta * (t.deltas.getD k 0 * d.omega ^ i) + gamma)]

/-- **C85** (copies) If all copies hold, the test passes for all pairs `(beta, gamma)` but few: of the `k^2` pairs from a set of `k` elements
it fails for at most `k` per cell. -/
theorem C85_copies_pass {Z C : Type} (byHand : Bool) {t : PermutationTest F} {d ext : Domain F} (hd : d.Ok) (hn : 1 < d.size)
    (ht : t.Wellformed d.size) (hext : Domain.new (F := F) (t.scaling * d.size) = some ext)
    {tau : Equiv.Perm (Fin t.columns.length × Fin t.u)} (henc : t.Encodes d tau) (hcop : t.Copies tau) (next : Z → F × Z)
    (z : F × F → Z) (hz : ∀ p, (next (z p)).1 = p.1 ∧ (next (next (z p)).2).1 = p.2) :
    FewPairs (t.columns.length * t.u) {p | permutationTest C byHand t next (z p) ≠ .ok ()} := by
  have h1 := FewPairs.iUnion (ι := Fin t.columns.length × Fin t.u) (k := 1)
    (A := fun c => {p : F × F | valueAt t.columns c.1 c.2 + p.1 * valueAt t.sigmas c.1 c.2 + p.2 = 0})
    (fun c => FewPairs.graph (fun x y y' h h' => by
      have h : valueAt t.columns c.1 c.2 + x * valueAt t.sigmas c.1 c.2 + y = 0 := h
      have h' : valueAt t.columns c.1 c.2 + x * valueAt t.sigmas c.1 c.2 + y' = 0 := h'
      linear_combination h - h'))
  refine FewPairs.subset (h1.mono (by simp)) fun p hp => ?_
  have hp : permutationTest C byHand t next (z p) ≠ .ok () := hp
  rw [C85_permutation_test byHand hd hn ht hext, (hz p).1, (hz p).2] at hp
  have heq : t.idProduct d p.1 p.2 = t.sigmaProduct p.1 p.2 := by
    rw [t.idProduct_eq, t.sigmaProduct_eq, ← Equiv.prod_comp tau]
    exact Finset.prod_congr rfl (fun c _ => by rw [henc c, hcop c])
  have h0 : t.sigmaProduct p.1 p.2 = 0 := by
    by_contra h0
    exact hp (if_pos ⟨h0, heq⟩)
  rw [t.sigmaProduct_eq] at h0
  obtain ⟨c, -, hc⟩ := Finset.prod_eq_zero_iff.1 h0
  exact Set.mem_iUnion.2 ⟨c, hc⟩

theorem PermutationTest.products_few {t : PermutationTest F} {d : Domain F} {tau : Equiv.Perm (Fin t.columns.length × Fin t.u)}
    (henc : t.Encodes d tau) (hid : t.Named d) {bad : Fin t.columns.length × Fin t.u}
    (hbad : valueAt t.columns (tau bad).1 (tau bad).2 ≠ valueAt t.columns bad.1 bad.2) :
    FewPairs (t.columns.length * t.u) {p | t.idProduct d p.1 p.2 = t.sigmaProduct p.1 p.2} := by
  classical
  set A := linProd (Finset.univ : Finset (Fin t.columns.length × Fin t.u)) (fun c => valueAt t.columns c.1 c.2)
    (fun c => t.deltas.getD c.1 0 * d.omega ^ (c.2 : Nat)) with hA
  set B := linProd (Finset.univ : Finset (Fin t.columns.length × Fin t.u)) (fun c => valueAt t.columns c.1 c.2)
    (fun c => valueAt t.sigmas c.1 c.2) with hB
  have hcard : (Finset.univ : Finset (Fin t.columns.length × Fin t.u)).card = t.columns.length * t.u := by
    simp
  have hAB : A - B ≠ 0 := by
    intro h0
    obtain ⟨c, _, h1, h2⟩ := linProd_eq_mem _ _ _ _ _ _ (sub_eq_zero.1 h0) (tau bad) (Finset.mem_univ _)
    have := tau.injective (hid ((henc c).symm.trans h2))
    subst this
    exact hbad h1.symm
  obtain ⟨S, hS⟩ : ∃ S : Set (F × F), S = {p | t.idProduct d p.1 p.2 = t.sigmaProduct p.1 p.2} := ⟨_, rfl⟩
  rw [← hS]
  intro T
  have hmain := card_square_le (A - B) hAB (t.columns.length * t.u) (by
    rw [← hcard]
    exact (linProd_total _ _ _).sub (linProd_total _ _ _)) T
  refine le_trans (Finset.card_le_card ?_) hmain
  rintro ⟨beta, gamma⟩ hp
  replace hp := Finset.mem_filter.1 hp
  refine Finset.mem_filter.2 ⟨hp.1, ?_⟩
  rw [hS] at hp
  rw [Polynomial.map_sub, eval_sub, hA, hB, linProd_eval, linProd_eval, ← t.idProduct_eq, ← t.sigmaProduct_eq]
  exact sub_eq_zero.2 hp.2

/-- **C85** (broken copies) If a copy does not hold and all cells have different names, the test passes for few pairs `(beta, gamma)` only. -/
theorem C85_broken_copy_fails {Z C : Type} (byHand : Bool) {t : PermutationTest F} {d ext : Domain F} (hd : d.Ok) (hn : 1 < d.size)
    (ht : t.Wellformed d.size) (hext : Domain.new (F := F) (t.scaling * d.size) = some ext)
    {tau : Equiv.Perm (Fin t.columns.length × Fin t.u)} (henc : t.Encodes d tau) (hid : t.Named d) (hcop : ¬ t.Copies tau)
    (next : Z → F × Z) (z : F × F → Z) (hz : ∀ p, (next (z p)).1 = p.1 ∧ (next (next (z p)).2).1 = p.2) :
    FewPairs (t.columns.length * t.u) {p | permutationTest C byHand t next (z p) ≠ .panic} := by
  unfold PermutationTest.Copies at hcop
  push Not at hcop
  obtain ⟨bad, hbad⟩ := hcop
  refine FewPairs.subset (PermutationTest.products_few henc hid hbad) fun p hp => ?_
  have hp : permutationTest C byHand t next (z p) ≠ .panic := hp
  rw [C85_permutation_test byHand hd hn ht hext, (hz p).1, (hz p).2] at hp
  by_contra h0
  refine hp (if_neg fun h => h0 ?_)
  exact h.2

/-- The columns of `test_chunked_permutation` fit. -/
theorem chunkedPermutation_wellformed (d : Domain F) (a0 a1 a2 b0 dummy : F) {blindA blindB : List F} (hA : blindA.length = 3)
    (hB : blindB.length = 3) : (chunkedPermutation d a0 a1 a2 b0 dummy blindA blindB).Wellformed 8 := by
  refine ⟨rfl, List.cons_ne_nil _ _, rfl, rfl, ?_, ?_, ?_, le_rfl⟩
  · intro c hc
    rcases List.mem_cons.1 hc with rfl | hc
    · show ([a0, a1, a2, a1, a0] ++ blindA).length = 8
      rw [List.length_append, hA]; rfl
    · obtain rfl := List.mem_singleton.1 hc
      show ([b0, a0, a0, a1, a1] ++ blindB).length = 8
      rw [List.length_append, hB]; rfl
  · intro c hc
    rcases List.mem_cons.1 hc with rfl | hc
    · rfl
    · obtain rfl := List.mem_singleton.1 hc
      rfl
  · show 8 - 2 - 1 < 8
    omega

/-- The cycles `(a0, b1, b2, a4)`, `(a2)`, `(b0)` and `(a1, b3, a3, b4)` of `test_chunked_permutation`. -/
def chunkedNext : Fin 2 × Fin 5 → Fin 2 × Fin 5 := fun x =>
  ((![![(1, 1), (1, 3), (0, 2), (1, 4), (0, 0)],
    ![(1, 0), (1, 2), (0, 4), (0, 3), (0, 1)]] : Fin 2 → Fin 5 → Fin 2 × Fin 5) x.1) x.2

theorem chunkedNext_bijective : Function.Bijective chunkedNext := by
  have : Function.Injective chunkedNext := by decide +kernel
  exact Finite.injective_iff_bijective.1 this

noncomputable def chunkedPerm : Equiv.Perm (Fin 2 × Fin 5) := Equiv.ofBijective chunkedNext chunkedNext_bijective

theorem chunkedPerm_apply (x : Fin 2 × Fin 5) : chunkedPerm x = chunkedNext x := rfl

theorem chunked_encodes (d : Domain F) (a0 a1 a2 b0 dummy : F) (blindA blindB : List F) :
    (chunkedPermutation d a0 a1 a2 b0 dummy blindA blindB).Encodes d chunkedPerm := by
  intro x
  show valueAt (chunkedPermutation d a0 a1 a2 b0 dummy blindA blindB).sigmas x.1 x.2
    = ([1, 13] : List F).getD (chunkedNext x).1 0 * d.omega ^ ((chunkedNext x).2 : Nat)
  obtain ⟨k, i⟩ := x
  fin_cases k <;> fin_cases i <;> simp [valueAt, chunkedPermutation, chunkedNext, Domain.element]

theorem chunked_copies (d : Domain F) (a0 a1 a2 b0 dummy : F) (blindA blindB : List F) :
    (chunkedPermutation d a0 a1 a2 b0 dummy blindA blindB).Copies chunkedPerm := by
  intro x
  show valueAt (chunkedPermutation d a0 a1 a2 b0 dummy blindA blindB).columns (chunkedNext x).1 (chunkedNext x).2
    = valueAt (chunkedPermutation d a0 a1 a2 b0 dummy blindA blindB).columns x.1 x.2
  obtain ⟨k, i⟩ := x
  fin_cases k <;> fin_cases i <;> rfl

/-- **C85** (`test_chunked_permutation`) Whatever the values and blinds are, the test passes for all but few of its challenges. -/
theorem C85_chunked_permutation {Z C : Type} {d : Domain F} (hd : d.Ok) (h8 : d.size = 8) (had : 4 ≤ FftParams.adicity F)
    (a0 a1 a2 b0 dummy : F) {blindA blindB : List F} (hA : blindA.length = 3) (hB : blindB.length = 3) (next : Z → F × Z)
    (z : F × F → Z) (hz : ∀ p, (next (z p)).1 = p.1 ∧ (next (next (z p)).2).1 = p.2) :
    FewPairs 10 {p | permutationTest C false (chunkedPermutation d a0 a1 a2 b0 dummy blindA blindB) next (z p) ≠ .ok ()} := by
  obtain ⟨ext, hext⟩ : ∃ ext, Domain.new (F := F) 16 = some ext := ⟨_, by
    rw [Domain.new, show clog2 16 = 4 by decide, if_pos had]⟩
  exact C85_copies_pass false hd (by rw [h8]; decide) (by rw [h8]; exact chunkedPermutation_wellformed d a0 a1 a2 b0 dummy hA hB)
    (show Domain.new (2 * d.size) = some ext by rw [h8]; exact hext)
    (chunked_encodes d a0 a1 a2 b0 dummy blindA blindB) (chunked_copies d a0 a1 a2 b0 dummy blindA blindB) next z hz

theorem copySimple_wellformed (d : Domain F) (x : F) {blindA blindB blindC : List F} (hA : blindA.length = 8)
    (hB : blindB.length = 8) (hC : blindC.length = 8) : (copySimple d x blindA blindB blindC).Wellformed 16 := by
  refine ⟨rfl, List.cons_ne_nil _ _, rfl, rfl, ?_, ?_, ?_, le_rfl⟩
  · intro c hc
    rcases List.mem_cons.1 hc with rfl | hc
    · simp [hA]
    · rcases List.mem_cons.1 hc with rfl | hc
      · simp [hB]
      · obtain rfl := List.mem_singleton.1 hc
        simp [hC]
  · intro c hc
    rcases List.mem_cons.1 hc with rfl | hc
    · simp
    · rcases List.mem_cons.1 hc with rfl | hc
      · simp
      · obtain rfl := List.mem_singleton.1 hc
        simp
  · show 8 < 16
    omega

/-- **C85** (`copy_simple`) Whatever `x` and the blinds are, the test passes for all but few of its challenges. -/
theorem C85_copy_simple {Z C : Type} {d : Domain F} (hd : d.Ok) (h16 : d.size = 16) (had : 5 ≤ FftParams.adicity F)
    (x : F) {blindA blindB blindC : List F} (hA : blindA.length = 8) (hB : blindB.length = 8) (hC : blindC.length = 8) (next : Z → F × Z)
    (z : F × F → Z) (hz : ∀ p, (next (z p)).1 = p.1 ∧ (next (next (z p)).2).1 = p.2) :
    FewPairs 24 {p | permutationTest C true (copySimple d x blindA blindB blindC) next (z p) ≠ .ok ()} := by
  obtain ⟨ext, hext⟩ : ∃ ext, Domain.new (F := F) 32 = some ext := ⟨_, by
    rw [Domain.new, show clog2 32 = 5 by decide, if_pos had]⟩
  exact C85_copies_pass (t := copySimple d x blindA blindB blindC) true hd (by rw [h16]; decide) (by rw [h16]; exact copySimple_wellformed d x hA hB hC)
    (show Domain.new (2 * d.size) = some ext by rw [h16]; exact hext)
    (tau := copyPlonkPerm) (copyPlonk_sigmas d [] [] []) (copyPlonk_copies d x blindA blindB blindC) next z hz

end
end ZK
