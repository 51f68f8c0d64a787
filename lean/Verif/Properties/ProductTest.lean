import Verif.Lemmas.ProductTest
import Verif.Properties.ArgumentTest
/-! # The test of one grand product: C88. -/
set_option autoImplicit false
set_option linter.unusedSectionVars false
namespace ZK
open Polynomial
section
variable {F : Type} [Field F] [FftParams F] [LawfulFft F] [LinearOrder F]

/-- **C88** `test_product_argument` passes exactly when the product over the cells with the sigmas is not zero and equals the product with
the names of the cells, and panics otherwise. Neither the point nor the blinds matter. -/
theorem C88_product_test {Z C : Type} {t : PermutationTest F} {d ext : Domain F} (hd : d.Ok) (hn : 1 < d.size)
    (ht : t.Wellformed d.size) (hext : Domain.new (F := F) (t.scaling * d.size) = some ext)
    (hcols : t.columns.length + 2 ≤ t.scaling) (next : Z → F × Z) (z : Z) :
    productTest C t next z =
      if t.sigmaProduct (next z).1 (next (next z).2).1 ≠ 0 ∧
        t.idProduct d (next z).1 (next (next z).2).1 = t.sigmaProduct (next z).1 (next (next z).2).1
      then .ok () else .panic := by
  have ht' := ht
  obtain ⟨hsize, hne, hsl, hdl, hcr, hsr, hu, hscal⟩ := ht
  have he : ext.Ok := Domain.new_ok hext
  have hle := Domain.le_new_size hext
  obtain ⟨beta, hbeta⟩ : ∃ beta, beta = (next z).1 := ⟨_, rfl⟩
  obtain ⟨gamma, hgamma⟩ : ∃ gamma, gamma = (next (next z).2).1 := ⟨_, rfl⟩
  rw [← hbeta, ← hgamma]
  obtain ⟨ws, hws⟩ : ∃ ws, ws = t.columns.map (testOracle d ext .witness true) := ⟨_, rfl⟩
  obtain ⟨sigmas, hsig⟩ : ∃ sigmas, sigmas = t.sigmas.map (testOracle d ext .fixed false) := ⟨_, rfl⟩
  have hwsl : ws.length = sigmas.length := by rw [hws, hsig]; simp [hsl]
  have hwdl : ws.length = t.deltas.length := by rw [hws]; simp [hdl]
  have hwlen : ∀ o ∈ ws, o.evals.length = d.size := by rw [hws]; exact testOracle_length _ _ hcr
  have hslen : ∀ o ∈ sigmas, o.evals.length = d.size := by rw [hsig]; exact testOracle_length _ _ hsr
  have hfac : gpFactor (ε := PiopErr) (t.columns.map (·.2)) (t.sigmas.map (·.2)) t.deltas beta gamma d
      = gpFactor (ws.map (·.evals)) (sigmas.map (·.evals)) t.deltas beta gamma d := by
    rw [hws, hsig, List.map_map, List.map_map]
    rfl
  have htot : fullRatio beta gamma d t.u (List.zip (List.zip ws sigmas) t.deltas)
      = t.idProduct d beta gamma / t.sigmaProduct beta gamma := by
    have hfull := fullRatio_eq d beta gamma ⟨t.scaling - 1, t.u, t.deltas⟩ ws sigmas hwsl hwdl
    refine hfull.trans ?_
    rw [hws, hsig]
    exact PermutationTest.total_eq
  have hrun : productTest C t next z = (do
      let zs ← zRun (gpFactor (ws.map (·.evals)) (sigmas.map (·.evals)) t.deltas beta gamma d) 1 (List.range t.u)
      let zu ← Res.idx zs t.u
      Res.assert (decide (zu = 1))
      let _ ← Res.mapM (productSanity t d (zs ++ (drawN next (d.size - 1 - t.u) (next (next z).2).2).1 ++ [1]) beta gamma) (List.range d.size)
      productChecks C t d ext (trim (d.ifft (zs ++ (drawN next (d.size - 1 - t.u) (next (next z).2).2).1 ++ [1]))) beta gamma next
        (drawN next (d.size - 1 - t.u) (next (next z).2).2).2) := by
    unfold productTest
    rw [hsize, hd.new_self]
    simp only [hext, Res.unwrap, Res.bind_ok, ← hbeta, ← hgamma, hfac]
  rw [hrun]
  -- the factors exist exactly when no factor with a sigma is zero
  have hden_of : t.sigmaProduct beta gamma ≠ 0 →
      ∀ i < t.u, ∀ x ∈ List.zip (List.zip ws sigmas) t.deltas, (rowCol d i x).den beta gamma ≠ 0 := by
    intro h0
    refine den_prod_ne d beta gamma ⟨t.scaling - 1, t.u, t.deltas⟩ ws sigmas hwsl hwdl fun c => ?_
    unfold PermutationTest.sigmaProduct at h0
    have hc1 : (c.1 : Nat) < t.columns.length := lt_of_lt_of_eq c.1.2 (by rw [hws, List.length_map])
    have h1 := Finset.prod_ne_zero_iff.1 h0 c.1 (Finset.mem_range.2 hc1)
    have h2 := Finset.prod_ne_zero_iff.1 h1 c.2 (Finset.mem_range.2 c.2.2)
    show colVal ws c.1 c.2 + beta * colVal sigmas c.1 c.2 + gamma ≠ 0
    have e1 : ∀ k r, colVal ws k r = valueAt t.columns k r := fun k r => by rw [hws, testOracle_colVal]
    have e2 : ∀ k r, colVal sigmas k r = valueAt t.sigmas k r := fun k r => by rw [hsig, testOracle_colVal]
    rw [e1, e2]
    exact h2
  have hzs : (∀ i < t.u, ∀ x ∈ List.zip (List.zip ws sigmas) t.deltas, (rowCol d i x).den beta gamma ≠ 0) →
      zRun (ε := PiopErr) (gpFactor (ws.map (·.evals)) (sigmas.map (·.evals)) t.deltas beta gamma d) 1 (List.range t.u)
        = .ok ((List.range (t.u + 1)).map (fun i =>
          ((List.range i).map (chunkRatio beta gamma d (List.zip (List.zip ws sigmas) t.deltas))).prod)) := by
    intro hden
    rw [zRun_ok (f := chunkRatio beta gamma d (List.zip (List.zip ws sigmas) t.deltas)) 1 (List.range t.u)]
    · rw [List.length_range]
      congr 1
      refine List.map_congr_left fun i hi => ?_
      rw [List.take_range, Nat.min_eq_left (Nat.lt_succ_iff.1 (List.mem_range.1 hi)), one_mul]
    · intro i hi
      have hi := List.mem_range.1 hi
      rw [gpFactor_ok _ _ _ _ _ _ _ (fun o ho => by rw [hwlen o ho]; omega) (fun o ho => by rw [hslen o ho]; omega), if_neg]
      intro h0
      obtain ⟨x, hx, h0⟩ := List.mem_map.1 (List.prod_eq_zero_iff.1 h0)
      exact hden i hi x hx h0
  have hlast : ∀ f : Nat → F, Res.idx (ε := PiopErr) ((List.range (t.u + 1)).map f) t.u = .ok (f t.u) := by
    intro f
    rw [Res.idx_of_some (a := f t.u)]
    rw [List.getElem?_map, List.getElem?_range (by omega)]
    rfl
  by_cases hcond : t.sigmaProduct beta gamma ≠ 0 ∧ t.idProduct d beta gamma = t.sigmaProduct beta gamma
  · rw [if_pos hcond]
    have hden := hden_of hcond.1
    have hone : ((List.range t.u).map (chunkRatio beta gamma d (List.zip (List.zip ws sigmas) t.deltas))).prod = 1 := by
      rw [prod_chunkRatio, htot, hcond.2, div_self hcond.1]
    rw [hzs hden, Res.bind_ok, hlast, Res.bind_ok, hone]
    simp only [decide_true, Res.assert_true, Res.bind_ok]
    obtain ⟨bl, hbl⟩ : ∃ bl, bl = drawN next (d.size - 1 - t.u) (next (next z).2).2 := ⟨_, rfl⟩
    have hbll : bl.1.length = d.size - 1 - t.u := by rw [hbl, drawN_length]
    rw [← hbl]
    obtain ⟨zs, hzsd⟩ : ∃ zs, zs = (List.range (t.u + 1)).map (fun i =>
          ((List.range i).map (chunkRatio beta gamma d (List.zip (List.zip ws sigmas) t.deltas))).prod) := ⟨_, rfl⟩
    have hzsl : zs.length = t.u + 1 := by rw [hzsd]; simp
    rw [← hzsd]
    have hrow : ∀ i ≤ t.u, zs[i]? = some
        (((List.range i).map (chunkRatio beta gamma d (List.zip (List.zip ws sigmas) t.deltas))).prod) := by
      intro i hi
      rw [hzsd, List.getElem?_map, List.getElem?_range (by omega)]
      rfl
    have hsan : Res.mapM (ε := PiopErr) (productSanity t d (zs ++ bl.1 ++ [1]) beta gamma) (List.range d.size)
        = .ok ((List.range d.size).map fun _ => ()) := by
      refine Res.mapM_ok_map fun i hi => ?_
      refine productSanity_ok (ext := ext) ht' hws hsig hden ?_ ?_ (List.mem_range.1 hi)
      · simp only [List.length_append, hzsl, hbll, List.length_singleton]
        omega
      · intro i hi
        rw [List.append_assoc, List.getElem?_append_left (by omega)]
        exact hrow i hi
    rw [hsan, Res.bind_ok]
    refine productChecks_ok C hd he (by nlinarith) hn ht' hws hsig hden ?_ ?_ next bl.2
    · intro i hi
      have hcut : d.ifft (zs ++ bl.1 ++ [1]) = d.ifft (zs ++ bl.1) := by
        have hl : (zs ++ bl.1).length = d.size := by
          rw [List.length_append, hzsl, hbll]; omega
        unfold Domain.ifft
        have : resize d.size (zs ++ bl.1 ++ [1]) = resize d.size (zs ++ bl.1) := by
          unfold resize
          rw [List.take_append_of_le_length (by omega), List.length_append (bs := [(1 : F)]), hl]
          simp
        rw [this]
      have hl : (zs ++ bl.1).length = d.size := by
        rw [List.length_append, hzsl, hbll]; omega
      rw [hcut, ← eval_toPoly, toPoly_trim, eval_toPoly, hd.peval_ifft hl i (by omega)]
      have h1 := hrow i hi
      rw [← List.getElem?_append_left (l₂ := bl.1) (by omega), List.getElem?_eq_getElem (by omega)] at h1
      exact Option.some.inj h1
    · obtain ⟨n, hn'⟩ : ∃ n, d.size = n + 1 := ⟨d.size - 1, by omega⟩
      rw [hn'] at hle ⊢
      have : (t.columns.length + 2) * n ≤ t.scaling * n := Nat.mul_le_mul_right _ hcols
      simp only [Nat.add_sub_cancel]
      nlinarith
  · rw [if_neg hcond]
    refine Res.bind_panic_of (zRun_noErr (fun i _ => ?_) _) fun zs hz => ?_
    · unfold gpFactor
      exact .bind (.foldM (fun _ _ _ => .bind (.idx _ _) (fun _ _ => .bind (.idx _ _) (fun _ _ => .ok _))) _)
        (fun _ _ => mulInv_noErr _ _)
    · have hden : ∀ i < t.u, ∀ x ∈ List.zip (List.zip ws sigmas) t.deltas, (rowCol d i x).den beta gamma ≠ 0 := by
        intro i hi x hx h0
        obtain ⟨f, hf⟩ := zRun_inv hz i (List.mem_range.2 hi)
        rw [gpFactor_ok _ _ _ _ _ _ _ (fun o ho => by rw [hwlen o ho]; omega) (fun o ho => by rw [hslen o ho]; omega), if_pos] at hf
        · cases hf
        · exact List.prod_eq_zero_iff.2 (List.mem_map.2 ⟨x, hx, h0⟩)
      rw [hzs hden] at hz
      obtain rfl := Res.ok.inj hz
      rw [hlast, Res.bind_ok, prod_chunkRatio, htot, decide_eq_false]
      · rfl
      · intro hone
        have h0 : t.sigmaProduct beta gamma ≠ 0 := by
          intro h0
          rw [h0, div_zero] at hone
          exact zero_ne_one hone
        exact hcond ⟨h0, (div_eq_one_iff_eq h0).1 hone⟩

/-- **C88** It is the same condition as that of the tests of the whole argument, for every number of columns per grand product. -/
theorem C88_same_as_C85 {Z C D : Type} (byHand : Bool) {t : PermutationTest F} {d ext : Domain F} (hd : d.Ok) (hn : 1 < d.size)
    (ht : t.Wellformed d.size) (hext : Domain.new (F := F) (t.scaling * d.size) = some ext)
    (hcols : t.columns.length + 2 ≤ t.scaling) (next : Z → F × Z) (z : Z) :
    productTest C t next z = permutationTest D byHand t next z :=
  (C88_product_test hd hn ht hext hcols next z).trans (C85_permutation_test byHand hd hn ht hext next z).symm

/-- **C88** (copies) If all copies hold, the test passes for all pairs `(beta, gamma)` but few. -/
theorem C88_copies_pass {Z C : Type} {t : PermutationTest F} {d ext : Domain F} (hd : d.Ok) (hn : 1 < d.size)
    (ht : t.Wellformed d.size) (hext : Domain.new (F := F) (t.scaling * d.size) = some ext) (hcols : t.columns.length + 2 ≤ t.scaling)
    {tau : Equiv.Perm (Fin t.columns.length × Fin t.u)} (henc : t.Encodes d tau) (hcop : t.Copies tau) (next : Z → F × Z)
    (z : F × F → Z) (hz : ∀ p, (next (z p)).1 = p.1 ∧ (next (next (z p)).2).1 = p.2) :
    FewPairs (t.columns.length * t.u) {p | productTest C t next (z p) ≠ .ok ()} := by
  refine FewPairs.subset (C85_copies_pass (C := C) false hd hn ht hext henc hcop next z hz) fun p hp => ?_
  have hp : productTest C t next (z p) ≠ .ok () := hp
  rw [C88_same_as_C85 (D := C) false hd hn ht hext hcols] at hp
  exact hp

/-- **C88** (broken copies) If a copy does not hold and all cells have different names, the test passes for few pairs `(beta, gamma)` only. -/
theorem C88_broken_copy_fails {Z C : Type} {t : PermutationTest F} {d ext : Domain F} (hd : d.Ok) (hn : 1 < d.size)
    (ht : t.Wellformed d.size) (hext : Domain.new (F := F) (t.scaling * d.size) = some ext) (hcols : t.columns.length + 2 ≤ t.scaling)
    {tau : Equiv.Perm (Fin t.columns.length × Fin t.u)} (henc : t.Encodes d tau) (hid : t.Named d) (hcop : ¬ t.Copies tau)
    (next : Z → F × Z) (z : F × F → Z) (hz : ∀ p, (next (z p)).1 = p.1 ∧ (next (next (z p)).2).1 = p.2) :
    FewPairs (t.columns.length * t.u) {p | productTest C t next (z p) ≠ .panic} := by
  refine FewPairs.subset (C85_broken_copy_fails (C := C) false hd hn ht hext henc hid hcop next z hz) fun p hp => ?_
  have hp : productTest C t next (z p) ≠ .panic := hp
  rw [C88_same_as_C85 (D := C) false hd hn ht hext hcols] at hp
  exact hp

theorem productArgument_wellformed (d : Domain F) (a0 a1 a2 b0 dummy : F) {blindA blindB : List F} (hA : blindA.length = 3)
    (hB : blindB.length = 3) : (productArgument d a0 a1 a2 b0 dummy blindA blindB).Wellformed 8 := by
  obtain ⟨h1, h2, h3, h4, h5, h6, h7, -⟩ := chunkedPermutation_wellformed d a0 a1 a2 b0 dummy hA hB
  exact ⟨h1, h2, h3, h4, h5, h6, h7, show 2 ≤ 4 by omega⟩

/-- **C88** (`test_product_argument`) Whatever the values and blinds are, the test passes for all but few of its challenges. -/
theorem C88_product_argument {Z C : Type} {d : Domain F} (hd : d.Ok) (h8 : d.size = 8) (had : 5 ≤ FftParams.adicity F)
    (a0 a1 a2 b0 dummy : F) {blindA blindB : List F} (hA : blindA.length = 3) (hB : blindB.length = 3) (next : Z → F × Z)
    (z : F × F → Z) (hz : ∀ p, (next (z p)).1 = p.1 ∧ (next (next (z p)).2).1 = p.2) :
    FewPairs 10 {p | productTest C (productArgument d a0 a1 a2 b0 dummy blindA blindB) next (z p) ≠ .ok ()} := by
  obtain ⟨ext, hext⟩ : ∃ ext, Domain.new (F := F) 32 = some ext := ⟨_, by
    rw [Domain.new, show clog2 32 = 5 by decide, if_pos had]⟩
  exact C88_copies_pass (t := productArgument d a0 a1 a2 b0 dummy blindA blindB) hd (by rw [h8]; decide)
    (by rw [h8]; exact productArgument_wellformed d a0 a1 a2 b0 dummy hA hB)
    (show Domain.new (4 * d.size) = some ext by rw [h8]; exact hext) (le_refl 4) (tau := chunkedPerm)
    (chunked_encodes d a0 a1 a2 b0 dummy blindA blindB) (chunked_copies d a0 a1 a2 b0 dummy blindA blindB) next z hz

end
end ZK
