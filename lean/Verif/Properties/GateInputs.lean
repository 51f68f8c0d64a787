import Verif.Model.GateInputs
import Verif.Properties.MockTest
/-! C89: the outcome of the crate's tests of the precompiled gates. -/
set_option autoImplicit false
set_option linter.unusedSectionVars false
namespace ZK
open Polynomial

section
variable {ε α : Type}

theorem mapM_assert {f : α → Res ε Unit} {P : α → Prop} [DecidablePred P] {l : List α} (h : ∀ a ∈ l, f a = Res.assert (decide (P a))) :
    ((∀ a ∈ l, P a) → ∃ bs, Res.mapM f l = .ok bs) ∧ ((¬ ∀ a ∈ l, P a) → Res.mapM f l = .panic) := by
  induction l with
  | nil => exact ⟨fun _ => ⟨[], rfl⟩, fun h => absurd (fun a ha => by cases ha) h⟩
  | cons a l ih =>
    obtain ⟨h1, h2⟩ := ih fun b hb => h b (List.mem_cons_of_mem _ hb)
    have ha := h a List.mem_cons_self
    rw [Res.mapM_cons, ha]
    by_cases hp : P a
    · rw [decide_eq_true hp]
      refine ⟨fun hall => ?_, fun hn => ?_⟩
      · obtain ⟨bs, hbs⟩ := h1 fun b hb => hall b (List.mem_cons_of_mem _ hb)
        rw [hbs]
        exact ⟨_, rfl⟩
      · have : ¬ ∀ a ∈ l, P a := fun hall => hn fun b hb => by
          rcases List.mem_cons.1 hb with rfl | hb
          · exact hp
          · exact hall b hb
        rw [h2 this]
        rfl
    · rw [decide_eq_false hp]
      exact ⟨fun hall => absurd (hall a List.mem_cons_self) hp, fun _ => rfl⟩

end

section
variable {F : Type} [Field F] [LinearOrder F] [FftParams F] [LawfulFft F]

theorem withRows_length (n : Nat) (rows : List (Nat × F)) : (withRows n rows).length = n := by
  unfold withRows
  suffices h : ∀ l : List F, (rows.foldl (fun l r => l.set r.1 r.2) l).length = l.length by rw [h, List.length_replicate]
  induction rows with
  | nil => exact fun _ => rfl
  | cons r rows ih => intro l; rw [List.foldl_cons, ih, List.length_set]

/-- An entry of a column made by overwriting zeros: the last value written there. -/
theorem withRows_getD {n i : Nat} (hi : i < n) (rows : List (Nat × F)) :
    (withRows n rows).getD i 0 = rows.foldl (fun v r => if r.1 = i then r.2 else v) 0 := by
  unfold withRows
  suffices h : ∀ l : List F, i < l.length →
      (rows.foldl (fun l r => l.set r.1 r.2) l).getD i 0 = rows.foldl (fun v r => if r.1 = i then r.2 else v) (l.getD i 0) by
    rw [h _ (by rw [List.length_replicate]; exact hi)]
    congr 1
    simp only [List.getD_eq_getElem?_getD, List.getElem?_replicate]
    rw [if_pos hi]
    rfl
  induction rows with
  | nil => exact fun _ _ => rfl
  | cons r rows ih =>
    intro l hl
    rw [List.foldl_cons, ih _ (by rw [List.length_set]; exact hl), List.foldl_cons]
    congr 1
    simp only [List.getD_eq_getElem?_getD, List.getElem?_set]
    split
    · rw [if_pos (by omega)]
      rfl
    · rfl

/-- The cell of an unrotated query. -/
theorem cell_curr {t : TestColumns F} {n i idx : Nat} {ty : OracleType} {c : Label × List F} (h : (t.ofType ty)[idx]? = some c) (hi : i < n) :
    t.cell n i ⟨idx, .curr, ty⟩ = c.2.getD i 0 := by
  unfold TestColumns.cell
  have : (((i : ℤ) + (Rotation.curr).signed) % n).toNat = i := by
    show (((i : ℤ) + 0) % n).toNat = i
    rw [add_zero, Int.emod_eq_of_lt (by omega) (by omega), Int.toNat_natCast]
  rw [this]
  dsimp only
  rw [h]

/-- The cell of a query for the next row, which is not the last. -/
theorem cell_next {t : TestColumns F} {n i idx : Nat} {ty : OracleType} {c : Label × List F} (h : (t.ofType ty)[idx]? = some c)
    (hi : i + 1 < n) : t.cell n i ⟨idx, .next, ty⟩ = c.2.getD (i + 1) 0 := by
  unfold TestColumns.cell
  have : (((i : ℤ) + (Rotation.next).signed) % n).toNat = i + 1 := by
    show (((i : ℤ) + 1) % n).toNat = i + 1
    rw [Int.emod_eq_of_lt (by omega) (by omega)]
    omega
  rw [this]
  dsimp only
  rw [h]

theorem idx_getD {ε : Type} {l : List F} {i : Nat} (h : i < l.length) : (Res.idx l i : Res ε F) = .ok (l.getD i 0) := by
  rw [Res.idx_of_lt h, List.getD_eq_getElem _ _ h]

variable {S : Scheme F} {ck : S.CK} {com : F[X] → S.Rand → S.Comm} {d : Domain F}

/-- The end of a test of a gate succeeds if the gate is zero on every row, and panics otherwise. -/
theorem gateTestRun_outcome (vk : S.VK) (hplain : ∀ p cs, S.commitPlain ck p = .ok cs → cs = [com (toPoly p.poly) S.emptyRand]) (hd : d.Ok)
    (hn : SupportsDegree S ck d.size) {t : TestColumns F} (ht : t.Wellformed d.size) {m : Nat} {gate : VExpr F × List VirtualQuery}
    (hfits : GateFits d.size (FftParams.adicity F) m (fun ty => (t.ofType ty).length) gate) :
    ((∀ i < d.size, gate.1.denote id (t.cell d.size i) = 0) → gateTestRun S ck vk d t gate = .ok ()) ∧
    ((¬ ∀ i < d.size, gate.1.denote id (t.cell d.size i) = 0) → gateTestRun S ck vk d t gate = .panic) := by
  obtain ⟨h1, h2⟩ := C79_mock_prover (S := S) vk hd ht hfits
  constructor
  · intro h
    refine Res.bind_eq_ok.2 ⟨(), h1.2 h, ?_⟩
    show Res.orPanic _ = _
    rw [C79_mock_verifier vk hplain hd hn ht hfits]
    rfl
  · intro h
    unfold gateTestRun
    rw [h2.2 h]
    rfl

theorem degreeFits_of_four (hd : d.Ok) (h4 : 4 ≤ d.size) {m : Nat} (hm : 3 ≤ m) (hdvd : ¬ 4 ∣ m) : DegreeFits d.size m := by
  obtain ⟨j, -, hj⟩ := hd
  constructor
  · intro h
    refine hdvd (dvd_trans ?_ h)
    rw [hj] at h4 ⊢
    have h2 : 2 ≤ j := (Nat.pow_le_pow_iff_right (by norm_num : 1 < 2)).1 (by simpa using h4)
    exact pow_dvd_pow 2 h2
  · obtain ⟨t, rfl⟩ : ∃ t, m = t + 3 := ⟨m - 3, by omega⟩
    have e : (t + 3) * (d.size - 1) = t * (d.size - 1) + 3 * (d.size - 1) := by ring
    rw [e]
    generalize t * (d.size - 1) = x
    omega

/-! ### `test_plonk_arith` -/

/-- The value of the plonk gate on a row of `test_plonk_arith`: only row 2 can be other than zero. -/
theorem plonkArith_row {n i : Nat} (hi : i < n) (a b : List F) (pi c2 qo2 : F) :
    let g := fun rows : List (Nat × F) => (withRows n rows).getD i 0
    a.getD i 0 * b.getD i 0 * g [(0, 1), (3, 1)] + a.getD i 0 * g [(1, 1)] + b.getD i 0 * g [(1, 1)] +
        g [(0, a.getD 0 0 * b.getD 0 0), (1, a.getD 1 0 + b.getD 1 0), (2, c2), (3, a.getD 3 0 * b.getD 3 0)] *
          g [(0, -1), (1, -1), (2, qo2), (3, -1)] + g [(2, pi)] + g [(2, -pi)] =
      if i = 2 then c2 * qo2 else 0 := by
  intro g
  simp only [g, withRows_getD hi, List.foldl_cons, List.foldl_nil]
  rcases i with _ | _ | _ | _ | i
  · simp
  · simp
  · simp
  · simp
  · simp

theorem plonkArith_wellformed {n : Nat} {a b : List F} (ha : a.length = n) (hb : b.length = n) (pi c2 qo2 : F) :
    (plonkArithColumns n a b pi c2 qo2).Wellformed n := by
  intro ty
  cases ty
  · refine ⟨?_, ?_⟩
    · simp [plonkArithColumns, TestColumns.ofType, withRows_length, ha, hb]
    · show [bytes "a", bytes "b", bytes "c"].Nodup
      decide +kernel
  · refine ⟨?_, ?_⟩
    · simp [plonkArithColumns, TestColumns.ofType, withRows_length]
    · show [bytes "pi"].Nodup
      decide +kernel
  · refine ⟨?_, ?_⟩
    · simp [plonkArithColumns, TestColumns.ofType, withRows_length]
    · show [bytes "qm", bytes "ql", bytes "qr", bytes "qo", bytes "qpi"].Nodup
      decide +kernel

/-- **C89** `test_plonk_arith` with arbitrary entries in row 2, for all columns `a` and `b`: it passes if the product of the value in `c` and
its selector is zero in this row, and panics otherwise. -/
theorem C89_plonk_arith_rows (vk : S.VK) (hplain : ∀ p cs, S.commitPlain ck p = .ok cs → cs = [com (toPoly p.poly) S.emptyRand]) (hd : d.Ok)
    (hn : SupportsDegree S ck d.size) (h4 : 4 ≤ d.size) (hfft : 4 * d.size ≤ 2 ^ FftParams.adicity F) {a b : List F} (ha : a.length = d.size)
    (hb : b.length = d.size) (pi c2 qo2 : F) :
    (plonkArithProgram S ck vk d a b pi c2 qo2 = .ok () ↔ c2 * qo2 = 0) ∧
    (plonkArithProgram S ck vk d a b pi c2 qo2 = .panic ↔ c2 * qo2 ≠ 0) := by
  have hfit := degreeFits_of_four hd h4 (m := 3) le_rfl (by norm_num)
  obtain ⟨t, ht⟩ : ∃ t, t = plonkArithColumns d.size a b pi c2 qo2 := ⟨_, rfl⟩
  have hwf : t.Wellformed d.size := ht ▸ plonkArith_wellformed ha hb pi c2 qo2
  have hfits : GateFits d.size (FftParams.adicity F) 3 (fun ty => (t.ofType ty).length) (Gates.plonkArith (F := F)) := by
    refine gateFits_of (need := needs 3 1 5) (fun q => (Gates.all_queries _ (by simp [Gates.all]) q).1)
      (?_ : ∀ q ∈ [Gates.fq 0, Gates.fq 1, Gates.fq 2, Gates.fq 3, Gates.fq 4, Gates.iq 0, Gates.wq 0, Gates.wq 1, Gates.wq 2], _) rfl
      (by norm_num) ?_ hfit (by simpa using hfft)
    · decide
    · intro ty
      subst ht
      cases ty <;> exact le_rfl
  have hrow : ∀ i < d.size, (Gates.plonkArith (F := F)).1.denote id (t.cell d.size i) = if i = 2 then c2 * qo2 else 0 := by
    intro i hi
    rw [← plonkArith_row hi a b pi c2 qo2]
    show t.cell d.size i (Gates.wq 0) * t.cell d.size i (Gates.wq 1) * t.cell d.size i (Gates.fq 0) +
      t.cell d.size i (Gates.wq 0) * t.cell d.size i (Gates.fq 1) + t.cell d.size i (Gates.wq 1) * t.cell d.size i (Gates.fq 2) +
      t.cell d.size i (Gates.wq 2) * t.cell d.size i (Gates.fq 3) + t.cell d.size i (Gates.fq 4) + t.cell d.size i (Gates.iq 0) = _
    subst ht
    have hc : ∀ (c : Label × List F) (idx : Nat) (ty : OracleType),
        ((plonkArithColumns d.size a b pi c2 qo2).ofType ty)[idx]? = some c →
        (plonkArithColumns d.size a b pi c2 qo2).cell d.size i ⟨idx, .curr, ty⟩ = c.2.getD i 0 := fun c idx ty h => cell_curr h hi
    unfold Gates.wq Gates.fq Gates.iq
    rw [hc _ 0 .witness rfl, hc _ 1 .witness rfl, hc _ 2 .witness rfl, hc _ 0 .fixed rfl, hc _ 1 .fixed rfl, hc _ 2 .fixed rfl,
      hc _ 3 .fixed rfl, hc _ 4 .fixed rfl, hc _ 0 .instance_ rfl]
    dsimp only
    ring
  have hzero : (∀ i < d.size, (Gates.plonkArith (F := F)).1.denote id (t.cell d.size i) = 0) ↔ c2 * qo2 = 0 := by
    constructor
    · intro h
      have := h 2 (by omega)
      rwa [hrow 2 (by omega), if_pos rfl] at this
    · intro h i hi
      rw [hrow i hi, h, ite_self]
  have hcheck : ∀ i ∈ List.range d.size, plonkArithCheck (ε := Err S.E) t i = Res.assert (decide ((if i = 2 then c2 * qo2 else 0) = 0)) := by
    intro i hi
    have hi := List.mem_range.1 hi
    rw [← plonkArith_row hi a b pi c2 qo2]
    subst ht
    unfold plonkArithCheck
    simp only [plonkArithColumns, Res.idx, List.getElem?_cons_zero, List.getElem?_cons_succ, Res.bind_ok]
    have h1 : ∀ rows : List (Nat × F), (withRows d.size rows)[i]? = some ((withRows d.size rows).getD i 0) := by
      intro rows
      rw [List.getElem?_eq_getElem (by rw [withRows_length]; exact hi), List.getD_eq_getElem _ _ (by rw [withRows_length]; exact hi)]
    have h2 : ∀ c : List F, c.length = d.size → c[i]? = some (c.getD i 0) := by
      intro c hc
      rw [List.getElem?_eq_getElem (by omega), List.getD_eq_getElem _ _ (by omega)]
    simp only [h1, h2 a ha, h2 b hb, Res.bind_ok]
  obtain ⟨g1, g2⟩ := mapM_assert hcheck
  obtain ⟨r1, r2⟩ := gateTestRun_outcome vk hplain hd hn hwf hfits
  by_cases hz : c2 * qo2 = 0
  · obtain ⟨bs, hbs⟩ := g1 fun i _ => by rw [hz, ite_self]
    have hok : plonkArithProgram S ck vk d a b pi c2 qo2 = .ok () := by
      unfold plonkArithProgram
      rw [← ht]
      exact Res.bind_eq_ok.2 ⟨bs, hbs, r1 (hzero.2 hz)⟩
    rw [hok]
    exact ⟨⟨fun _ => hz, fun _ => rfl⟩, ⟨fun h => (by cases h), fun h => absurd hz h⟩⟩
  · have hpanic : plonkArithProgram S ck vk d a b pi c2 qo2 = .panic := by
      unfold plonkArithProgram
      rw [← ht]
      show (Res.mapM (plonkArithCheck t) (List.range d.size) >>= _) = _
      rw [g2 fun hall => hz (by simpa using hall 2 (List.mem_range.2 (by omega)))]
      rfl
    rw [hpanic]
    exact ⟨⟨fun h => (by cases h), fun h => absurd h hz⟩, ⟨fun _ => hz, fun _ => rfl⟩⟩

/-- **C89** `test_plonk_arith` passes for all random values. -/
theorem C89_plonk_arith (vk : S.VK) (hplain : ∀ p cs, S.commitPlain ck p = .ok cs → cs = [com (toPoly p.poly) S.emptyRand]) (hd : d.Ok)
    (hn : SupportsDegree S ck d.size) (h4 : 4 ≤ d.size) (hfft : 4 * d.size ≤ 2 ^ FftParams.adicity F) (aPoly bPoly : List F) (pi : F) :
    plonkArithTest S ck vk d aPoly bPoly pi = .ok () :=
  (C89_plonk_arith_rows vk hplain hd hn h4 hfft (Domain.fft_length ..) (Domain.fft_length ..) pi pi 0).1.2 (mul_zero _)

/-- **C89** The comment in `test_plonk_arith` gives row 2 another selector than the code. The code leaves the selector of `c` zero there, so
the test passes with every value in `c`; with the selector of the comment it would panic for every public input other than zero. -/
theorem C89_plonk_arith_comment (vk : S.VK) (hplain : ∀ p cs, S.commitPlain ck p = .ok cs → cs = [com (toPoly p.poly) S.emptyRand])
    (hd : d.Ok) (hn : SupportsDegree S ck d.size) (h4 : 4 ≤ d.size) (hfft : 4 * d.size ≤ 2 ^ FftParams.adicity F) {a b : List F}
    (ha : a.length = d.size) (hb : b.length = d.size) (pi : F) :
    (∀ c2, plonkArithProgram S ck vk d a b pi c2 0 = .ok ()) ∧
    (pi ≠ 0 → plonkArithProgram S ck vk d a b pi pi 1 = .panic) :=
  ⟨fun c2 => (C89_plonk_arith_rows vk hplain hd hn h4 hfft ha hb pi c2 0).1.2 (mul_zero _),
    fun h => (C89_plonk_arith_rows vk hplain hd hn h4 hfft ha hb pi pi 1).2.2 (by rwa [mul_one])⟩

/-! ### `test_delta` -/

theorem delta_zero_iff (v : F) : v * (v - 1) * (v - 2) * (v - 3) = 0 ↔ ∃ k < 4, v = ((k : Nat) : F) := by
  simp only [mul_eq_zero, sub_eq_zero]
  constructor
  · rintro (((h | h) | h) | h)
    · exact ⟨0, by norm_num, by rw [h]; norm_num⟩
    · exact ⟨1, by norm_num, by rw [h]; norm_num⟩
    · exact ⟨2, by norm_num, by rw [h]; norm_num⟩
    · exact ⟨3, by norm_num, by rw [h]; norm_num⟩
  · rintro ⟨k, hk, rfl⟩
    interval_cases k
    · exact .inl (.inl (.inl (by norm_num)))
    · exact .inl (.inl (.inr (by norm_num)))
    · exact .inl (.inr (by norm_num))
    · exact .inr (by norm_num)

/-- **C89** `test_delta` with an arbitrary column: it passes if every value but the first is four times the one before plus 0, 1, 2 or 3, and
panics otherwise. -/
theorem C89_delta_column (vk : S.VK) (hplain : ∀ p cs, S.commitPlain ck p = .ok cs → cs = [com (toPoly p.poly) S.emptyRand]) (hd : d.Ok)
    (hn : SupportsDegree S ck d.size) (h4 : 4 ≤ d.size) (hfft : 5 * d.size ≤ 2 ^ FftParams.adicity F) {a : List F} (ha : a.length = d.size) :
    (deltaProgram S ck vk d a = .ok () ↔ ∀ i, i + 1 < d.size → ∃ k < 4, a.getD (i + 1) 0 = 4 * a.getD i 0 + ((k : Nat) : F)) ∧
    (deltaProgram S ck vk d a = .panic ↔ ¬ ∀ i, i + 1 < d.size → ∃ k < 4, a.getD (i + 1) 0 = 4 * a.getD i 0 + ((k : Nat) : F)) := by
  have hfit := degreeFits_of_four hd h4 (m := 5) (by norm_num) (by norm_num)
  obtain ⟨v, hv⟩ : ∃ v : Nat → F, v = fun i => a.getD (i + 1) 0 - 4 * a.getD i 0 := ⟨_, rfl⟩
  obtain ⟨t, ht⟩ : ∃ t, t = deltaColumns d.size a := ⟨_, rfl⟩
  have hwf : t.Wellformed d.size := by
    subst ht
    intro ty
    cases ty <;> simp [deltaColumns, TestColumns.ofType, withRows_length, ha]
  have hfits : GateFits d.size (FftParams.adicity F) 5 (fun ty => (t.ofType ty).length) (Gates.delta (F := F)) := by
    refine gateFits_of (need := needs 1 0 1) (fun q => (Gates.all_queries _ (by simp [Gates.all]) q).1)
      (?_ : ∀ q ∈ [Gates.fq 0, Gates.wq 0, ⟨0, .next, .witness⟩], _) rfl (by norm_num) ?_ hfit (by simpa using hfft)
    · decide
    · intro ty
      subst ht
      cases ty <;> exact le_rfl
  have hrow : ∀ i < d.size, (Gates.delta (F := F)).1.denote id (t.cell d.size i) =
      if i < d.size - 1 then v i * (v i - 1) * (v i - 2) * (v i - 3) else 0 := by
    intro i hi
    refine (Gates.delta_value (t.cell d.size i)).trans ?_
    have hq : Gates.Q (t.cell d.size i) 0 = if i < d.size - 1 then 0 else 1 := by
      have : Gates.Q (t.cell d.size i) 0 = (withRows d.size [(d.size - 1, (1 : F))]).getD i 0 := by
        subst ht
        exact cell_curr (c := (bytes "q_last", withRows d.size [(d.size - 1, (1 : F))])) rfl hi
      rw [this, withRows_getD hi]
      show (if d.size - 1 = i then (1 : F) else 0) = _
      by_cases h : i < d.size - 1
      · rw [if_neg (by omega), if_pos h]
      · rw [if_pos (by omega), if_neg h]
    rw [hq]
    split
    · rename_i h
      have h1 : t.cell d.size i ⟨0, ⟨1, .plus⟩, .witness⟩ = a.getD (i + 1) 0 := by
        subst ht
        exact cell_next (c := (bytes "a", a)) rfl (by omega)
      have h2 : Gates.W (t.cell d.size i) 0 = a.getD i 0 := by
        subst ht
        exact cell_curr (c := (bytes "a", a)) rfl hi
      rw [h1, h2, hv]
      ring
    · ring
  have hzero : (∀ i < d.size, (Gates.delta (F := F)).1.denote id (t.cell d.size i) = 0) ↔
      ∀ i, i + 1 < d.size → ∃ k < 4, a.getD (i + 1) 0 = 4 * a.getD i 0 + ((k : Nat) : F) := by
    have hiff : ∀ i, v i * (v i - 1) * (v i - 2) * (v i - 3) = 0 ↔ ∃ k < 4, a.getD (i + 1) 0 = 4 * a.getD i 0 + ((k : Nat) : F) := by
      intro i
      rw [delta_zero_iff, hv]
      simp only [sub_eq_iff_eq_add']
    constructor
    · intro h i hi
      have := h i (by omega)
      rw [hrow i (by omega), if_pos (by omega)] at this
      exact (hiff i).1 this
    · intro h i hi
      rw [hrow i hi]
      split
      · exact (hiff i).2 (h i (by omega))
      · rfl
  have hcheck : ∀ i ∈ List.range a.length, deltaCheck (ε := Err S.E) d.size a i =
      Res.assert (decide ((if i < d.size - 1 then v i * (v i - 1) * (v i - 2) * (v i - 3) else 0) = 0)) := by
    intro i hi
    have hi := List.mem_range.1 hi
    unfold deltaCheck
    rw [idx_getD hi, Res.bind_ok]
    by_cases h : i < d.size - 1
    · rw [if_pos h, if_pos h, idx_getD (by omega), Res.bind_ok, hv]
      dsimp only
      congr 1
      exact decide_eq_decide.2 eq_comm
    · rw [if_neg h, if_neg h]
      rw [decide_eq_true rfl]
      rfl
  obtain ⟨g1, g2⟩ := mapM_assert hcheck
  obtain ⟨r1, r2⟩ := gateTestRun_outcome vk hplain hd hn hwf hfits
  have hall : (∀ i ∈ List.range a.length, (if i < d.size - 1 then v i * (v i - 1) * (v i - 2) * (v i - 3) else 0) = 0) ↔
      ∀ i < d.size, (Gates.delta (F := F)).1.denote id (t.cell d.size i) = 0 := by
    constructor
    · intro h i hi
      rw [hrow i hi]
      exact h i (List.mem_range.2 (by omega))
    · intro h i hi
      have hi := List.mem_range.1 hi
      rw [← hrow i (by omega)]
      exact h i (by omega)
  rw [← hzero]
  by_cases hz : ∀ i < d.size, (Gates.delta (F := F)).1.denote id (t.cell d.size i) = 0
  · obtain ⟨bs, hbs⟩ := g1 (hall.2 hz)
    have hok : deltaProgram S ck vk d a = .ok () := by
      unfold deltaProgram
      rw [← ht]
      exact Res.bind_eq_ok.2 ⟨bs, hbs, r1 hz⟩
    rw [hok]
    exact ⟨⟨fun _ => hz, fun _ => rfl⟩, ⟨fun h => (by cases h), fun h => absurd hz h⟩⟩
  · have hpanic : deltaProgram S ck vk d a = .panic := by
      unfold deltaProgram
      rw [g2 fun h => hz (hall.1 h)]
      rfl
    rw [hpanic]
    exact ⟨⟨fun h => (by cases h), fun h => absurd h hz⟩, ⟨fun _ => hz, fun _ => rfl⟩⟩

/-- **C89** `test_delta` passes for all random values. -/
theorem C89_delta (vk : S.VK) (hplain : ∀ p cs, S.commitPlain ck p = .ok cs → cs = [com (toPoly p.poly) S.emptyRand]) (hd : d.Ok)
    (hn : SupportsDegree S ck d.size) (h4 : 4 ≤ d.size) (hfft : 5 * d.size ≤ 2 ^ FftParams.adicity F) (draw : Nat → Nat) :
    deltaTest S ck vk d draw = .ok () := by
  refine (C89_delta_column vk hplain hd hn h4 hfft (by rw [List.length_map, List.length_range])).1.2 fun i hi => ?_
  have h : ∀ j < d.size, ((List.range d.size).map (deltaEval (F := F) draw)).getD j 0 = deltaEval draw j := by
    intro j hj
    rw [List.getD_eq_getElem _ _ (by rw [List.length_map, List.length_range]; exact hj), List.getElem_map, List.getElem_range]
  refine ⟨draw (i + 1) % 4, Nat.mod_lt _ (by norm_num), ?_⟩
  rw [h _ hi, h i (by omega), add_comm (4 * _)]
  rfl

/-! ### `test_rescue_gate` -/

/-- **C89** `test_rescue_gate` with an arbitrary last column: it passes if the values of this column are the sums of the fifth powers, and
panics otherwise. -/
theorem C89_rescue_column (vk : S.VK) (hplain : ∀ p cs, S.commitPlain ck p = .ok cs → cs = [com (toPoly p.poly) S.emptyRand]) (hd : d.Ok)
    (hn : SupportsDegree S ck d.size) (h4 : 4 ≤ d.size) (hfft : 6 * d.size ≤ 2 ^ FftParams.adicity F) {w q : List (List F)} {w5 : List F}
    (hw : 4 ≤ w.length ∧ ∀ c ∈ w, c.length = d.size) (hq : q.length = 4 ∧ ∀ c ∈ q, c.length = d.size) (h5 : w5.length = d.size) :
    ((∀ i < d.size, w5.getD i 0 = ∑ j ∈ Finset.range 4, (q.getD j []).getD i 0 * (w.getD j []).getD i 0 ^ 5) →
      gateTestRun S ck vk d (rescueColumns w q w5) Gates.rescue = .ok ()) ∧
    ((¬ ∀ i < d.size, w5.getD i 0 = ∑ j ∈ Finset.range 4, (q.getD j []).getD i 0 * (w.getD j []).getD i 0 ^ 5) →
      gateTestRun S ck vk d (rescueColumns w q w5) Gates.rescue = .panic) := by
  have hfit := degreeFits_of_four hd h4 (m := 6) (by norm_num) (by norm_num)
  obtain ⟨w0, w1, w2, w3, rest, rfl⟩ : ∃ w0 w1 w2 w3 rest, w = w0 :: w1 :: w2 :: w3 :: rest := by
    rcases w with _ | ⟨w0, _ | ⟨w1, _ | ⟨w2, _ | ⟨w3, rest⟩⟩⟩⟩
    · exact absurd hw.1 (by simp)
    · exact absurd hw.1 (by simp)
    · exact absurd hw.1 (by simp)
    · exact absurd hw.1 (by simp)
    · exact ⟨_, _, _, _, _, rfl⟩
  obtain ⟨q0, q1, q2, q3, rfl⟩ : ∃ q0 q1 q2 q3, q = [q0, q1, q2, q3] := List.length_eq_four.1 hq.1
  have hcols : rescueColumns (w0 :: w1 :: w2 :: w3 :: rest) [q0, q1, q2, q3] w5 =
      ⟨[(bytes "w_1", w0), (bytes "w_2", w1), (bytes "w_3", w2), (bytes "w_4", w3), (bytes "w_5", w5)], [],
        [(bytes "q1", q0), (bytes "q2", q1), (bytes "q3", q2), (bytes "q4", q3)]⟩ := rfl
  rw [hcols]
  obtain ⟨t, ht⟩ : ∃ t : TestColumns F, t =
      ⟨[(bytes "w_1", w0), (bytes "w_2", w1), (bytes "w_3", w2), (bytes "w_4", w3), (bytes "w_5", w5)], [],
        [(bytes "q1", q0), (bytes "q2", q1), (bytes "q3", q2), (bytes "q4", q3)]⟩ := ⟨_, rfl⟩
  have hwf : t.Wellformed d.size := by
    subst ht
    have h1 := hw.2
    have h2 := hq.2
    simp only [List.mem_cons, forall_eq_or_imp] at h1 h2
    intro ty
    cases ty
    · refine ⟨?_, ?_⟩
      · simp [TestColumns.ofType, h1, h5]
      · show [bytes "w_1", bytes "w_2", bytes "w_3", bytes "w_4", bytes "w_5"].Nodup
        decide +kernel
    · simp [TestColumns.ofType]
    · refine ⟨?_, ?_⟩
      · simp [TestColumns.ofType, h2]
      · show [bytes "q1", bytes "q2", bytes "q3", bytes "q4"].Nodup
        decide +kernel
  have hfits : GateFits d.size (FftParams.adicity F) 6 (fun ty => (t.ofType ty).length) (Gates.rescue (F := F)) := by
    refine gateFits_of (need := needs 5 0 4) (fun q => (Gates.all_queries _ (by simp [Gates.all]) q).1)
      (?_ : ∀ q ∈ [Gates.fq 0, Gates.fq 1, Gates.fq 2, Gates.fq 3, Gates.wq 0, Gates.wq 1, Gates.wq 2, Gates.wq 3, Gates.wq 4], _) rfl
      (by norm_num) ?_ hfit (by simpa using hfft)
    · decide
    · intro ty
      subst ht
      cases ty <;> exact le_rfl
  have hzero : (∀ i < d.size, (Gates.rescue (F := F)).1.denote id (t.cell d.size i) = 0) ↔ ∀ i < d.size, w5.getD i 0 =
      ∑ j ∈ Finset.range 4, (([q0, q1, q2, q3] : List (List F)).getD j []).getD i 0 * ((w0 :: w1 :: w2 :: w3 :: rest).getD j []).getD i 0 ^ 5 := by
    refine forall₂_congr fun i hi => ?_
    refine ((Gates.C13_rescue_and_mul (t.cell d.size i)).1).trans ?_
    subst ht
    have hc := fun (c : Label × List F) (idx : Nat) (ty : OracleType) h => cell_curr (i := i) (ty := ty) (idx := idx) (c := c)
      (t := ⟨[(bytes "w_1", w0), (bytes "w_2", w1), (bytes "w_3", w2), (bytes "w_4", w3), (bytes "w_5", w5)], [],
        [(bytes "q1", q0), (bytes "q2", q1), (bytes "q3", q2), (bytes "q4", q3)]⟩) h hi
    have e0 := hc _ 0 .witness rfl
    have e1 := hc _ 1 .witness rfl
    have e2 := hc _ 2 .witness rfl
    have e3 := hc _ 3 .witness rfl
    have e4 := hc _ 4 .witness rfl
    have f0 := hc _ 0 .fixed rfl
    have f1 := hc _ 1 .fixed rfl
    have f2 := hc _ 2 .fixed rfl
    have f3 := hc _ 3 .fixed rfl
    unfold Rotation.curr at e0 e1 e2 e3 e4 f0 f1 f2 f3
    unfold Gates.W Gates.Q
    rw [e0, e1, e2, e3, e4, f0, f1, f2, f3, eq_comm]
    simp [Finset.sum_range_succ]
  rw [← ht, ← hzero]
  exact gateTestRun_outcome vk hplain hd hn hwf hfits

/-- **C89** `test_rescue_gate` passes for all random values. -/
theorem C89_rescue (vk : S.VK) (hplain : ∀ p cs, S.commitPlain ck p = .ok cs → cs = [com (toPoly p.poly) S.emptyRand]) (hd : d.Ok)
    (hn : SupportsDegree S ck d.size) (h4 : 4 ≤ d.size) (hfft : 6 * d.size ≤ 2 ^ FftParams.adicity F) {w q : List (List F)}
    (hw : w.length = 5 ∧ ∀ c ∈ w, c.length = d.size) (hq : q.length = 4 ∧ ∀ c ∈ q, c.length = d.size) :
    rescueTest S ck vk d w q = .ok () := by
  refine (C89_rescue_column vk hplain hd hn h4 hfft ⟨by omega, hw.2⟩ hq (by simp [rescueColumn])).1 fun i hi => ?_
  unfold rescueColumn
  rw [List.getD_eq_getElem _ _ (by simpa using hi), List.getElem_map, List.getElem_range]
  simp only [Finset.sum_range_succ, Finset.sum_range_zero]
  ring

/-! ### `test_delta_xor_and` -/

/-- The polynomial of the gate on two-bit values and their product. -/
theorem xorAnd_value {a b : Nat} (ha : a < 4) (hb : b < 4) (l q : F)
    (h : q = 1 ∧ l = ((a &&& b : Nat) : F) ∨ q = -1 ∧ l = ((a ^^^ b : Nat) : F)) :
    q * (9 * l - 3 * ((a : F) + b)) + (3 * ((a : F) + b + l) - 2 * ((a : F) * b * ((a : F) * b * (4 * ((a : F) * b) - 18 * ((a : F) + b) + 81) +
      18 * ((a : F) * a + b * b) - 81 * ((a : F) + b) + 83))) = 0 := by
  have h1 : ∀ a < 4, ∀ b < 4, (1 : ℤ) * (9 * ((a &&& b : Nat) : ℤ) - 3 * ((a : ℤ) + b)) + (3 * ((a : ℤ) + b + ((a &&& b : Nat) : ℤ)) -
      2 * ((a : ℤ) * b * ((a : ℤ) * b * (4 * ((a : ℤ) * b) - 18 * ((a : ℤ) + b) + 81) +
      18 * ((a : ℤ) * a + b * b) - 81 * ((a : ℤ) + b) + 83))) = 0 := by decide
  have h2 : ∀ a < 4, ∀ b < 4, (-1 : ℤ) * (9 * ((a ^^^ b : Nat) : ℤ) - 3 * ((a : ℤ) + b)) + (3 * ((a : ℤ) + b + ((a ^^^ b : Nat) : ℤ)) -
      2 * ((a : ℤ) * b * ((a : ℤ) * b * (4 * ((a : ℤ) * b) - 18 * ((a : ℤ) + b) + 81) +
      18 * ((a : ℤ) * a + b * b) - 81 * ((a : ℤ) + b) + 83))) = 0 := by decide
  rcases h with ⟨rfl, rfl⟩ | ⟨rfl, rfl⟩
  · exact_mod_cast congrArg (Int.cast : ℤ → F) (h1 a ha b hb)
  · exact_mod_cast congrArg (Int.cast : ℤ → F) (h2 a ha b hb)

/-- **C89** `test_delta_xor_and` with arbitrary two-bit values: it passes. -/
theorem C89_xor_and_values (vk : S.VK) (hplain : ∀ p cs, S.commitPlain ck p = .ok cs → cs = [com (toPoly p.poly) S.emptyRand]) (hd : d.Ok)
    (hn : SupportsDegree S ck d.size) (h4 : 4 ≤ d.size) (hfft : 4 * d.size ≤ 2 ^ FftParams.adicity F) {half : Nat} (hhalf : half ≤ d.size)
    {as bs : List Nat} (ha : as.length = d.size ∧ ∀ v ∈ as, v < 4) (hb : bs.length = d.size ∧ ∀ v ∈ bs, v < 4) :
    xorAndProgram S ck vk d half as bs (List.replicate half 1 ++ List.replicate (d.size - half) (-1)) = .ok () := by
  have hfit := degreeFits_of_four hd h4 (m := 3) (by norm_num) (by norm_num)
  obtain ⟨qc, hqc⟩ : ∃ qc : List F, qc = List.replicate half 1 ++ List.replicate (d.size - half) (-1) := ⟨_, rfl⟩
  have hlq : qc.length = d.size := by rw [hqc]; simp; omega
  have hlog : (logicColumn (F := F) half as bs).length = d.size := by simp [logicColumn, ha.1, hb.1]
  have hvalue : ∀ i (hi : i < d.size), (as[i]'(by omega)) < 4 ∧ (bs[i]'(by omega)) < 4 ∧
      (qc[i]'(by omega) = 1 ∧ (logicColumn (F := F) half as bs)[i]'(by omega) = ((as[i]'(by omega) &&& bs[i]'(by omega) : Nat) : F) ∨
        qc[i]'(by omega) = -1 ∧ (logicColumn (F := F) half as bs)[i]'(by omega) = ((as[i]'(by omega) ^^^ bs[i]'(by omega) : Nat) : F)) := by
    intro i hi
    refine ⟨ha.2 _ (List.getElem_mem _), hb.2 _ (List.getElem_mem _), ?_⟩
    subst hqc
    by_cases h : i < half
    · left
      constructor
      · rw [List.getElem_append_left (by simpa using h), List.getElem_replicate]
      · simp [logicColumn, h]
    · right
      constructor
      · rw [List.getElem_append_right (by simpa using h), List.getElem_replicate]
      · simp [logicColumn, h]
  rw [← hqc]
  obtain ⟨t, ht⟩ : ∃ t, t = xorAndColumns half as bs qc := ⟨_, rfl⟩
  have hwf : t.Wellformed d.size := by
    subst ht
    intro ty
    cases ty
    · refine ⟨?_, ?_⟩
      · simp [xorAndColumns, TestColumns.ofType, hlog, ha.1, hb.1]
      · show [bytes "a", bytes "b", bytes "product", bytes "logic"].Nodup
        decide +kernel
    · simp [xorAndColumns, TestColumns.ofType]
    · simp [xorAndColumns, TestColumns.ofType, hlq]
  have hfits : GateFits d.size (FftParams.adicity F) 3 (fun ty => (t.ofType ty).length) (Gates.deltaXorAnd (F := F)) := by
    refine gateFits_of (need := needs 4 0 1) (fun q => (Gates.all_queries _ (by simp [Gates.all]) q).1)
      (?_ : ∀ q ∈ [Gates.wq 0, Gates.wq 1, Gates.wq 2, Gates.wq 3, Gates.fq 0], _) rfl
      (by norm_num) ?_ hfit (by simpa using hfft)
    · decide
    · intro ty
      subst ht
      cases ty <;> exact le_rfl
  have hzero : ∀ i < d.size, (Gates.deltaXorAnd (F := F)).1.denote id (t.cell d.size i) = 0 := by
    intro i hi
    refine (Gates.deltaXorAnd_value (t.cell d.size i)).trans ?_
    obtain ⟨v1, v2, v3⟩ := hvalue i hi
    have hv := xorAnd_value v1 v2 _ _ v3
    subst ht
    have e0 : Gates.W ((xorAndColumns half as bs qc).cell d.size i) 0 = ((as[i]'(by omega) : Nat) : F) := by
      refine (cell_curr (c := (bytes "a", as.map fun v : Nat => (v : F))) rfl hi).trans ?_
      rw [List.getD_eq_getElem _ _ (by simp; omega), List.getElem_map]
    have e1 : Gates.W ((xorAndColumns half as bs qc).cell d.size i) 1 = ((bs[i]'(by omega) : Nat) : F) := by
      refine (cell_curr (c := (bytes "b", bs.map fun v : Nat => (v : F))) rfl hi).trans ?_
      rw [List.getD_eq_getElem _ _ (by simp; omega), List.getElem_map]
    have e2 : Gates.W ((xorAndColumns half as bs qc).cell d.size i) 2 = ((as[i]'(by omega) : Nat) : F) * ((bs[i]'(by omega) : Nat) : F) := by
      refine (cell_curr (c := (bytes "product", List.zipWith (· * ·) (as.map fun v : Nat => (v : F)) (bs.map fun v : Nat => (v : F)))) rfl hi).trans ?_
      rw [List.getD_eq_getElem _ _ (by simp; omega), List.getElem_zipWith, List.getElem_map, List.getElem_map]
    have e3 : Gates.W ((xorAndColumns half as bs qc).cell d.size i) 3 = (logicColumn (F := F) half as bs)[i]'(by omega) := by
      refine (cell_curr (c := (bytes "logic", logicColumn half as bs)) rfl hi).trans ?_
      rw [List.getD_eq_getElem _ _ (by dsimp only; omega)]
    have f0 : Gates.Q ((xorAndColumns half as bs qc).cell d.size i) 0 = qc[i]'(by omega) := by
      refine (cell_curr (c := (bytes "qc", qc)) rfl hi).trans ?_
      rw [List.getD_eq_getElem _ _ (by dsimp only; omega)]
    rw [e0, e1, e2, e3, f0, ← hv]
  have hcheck : ∃ us, Res.mapM (ε := Err S.E) xorAndCheck
      (List.zip (List.zip (as.map fun v : Nat => (v : F)) (bs.map fun v : Nat => (v : F)))
        (List.zip (List.zip (List.zipWith (· * ·) (as.map fun v : Nat => (v : F)) (bs.map fun v : Nat => (v : F))) (logicColumn half as bs)) qc)) = .ok us := by
    refine Res.mapM_ok_of fun r hr => ?_
    obtain ⟨i, hi, rfl⟩ := List.mem_iff_getElem.1 hr
    have hi' : i < d.size := by
      simp only [List.length_zip, List.length_map] at hi
      omega
    obtain ⟨v1, v2, v3⟩ := hvalue i hi'
    have hv := xorAnd_value v1 v2 _ _ v3
    refine ⟨(), ?_⟩
    unfold xorAndCheck
    simp only [List.getElem_zip, List.getElem_map, List.getElem_zipWith]
    rw [decide_eq_true hv.symm]
    rfl
  obtain ⟨us, hus⟩ := hcheck
  unfold xorAndProgram
  rw [← ht]
  exact Res.bind_eq_ok.2 ⟨us, hus, (gateTestRun_outcome vk hplain hd hn hwf hfits).1 hzero⟩

/-- **C89** `test_delta_xor_and` passes. Its rows are all pairs of two-bit values, once for "and" and once for "xor". -/
theorem C89_xor_and (vk : S.VK) (hplain : ∀ p cs, S.commitPlain ck p = .ok cs → cs = [com (toPoly p.poly) S.emptyRand]) (hd : d.Ok)
    (hn : SupportsDegree S ck d.size) (h32 : d.size = 32) (hfft : 4 * d.size ≤ 2 ^ FftParams.adicity F) :
    xorAndTest S ck vk d = .ok () ∧
    ∀ a < 4, ∀ b < 4, (∃ i < 16, xorAndA[i]? = some a ∧ xorAndB[i]? = some b) ∧
      ∃ i, 16 ≤ i ∧ i < 32 ∧ xorAndA[i]? = some a ∧ xorAndB[i]? = some b := by
  constructor
  · have := C89_xor_and_values (S := S) vk hplain hd hn (by omega) hfft (half := 16) (by omega) (as := xorAndA) (bs := xorAndB)
      ⟨by rw [h32]; rfl, by decide⟩ ⟨by rw [h32]; rfl, by decide⟩
    rw [h32] at this
    exact this
  · intro a ha b hb
    refine ⟨⟨4 * a + b, by omega, ?_⟩, ⟨16 + 4 * a + b, by omega, by omega, ?_⟩⟩
    · interval_cases a <;> interval_cases b <;> decide
    · interval_cases a <;> interval_cases b <;> decide

/-- **C89** The four tests pass for all random values, with every scheme that commits without randomness. -/
theorem C89_tests (vk : S.VK) (hplain : ∀ p cs, S.commitPlain ck p = .ok cs → cs = [com (toPoly p.poly) S.emptyRand]) (hd : d.Ok)
    (hn : SupportsDegree S ck d.size) (h4 : 4 ≤ d.size) (hfft : 6 * d.size ≤ 2 ^ FftParams.adicity F) :
    (∀ aPoly bPoly pi, plonkArithTest S ck vk d aPoly bPoly pi = .ok ()) ∧
    (∀ draw, deltaTest S ck vk d draw = .ok ()) ∧
    (d.size = 32 → xorAndTest S ck vk d = .ok ()) ∧
    ∀ w q : List (List F), (w.length = 5 ∧ ∀ c ∈ w, c.length = d.size) → (q.length = 4 ∧ ∀ c ∈ q, c.length = d.size) →
      rescueTest S ck vk d w q = .ok () :=
  ⟨fun _ _ _ => C89_plonk_arith vk hplain hd hn h4 (by omega) _ _ _, fun _ => C89_delta vk hplain hd hn h4 (by omega) _,
    fun h32 => (C89_xor_and vk hplain hd hn h32 (by omega)).1, fun _ _ hw hq => C89_rescue vk hplain hd hn h4 hfft hw hq⟩

end

section
variable {F : Type} [Field F] [LinearOrder F] [FftParams F] [LawfulFft F] {G : Type} [AddCommGroup G] [Module F G]
variable {G2 GT : Type} [AddCommGroup G2] [Module F G2] [AddCommGroup GT] [Module F GT] [DecidableEq GT]

/-- **C89** The four tests with KZG keys made by `universal_setup` and `prepare_keys` for the degree `n - 1` (as `test_init` does) or more, for
every secret of the setup and all random values. The tests have 4, 16, 32 and 4 rows. -/
theorem C89_kzg (e : G →ₗ[F] G2 →ₗ[F] GT) (env : KzgEnv F G) {maxDegree : Nat} {beta : F} {g gammaG : G} {h : G2} {srs : KzgSrs G G2}
    {ck : KzgKey G} {vk : KzgVk G G2} (hsrs : universalSetup maxDegree beta g gammaG h = .ok srs) (hkeys : prepareKeys srs = .ok (ck, vk))
    {d : Domain F} (hd : d.Ok) (h4 : 4 ≤ d.size) (hfft : 6 * d.size ≤ 2 ^ FftParams.adicity F) (hn : d.size ≤ maxDegree + 1) :
    (∀ aPoly bPoly pi, plonkArithTest (kzgScheme e env) ck vk d aPoly bPoly pi = .ok ()) ∧
    (∀ draw, deltaTest (kzgScheme e env) ck vk d draw = .ok ()) ∧
    (d.size = 32 → xorAndTest (kzgScheme e env) ck vk d = .ok ()) ∧
    ∀ w q : List (List F), (w.length = 5 ∧ ∀ c ∈ w, c.length = d.size) → (q.length = 4 ∧ ∀ c ∈ q, c.length = d.size) →
      rescueTest (kzgScheme e env) ck vk d w q = .ok () := by
  have hf := fromSetup_of_keys hsrs hkeys
  have h3 : 3 ≤ ck.gammaPowers.length := by rw [hf.gammaPowers]; exact le_rfl
  have hsup := C52_kzg_supports e env hd.size_pos (by rw [hf.powers]; simpa using hn) h3
  refine C89_tests (S := kzgScheme e env) (ck := ck) (d := d) (com := fun p r => kzgCom (G := G) ck p (toPoly (Subtype.val r : List F))) vk ?_ hd hsup h4
    hfft
  intro p cs hcs
  obtain ⟨c, hc, hcs⟩ := Res.bind_eq_ok.1 hcs
  obtain ⟨-, -, rfl⟩ := (kzgCommitWith_iff ..).1 hc
  exact (Res.ok.inj hcs).symm

end

namespace Toy8

def four : Domain F97 := F97.dom 2
theorem four_Ok : four.Ok := F97.dom_ok (by norm_num)
theorem four_size : four.size = 4 := by decide +kernel

def passes {ε : Type} : Res ε Unit → Bool
  | .ok () => true
  | _ => false

def panics {ε : Type} : Res ε Unit → Bool
  | .panic => true
  | _ => false

/-- The tests run with four rows. With the selector of the comment the first one panics; the others panic with a digit 4 and with a wrong sum. -/
theorem gate_tests_run :
    passes (plonkArithTest S () () four [3, 1, 4, 1] [5, 9, 2, 6] 35) = true ∧
    panics (plonkArithProgram S () () four [3, 1, 4, 1] [5, 9, 2, 6] 35 35 1) = true ∧
    passes (deltaTest S () () four (fun i => 7 * i + 2)) = true ∧
    panics (deltaProgram S () () four [1, 4, 20, 80]) = true ∧
    passes (xorAndProgram S () () four 2 [3, 1, 2, 3] [2, 3, 1, 3] [1, 1, -1, -1]) = true ∧
    passes (rescueTest S () () four [[1, 2, 3, 4], [5, 6, 7, 8], [9, 10, 11, 12], [13, 14, 15, 16], [0, 0, 0, 0]]
      [[1, 2, 3, 4], [5, 6, 7, 8], [9, 10, 11, 12], [13, 14, 15, 16]]) = true ∧
    panics (gateTestRun S () () four (rescueColumns [[1, 2, 3, 4], [5, 6, 7, 8], [9, 10, 11, 12], [13, 14, 15, 16]]
      [[1, 2, 3, 4], [5, 6, 7, 8], [9, 10, 11, 12], [13, 14, 15, 16]] [0, 0, 0, 0]) Gates.rescue) = true := by
  refine ⟨?_, ?_, ?_, ?_, ?_, ?_, ?_⟩ <;> decide +kernel

/-- The hypotheses of `C89_plonk_arith`, `C89_delta` and `C89_rescue` are met. -/
example : plonkArithTest S () () four [3, 1, 4, 1] [5, 9, 2, 6] 35 = .ok () ∧ deltaTest S () () four (fun i => 7 * i + 2) = .ok () ∧
    rescueTest S () () four [[1, 2, 3, 4], [5, 6, 7, 8], [9, 10, 11, 12], [13, 14, 15, 16], [0, 0, 0, 0]]
      [[1, 2, 3, 4], [5, 6, 7, 8], [9, 10, 11, 12], [13, 14, 15, 16]] = .ok () := by
  have hd := four_Ok
  have hs := four_size
  have hplain : ∀ (p : LPoly F97) cs, S.commitPlain () p = .ok cs → cs = [coeffs (toPoly p.poly)] := by
    intro p cs h
    rw [coeffs_toPoly]
    exact (Res.ok.inj h).symm
  have ha : (24 : Nat) ≤ 2 ^ FftParams.adicity F97 := by decide
  generalize four = d at hd hs ⊢
  exact ⟨C89_plonk_arith (S := S) (ck := ()) (d := d) (com := fun p _ => coeffs p) () hplain hd (Toy.supports _) (by omega) (by omega) _ _ _,
    C89_delta (S := S) (ck := ()) (d := d) (com := fun p _ => coeffs p) () hplain hd (Toy.supports _) (by omega) (by omega) _,
    C89_rescue (S := S) (ck := ()) (d := d) (com := fun p _ => coeffs p) () hplain hd (Toy.supports _) (by omega) (by omega)
      (by rw [hs]; decide) (by rw [hs]; decide)⟩

end Toy8
end ZK
