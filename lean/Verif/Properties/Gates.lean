import Mathlib.Tactic.LinearCombination
import Mathlib.Tactic.FinCases
import Mathlib.Tactic.IntervalCases
import Mathlib.Algebra.CharP.Defs
import Mathlib.Algebra.BigOperators.Intervals
import Mathlib.Data.Nat.Bitwise
import Verif.Model.Precompiled
import Verif.Lemmas.Expression
import Verif.Lemmas.F97
/-! C09-C14: the precompiled gates. The value of a gate is the value of its virtual expression when
query (type, index, rotation) is answered by `cell`; C06 says that this is what a configured gate
evaluates to. -/
set_option autoImplicit false
namespace ZK
namespace Gates

section
variable {F : Type} [Field F]

/-- The value of a gate on a row, `cell` giving the cell each query reads. -/
def value (gate : VExpr F × List VirtualQuery) (cell : VirtualQuery → F) : F := gate.1.denote id cell

/-- Cells of the row itself. -/
def W (cell : VirtualQuery → F) (i : Nat) : F := cell ⟨i, ⟨0, .plus⟩, .witness⟩
def Q (cell : VirtualQuery → F) (i : Nat) : F := cell ⟨i, ⟨0, .plus⟩, .fixed⟩
def P (cell : VirtualQuery → F) (i : Nat) : F := cell ⟨i, ⟨0, .plus⟩, .instance_⟩

/-- C09. The PLONK gate vanishes exactly when `qm a b + ql a + qr b + qo c + qc + PI = 0`. -/
theorem C09_plonk_gate (cell : VirtualQuery → F) :
    value plonkArith cell = 0 ↔
      Q cell 0 * (W cell 0 * W cell 1) + Q cell 1 * W cell 0 + Q cell 2 * W cell 1 + Q cell 3 * W cell 2
        + Q cell 4 + P cell 0 = 0 := by
  have : value plonkArith cell =
      Q cell 0 * (W cell 0 * W cell 1) + Q cell 1 * W cell 0 + Q cell 2 * W cell 1 + Q cell 3 * W cell 2
        + Q cell 4 + P cell 0 := by
    show W cell 0 * W cell 1 * Q cell 0 + W cell 0 * Q cell 1 + W cell 1 * Q cell 2 + W cell 2 * Q cell 3
      + Q cell 4 + P cell 0 = _
    ring
  rw [this]

/-- Multiplication row `3 * 4 = 12`: the gate is zero; with `13` it is not. -/
example :
    let cell (c : F97) : VirtualQuery → F97 := fun q =>
      match q.oracleType, q.index with
      | .witness, 0 => 3
      | .witness, 1 => 4
      | .witness, 2 => c
      | .fixed, 0 => 1
      | .fixed, 3 => -1
      | _, _ => 0
    value plonkArith (cell 12) = 0 ∧ value plonkArith (cell 13) ≠ 0 := by
  decide +kernel

/-- The gate C10 asks for. -/
def plonk4 (cell : VirtualQuery → F) : F :=
  Q cell 0 * (W cell 0 * W cell 1) + Q cell 1 * W cell 0 + Q cell 2 * W cell 1 + Q cell 3 * W cell 3
    + Q cell 4 * W cell 2 + Q cell 5 + P cell 0

/-- C10, what holds: the gate is the four-wire gate with the third wire in the place of the fourth, so it
is the intended one exactly for cells whose third and fourth wire agree. Missing: four independent
wires, which `C10_four_wires_false` refutes. -/
theorem C10_four_wire_gate_partial (cell : VirtualQuery → F) :
    (value plonkArith4 cell = 0 ↔
      Q cell 0 * (W cell 0 * W cell 1) + Q cell 1 * W cell 0 + Q cell 2 * W cell 1 + Q cell 3 * W cell 2
        + Q cell 4 * W cell 2 + Q cell 5 + P cell 0 = 0) ∧
    (W cell 2 = W cell 3 → (value plonkArith4 cell = 0 ↔ plonk4 cell = 0)) := by
  have : value plonkArith4 cell =
      Q cell 0 * (W cell 0 * W cell 1) + Q cell 1 * W cell 0 + Q cell 2 * W cell 1 + Q cell 3 * W cell 2
        + Q cell 4 * W cell 2 + Q cell 5 + P cell 0 := by
    show W cell 0 * W cell 1 * Q cell 0 + W cell 0 * Q cell 1 + W cell 1 * Q cell 2 + W cell 2 * Q cell 3
      + W cell 2 * Q cell 4 + P cell 0 + Q cell 5 = _
    ring
  rw [this]
  refine ⟨Iff.rfl, fun h => ?_⟩
  unfold plonk4
  rw [h]

/-- C10 is false of the code in every field: the fourth wire is ignored, both by accepting a row that
violates the intended equation and by rejecting one that satisfies it; whatever the fourth wire holds
never matters. -/
theorem C10_four_wires_false :
    (∃ cell : VirtualQuery → F, value plonkArith4 cell = 0 ∧ plonk4 cell ≠ 0) ∧
    (∃ cell : VirtualQuery → F, value plonkArith4 cell ≠ 0 ∧ plonk4 cell = 0) ∧
    (∀ cell cell' : VirtualQuery → F, (∀ q, ¬(q.index = 3 ∧ q.oracleType = .witness) → cell q = cell' q) →
      value plonkArith4 cell = value plonkArith4 cell') := by
  refine ⟨?_, ?_, ?_⟩
  · refine ⟨fun q => if q = ⟨3, ⟨0, .plus⟩, .witness⟩ ∨ q = ⟨3, ⟨0, .plus⟩, .fixed⟩ then 1 else 0, ?_, ?_⟩
    · rw [(C10_four_wire_gate_partial _).1]
      simp [W, Q, P]
    · simp [plonk4, W, Q, P]
  · refine ⟨fun q => if q = ⟨2, ⟨0, .plus⟩, .witness⟩ ∨ q = ⟨3, ⟨0, .plus⟩, .fixed⟩ then 1 else 0, ?_, ?_⟩
    · rw [Ne, (C10_four_wire_gate_partial _).1]
      simp [W, Q, P]
    · simp [plonk4, W, Q, P]
  · intro cell cell' h
    show cell (wq 0) * cell (wq 1) * cell (fq 0) + cell (wq 0) * cell (fq 1) + cell (wq 1) * cell (fq 2)
        + cell (wq 2) * cell (fq 3) + cell (wq 2) * cell (fq 4) + cell (iq 0) + cell (fq 5)
      = cell' (wq 0) * cell' (wq 1) * cell' (fq 0) + cell' (wq 0) * cell' (fq 1) + cell' (wq 1) * cell' (fq 2)
        + cell' (wq 2) * cell' (fq 3) + cell' (wq 2) * cell' (fq 4) + cell' (iq 0) + cell' (fq 5)
    rw [h (wq 0) (by simp [wq]), h (wq 1) (by simp [wq]), h (wq 2) (by simp [wq]), h (fq 0) (by simp [fq]),
      h (fq 1) (by simp [fq]), h (fq 2) (by simp [fq]), h (fq 3) (by simp [fq]), h (fq 4) (by simp [fq]),
      h (fq 5) (by simp [fq]), h (iq 0) (by simp [iq])]

/-! ### C11 -/

/-- The cells the Delta gate reads on row `i`: column `col` at rows `i` and `i + 1`, selector `last`. -/
def deltaCells (col last : Nat → F) (i : Nat) : VirtualQuery → F := fun q =>
  match q.oracleType with
  | .witness => if q.rotation = ⟨1, .plus⟩ then col (i + 1) else col i
  | .fixed => last i
  | .instance_ => 0

theorem delta_value (cell : VirtualQuery → F) :
    value delta cell = (1 - Q cell 0) *
      ((cell ⟨0, ⟨1, .plus⟩, .witness⟩ - 4 * W cell 0 - 3) * (cell ⟨0, ⟨1, .plus⟩, .witness⟩ - 4 * W cell 0 - 2) *
        (cell ⟨0, ⟨1, .plus⟩, .witness⟩ - 4 * W cell 0 - 1) * (cell ⟨0, ⟨1, .plus⟩, .witness⟩ - 4 * W cell 0)) := by
  show (1 + -Q cell 0) *
      ((cell ⟨0, ⟨1, .plus⟩, .witness⟩ + -(((4 : Nat) : F) * W cell 0) + -((3 : Nat) : F)) *
        (cell ⟨0, ⟨1, .plus⟩, .witness⟩ + -(((4 : Nat) : F) * W cell 0) + -((2 : Nat) : F)) *
        (cell ⟨0, ⟨1, .plus⟩, .witness⟩ + -(((4 : Nat) : F) * W cell 0) + -1) *
        (cell ⟨0, ⟨1, .plus⟩, .witness⟩ + -(((4 : Nat) : F) * W cell 0))) = _
  push_cast
  ring

/-- C11. On a row whose selector is not 1 the gate vanishes exactly when `next - 4 current` is 0, 1, 2 or
3; on a row marked last it always vanishes. A column passes the gate on unmarked rows `0..m-1` with a
first cell in 0..3 exactly when its cells are the successive base-4 prefixes of some digits; in
particular the last cell is (the image of) a number below `4^(m+1)`. If 2 and 3 are not zero in the
field, the digit of each row is determined. -/
theorem C11_delta_gate :
    (∀ cell : VirtualQuery → F, Q cell 0 ≠ 1 →
      (value delta cell = 0 ↔ ∃ k < 4, cell ⟨0, ⟨1, .plus⟩, .witness⟩ - 4 * W cell 0 = (k : Nat))) ∧
    (∀ cell : VirtualQuery → F, Q cell 0 = 1 → value delta cell = 0) ∧
    (∀ (col last : Nat → F) (m : Nat), (∀ i < m, last i ≠ 1) →
      ((∃ k < 4, col 0 = (k : Nat)) ∧ (∀ i < m, value delta (deltaCells col last i) = 0) ↔
        ∃ digit : Nat → Nat, (∀ j, digit j < 4) ∧
          ∀ i ≤ m, col i = ((∑ j ∈ Finset.range (i + 1), digit j * 4 ^ (i - j) : Nat) : F))) ∧
    (∀ (col last : Nat → F) (m : Nat), (∀ i < m, last i ≠ 1) → (∃ k < 4, col 0 = (k : Nat)) →
      (∀ i < m, value delta (deltaCells col last i) = 0) → ∃ x < 4 ^ (m + 1), col m = ((x : Nat) : F)) ∧
    ((2 : F) ≠ 0 → (3 : F) ≠ 0 → ∀ k < 4, ∀ k' < 4, ((k : Nat) : F) = ((k' : Nat) : F) → k = k') := by
  have h1 : ∀ cell : VirtualQuery → F, Q cell 0 ≠ 1 →
      (value delta cell = 0 ↔ ∃ k < 4, cell ⟨0, ⟨1, .plus⟩, .witness⟩ - 4 * W cell 0 = (k : Nat)) := by
    intro cell h
    rw [delta_value]
    set t := cell ⟨0, ⟨1, .plus⟩, .witness⟩ - 4 * W cell 0 with ht
    have h' : 1 - Q cell 0 ≠ 0 := fun hc => h (by linear_combination -hc)
    rw [mul_eq_zero, or_iff_right h', mul_eq_zero, mul_eq_zero, mul_eq_zero]
    constructor
    · rintro (((h | h) | h) | h)
      · exact ⟨3, by norm_num, by push_cast; linear_combination h⟩
      · exact ⟨2, by norm_num, by push_cast; linear_combination h⟩
      · exact ⟨1, by norm_num, by push_cast; linear_combination h⟩
      · exact ⟨0, by norm_num, by push_cast; linear_combination h⟩
    · rintro ⟨k, hk, h⟩
      rw [h]
      interval_cases k <;> simp
  have h3 : ∀ (col last : Nat → F) (m : Nat), (∀ i < m, last i ≠ 1) →
      ((∃ k < 4, col 0 = (k : Nat)) ∧ (∀ i < m, value delta (deltaCells col last i) = 0) ↔
        ∃ digit : Nat → Nat, (∀ j, digit j < 4) ∧
          ∀ i ≤ m, col i = ((∑ j ∈ Finset.range (i + 1), digit j * 4 ^ (i - j) : Nat) : F)) := by
    intro col last m hl
    have hrow : ∀ i < m, (value delta (deltaCells col last i) = 0 ↔
        ∃ k < 4, col (i + 1) - 4 * col i = ((k : Nat) : F)) := by
      intro i hi
      have := h1 (deltaCells col last i) (by simpa [Q, deltaCells] using hl i hi)
      simpa [W, deltaCells] using this
    have hsum : ∀ (d : Nat → Nat) (i : Nat), ∑ j ∈ Finset.range (i + 1 + 1), d j * 4 ^ (i + 1 - j)
        = 4 * ∑ j ∈ Finset.range (i + 1), d j * 4 ^ (i - j) + d (i + 1) := by
      intro d i
      rw [Finset.sum_range_succ, Finset.mul_sum]
      congr 1
      · apply Finset.sum_congr rfl
        intro j hj
        have : i + 1 - j = i - j + 1 := by have := Finset.mem_range.1 hj; omega
        rw [this, pow_succ]; ring
      · simp
    constructor
    · rintro ⟨⟨k0, hk0, hc0⟩, hg⟩
      have hex : ∀ i, ∃ k, k < 4 ∧ (i < m → col (i + 1) - 4 * col i = ((k : Nat) : F)) := by
        intro i
        by_cases hi : i < m
        · obtain ⟨k, hk, h⟩ := (hrow i hi).1 (hg i hi)
          exact ⟨k, hk, fun _ => h⟩
        · exact ⟨0, by norm_num, fun h => absurd h hi⟩
      choose d hd1 hd2 using hex
      refine ⟨fun j => match j with | 0 => k0 | j + 1 => d j, ?_, ?_⟩
      · intro j
        cases j with
        | zero => exact hk0
        | succ j => exact hd1 j
      · intro i
        induction i with
        | zero => intro _; simpa using hc0
        | succ i ih =>
          intro hi
          rw [hsum]
          have e1 := ih (by omega)
          have e2 := hd2 i (by omega)
          rw [Nat.cast_add, Nat.cast_mul, ← e1]
          push_cast
          linear_combination e2
    · rintro ⟨d, hd, hc⟩
      refine ⟨⟨d 0, hd 0, by simpa using hc 0 (by omega)⟩, ?_⟩
      intro i hi
      rw [hrow i hi]
      refine ⟨d (i + 1), hd _, ?_⟩
      rw [hc (i + 1) (by omega), hc i (by omega), hsum]
      push_cast
      ring
  refine ⟨h1, ?_, h3, ?_, ?_⟩
  · intro cell h
    rw [delta_value, h]
    simp
  · intro col last m hl h0 hg
    obtain ⟨d, hd, hc⟩ := (h3 col last m hl).1 ⟨h0, hg⟩
    refine ⟨_, ?_, hc m le_rfl⟩
    clear hc hg hl h0
    induction m with
    | zero => simpa using hd 0
    | succ m ih =>
      have hsum : ∑ j ∈ Finset.range (m + 1 + 1), d j * 4 ^ (m + 1 - j)
        = 4 * ∑ j ∈ Finset.range (m + 1), d j * 4 ^ (m - j) + d (m + 1) := by
        rw [Finset.sum_range_succ, Finset.mul_sum]
        congr 1
        · apply Finset.sum_congr rfl
          intro j hj
          have : m + 1 - j = m - j + 1 := by have := Finset.mem_range.1 hj; omega
          rw [this, pow_succ]; ring
        · simp
      rw [hsum]
      have := hd (m + 1)
      have : 4 ^ (m + 1 + 1) = 4 * 4 ^ (m + 1) := by ring
      omega
  · intro h2 h3' k hk k' hk' h
    have h1' : (1 : F) ≠ 0 := one_ne_zero
    interval_cases k <;> interval_cases k' <;> first | rfl | (exfalso; push_cast at h)
    all_goals first
      | exact h1' (by linear_combination h)
      | exact h1' (by linear_combination -h)
      | exact h2 (by linear_combination h)
      | exact h2 (by linear_combination -h)
      | exact h3' (by linear_combination h)
      | exact h3' (by linear_combination -h)

/-- The column 2, 11 = 4*2+3, 45 = 4*11+1 passes, and 45 ↦ 46+4 does not; the row marked last is free. -/
example :
    let col : Nat → F97 := fun i => [2, 11, 45, 0].getD i 0
    let last : Nat → F97 := fun i => if i = 2 then 1 else 0
    value delta (deltaCells col last 0) = 0 ∧ value delta (deltaCells col last 1) = 0 ∧
    value delta (deltaCells col last 2) = 0 ∧
    value delta (deltaCells (fun i => col i + 4 * i) last 1) ≠ 0 := by
  decide +kernel

/-! ### C12 -/

theorem deltaXorAnd_value (cell : VirtualQuery → F) :
    value deltaXorAnd cell = Q cell 0 * (9 * W cell 3 - 3 * (W cell 0 + W cell 1)) +
      (3 * (W cell 0 + W cell 1 + W cell 3) - 2 * (W cell 2 * (W cell 2 * (4 * W cell 2
        - 18 * (W cell 0 + W cell 1) + 81) + 18 * (W cell 0 * W cell 0 + W cell 1 * W cell 1)
        - 81 * (W cell 0 + W cell 1) + 83))) := by
  show Q cell 0 * (((9 : Nat) : F) * W cell 3 + -(((3 : Nat) : F) * (W cell 0 + W cell 1))) +
      (((3 : Nat) : F) * (W cell 0 + W cell 1 + W cell 3) + -(((2 : Nat) : F) * (W cell 2 * (W cell 2 *
        (((4 : Nat) : F) * W cell 2 + -(((18 : Nat) : F) * (W cell 0 + W cell 1)) + ((81 : Nat) : F))
        + ((18 : Nat) : F) * (W cell 0 * W cell 0 + W cell 1 * W cell 1)
        + -(((81 : Nat) : F) * (W cell 0 + W cell 1)) + ((83 : Nat) : F))))) = _
  push_cast
  ring

/-- C12, the part that holds. For 2-bit inputs `a`, `b` and `c = a b`: with selector 1 the gate vanishes
exactly when `d = a AND b`, with selector -1 exactly when `d = a XOR b`. Missing: that the gate forces
`c = a b` by itself, which `C12_product_not_forced` refutes. -/
theorem C12_xor_and_gate_partial (h2 : (2 : F) ≠ 0) (h3 : (3 : F) ≠ 0) (a b : Nat) (ha : a < 4) (hb : b < 4)
    (cell : VirtualQuery → F) (hca : W cell 0 = a) (hcb : W cell 1 = b) (hcc : W cell 2 = (a * b : Nat)) :
    (Q cell 0 = 1 → (value deltaXorAnd cell = 0 ↔ W cell 3 = ((a &&& b : Nat) : F))) ∧
    (Q cell 0 = -1 → (value deltaXorAnd cell = 0 ↔ W cell 3 = ((a ^^^ b : Nat) : F))) := by
  have h12 : (12 : F) ≠ 0 := by
    have : (12 : F) = 2 * 2 * 3 := by norm_num
    rw [this]; exact mul_ne_zero (mul_ne_zero h2 h2) h3
  have h6 : (6 : F) ≠ 0 := by
    have : (6 : F) = 2 * 3 := by norm_num
    rw [this]; exact mul_ne_zero h2 h3
  -- the interpolation polynomial, over the integers
  have hI : ∀ a : Nat, a < 4 → ∀ b : Nat, b < 4 → (((a * b : Nat) : ℤ) * (((a * b : Nat) : ℤ) * (4 * ((a * b : Nat) : ℤ)
      - 18 * (a + b) + 81) + 18 * (a * a + b * b) - 81 * (a + b) + 83)) = 6 * ((a &&& b : Nat) : ℤ) := by
    decide
  have hX : ∀ a : Nat, a < 4 → ∀ b : Nat, b < 4 → ((a : ℤ) + b - 2 * ((a &&& b : Nat) : ℤ)) = ((a ^^^ b : Nat) : ℤ) := by
    decide
  have hF := congrArg (Int.cast : ℤ → F) (hI a ha b hb)
  have hXF := congrArg (Int.cast : ℤ → F) (hX a ha b hb)
  push_cast at hF hXF
  have hv := deltaXorAnd_value cell
  rw [hca, hcb, hcc] at hv
  push_cast at hv
  constructor
  · intro hq
    rw [hq] at hv
    have hv' : value deltaXorAnd cell = 12 * (W cell 3 - ((a &&& b : Nat) : F)) := by
      rw [hv]; linear_combination -2 * hF
    rw [hv', mul_eq_zero, or_iff_right h12, sub_eq_zero]
  · intro hq
    rw [hq] at hv
    have hv' : value deltaXorAnd cell = -(6 * (W cell 3 - ((a ^^^ b : Nat) : F))) := by
      rw [hv]; linear_combination -2 * hF + 6 * hXF
    rw [hv', neg_eq_zero, mul_eq_zero, or_iff_right h6, sub_eq_zero]

/-- 3 AND 2 = 2 and 3 XOR 2 = 1 are accepted. -/
example :
    let cell (q d : F97) : VirtualQuery → F97 := fun x =>
      match x.oracleType, x.index with
      | .witness, 0 => 3
      | .witness, 1 => 2
      | .witness, 2 => 6
      | .witness, 3 => d
      | .fixed, 0 => q
      | _, _ => 0
    value deltaXorAnd (cell 1 2) = 0 ∧ value deltaXorAnd (cell (-1) 1) = 0 ∧
      value deltaXorAnd (cell 1 1) ≠ 0 := by
  decide +kernel

/-- The remaining part of C12 is false of the code, in every field of characteristic other than 2: with
`c = 0` instead of the product the gate accepts `1 AND 1 = 0` and `1 XOR 1 = 2`. -/
theorem C12_product_not_forced (h2 : (2 : F) ≠ 0) :
    (∃ cell : VirtualQuery → F, Q cell 0 = 1 ∧ W cell 0 = ((1 : Nat) : F) ∧ W cell 1 = ((1 : Nat) : F) ∧
      value deltaXorAnd cell = 0 ∧ W cell 2 ≠ W cell 0 * W cell 1 ∧ W cell 3 ≠ ((1 &&& 1 : Nat) : F)) ∧
    (∃ cell : VirtualQuery → F, Q cell 0 = -1 ∧ W cell 0 = ((1 : Nat) : F) ∧ W cell 1 = ((1 : Nat) : F) ∧
      value deltaXorAnd cell = 0 ∧ W cell 2 ≠ W cell 0 * W cell 1 ∧ W cell 3 ≠ ((1 ^^^ 1 : Nat) : F)) := by
  constructor
  · refine ⟨fun q => match q.oracleType, q.index with
      | .witness, 0 => 1
      | .witness, 1 => 1
      | .fixed, 0 => 1
      | _, _ => 0, rfl, by simp [W], by simp [W], ?_, by simp [W], by simp [W]⟩
    rw [deltaXorAnd_value]
    simp only [W, Q]
    ring
  · refine ⟨fun q => match q.oracleType, q.index with
      | .witness, 0 => 1
      | .witness, 1 => 1
      | .witness, 3 => 2
      | .fixed, 0 => -1
      | _, _ => 0, rfl, by simp [W], by simp [W], ?_, by simp [W], by simpa [W] using h2⟩
    rw [deltaXorAnd_value]
    simp only [W, Q]
    ring

/-! ### C13 -/

/-- C13. Rescue: `q1 w1^5 + q2 w2^5 + q3 w3^5 + q4 w4^5 = w5`; multiplication: `a b` is the public cell. -/
theorem C13_rescue_and_mul (cell : VirtualQuery → F) :
    (value rescue cell = 0 ↔ Q cell 0 * W cell 0 ^ 5 + Q cell 1 * W cell 1 ^ 5 + Q cell 2 * W cell 2 ^ 5
      + Q cell 3 * W cell 3 ^ 5 = W cell 4) ∧
    (value mul cell = 0 ↔ W cell 0 * W cell 1 = P cell 0) := by
  constructor
  · have : value rescue cell = Q cell 0 * W cell 0 ^ 5 + Q cell 1 * W cell 1 ^ 5 + Q cell 2 * W cell 2 ^ 5
        + Q cell 3 * W cell 3 ^ 5 - W cell 4 := by
      show Q cell 0 * (W cell 0 * W cell 0 * W cell 0 * W cell 0 * W cell 0)
        + Q cell 1 * (W cell 1 * W cell 1 * W cell 1 * W cell 1 * W cell 1)
        + Q cell 2 * (W cell 2 * W cell 2 * W cell 2 * W cell 2 * W cell 2)
        + Q cell 3 * (W cell 3 * W cell 3 * W cell 3 * W cell 3 * W cell 3) + -W cell 4 = _
      ring
    rw [this, sub_eq_zero]
  · have : value mul cell = W cell 0 * W cell 1 - P cell 0 := by
      show W cell 0 * W cell 1 + -P cell 0 = _
      ring
    rw [this, sub_eq_zero]

/-- `2^5 + 3 * 1 = 35` passes Rescue, `3 * 5 = 15` passes multiplication and 16 does not. -/
example :
    let cell (x : F97) : VirtualQuery → F97 := fun q =>
      match q.oracleType, q.index with
      | .witness, 0 => 2
      | .witness, 1 => 1
      | .witness, 4 => 35
      | .fixed, 0 => 1
      | .fixed, 1 => 3
      | .instance_, 0 => x
      | _, _ => 0
    value rescue (cell 0) = 0 ∧ value mul (cell 2) = 0 ∧ value mul (cell 3) ≠ 0 := by
  decide +kernel

/-! ### C14 -/

/-- The precompiled gates of the crate. -/
def all : List (VExpr F × List VirtualQuery) :=
  [plonkArith, plonkArith4, rescue, mul, delta, deltaXorAnd]

/-- The precompiled lookups of the crate. -/
def allLookups : List (List (VExpr F) × List VirtualQuery × List VirtualQuery) := [simple1, simple3]

theorem all_queries : ∀ g ∈ (all : List (VExpr F × List VirtualQuery)), ∀ q, q ∈ g.1.queries ↔ q ∈ g.2 := by
  intro g hg q
  simp only [all, List.mem_cons, List.not_mem_nil, or_false] at hg
  rcases hg with rfl | rfl | rfl | rfl | rfl | rfl
  · show q ∈ [wq 0, wq 1, fq 0, wq 0, fq 1, wq 1, fq 2, wq 2, fq 3, fq 4, iq 0] ↔
      q ∈ [fq 0, fq 1, fq 2, fq 3, fq 4, iq 0, wq 0, wq 1, wq 2]
    simp only [List.mem_cons, List.not_mem_nil, or_false]
    tauto
  · show q ∈ [wq 0, wq 1, fq 0, wq 0, fq 1, wq 1, fq 2, wq 2, fq 3, wq 2, fq 4, iq 0, fq 5] ↔
      q ∈ [fq 0, fq 1, fq 2, fq 3, fq 4, fq 5, iq 0, wq 0, wq 1, wq 2]
    simp only [List.mem_cons, List.not_mem_nil, or_false]
    tauto
  · show q ∈ [fq 0, wq 0, wq 0, wq 0, wq 0, wq 0, fq 1, wq 1, wq 1, wq 1, wq 1, wq 1, fq 2, wq 2, wq 2, wq 2,
        wq 2, wq 2, fq 3, wq 3, wq 3, wq 3, wq 3, wq 3, wq 4] ↔
      q ∈ [fq 0, fq 1, fq 2, fq 3, wq 0, wq 1, wq 2, wq 3, wq 4]
    simp only [List.mem_cons, List.not_mem_nil, or_false, or_self_left]
    tauto
  · show q ∈ [wq 0, wq 1, iq 0] ↔ q ∈ [wq 0, wq 1, iq 0]
    rfl
  · show q ∈ [fq 0, ⟨0, .next, .witness⟩, wq 0, ⟨0, .next, .witness⟩, wq 0, ⟨0, .next, .witness⟩, wq 0,
        ⟨0, .next, .witness⟩, wq 0] ↔ q ∈ [fq 0, wq 0, ⟨0, .next, .witness⟩]
    simp only [List.mem_cons, List.not_mem_nil, or_false]
    tauto
  · show q ∈ [fq 0, wq 3, wq 0, wq 1, wq 0, wq 1, wq 3, wq 2, wq 2, wq 2, wq 0, wq 1, wq 0, wq 0, wq 1, wq 1,
        wq 0, wq 1] ↔ q ∈ [wq 0, wq 1, wq 2, wq 3, fq 0]
    simp only [List.mem_cons, List.not_mem_nil, or_false]
    tauto

/-- C14. For every precompiled gate: if the oracle lists are long enough for the queries in the gate's
expression, `configure` succeeds, and afterwards the oracle at index `i` of a type has the rotations it
had plus exactly those with which the expression queries it. The same holds for the precompiled lookups,
whose table queries are all fixed. -/
theorem C14_queries_listed {W' I X : Type} [OracleData W'] [OracleData I] [OracleData X] :
    (∀ g ∈ (all : List (VExpr F × List VirtualQuery)), ∀ s : Oracles W' I X,
      (∀ q ∈ g.1.queries, q.index < s.count q.oracleType) →
      ∃ vo' s', (GenericVO.init g).configure s = .ok (vo', s') ∧
        Oracles.Registered g.1.queries s s') ∧
    (∀ g ∈ (allLookups : List (List (VExpr F) × List VirtualQuery × List VirtualQuery)),
      (∀ q, q ∈ g.1.flatMap VExpr.queries ↔ q ∈ g.2.1) ∧ (∀ q ∈ g.2.2, q.oracleType = .fixed) ∧
      g.2.2.length = g.1.length) := by
  constructor
  · intro g hg s hs
    have hq := all_queries g hg
    rcases GenericVO.configure_spec (GenericVO.init g) s with ⟨e, s', h1, _, _, h2, _⟩ | ⟨_, q, hq', hle⟩
    · refine ⟨_, s', h1, h2.1.congr ?_, h2.2.1.congr ?_, h2.2.2.congr ?_⟩ <;>
        intro i r <;> exact (hq _).symm
    · have : q ∈ g.1.queries := by
        rcases List.mem_append.1 hq' with h | h
        · exact (hq q).2 h
        · exact h
      have := hs q this
      omega
  · intro g hg
    simp only [allLookups, List.mem_cons, List.not_mem_nil, or_false] at hg
    rcases hg with rfl | rfl
    · refine ⟨fun q => ?_, ?_, rfl⟩
      · show q ∈ [wq 0] ↔ q ∈ [wq 0]
        rfl
      · intro q hq
        have : q ∈ [fq 0] := hq
        simp only [List.mem_singleton] at this
        rw [this]; rfl
    · refine ⟨fun q => ?_, ?_, rfl⟩
      · show q ∈ [wq 0, wq 1, wq 2] ↔ q ∈ [wq 0, wq 1, wq 2]
        rfl
      · intro q hq
        have : q ∈ [fq 0, fq 1, fq 2] := hq
        simp only [List.mem_cons, List.not_mem_nil, or_false] at this
        rcases this with h | h | h <;> rw [h] <;> rfl

/-- Two witness oracles and one fixed oracle are enough for the Delta gate, which registers the rotations
0 and 1 of the first witness only. -/
example :
    let o (k : OracleType) (s : String) : ProverOracle F97 := ⟨k, bytes s, [], [], none, [], false⟩
    let s : Oracles (ProverOracle F97) (ProverOracle F97) (ProverOracle F97) :=
      ⟨[o .witness "a", o .witness "b"], [], [o .fixed "q"]⟩
    (∀ q ∈ (delta (F := F97)).1.queries, q.index < s.count q.oracleType) ∧
    (match (GenericVO.init (delta (F := F97))).configure s with
      | .ok (_, s') => s'.witness.map (·.rotations)
      | _ => []) = [[.curr, .next], []] := by
  decide +kernel

end
end Gates
end ZK
