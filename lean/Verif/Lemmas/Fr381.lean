import Mathlib.NumberTheory.LucasPrimality
import Mathlib.Tactic.NormNum.Prime
import Mathlib.Algebra.Field.ZMod
import Verif.Lemmas.Fft
/-! The scalar field of BLS12-381, which the tests of the crate use (`ark_bls12_381::Fr`): its order is prime, and its parameters for the FFT
(two-adicity 32, multiplicative generator 7) are lawful. -/
set_option autoImplicit false
namespace ZK
namespace Fr381

/-- `a * b ^ e` modulo `m`, for an exponent below `2 ^ fuel`. -/
def powMod (m : Nat) : Nat → Nat → Nat → Nat → Nat
  | 0, _, _, a => a % m
  | fuel + 1, b, e, a => powMod m fuel (b * b % m) (e / 2) (if e % 2 = 1 then a * b % m else a)

theorem powMod_eq (m : Nat) : ∀ (fuel b e a : Nat), e < 2 ^ fuel → powMod m fuel b e a = a * b ^ e % m := by
  intro fuel
  induction fuel with
  | zero =>
    intro b e a h
    have : e = 0 := by simpa using h
    subst this
    simp [powMod]
  | succ n ih =>
    intro b e a h
    have h2 : e / 2 < 2 ^ n := by rw [pow_succ] at h; omega
    rw [powMod, ih _ _ _ h2]
    have hb : (b * b % m) ^ (e / 2) ≡ b ^ (2 * (e / 2)) [MOD m] := by
      rw [pow_mul, pow_two]
      exact (Nat.mod_modEq _ _).pow _
    by_cases ho : e % 2 = 1
    · rw [if_pos ho]
      have he : b ^ e = b * b ^ (2 * (e / 2)) := by rw [← pow_succ']; congr 1; omega
      rw [he, ← mul_assoc]
      exact (Nat.mod_modEq _ _).mul hb
    · rw [if_neg ho]
      have he : b ^ e = b ^ (2 * (e / 2)) := by congr 1; omega
      rw [he]
      exact (Nat.ModEq.refl a).mul hb

/-- The order of the field. -/
def r : Nat := 52435875175126190479447740508185965837690552500527637822603658699938581184513

theorem seven_pow {e v : Nat} (he : e < 2 ^ 256) (h : powMod r 256 7 e 1 = v) : (7 : ZMod r) ^ e = (v : ZMod r) := by
  rw [powMod_eq r 256 7 e 1 he, one_mul] at h
  rw [← h, ZMod.natCast_mod]
  push_cast
  rfl

theorem seven_pow_ne {e : Nat} (he : e < 2 ^ 256) (h : powMod r 256 7 e 1 ≠ 1) : (7 : ZMod r) ^ e ≠ 1 := by
  intro h1
  have h1 : ((powMod r 256 7 e 1 : Nat) : ZMod r) = ((1 : Nat) : ZMod r) := by rw [← seven_pow he rfl, h1, Nat.cast_one]
  rw [ZMod.natCast_eq_natCast_iff] at h1
  apply h
  rw [powMod_eq r 256 7 e 1 he] at h1 ⊢
  have h2 : 1 * 7 ^ e % r % r = 1 % r := h1
  rw [Nat.mod_mod] at h2
  rw [h2]
  rfl

/-- The prime factors of `r - 1`. -/
def factors : List Nat := [2, 3, 11, 19, 10177, 125527, 859267, 906349, 2508409, 2529403, 52437899, 254760293]

theorem factors_prime : ∀ q ∈ factors, q.Prime := by
  simp only [factors, List.forall_mem_cons]
  refine ⟨?_, ?_, ?_, ?_, ?_, ?_, ?_, ?_, ?_, ?_, ?_, ?_, fun q h => by cases h⟩ <;> norm_num

theorem factorisation : r - 1 = 2 ^ 32 * (3 * (11 * (19 * (10177 * (125527 * (859267 * (906349 ^ 2 * (2508409 * (2529403 * (52437899 *
    254760293 ^ 2)))))))))) := by decide +kernel

theorem mem_factors {q : Nat} (hq : q.Prime) (h : q ∣ r - 1) : q ∈ factors := by
  rw [factorisation] at h
  have key : ∀ {p n : Nat}, p.Prime → q ∣ p ^ n → q = p := fun hp h => (Nat.prime_dvd_prime_iff_eq hq hp).1 (hq.dvd_of_dvd_pow h)
  have key1 : ∀ {p : Nat}, p.Prime → q ∣ p → q = p := fun hp h => (Nat.prime_dvd_prime_iff_eq hq hp).1 h
  have hp := factors_prime
  simp only [factors, List.forall_mem_cons] at hp
  obtain ⟨p1, p2, p3, p4, p5, p6, p7, p8, p9, p10, p11, p12, -⟩ := hp
  simp only [hq.dvd_mul] at h
  simp only [factors, List.mem_cons, List.not_mem_nil, or_false]
  rcases h with h | h | h | h | h | h | h | h | h | h | h | h
  · rw [key p1 h]; simp
  · rw [key1 p2 h]; simp
  · rw [key1 p3 h]; simp
  · rw [key1 p4 h]; simp
  · rw [key1 p5 h]; simp
  · rw [key1 p6 h]; simp
  · rw [key1 p7 h]; simp
  · rw [key p8 h]; simp
  · rw [key1 p9 h]; simp
  · rw [key1 p10 h]; simp
  · rw [key1 p11 h]; simp
  · rw [key p12 h]; simp

theorem prime_r : r.Prime := by
  refine lucas_primality r 7 ?_ ?_
  · rw [seven_pow (v := 1) (by decide +kernel) (by decide +kernel), Nat.cast_one]
  · intro q hq h
    have hall : ∀ q ∈ factors, (r - 1) / q < 2 ^ 256 ∧ powMod r 256 7 ((r - 1) / q) 1 ≠ 1 := by decide +kernel
    obtain ⟨h1, h2⟩ := hall q (mem_factors hq h)
    exact seven_pow_ne h1 h2

instance : Fact r.Prime := ⟨prime_r⟩

end Fr381

/-- The scalar field of BLS12-381. -/
def Fr := ZMod Fr381.r

namespace Fr381

instance : Field Fr := ZMod.instField r

/-- Field elements are compared as integers. -/
noncomputable instance : LinearOrder Fr := LinearOrder.lift' (ZMod.val : ZMod r → Nat) (ZMod.val_injective r)

/-- `FftParameters` of `ark_bls12_381::Fr`: the root is `7 ^ ((r - 1) / 2 ^ 32)`. -/
instance : FftParams Fr where
  adicity := 32
  root := (7 : ZMod r) ^ ((r - 1) / 2 ^ 32)
  gen := (7 : ZMod r)

instance : LawfulFft Fr where
  root_prim := by
    show IsPrimitiveRoot ((7 : ZMod r) ^ ((r - 1) / 2 ^ 32)) (2 ^ (31 + 1))
    apply IsPrimitiveRoot.iff_orderOf.2
    apply orderOf_eq_prime_pow
    · rw [← pow_mul]
      exact seven_pow_ne (by decide +kernel) (by decide +kernel)
    · rw [← pow_mul, seven_pow (v := 1) (by decide +kernel) (by decide +kernel), Nat.cast_one]
  gen_ne_zero := by
    intro h
    have h : (7 : ZMod r) = 0 := h
    have h1 := seven_pow (e := r - 1) (v := 1) (by decide +kernel) (by decide +kernel)
    rw [h, zero_pow (by decide +kernel), Nat.cast_one] at h1
    exact zero_ne_one h1
  gen_pow := seven_pow_ne (e := 2 ^ 32) (by decide +kernel) (by decide +kernel)

/-- The constant `TWO_ADIC_ROOT_OF_UNITY` of `ark_bls12_381`. -/
theorem root_eq : (FftParams.root : Fr) =
    ((10238227357739495823651030575849232062558860180284477541189508159991286009131 : Nat) : ZMod r) :=
  seven_pow (by decide +kernel) (by decide +kernel)

/-- The domain with `2^j` elements. -/
def dom (j : Nat) : Domain Fr := ⟨2 ^ j, (FftParams.root : Fr) ^ (2 ^ (FftParams.adicity Fr - j))⟩

theorem dom_ok {j : Nat} (h : j ≤ 32) : (dom j).Ok := ⟨j, h, rfl⟩

end Fr381
end ZK
