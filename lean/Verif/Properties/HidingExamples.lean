import Verif.Properties.Hiding
import Verif.Properties.HidingKzg
import Verif.Properties.SuccessExamples
import Mathlib.Data.Fin.VecNotation
import Mathlib.Algebra.Field.ZMod
import Mathlib.Algebra.Algebra.Bilinear
/-! C53 and C54: the points that are opened, the number of blinding rows, and instances. -/
set_option autoImplicit false
set_option linter.unusedSectionVars false
namespace ZK

section
variable {F : Type} [Field F] [FftParams F] [LawfulFft F]

/-- **C53** (the opened points) A grand product of the permutation argument is opened at `xi`, `omega xi`, `omega^u xi` and,
in combination with others, at `x3`. These are different points outside of the domain, so four random rows are enough. -/
theorem C53_opened_points {d : Domain F} (hd : d.Ok) {u : Nat} (hu : 1 < u) (hun : u < d.size) {xi x3 : F} (h0 : xi ≠ 0)
    (hxi : xi ^ d.size ≠ 1) (hx3 : x3 ^ d.size ≠ 1) (hne : ∀ k : ℕ, x3 ≠ xi * d.omega ^ k) :
    Function.Injective ![xi, xi * d.omega, xi * d.omega ^ u, x3] ∧
      ∀ i, ![xi, xi * d.omega, xi * d.omega ^ u, x3] i ^ d.size ≠ 1 := by
  have h1 : d.omega ≠ 1 := by
    intro h
    have := hd.element_inj (i := 0) (j := 1) (by omega) (by omega) (by simp [Domain.element, h])
    omega
  have hu1 : d.omega ^ u ≠ 1 := by
    intro h
    have := hd.element_inj (i := 0) (j := u) (by omega) hun (by simp [Domain.element, h])
    omega
  have huo : d.omega ^ u ≠ d.omega := by
    intro h
    have := hd.element_inj (i := 1) (j := u) (by omega) hun (by simp [Domain.element, h])
    omega
  have a1 : xi ≠ xi * d.omega := fun h => h1 (mul_left_cancel₀ h0 (by rw [mul_one]; exact h.symm))
  have a2 : xi ≠ xi * d.omega ^ u := fun h => hu1 (mul_left_cancel₀ h0 (by rw [mul_one]; exact h.symm))
  have a3 : xi * d.omega ≠ xi * d.omega ^ u := fun h => huo (mul_left_cancel₀ h0 h.symm)
  have a4 : x3 ≠ xi := by have := hne 0; rwa [pow_zero, mul_one] at this
  have a5 : x3 ≠ xi * d.omega := by have := hne 1; rwa [pow_one] at this
  have a6 := hne u
  have hp : ∀ k, (xi * d.omega ^ k) ^ d.size ≠ 1 := by
    intro k h
    have := hd.element_pow k
    unfold Domain.element at this
    rw [mul_pow, this, mul_one] at h
    exact hxi h
  constructor
  · intro i j h
    fin_cases i <;> fin_cases j <;> simp_all [eq_comm]
  · intro i
    fin_cases i
    · exact hxi
    · have := hp 1; rwa [pow_one] at this
    · exact hp u
    · exact hx3

end

/-- **C53** (too few rows) With fewer random rows than points the values cannot be uniformly distributed. -/
theorem C53_too_few_rows {F : Type} [Field F] [Fintype F] {t k : Nat} (h : t < k) (f : (Fin t → F) → Fin k → F) :
    ¬ Uniform f := by
  intro hf
  have h1 := Fintype.card_le_of_surjective f hf.surjective
  simp only [Fintype.card_fun, Fintype.card_fin] at h1
  exact absurd h1 (not_le.2 (Nat.pow_lt_pow_right Fintype.one_lt_card h))

namespace Toy

/-- The indexer does not check the number of random rows: in the toy circuit one is left for the grand product, which is
opened at three points, and the key is generated. -/
theorem C53_unchecked : ∃ k, key = .ok k ∧
    ∀ f : (Fin (dom.size - 1 - k.index.perm.usableRows) → F97) → Fin 3 → F97, ¬ Uniform f := by
  obtain ⟨k, p, hk, -, -⟩ := of_holds (ws := witness) (P := fun _ _ => true) (by decide +kernel)
  obtain ⟨-, -, -, -, -, -, -, -, -, hu, -⟩ := indexer_ok dom_Ok hk
  refine ⟨k, hk, fun f => C53_too_few_rows ?_ f⟩
  rw [hu, dom_size]
  decide

def isOk {ε α : Type} : Res ε α → Bool
  | .ok _ => true
  | _ => false

theorem of_isOk {ε α : Type} {r : Res ε α} (h : isOk r = true) : ∃ a, r = .ok a := by
  cases r with
  | ok a => exact ⟨a, rfl⟩
  | err e => simp [isOk] at h
  | panic => simp [isOk] at h

def runLookups (k : VerifierKey S) : Res PiopErr (List (LookupOracles (ProverOracle F97)) × S.Z) :=
  lookupRound (S := S) (view.extend k.index.ext) k.index dom 5 ()
def runCopies (k : VerifierKey S) : Res PiopErr (List (ProverOracle F97) × S.Z) :=
  permutationRound (S := S) k.index ((view.extend k.index.ext).witness.filter (·.shouldPermute)) sigma dom 3 9 ()
def runProducts (k : VerifierKey S) : Res PiopErr (List (ProverOracle F97) × S.Z) := do
  let ls ← runLookups k
  subsetEqualityRound (S := S) k.index ls.1 dom 3 9 ()

/-- The hypotheses of C53 are met by the toy circuit, with one point per grand product and two per permuted column. -/
theorem blinded : ∃ k ls y ps y' ss y'', key = .ok k ∧ runLookups k = .ok (ls, y) ∧ runCopies k = .ok (ps, y') ∧
    subsetEqualityRound (S := S) k.index ls dom 3 9 () = (.ok (ss, y'') : Res PiopErr _) ∧ ls ≠ [] ∧ ps ≠ [] ∧
    2 ≤ dom.size - k.index.usableRows ∧ 1 ≤ dom.size - 1 - k.index.perm.usableRows ∧
    Function.Injective (![3, 5] : Fin 2 → F97) ∧ ∀ i, (![3, 5] : Fin 2 → F97) i ^ dom.size ≠ 1 := by
  obtain ⟨k, p, hk, -, h⟩ := of_holds (ws := witness) (P := fun k _ => isOk (runProducts k) && isOk (runCopies k)
    && (match runLookups k with | .ok l => !l.1.isEmpty | _ => false) && (match runCopies k with | .ok l => !l.1.isEmpty | _ => false))
    (by decide +kernel)
  obtain ⟨-, -, -, -, -, -, -, -, -, hu, hdl, hl, hu', -⟩ := indexer_ok dom_Ok hk
  simp only [Bool.and_eq_true] at h
  obtain ⟨⟨⟨h1, h2⟩, h3⟩, h4⟩ := h
  obtain ⟨ss, hss⟩ := of_isOk h1
  obtain ⟨ps, hps⟩ := of_isOk h2
  obtain ⟨ls, hls, hss⟩ := Res.bind_eq_ok.1 hss
  rw [hls] at h3
  rw [hps] at h4
  refine ⟨k, ls.1, ls.2, ps.1, ps.2, ss.1, ss.2, hk, hls, hps, hss, by simpa using h3, by simpa using h4, ?_, ?_, by decide, ?_⟩
  · rw [hu', dom_size]
  · rw [hu, dom_size]; decide
  · rw [dom_size]; decide

end Toy

instance : Fact (Nat.Prime 97) := ⟨by decide +kernel⟩

/-- The hypotheses of C54 are met by the field with 97 elements as a group, with secret 3. -/
theorem kzg_blinds : KzgSetup (3 : ZMod 97) (⟨[1, 3, 9, 27], [5, 15, 45]⟩ : KzgKey (ZMod 97)) (⟨1, 5, 1, 3⟩ : KzgVk (ZMod 97) (ZMod 97)) ∧
    Function.Surjective (fun k : ZMod 97 => k • (5 : ZMod 97)) ∧
    Function.Injective (fun g : ZMod 97 => LinearMap.mul (ZMod 97) (ZMod 97) g (1 : ZMod 97)) := by
  refine ⟨⟨?_, ?_, ?_⟩, ?_, ?_⟩
  · intro i hi
    simp only [List.length_cons, List.length_nil] at hi
    interval_cases i <;> rfl
  · intro i hi
    simp only [List.length_cons, List.length_nil] at hi
    interval_cases i <;> rfl
  · decide
  · intro y
    refine ⟨y * 5⁻¹, ?_⟩
    show y * 5⁻¹ * 5 = y
    rw [mul_assoc, inv_mul_cancel₀ (by decide), mul_one]
  · intro a b h
    simpa using h

end ZK
