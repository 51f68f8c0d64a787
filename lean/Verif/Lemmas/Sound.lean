import Verif.Spec.Soundness
import Verif.Properties.Blinding
import Verif.Properties.Separation
import Verif.Lemmas.Ideal
/-! The permutation and the lookup argument over polynomials: few challenges let a wrong statement pass. -/
set_option autoImplicit false
set_option linter.unusedSectionVars false
namespace ZK
open Polynomial

section
variable {F : Type} [Field F]

theorem FewPairs.mono {k k' : Nat} {bad : Set (F × F)} (h : FewPairs k bad) (hk : k ≤ k') : FewPairs k' bad :=
  fun T => (h T).trans (Nat.mul_le_mul_right _ hk)

theorem FewPairs.empty (k : Nat) : FewPairs k (∅ : Set (F × F)) := by
  intro T
  simp

end

section
variable {F : Type} [Field F] [DecidableEq F] [FftParams F] [LawfulFft F]

/-- If the copied columns violate the permutation, few pairs `(beta, gamma)` admit grand products that satisfy the
permutation constraints on the usable rows. -/
theorem permutation_pairs {p : PermutationArgument F} {d : Domain F} (hdom : d.Ok) (hk : 1 ≤ p.maxCols) {m : Nat}
    (hm : 0 < m) {ws sigmas : List F[X]} (hw : ws.length = m) (hs : sigmas.length = m) (hd : p.deltas.length = m)
    (hu : p.usableRows < d.size) (qb : F[X])
    (hqb : ∀ i ≤ p.usableRows, qb.eval (d.omega ^ i) = 0)
    (τ : Equiv.Perm (Fin m × Fin p.usableRows))
    (hσ : ∀ c, cellOf d sigmas c = cellId d p.deltas (τ c))
    (hid : Function.Injective (cellId d p.deltas : Fin m × Fin p.usableRows → F))
    (bad : Fin m × Fin p.usableRows) (hbad : cellOf d ws (τ bad) ≠ cellOf d ws bad) :
    ∃ Bad : Set (F × F), FewPairs (2 * (m * p.usableRows)) Bad ∧ ∀ beta gamma, (beta, gamma) ∉ Bad →
      ∀ c : CircuitPolys F, c.ws = ws → c.sigmas = sigmas → c.qBlind = qb →
        ∃ i ≤ p.usableRows, ∃ q ∈ c.permutation d p beta gamma, q.eval (d.omega ^ i) ≠ 0 := by
  subst hw
  have hne : ws ≠ [] := List.length_pos_iff.1 hm
  replace hs := hs.symm
  replace hd := hd.symm
  set A := linProd (Finset.univ : Finset (Fin ws.length × Fin p.usableRows)) (cellOf d ws) (cellId d p.deltas) with hA
  set B := linProd (Finset.univ : Finset (Fin ws.length × Fin p.usableRows)) (cellOf d ws) (cellOf d sigmas) with hB
  have hcard : (Finset.univ : Finset (Fin ws.length × Fin p.usableRows)).card = ws.length * p.usableRows := by
    simp
  have hAm : A ≠ 0 := (linProd_natDegree _ _ _).2.ne_zero
  have hAB : A - B ≠ 0 := by
    intro h0
    obtain ⟨c, _, h1, h2⟩ := linProd_eq_mem _ _ _ _ _ _ (sub_eq_zero.1 h0) (τ bad) (Finset.mem_univ _)
    rw [hσ] at h2
    have := τ.injective (hid h2)
    subst this
    exact hbad h1.symm
  have htotal : TotalLe (A * (A - B)) (2 * (ws.length * p.usableRows)) := by
    rw [two_mul, ← hcard]
    exact (linProd_total _ _ _).mul ((linProd_total _ _ _).sub (linProd_total _ _ _))
  refine ⟨{bg | ((A * (A - B)).map (evalRingHom bg.1)).eval bg.2 = 0}, ?_, ?_⟩
  · intro T
    refine le_trans (le_of_eq ?_) (card_square_le _ (mul_ne_zero hAm hAB) _ htotal T)
    congr 1
    ext bg
    simp
  intro beta gamma hbg c hcw hcs hcq
  by_contra hcon
  push Not at hcon
  apply hbg
  have hpl : ∀ i, (polyCols p.maxCols ws sigmas p.deltas (d.omega ^ i)).length = (chunks p.maxCols ws).length := by
    intro i
    rw [polyCols, List.length_map]
    exact chunks_length_congr hk (by simp [← hs, ← hd])
  have hpos : 0 < (chunks p.maxCols ws).length :=
    List.length_pos_iff.2 (fun h => hne ((chunks_eq_nil hk).1 h))
  have hforce := perm_rows_force beta gamma p.usableRows
    (fun i => polyCols p.maxCols ws sigmas p.deltas (d.omega ^ i)) _ hpos hpl
    (fun j i => (c.zs.getD j 0).eval (d.omega ^ i)) (by
      intro i hi x hx
      have hev := CircuitPolys.eval_permutation c d p beta gamma (d.omega ^ i) (by rw [hcw]; exact hne)
      rw [rowPoly_eval hdom (by omega) hdom.size_pos, rowPoly_eval hdom (by omega) hu, hcq, hqb i hi, hcw, hcs] at hev
      have e1 : d.omega * d.omega ^ i = d.omega ^ (i + 1) := by rw [pow_succ, mul_comm]
      have e2 : d.omega ^ p.usableRows * d.omega ^ i = d.omega ^ (i + p.usableRows) := by rw [pow_add, mul_comm]
      rw [e1, e2] at hev
      have hx' : x ∈ (c.permutation d p beta gamma).map (·.eval (d.omega ^ i)) := by
        rw [hev]; exact hx
      obtain ⟨q, hq, rfl⟩ := List.mem_map.1 hx'
      exact hcon i hi q hq)
  rw [polyCols_prod hk _ _ _ _ _ hs hd, polyCols_prod hk _ _ _ _ _ hs hd] at hforce
  simp only [Set.mem_setOf_eq]
  rw [Polynomial.map_mul, Polynomial.map_sub, eval_mul, eval_sub, hA, hB, linProd_eval, linProd_eval]
  exact hforce

/-- If a looked-up value is not in the table, few pairs `(beta, gamma)` admit a grand product that satisfies the lookup
constraints on the usable rows. -/
theorem lookup_pairs {d : Domain F} (hd : d.Ok) {u : Nat} (hu : u < d.size) (p : LookupPolys F) (qb : F[X])
    (hqb : ∀ i < d.size, qb.eval (d.omega ^ i) = blinding u i)
    (bad : Nat) (hbu : bad < u) (hbad : ∀ j < u, p.a.eval (d.omega ^ bad) ≠ p.s.eval (d.omega ^ j)) :
    ∃ Bad : Set (F × F), FewPairs (4 * u) Bad ∧ ∀ beta gamma, (beta, gamma) ∉ Bad → ∀ Z : F[X],
      ∃ i ≤ u, ∃ q ∈ lookupPolys d u qb beta gamma (p, Z), q.eval (d.omega ^ i) ≠ 0 := by
  refine ⟨{bg | ∃ Z : F[X], ∀ i ≤ u, ∀ q ∈ lookupPolys d u qb bg.1 bg.2 (p, Z), q.eval (d.omega ^ i) = 0}, ?_, ?_⟩
  swap
  · intro beta gamma h Z
    by_contra hcon
    push Not at hcon
    exact h ⟨Z, hcon⟩
  classical
  intro T
  let ro : F[X] → VerifierOracle F Unit := fun P => rowOracle Unit d [] (coeffs P)
  have hro : ∀ P, AnswersRows d (ro P) P := by
    intro P
    have := rowOracle_answers (C := Unit) hd [] (coeffs P)
    rwa [toPoly_coeffs] at this
  have hl : p.Answered d ⟨ro p.a, ro p.s, ro p.aPrime, ro p.sPrime⟩ := ⟨hro _, hro _, hro _, hro _⟩
  have hq : ∀ i < d.size, (ro qb).query (d.omega ^ i) = .ok (blinding u i) := by
    intro i hi
    rw [hro qb i, hqb i hi]
  refine le_trans (Finset.card_le_card ?_) (C26_lookup_sound_partial hd hu p _ hl (ro qb) hq bad hbu hbad T)
  intro bg h
  replace h := Finset.mem_filter.1 h
  refine Finset.mem_filter.2 ?_
  refine ⟨h.1, ?_⟩
  obtain ⟨Z, hZ⟩ := h.2
  refine ⟨ro Z, Z, hro Z, (lookupHolds_iff hd hl (hro Z) hq bg.1 bg.2).2 ?_⟩
  intro i hi x hx
  rcases Nat.lt_or_ge u i with h1 | h1
  · have h0 : i ≠ 0 := by omega
    have h2 : i ≠ u := by omega
    have h3 : ¬ i ≤ u := by omega
    simp only [lookupConstraints, selector, blinding, if_neg h0, if_neg h2, if_neg h3, List.mem_cons, List.not_mem_nil,
      or_false] at hx
    rcases hx with rfl | rfl | rfl | rfl | rfl <;> ring
  · have hev := eval_lookupPolys d u qb bg.1 bg.2 (d.omega ^ i) (p, Z)
    rw [rowPoly_eval hd hi hd.size_pos, rowPoly_eval hd hi hu, hqb i hi] at hev
    have e1 : d.omega * d.omega ^ i = d.omega ^ (i + 1) := by rw [pow_succ, mul_comm]
    have e2 : d.omega⁻¹ * d.omega ^ i = d.omega ^ (i + (d.size - 1)) := by
      have hn := hd.size_pos
      rw [inv_mul_eq_iff_eq_mul₀ hd.omega_ne_zero, ← pow_succ', show i + (d.size - 1) + 1 = i + d.size by omega, pow_add,
        hd.prim.pow_eq_one, mul_one]
    rw [e1, e2] at hev
    have hx' : x ∈ (lookupPolys d u qb bg.1 bg.2 (p, Z)).map (·.eval (d.omega ^ i)) := by
      rw [hev]; exact hx
    obtain ⟨q, hq, rfl⟩ := List.mem_map.1 hx'
    exact hZ i h1 q hq

end
end ZK
