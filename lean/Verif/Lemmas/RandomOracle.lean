import Mathlib.Data.Set.Card.Arithmetic
import Verif.Spec.RandomOracle
/-! Questions to a random oracle that depend on its earlier answers. -/
set_option autoImplicit false
set_option linter.unusedSectionVars false
namespace ZK
open MeasureTheory ProbabilityTheory

section
variable {F : Type} [Fintype F] [Nonempty F] [MeasurableSpace F] [DiscreteMeasurableSpace F]

/-- The whole space has probability one. -/
theorem randomOracle_univ : randomOracle F Set.univ = 1 := by
  have : IsProbabilityMeasure (uniformOn (Set.univ : Set F)) := uniformOn_isProbabilityMeasure Set.finite_univ Set.univ_nonempty
  unfold randomOracle
  exact measure_univ

/-- If for every `H` in `E` some `m` different questions are determined by their answers, and these answers are in `B`, then the
probability of `E` is at most that of `B` for `m` independent uniform answers. -/
theorem randomOracle_le {m : Nat} (E : Set (History → F)) (B : Set (Fin m → F))
    (R : (Fin m → F) → (Fin m → History) → Prop) (hR : ∀ c q q', R c q → R c q' → q = q')
    (hE : ∀ H ∈ E, ∃ c ∈ B, ∃ q, R c q ∧ Function.Injective q ∧ ∀ k, H (q k) = c k) :
    randomOracle F E ≤ (B.ncard : ENNReal) / (Fintype.card F : ENNReal) ^ m := by
  classical
  unfold randomOracle
  have hp : ∀ a : F, uniformOn (Set.univ : Set F) {a} = (Fintype.card F : ENNReal)⁻¹ := by
    intro a
    rw [uniformOn_univ, Measure.count_singleton, one_div]
  have h1 : ∀ c, Measure.infinitePi (fun _ : History => uniformOn (Set.univ : Set F))
      {H | ∃ q, R c q ∧ Function.Injective q ∧ ∀ k, H (q k) = c k} ≤ ((Fintype.card F : ENNReal)⁻¹) ^ m := by
    intro c
    by_cases h : ∃ q, R c q ∧ Function.Injective q
    · obtain ⟨q, hq, hi⟩ := h
      have h2 : {H : History → F | ∃ q, R c q ∧ Function.Injective q ∧ ∀ k, H (q k) = c k} ⊆
          Set.pi (Finset.univ.image q : Finset History) (fun a => {b | ∀ k, q k = a → b = c k}) := by
        rintro H ⟨q', h3, -, h5⟩
        obtain rfl := hR _ _ _ hq h3
        intro a _ k hk
        rw [← hk]
        exact h5 k
      refine (measure_mono h2).trans ?_
      rw [Measure.infinitePi_pi _ (fun _ _ => MeasurableSet.of_discrete), Finset.prod_image (fun i _ j _ h => hi h)]
      refine le_of_eq ?_
      rw [Finset.prod_congr rfl (g := fun _ => (Fintype.card F : ENNReal)⁻¹), Finset.prod_const, Finset.card_univ, Fintype.card_fin]
      intro k _
      rw [← hp (c k)]
      congr 1
      ext b
      exact ⟨fun h => h k rfl, fun h k' hk => by rw [hi hk]; exact h⟩
    · have : {H : History → F | ∃ q, R c q ∧ Function.Injective q ∧ ∀ k, H (q k) = c k} = ∅ := by
        refine Set.eq_empty_iff_forall_notMem.2 ?_
        rintro H ⟨q, h3, h4, -⟩
        exact h ⟨q, h3, h4⟩
      rw [this, measure_empty]
      exact zero_le
  have h2 : E ⊆ ⋃ c ∈ B.toFinite.toFinset, {H | ∃ q, R c q ∧ Function.Injective q ∧ ∀ k, H (q k) = c k} := by
    intro H hH
    obtain ⟨c, hc, h⟩ := hE H hH
    exact Set.mem_biUnion (by simpa using hc) h
  refine (measure_mono h2).trans ((measure_biUnion_finset_le _ _).trans ((Finset.sum_le_sum (fun c _ => h1 c)).trans ?_))
  rw [Finset.sum_const, nsmul_eq_mul, ← Set.ncard_eq_toFinset_card, div_eq_mul_inv, ENNReal.inv_pow]

/-- The number of tuples whose components satisfy a condition of the last one. -/
theorem ncard_last {m k : Nat} {B : Set (Fin (m + 1) → F)} (h : ∀ c : Fin m → F, {x : F | Fin.snoc c x ∈ B}.ncard ≤ k) :
    B.ncard ≤ k * Fintype.card F ^ m := by
  classical
  have h1 : B ⊆ ⋃ c ∈ (Finset.univ : Finset (Fin m → F)), (fun x => (Fin.snoc c x : Fin (m + 1) → F)) '' {x : F | Fin.snoc c x ∈ B} := by
    intro b hb
    refine Set.mem_biUnion (Finset.mem_coe.2 (Finset.mem_univ (Fin.init b))) ⟨b (Fin.last m), ?_, Fin.snoc_init_self b⟩
    show Fin.snoc _ _ ∈ B
    rw [Fin.snoc_init_self]
    exact hb
  refine (Set.ncard_le_ncard h1 (Set.toFinite _)).trans ((Finset.set_ncard_biUnion_le _ _).trans
    ((Finset.sum_le_sum (fun c _ => (Set.ncard_image_le (Set.toFinite _)).trans (h c))).trans ?_))
  rw [Finset.sum_const, Finset.card_univ, Fintype.card_fun, Fintype.card_fin, smul_eq_mul, Nat.mul_comm]

/-- The same for the last two components. -/
theorem ncard_pair {k : Nat} {A : F → Set (F × F)} (h : ∀ x, (A x).ncard ≤ k) :
    {c : Fin 3 → F | (c 1, c 2) ∈ A (c 0)}.ncard ≤ k * Fintype.card F := by
  classical
  have h1 : {c : Fin 3 → F | (c 1, c 2) ∈ A (c 0)} ⊆ ⋃ x ∈ (Finset.univ : Finset F), (fun p => (![x, p.1, p.2] : Fin 3 → F)) '' A x := by
    intro c hc
    refine Set.mem_biUnion (Finset.mem_coe.2 (Finset.mem_univ (c 0))) ⟨(c 1, c 2), hc, ?_⟩
    funext i
    fin_cases i <;> rfl
  refine (Set.ncard_le_ncard h1 (Set.toFinite _)).trans ((Finset.set_ncard_biUnion_le _ _).trans
    ((Finset.sum_le_sum (fun c _ => (Set.ncard_image_le (Set.toFinite _)).trans (h c))).trans ?_))
  rw [Finset.sum_const, Finset.card_univ, smul_eq_mul, Nat.mul_comm]

end
end ZK
