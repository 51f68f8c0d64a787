import Mathlib.Data.Fintype.BigOperators
import Mathlib.Data.List.Infix
import Verif.Lemmas.RandomOracle
import Verif.Spec.Forger
/-! Games with a random oracle: nobody finds an unlikely answer with few questions. -/
set_option autoImplicit false
set_option linter.unusedSectionVars false
namespace ZK
open MeasureTheory

/-- Counting: if the answers at a place can be changed without changing whether the place is looked at and which answers are bad there,
then bad answers are found as rarely as they are, times the number of places looked at. -/
theorem game_count {W I P : Type} [Fintype P] (X : Finset W) (places : Finset I) (get : I → W → P) (upd : I → P → W → W)
    (h1 : ∀ s p H, upd s (get s H) (upd s p H) = H) (h2 : ∀ s p H, get s (upd s p H) = p)
    (hX : ∀ s ∈ places, ∀ p, ∀ H ∈ X, upd s p H ∈ X) (looked : W → I → Prop) (bad : W → I → Set P)
    (h3 : ∀ s p H, looked H s → looked (upd s p H) s) (h4 : ∀ s p H, bad (upd s p H) s = bad H s) {E Q : Nat}
    (hE : ∀ H s, (bad H s).ncard ≤ E) (hQ : ∀ H, {s | s ∈ places ∧ looked H s}.ncard ≤ Q) :
    {H | H ∈ X ∧ ∃ s ∈ places, looked H s ∧ get s H ∈ bad H s}.ncard * Fintype.card P ≤ Q * E * X.card := by
  classical
  have hs : ∀ s ∈ places, (X.filter (fun H => looked H s ∧ get s H ∈ bad H s)).card * Fintype.card P
      ≤ (X.filter (fun H => looked H s)).card * E := by
    intro s hs
    rw [← Finset.card_univ (α := P), ← Finset.card_product]
    calc _ ≤ ((X.filter (fun H => looked H s)).sigma (fun H => (bad H s).toFinite.toFinset)).card := by
          refine Finset.card_le_card_of_injOn (fun x => ⟨upd s x.2 x.1, get s x.1⟩) ?_ ?_
          · rintro ⟨H, p⟩ hx
            simp only [Finset.coe_product, Finset.coe_filter, Set.mem_prod] at hx
            obtain ⟨⟨hH, hl, hb⟩, -⟩ := hx
            simp only [Finset.coe_sigma, Set.mem_sigma_iff, Finset.coe_filter, Set.Finite.coe_toFinset]
            exact ⟨⟨hX s hs p H hH, h3 s p H hl⟩, by rw [h4]; exact hb⟩
          · rintro ⟨H, p⟩ - ⟨H', p'⟩ - he
            simp only [Sigma.mk.injEq, heq_eq_eq] at he
            obtain ⟨e1, e2⟩ := he
            have e3 : H = H' := by rw [← h1 s p H, ← h1 s p' H', e1, e2]
            have e4 : p = p' := by rw [← h2 s p H, ← h2 s p' H', e1]
            rw [e3, e4]
      _ = ∑ H ∈ X.filter (fun H => looked H s), ((bad H s).toFinite.toFinset).card := Finset.card_sigma _ _
      _ ≤ ∑ _H ∈ X.filter (fun H => looked H s), E := by
          refine Finset.sum_le_sum (fun H _ => ?_)
          rw [← Set.ncard_eq_toFinset_card]
          exact hE H s
      _ = _ := by rw [Finset.sum_const, smul_eq_mul]
  have hsub : {H | H ∈ X ∧ ∃ s ∈ places, looked H s ∧ get s H ∈ bad H s}.ncard
      ≤ ∑ s ∈ places, (X.filter (fun H => looked H s ∧ get s H ∈ bad H s)).card := by
    refine le_trans ?_ Finset.card_biUnion_le
    rw [← Set.ncard_coe_finset]
    refine Set.ncard_le_ncard ?_ (Finset.finite_toSet _)
    rintro H ⟨hH, s, hs, h⟩
    simp only [Finset.coe_biUnion, Set.mem_iUnion, Finset.mem_coe]
    exact ⟨s, hs, Finset.mem_filter.2 ⟨hH, h⟩⟩
  have hdouble : ∑ s ∈ places, (X.filter (fun H => looked H s)).card ≤ Q * X.card := by
    have : ∑ s ∈ places, (X.filter (fun H => looked H s)).card = ∑ H ∈ X, (places.filter (fun s => looked H s)).card := by
      simp only [Finset.card_filter]
      exact Finset.sum_comm
    rw [this, Nat.mul_comm, ← smul_eq_mul, ← Finset.sum_const]
    refine Finset.sum_le_sum (fun H _ => le_trans (le_of_eq ?_) (hQ H))
    rw [← Set.ncard_coe_finset]
    simp
  calc _ ≤ (∑ s ∈ places, (X.filter (fun H => looked H s ∧ get s H ∈ bad H s)).card) * Fintype.card P := Nat.mul_le_mul_right _ hsub
    _ = ∑ s ∈ places, (X.filter (fun H => looked H s ∧ get s H ∈ bad H s)).card * Fintype.card P := Finset.sum_mul _ _ _
    _ ≤ ∑ s ∈ places, (X.filter (fun H => looked H s)).card * E := Finset.sum_le_sum hs
    _ = (∑ s ∈ places, (X.filter (fun H => looked H s)).card) * E := (Finset.sum_mul _ _ _).symm
    _ ≤ Q * X.card * E := Nat.mul_le_mul_right _ hdouble
    _ = Q * E * X.card := by ring

namespace Forger
variable {F Out : Type}

/-- Two hash functions that agree on the questions asked of the first lead to the same. -/
theorem congr {H H' : History → F} (A : Forger F Out) (h : ∀ q ∈ A.asked H, H q = H' q) : A.run H' = A.run H ∧ A.asked H' = A.asked H := by
  induction A with
  | done o => exact ⟨rfl, rfl⟩
  | ask q next ih =>
    have hq : H q = H' q := h q (by simp [asked])
    have := ih (H q) (fun q' hq' => h q' (by simp [asked, hq']))
    simp only [run, asked, ← hq]
    exact ⟨this.1, by rw [this.2]⟩

/-- If something is among the questions asked of `H`, then also among those asked of a hash function that differs only there. -/
theorem asked_at {H H' : History → F} (M : History → Prop) (hH : ∀ q, ¬ M q → H q = H' q) (A : Forger F Out)
    (h : ∃ q ∈ A.asked H, M q) : ∃ q ∈ A.asked H', M q := by
  induction A with
  | done o => simp [asked] at h
  | ask q next ih =>
    by_cases hq : M q
    · exact ⟨q, by simp [asked], hq⟩
    · obtain ⟨q', hm, hq'⟩ := h
      simp only [asked, List.mem_cons] at hm ⊢
      rcases hm with rfl | hm
      · exact absurd hq' hq
      · obtain ⟨q2, h2, h3⟩ := ih (H q) ⟨q', hm, hq'⟩
        refine ⟨q2, Or.inr ?_, h3⟩
        rw [← hH q hq]
        exact h2

/-- There are finitely many questions and results. -/
theorem finite [Finite F] (A : Forger F Out) : ∃ (R : List History) (O : List Out), ∀ H, (∀ q ∈ A.asked H, q ∈ R) ∧ A.run H ∈ O := by
  classical
  have := Fintype.ofFinite F
  induction A with
  | done o => exact ⟨[], [o], fun H => ⟨by simp [asked], by simp [run]⟩⟩
  | ask q next ih =>
    choose R O h using ih
    refine ⟨q :: (Finset.univ : Finset F).toList.flatMap R, (Finset.univ : Finset F).toList.flatMap O, fun H => ⟨?_, ?_⟩⟩
    · intro q' hq'
      simp only [asked, List.mem_cons] at hq'
      rcases hq' with rfl | hq'
      · simp
      · exact List.mem_cons_of_mem _ (List.mem_flatMap.2 ⟨H q, by simp, (h (H q) H).1 q' hq'⟩)
    · exact List.mem_flatMap.2 ⟨H q, by simp, (h (H q) H).2⟩

end Forger

section
variable {F : Type} [Fintype F] [Nonempty F] [MeasurableSpace F] [DiscreteMeasurableSpace F]

/-- The two challenges drawn after the messages `s`. -/
def drawsAt (i : List Nat) (s : List (List Nat)) (H : History → F) : F × F := (H (i, s, 0), H (i, s, 1))

open Classical in
/-- Changing these two challenges. -/
noncomputable def withDraws (i : List Nat) (s : List (List Nat)) (p : F × F) (H : History → F) : History → F :=
  Function.update (Function.update H (i, s, 0) p.1) (i, s, 1) p.2

omit [Fintype F] [Nonempty F] [MeasurableSpace F] [DiscreteMeasurableSpace F] in
theorem withDraws_of_ne {i : List Nat} {s : List (List Nat)} (p : F × F) (H : History → F) {q : History} (h0 : q ≠ (i, s, 0))
    (h1 : q ≠ (i, s, 1)) : withDraws i s p H q = H q := by
  unfold withDraws
  rw [Function.update_of_ne h1, Function.update_of_ne h0]

omit [Fintype F] [Nonempty F] [MeasurableSpace F] [DiscreteMeasurableSpace F] in
theorem drawsAt_withDraws (i : List Nat) (s : List (List Nat)) (p : F × F) (H : History → F) : drawsAt i s (withDraws i s p H) = p := by
  unfold drawsAt withDraws
  rw [Function.update_self, Function.update_of_ne (by simp), Function.update_self]

omit [Fintype F] [Nonempty F] [MeasurableSpace F] [DiscreteMeasurableSpace F] in
theorem withDraws_drawsAt (i : List Nat) (s : List (List Nat)) (p : F × F) (H : History → F) :
    withDraws i s (drawsAt i s H) (withDraws i s p H) = H := by
  funext q
  by_cases h0 : q = (i, s, 0)
  · subst h0
    exact congrArg Prod.fst (drawsAt_withDraws i s (drawsAt i s H) (withDraws i s p H))
  by_cases h1 : q = (i, s, 1)
  · subst h1
    exact congrArg Prod.snd (drawsAt_withDraws i s (drawsAt i s H) (withDraws i s p H))
  rw [withDraws_of_ne _ _ h0 h1, withDraws_of_ne _ _ h0 h1]

/-- A set of pairs of challenges may depend on the messages before them and on the earlier challenges. If it contains at most `E` of `|F|` pairs, then
somebody who asks at most `Q` questions and names at most `R` further lists of messages meets it with probability at most
`(Q + R) E / |F|`. -/
theorem forger_game {Out : Type} (i : List Nat) (A : Forger F Out) {Q R E : Nat} (hA : ∀ H, (A.asked H).length ≤ Q)
    (after : Out → List (List (List Nat))) (hR : ∀ o, (after o).length ≤ R) (bad : (History → F) → List (List Nat) → Set (F × F))
    (hlocal : ∀ H H' s, (∀ t, t <+: s → t ≠ s → drawsAt i t H = drawsAt i t H') → bad H s = bad H' s)
    (hsize : ∀ H s, (bad H s).ncard ≤ E * Fintype.card F) :
    randomOracle F {H | ∃ s ∈ (A.asked H).map (fun q => q.2.1) ++ after (A.run H), drawsAt i s H ∈ bad H s}
      ≤ (((Q + R) * E : Nat) : ENNReal) / (Fintype.card F : ENNReal) := by
  classical
  obtain ⟨RQ, O, hfin⟩ := A.finite
  let L : List (List (List Nat)) := (RQ.map (fun q => q.2.1) ++ O.flatMap after).flatMap List.inits
  let K : Finset History := RQ.toFinset ∪ (L.flatMap (fun s => [(i, s, 0), (i, s, 1)])).toFinset
  have hL : ∀ H, ∀ s ∈ (A.asked H).map (fun q => q.2.1) ++ after (A.run H), ∀ t, t <+: s → t ∈ L := by
    intro H s hs t ht
    refine List.mem_flatMap.2 ⟨s, ?_, (List.mem_inits _ _).2 ht⟩
    rw [List.mem_append] at hs ⊢
    rcases hs with hs | hs
    · obtain ⟨q, hq, rfl⟩ := List.mem_map.1 hs
      exact Or.inl (List.mem_map.2 ⟨q, (hfin H).1 q hq, rfl⟩)
    · exact Or.inr (List.mem_flatMap.2 ⟨_, (hfin H).2, hs⟩)
  have hK0 : ∀ s ∈ L, (i, s, 0) ∈ K ∧ (i, s, 1) ∈ K := by
    intro s hs
    constructor <;> refine Finset.mem_union_right _ (List.mem_toFinset.2 (List.mem_flatMap.2 ⟨s, hs, by simp⟩))
  let a0 : F := Classical.arbitrary F
  let ext : (Fin (Fintype.card K) → F) → History → F := fun c q => if h : q ∈ K then c (Fintype.equivFin K ⟨q, h⟩) else a0
  have hext : Function.Injective ext := by
    intro c c' he
    funext k
    have h := congrFun he ((Fintype.equivFin K).symm k).1
    simp only [ext, dif_pos ((Fintype.equivFin K).symm k).2, Subtype.coe_eta, Equiv.apply_symm_apply] at h
    exact h
  let looked : (History → F) → List (List Nat) → Prop := fun H s => s ∈ (A.asked H).map (fun q => q.2.1) ++ after (A.run H)
  let X : Finset (History → F) := Finset.univ.image ext
  have hXmem : ∀ H, (∀ q ∉ K, H q = a0) → H ∈ X := by
    intro H hH
    refine Finset.mem_image.2 ⟨fun k => H ((Fintype.equivFin K).symm k).1, Finset.mem_univ _, ?_⟩
    funext q
    by_cases hq : q ∈ K
    · simp only [ext, dif_pos hq, Equiv.symm_apply_apply]
    · simp only [ext, dif_neg hq]
      exact (hH q hq).symm
  have hXout : ∀ H ∈ X, ∀ q ∉ K, H q = a0 := by
    intro H hH q hq
    obtain ⟨c, -, rfl⟩ := Finset.mem_image.1 hH
    simp only [ext, dif_neg hq]
  have hcount := game_count X L.toFinset (drawsAt i) (withDraws i) (withDraws_drawsAt i) (drawsAt_withDraws i) (by
      intro s hs p H hH
      obtain ⟨h0, h1⟩ := hK0 s (List.mem_toFinset.1 hs)
      refine hXmem _ (fun q hq => ?_)
      rw [withDraws_of_ne p H (q := q) (i := i) (s := s) (fun h => hq (by rw [h]; exact h0)) (fun h => hq (by rw [h]; exact h1))]
      exact hXout H hH q hq) looked bad (by
      intro s p H hl
      show s ∈ _ ++ _
      have hagree : ∀ q : History, ¬ q.2.1 = s → H q = withDraws i s p H q := fun q hq =>
        (withDraws_of_ne p H (fun h => hq (by rw [h])) (fun h => hq (by rw [h]))).symm
      by_cases hs : ∃ q ∈ A.asked H, q.2.1 = s
      · obtain ⟨q, hq, he⟩ := A.asked_at (fun q => q.2.1 = s) hagree hs
        exact List.mem_append_left _ (List.mem_map.2 ⟨q, hq, he⟩)
      · obtain ⟨e1, e2⟩ := A.congr (H := H) (H' := withDraws i s p H) (fun q hq => hagree q (fun h => hs ⟨q, hq, h⟩))
        rw [e1, e2]
        exact hl) (by
      intro s p H
      refine hlocal _ _ s (fun t _ ht => ?_)
      unfold drawsAt
      rw [withDraws_of_ne _ _ (by simp [ht]) (by simp [ht]), withDraws_of_ne _ _ (by simp [ht]) (by simp [ht])])
    hsize (Q := Q + R) (by
      intro H
      have h1 : {s | s ∈ L.toFinset ∧ looked H s} ⊆ ((((A.asked H).map (fun q => q.2.1) ++ after (A.run H)).toFinset : Finset _) : Set _) := by
        rintro s ⟨-, hs⟩
        simpa only [List.coe_toFinset, Set.mem_setOf] using hs
      refine (Set.ncard_le_ncard h1 (Finset.finite_toSet _)).trans ?_
      rw [Set.ncard_coe_finset]
      refine (List.toFinset_card_le _).trans ?_
      rw [List.length_append, List.length_map]
      exact Nat.add_le_add (hA H) (hR _))
  have hXcard : X.card = Fintype.card F ^ Fintype.card K := by
    rw [Finset.card_image_of_injective _ hext, Finset.card_univ, Fintype.card_fun, Fintype.card_fin]
  refine (randomOracle_le (m := Fintype.card K) _
    {c | ∃ s ∈ (A.asked (ext c)).map (fun q => q.2.1) ++ after (A.run (ext c)), drawsAt i s (ext c) ∈ bad (ext c) s}
    (fun _ q => q = fun k => ((Fintype.equivFin K).symm k).1) ?_ ?_).trans ?_
  · rintro c a b rfl rfl
    rfl
  · rintro H ⟨s, hs, hb⟩
    refine ⟨fun k => H ((Fintype.equivFin K).symm k).1, ?_, _, rfl, fun a b h => (Fintype.equivFin K).symm.injective (Subtype.ext h), fun k => rfl⟩
    have hagree : ∀ q ∈ K, ext (fun k => H ((Fintype.equivFin K).symm k).1) q = H q := by
      intro q hq
      simp only [ext, dif_pos hq, Equiv.symm_apply_apply]
    obtain ⟨e1, e2⟩ := A.congr (H := H) (H' := ext (fun k => H ((Fintype.equivFin K).symm k).1)) (fun q hq =>
      (hagree q (Finset.mem_union_left _ (List.mem_toFinset.2 ((hfin H).1 q hq)))).symm)
    have hdraws : ∀ t, t <+: s → drawsAt i t H = drawsAt i t (ext (fun k => H ((Fintype.equivFin K).symm k).1)) := by
      intro t ht
      obtain ⟨g0, g1⟩ := hK0 t (hL H s hs t ht)
      unfold drawsAt
      rw [hagree _ g0, hagree _ g1]
    refine ⟨s, by rw [e1, e2]; exact hs, ?_⟩
    rw [← hdraws s (List.prefix_refl s), ← hlocal H _ s (fun t ht _ => hdraws t ht)]
    exact hb
  · have hB : {c | ∃ s ∈ (A.asked (ext c)).map (fun q => q.2.1) ++ after (A.run (ext c)), drawsAt i s (ext c) ∈ bad (ext c) s}.ncard
        * Fintype.card F ≤ (Q + R) * E * Fintype.card F ^ Fintype.card K := by
      have h1 : {c | ∃ s ∈ (A.asked (ext c)).map (fun q => q.2.1) ++ after (A.run (ext c)), drawsAt i s (ext c) ∈ bad (ext c) s}.ncard
          ≤ {H | H ∈ X ∧ ∃ s ∈ L.toFinset, looked H s ∧ drawsAt i s H ∈ bad H s}.ncard := by
        refine Set.ncard_le_ncard_of_injOn ext ?_ (fun a _ b _ h => hext h) (X.finite_toSet.subset (fun H h => h.1))
        rintro c ⟨s, hs, hb⟩
        exact ⟨Finset.mem_image_of_mem _ (Finset.mem_univ _), s, List.mem_toFinset.2 (hL _ s hs s (List.prefix_refl s)), hs, hb⟩
      have h2 := (Nat.mul_le_mul_right _ h1).trans hcount
      rw [Fintype.card_prod, hXcard] at h2
      have hpos : 0 < Fintype.card F := Fintype.card_pos
      refine Nat.le_of_mul_le_mul_right (c := Fintype.card F) ?_ hpos
      calc _ = _ := Nat.mul_assoc _ _ _
        _ ≤ _ := h2
        _ = _ := by ring
    have hc0 : (Fintype.card F : ENNReal) ≠ 0 := by exact_mod_cast (Fintype.card_pos (α := F)).ne'
    have hct : (Fintype.card F : ENNReal) ≠ ⊤ := ENNReal.natCast_ne_top _
    rw [ENNReal.div_le_iff (pow_ne_zero _ hc0) (ENNReal.pow_ne_top hct), ← ENNReal.mul_div_right_comm, ENNReal.le_div_iff_mul_le (Or.inl hc0) (Or.inl hct)]
    exact_mod_cast hB

end
end ZK
