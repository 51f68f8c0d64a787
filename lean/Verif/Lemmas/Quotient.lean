import Verif.Spec.Quotient
import Verif.Lemmas.System
import Verif.Lemmas.Constraints
import Verif.Lemmas.Multiopen
import Verif.Lemmas.Verify
import Verif.Lemmas.Expression
import Verif.Lemmas.Lookup
/-! The numerator the prover and the verifier compute is the aggregated constraint polynomial. -/
set_option autoImplicit false
set_option linter.unusedSectionVars false
namespace ZK
open Polynomial

/-! ### Ring homomorphisms -/

section
variable {R T : Type} [CommRing R] [CommRing T]

/-- Mapping the values of a column. -/
def PermCol.mapHom (f : R →+* T) (c : PermCol R) : PermCol T := ⟨f c.w, f c.sigma, f c.ident⟩

theorem PermCol.den_map (f : R →+* T) (b g : R) (c : PermCol R) :
    f (c.den b g) = (c.mapHom f).den (f b) (f g) := by simp [PermCol.den, PermCol.mapHom]

theorem PermCol.num_map (f : R →+* T) (b g : R) (c : PermCol R) :
    f (c.num b g) = (c.mapHom f).num (f b) (f g) := by simp [PermCol.num, PermCol.mapHom]

theorem permConstraints_map (f : R →+* T) (b g l0 lu qb : R) (z zN zU : Nat → R) (cs : List (List (PermCol R))) :
    (permConstraints b g l0 lu qb z zN zU cs).map f
      = permConstraints (f b) (f g) (f l0) (f lu) (f qb) (fun j => f (z j)) (fun j => f (zN j)) (fun j => f (zU j))
          (cs.map (List.map (PermCol.mapHom f))) := by
  unfold permConstraints
  rw [List.map_append, List.map_append, List.map_append, List.length_map]
  congr 1
  · congr 1
    · congr 1
      · simp
      · rw [List.zipIdx_map, List.map_map, List.map_map]
        apply List.map_congr_left
        intro c _
        have h1 : ∀ l : List (PermCol R), f ((l.map (PermCol.den b g)).prod)
            = ((l.map (PermCol.mapHom f)).map (PermCol.den (f b) (f g))).prod := by
          intro l
          rw [map_list_prod, List.map_map, List.map_map]
          congr 1
          apply List.map_congr_left
          intro t _
          exact PermCol.den_map f b g t
        have h2 : ∀ l : List (PermCol R), f ((l.map (PermCol.num b g)).prod)
            = ((l.map (PermCol.mapHom f)).map (PermCol.num (f b) (f g))).prod := by
          intro l
          rw [map_list_prod, List.map_map, List.map_map]
          congr 1
          apply List.map_congr_left
          intro t _
          exact PermCol.num_map f b g t
        simp only [Function.comp_apply, map_mul, map_sub, map_one, map_add, h1, h2]
        rfl
    · rw [List.map_map]
      apply List.map_congr_left
      intro j _
      simp
  · simp

theorem lookupConstraints_map (f : R →+* T) (b g l0 lu qb : R) (v : LookupVals R) :
    (lookupConstraints b g l0 lu qb v).map f
      = lookupConstraints (f b) (f g) (f l0) (f lu) (f qb)
          ⟨f v.a, f v.s, f v.aPrime, f v.aPrimePrev, f v.sPrime, f v.z, f v.zNext⟩ := by
  simp [lookupConstraints]

theorem aggregate_map (f : R →+* T) (alpha : R) (gates perm : List R) (m : Nat) (ls : List (List R)) :
    f (aggregate alpha gates perm m ls)
      = aggregate (f alpha) (gates.map f) (perm.map f) m (ls.map (List.map f)) := by
  have h : ∀ (e : Nat → Nat) (l : List R), f ((l.zipIdx.map (fun c => alpha ^ e c.2 * c.1)).sum)
      = ((l.map f).zipIdx.map (fun c => f alpha ^ e c.2 * c.1)).sum := by
    intro e l
    rw [map_list_sum, List.zipIdx_map, List.map_map, List.map_map]
    congr 1
    apply List.map_congr_left; intro c _; simp
  unfold aggregate
  rw [map_add, map_add, h (fun i => i), h (fun i => gates.length + i), map_list_sum, List.map_map, List.length_map]
  congr 2
  rw [List.zipIdx_map, List.map_map]
  apply List.map_congr_left
  intro c _
  simp only [Function.comp_apply]
  rw [h (fun i => gates.length + 2 * m + 5 * c.2 + i)]
  rfl

end

section
variable {F : Type} [Field F]

/-- The aggregated constraint polynomial at a point. -/
theorem CircuitPolys.eval_numerator (c : CircuitPolys F) (d : Domain F) (p : PermutationArgument F)
    (alpha beta gamma x : F) :
    (c.numerator d p alpha beta gamma).eval x
      = aggregate alpha (c.gates.map (·.eval x)) ((c.permutation d p beta gamma).map (·.eval x)) c.zs.length
          (c.lookups.map (fun l => (lookupPolys d p.usableRows c.qBlind beta gamma l).map (·.eval x))) := by
  have := aggregate_map (evalRingHom x) (C alpha) c.gates (c.permutation d p beta gamma) c.zs.length
    (c.lookups.map (lookupPolys d p.usableRows c.qBlind beta gamma))
  rw [List.map_map] at this
  simp only [coe_evalRingHom, eval_C] at this
  exact this

theorem shifted_next_eval (d : Domain F) (p : F[X]) (x : F) : (shifted d p .next).eval x = p.eval (d.omega * x) := by
  rw [eval_shifted]; simp [Rotation.next, Rotation.signed]

theorem shifted_prev_eval (d : Domain F) (p : F[X]) (x : F) :
    (shifted d p .prev).eval x = p.eval (d.omega⁻¹ * x) := by
  rw [eval_shifted]; simp [Rotation.prev, Rotation.signed]

theorem shifted_plus_eval (d : Domain F) (p : F[X]) (u : Nat) (x : F) :
    (shifted d p ⟨u, .plus⟩).eval x = p.eval (d.omega ^ u * x) := by
  rw [eval_shifted]; simp [Rotation.signed]

/-- The values of the permutation constraints at a point. -/
theorem CircuitPolys.eval_permutation (c : CircuitPolys F) (d : Domain F) (p : PermutationArgument F)
    (beta gamma x : F) (hne : c.ws ≠ []) :
    (c.permutation d p beta gamma).map (·.eval x)
      = permConstraints beta gamma ((rowPoly d 0).eval x) ((rowPoly d p.usableRows).eval x) (c.qBlind.eval x)
          (fun j => (c.zs.getD j 0).eval x) (fun j => (c.zs.getD j 0).eval (d.omega * x))
          (fun j => (c.zs.getD j 0).eval (d.omega ^ p.usableRows * x))
          ((chunks p.maxCols (List.zip (List.zip c.ws c.sigmas) p.deltas)).map
            (List.map (fun t => ⟨t.1.1.eval x, t.1.2.eval x, t.2 * x⟩))) := by
  unfold CircuitPolys.permutation
  rw [if_neg hne]
  have := permConstraints_map (evalRingHom x) (C beta) (C gamma) (rowPoly d 0) (rowPoly d p.usableRows) c.qBlind
      (fun j => c.zs.getD j 0) (fun j => shifted d (c.zs.getD j 0) .next)
      (fun j => shifted d (c.zs.getD j 0) ⟨p.usableRows, .plus⟩) (c.columns p)
  simp only [coe_evalRingHom, eval_C, shifted_next_eval, shifted_plus_eval] at this
  rw [this]
  congr 1
  unfold CircuitPolys.columns
  rw [List.map_map]
  apply List.map_congr_left
  intro l _
  simp only [Function.comp_apply, List.map_map]
  apply List.map_congr_left
  intro t _
  simp [PermCol.mapHom]

/-- The values of the constraints of a lookup at a point. -/
theorem eval_lookupPolys (d : Domain F) (u : Nat) (qBlind : F[X]) (beta gamma x : F) (l : LookupPolys F × F[X]) :
    (lookupPolys d u qBlind beta gamma l).map (·.eval x)
      = lookupConstraints beta gamma ((rowPoly d 0).eval x) ((rowPoly d u).eval x) (qBlind.eval x)
          ⟨l.1.a.eval x, l.1.s.eval x, l.1.aPrime.eval x, l.1.aPrime.eval (d.omega⁻¹ * x), l.1.sPrime.eval x,
            l.2.eval x, l.2.eval (d.omega * x)⟩ := by
  have := lookupConstraints_map (evalRingHom x) (C beta) (C gamma) (rowPoly d 0) (rowPoly d u) qBlind
    ⟨l.1.a, l.1.s, l.1.aPrime, shifted d l.1.aPrime .prev, l.1.sPrime, l.2, shifted d l.2 .next⟩
  simp only [coe_evalRingHom, eval_C, shifted_next_eval, shifted_prev_eval] at this
  exact this

/-! ### The weights -/

theorem powersFrom_eq (s x : F) (n : Nat) : powersFrom s x n = (List.range n).map (fun i => s * x ^ i) := by
  apply List.ext_getElem?
  intro i
  rw [powersFrom_getElem?, List.getElem?_map]
  by_cases h : i < n
  · rw [if_pos h, List.getElem?_range h]; rfl
  · rw [if_neg h, List.getElem?_eq_none (by simpa using Nat.le_of_not_lt h)]; rfl

theorem chunks_range {α : Type} (f : Nat → α) (L : Nat) {k : Nat} (hk : 0 < k) :
    chunks k ((List.range (k * L)).map f) = (List.range L).map (fun i => (List.range k).map (fun j => f (k * i + j))) := by
  apply List.ext_getElem?
  intro i
  rw [chunks_getElem? hk, List.length_map, List.length_range]
  by_cases h : i < L
  · have h1 : k * i + k ≤ k * L := by
      calc k * i + k = k * (i + 1) := by ring
        _ ≤ k * L := Nat.mul_le_mul_left _ h
    rw [if_pos (by omega), List.getElem?_map, List.getElem?_range h]
    simp only [Option.map_some, Option.some.injEq]
    apply List.ext_getElem
    · simp; omega
    · intro j h2 h3
      simp
  · have h1 : k * L ≤ k * i := Nat.mul_le_mul_left _ (Nat.le_of_not_lt h)
    rw [if_neg (by omega), List.getElem?_eq_none (by simpa using Nat.le_of_not_lt h)]

/-- The weights handed to gates, permutation argument and lookups. -/
theorem mkAlphas_eq {ε : Type} (p : PermutationArgument F) (alpha : F) {numVos : Nat} (h : 0 < numVos)
    (m L : Nat) : (mkAlphas p alpha numVos m L : Res ε _) = .ok ⟨(List.range numVos).map (fun i => alpha ^ i),
      (List.range (2 * m + 1)).map (fun i => alpha ^ (numVos + i)),
      (List.range L).map (fun k => (List.range 5).map (fun j => alpha ^ (numVos + 2 * m + (5 * k + j))))⟩ := by
  obtain ⟨n, rfl⟩ : ∃ n, numVos = n + 1 := ⟨numVos - 1, by omega⟩
  unfold mkAlphas
  have h1 : (powersFrom (1 : F) alpha (n + 1)).getLast? = some (alpha ^ n) := by
    rw [List.getLast?_eq_getElem?, powersFrom_length, powersFrom_getElem?]; simp
  have h2 : p.numberOfAlphas m = 2 * m + 1 := by simp [PermutationArgument.numberOfAlphas]
  have h3 : (powersFrom (alpha ^ n * alpha) alpha (2 * m + 1)).getLast? = some (alpha ^ (n + 1 + 2 * m)) := by
    rw [List.getLast?_eq_getElem?, powersFrom_length, powersFrom_getElem?, if_pos (by omega)]
    simp only [Option.some.injEq, Nat.add_sub_cancel]
    ring
  simp only [h1, Res.unwrap_some, Res.bind_ok, h2, h3]
  rw [powersFrom_eq, powersFrom_eq, powersFrom_eq, chunks_range _ _ (by norm_num)]
  show Res.ok _ = Res.ok _
  congr 2
  · apply List.map_congr_left; intro i _; simp
  · apply List.map_congr_left; intro i _; ring
  · apply List.map_congr_left; intro i _
    apply List.map_congr_left; intro j _
    rw [← pow_add]

/-- The selector polynomials built by an inverse FFT. -/
theorem lagrangeRow_eq {ε : Type} [DecidableEq F] [FftParams F] [LawfulFft F] {d : Domain F} (hd : d.Ok)
    {i : Nat} (hi : i < d.size) : ∃ l, (lagrangeRow d d.size i : Res ε _) = .ok l ∧ l.length ≤ d.size ∧
      toPoly l = rowPoly d i := by
  refine ⟨_, by rw [lagrangeRow, unitVec, if_pos hi]; rfl, ?_, ?_⟩
  · refine (trim_length_le _).trans ?_
    simp [Domain.ifft]
  · rw [toPoly_trim]
    apply hd.poly_ext
    · exact lt_of_lt_of_le (degree_toPoly_lt _) (by simp [Domain.ifft])
    · unfold rowPoly
      rw [Lagrange.degree_basis]
      · rw [Finset.card_range]
        have := hd.size_pos
        exact_mod_cast Nat.sub_lt this one_pos
      · intro a ha b hb hab
        simp only [Finset.coe_range, Set.mem_Iio] at ha hb
        exact hd.element_inj ha hb hab
      · simpa using hi
    · intro k hk
      rw [eval_toPoly, hd.peval_ifft (by simp) k hk]
      have hinj : Set.InjOn (fun k => d.omega ^ k) (Finset.range d.size : Set Nat) := by
        intro a ha b hb hab
        simp only [Finset.coe_range, Set.mem_Iio] at ha hb
        exact hd.element_inj ha hb hab
      have hik : i ∈ Finset.range d.size := by simpa using hi
      have hkk : k ∈ Finset.range d.size := by simpa using hk
      have hel : d.element k = (fun k => d.omega ^ k) k := rfl
      unfold rowPoly
      rw [hel]
      simp only [List.getElem_map, List.getElem_range]
      split
      · rename_i h
        subst h
        exact (Lagrange.eval_basis_self hinj hik).symm
      · rename_i h
        exact (Lagrange.eval_basis_of_ne (Ne.symm h) hkk).symm

/-! ### Sums by position -/

theorem Res.foldM_add_getElem {ε α : Type} {f : F → α → Res ε F} {l : List α} (g : Nat → F)
    (h : ∀ b j (hj : j < l.length), f b l[j] = .ok (b + g j)) (b : F) :
    Res.foldM f b l = .ok (b + ((List.range l.length).map g).sum) := by
  induction l generalizing b g with
  | nil => simp
  | cons a l ih =>
    have h0 : f b a = .ok (b + g 0) := h b 0 (by simp)
    rw [Res.foldM_cons, h0, Res.bind_ok, ih (fun j => g (j + 1))
      (fun b j hj => h b (j + 1) (by simpa using hj))]
    rw [List.length_cons, List.range_succ_eq_map, List.map_cons, List.sum_cons, List.map_map, add_assoc]
    rfl

theorem zipIdx_sum {α : Type} (l : List α) (k : α × Nat → F) (g : Nat → F)
    (h : ∀ j (hj : j < l.length), k (l[j], j) = g j) :
    (l.zipIdx.map k).sum = ((List.range l.length).map g).sum := by
  congr 1
  apply List.ext_getElem
  · simp
  · intro i h1 h2
    simp only [List.length_map, List.length_zipIdx] at h1
    simp [h i h1]

theorem weighted_range (f : Nat → F) (cs : List F) {n : Nat} (h : cs.length = n) :
    weighted ((List.range n).map f) cs = (cs.zipIdx.map (fun c => f c.2 * c.1)).sum := by
  rw [weighted_eq_dotF _ _ (by simp [h])]
  unfold dotF
  congr 1
  apply List.map_congr_left
  intro c hc
  have := snd_lt_of_mem_zipIdx hc
  show (List.map f (List.range n)).getD c.2 0 * c.1 = _
  rw [List.getD_eq_getElem _ _ (by simp; omega)]
  simp

theorem permCols_eq {O : Type} {k : Nat} (hk : 0 < k) (W S : O → F) {ws sigmas : List O} {P Q : List F[X]}
    (deltas : List F) (x y : F) (h1 : ws.map W = P.map (fun p => p.eval x))
    (h2 : sigmas.map S = Q.map (fun p => p.eval x)) :
    permCols k W S ws sigmas deltas y = (chunks k (List.zip (List.zip P Q) deltas)).map
      (List.map (fun t => ⟨t.1.1.eval x, t.1.2.eval x, t.2 * y⟩)) := by
  have e1 : (List.zip (List.zip ws sigmas) deltas).map (fun t => (⟨W t.1.1, S t.1.2, t.2 * y⟩ : PermCol F))
      = (List.zip (List.zip (ws.map W) (sigmas.map S)) deltas).map (fun t => ⟨t.1.1, t.1.2, t.2 * y⟩) := by
    rw [List.zip_map, List.zip_map_left, List.map_map]
    rfl
  have e2 : (List.zip (List.zip P Q) deltas).map (fun t => (⟨t.1.1.eval x, t.1.2.eval x, t.2 * y⟩ : PermCol F))
      = (List.zip (List.zip (P.map (fun p => p.eval x)) (Q.map (fun p => p.eval x))) deltas).map
        (fun t => ⟨t.1.1, t.1.2, t.2 * y⟩) := by
    rw [List.zip_map, List.zip_map_left, List.map_map]
    rfl
  unfold permCols
  rw [← chunks_map hk, ← chunks_map hk, e1, e2, h1, h2]

end
end ZK
