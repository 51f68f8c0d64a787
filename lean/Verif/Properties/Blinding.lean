import Verif.Spec.Blinding
import Verif.Properties.Permutation
import Verif.Properties.Lookup
/-!
Property C49: the values in the blinding rows do not influence whether the permutation and lookup constraints hold.
-/
set_option autoImplicit false
set_option linter.unusedSectionVars false
namespace ZK
open Polynomial

section
variable {F : Type} [Field F] [DecidableEq F] {C : Type}

omit [DecidableEq F] in
theorem polyCols_congr {k : Nat} (hk : 0 < k) {ws ws' sigmas sigmas' : List F[X]} (deltas : List F) (x : F)
    (hw : List.Forall₂ (fun P Q => P.eval x = Q.eval x) ws ws')
    (hs : List.Forall₂ (fun P Q => P.eval x = Q.eval x) sigmas sigmas') :
    polyCols k ws sigmas deltas x = polyCols k ws' sigmas' deltas x := by
  unfold polyCols
  rw [← chunks_map hk, ← chunks_map hk]
  congr 1
  induction hw generalizing sigmas sigmas' deltas with
  | nil => simp
  | cons h _ ih =>
    cases hs with
    | nil => simp
    | cons h' hs' =>
      cases deltas with
      | nil => simp
      | cons dl deltas => simp [h, h', ih deltas hs']

/-- **C49** (permutation) Change all columns arbitrarily from the last usable row on, and the grand products after that
row: the verifier's evaluation of the permutation argument keeps its value on every row of the domain, for all weights,
when the blinding selector marks exactly the rows after the last usable one. -/
theorem C49_permutation (p : PermutationArgument F) (d : Domain F) (hk : 1 ≤ p.maxCols)
    {ws ws' sigmas sigmas' zs zs' : List F[X]}
    (hw : List.Forall₂ (AgreeRows d p.usableRows) ws ws')
    (hs : List.Forall₂ (AgreeRows d p.usableRows) sigmas sigmas')
    (hz : List.Forall₂ (AgreeRows d (p.usableRows + 1)) zs zs')
    {vws vws' vsigmas vsigmas' vagg vagg' : List (VerifierOracle F C)} {qBlind : VerifierOracle F C}
    (hvw : List.Forall₂ (AnswersRows d) vws ws) (hvw' : List.Forall₂ (AnswersRows d) vws' ws')
    (hvs : List.Forall₂ (AnswersRows d) vsigmas sigmas) (hvs' : List.Forall₂ (AnswersRows d) vsigmas' sigmas')
    (hvz : List.Forall₂ (AnswersRows d) vagg zs) (hvz' : List.Forall₂ (AnswersRows d) vagg' zs')
    (hqb : ∀ i < d.size, qBlind.query (d.omega ^ i) = .ok (blinding p.usableRows i))
    (hne : vws ≠ []) (hls : vws.length = vsigmas.length) (hld : vws.length = p.deltas.length)
    (hlz : vagg.length = (chunks p.maxCols vws).length) (beta gamma : F) (i : Nat) (hi : i < d.size)
    (alphas : List F) (hal : alphas.length = p.numberOfAlphas vagg.length) :
    p.open_ (selector i 0) (selector i p.usableRows) qBlind vagg vsigmas vws beta gamma d (d.omega ^ i) alphas
      = p.open_ (selector i 0) (selector i p.usableRows) qBlind vagg' vsigmas' vws' beta gamma d (d.omega ^ i) alphas := by
  have lw : vws.length = vws'.length := by rw [hvw.length_eq, hw.length_eq, hvw'.length_eq]
  have ls : vsigmas.length = vsigmas'.length := by rw [hvs.length_eq, hs.length_eq, hvs'.length_eq]
  have lz : vagg.length = vagg'.length := by rw [hvz.length_eq, hz.length_eq, hvz'.length_eq]
  have lc : (chunks p.maxCols vws).length = (chunks p.maxCols vws').length := chunks_length_congr hk lw
  have hal1 : alphas.length = 2 * vagg.length + 1 := by rw [hal]; simp [PermutationArgument.numberOfAlphas]
  have hne' : vws' ≠ [] := by
    intro h; apply hne; apply List.eq_nil_of_length_eq_zero; rw [lw, h]; rfl
  rw [open_rows p _ _ qBlind vagg vsigmas vws beta gamma d i alphas hk hne hls hld hlz hal1 zs sigmas ws hvz hvs hvw _
      (hqb i hi),
    open_rows p _ _ qBlind vagg' vsigmas' vws' beta gamma d i alphas hk hne' (by omega) (by omega) (by omega) (by omega)
      zs' sigmas' ws' hvz' hvs' hvw' _ (hqb i hi)]
  have hzz : ∀ j r, r ≤ p.usableRows → (zs.getD j 0).eval (d.omega ^ r) = (zs'.getD j 0).eval (d.omega ^ r) := by
    intro j r hr
    rw [List.getD_eq_getElem?_getD, List.getD_eq_getElem?_getD]
    cases e : zs[j]? with
    | none =>
      have : zs'[j]? = none := by
        rw [List.getElem?_eq_none_iff] at e ⊢; rw [← hz.length_eq]; exact e
      rw [this]
    | some P =>
      obtain ⟨Q, hQ, hPQ⟩ := forall₂_right hz e
      rw [hQ]; exact hPQ r (by omega)
  have hlen : (polyCols p.maxCols ws sigmas p.deltas (d.omega ^ i)).length
      = (polyCols p.maxCols ws' sigmas' p.deltas (d.omega ^ i)).length := by
    unfold polyCols
    rw [List.length_map, List.length_map]
    exact chunks_length_congr hk (by simp [hw.length_eq, hs.length_eq])
  congr 2
  rcases lt_or_ge i p.usableRows with h | h
  · rw [polyCols_congr hk p.deltas (d.omega ^ i) (hw.imp fun P Q hPQ => hPQ i h) (hs.imp fun P Q hPQ => hPQ i h)]
    unfold permConstraints
    beta_reduce
    congr 1
    · congr 1
      · congr 1
        · rw [hzz 0 i h.le]
        · exact List.map_congr_left fun c _ => by rw [hzz c.2 i h.le, hzz c.2 (i + 1) h]
      · refine List.map_congr_left fun j _ => ?_
        rcases Nat.eq_zero_or_pos i with h0 | h0
        · subst h0; rw [hzz (j + 1) 0 (by omega), hzz j (p.usableRows + 0) (by omega)]
        · simp [selector, h0.ne']
    · rw [hzz _ i h.le]
  · have hzk : (1 : F) - (selector i p.usableRows + blinding p.usableRows i) = 0 := by
      unfold selector blinding
      rcases h.lt_or_eq with h1 | h1
      · rw [if_neg (by omega), if_neg (by omega)]; ring
      · rw [if_pos h1.symm, if_pos (by omega)]; ring
    unfold permConstraints
    beta_reduce
    rw [hzk]
    congr 1
    · congr 1
      · congr 1
        · rcases Nat.eq_zero_or_pos i with h0 | h0
          · subst h0; rw [hzz 0 0 (by omega)]
          · simp [selector, h0.ne']
        · simp only [zero_mul, List.map_const', List.length_zipIdx, hlen]
      · rw [hlen]
        refine List.map_congr_left fun j _ => ?_
        rcases Nat.eq_zero_or_pos i with h0 | h0
        · subst h0; rw [hzz (j + 1) 0 (by omega), hzz j (p.usableRows + 0) (by omega)]
        · simp [selector, h0.ne']
    · rw [hlen]
      rcases h.lt_or_eq with h1 | h1
      · have : i ≠ p.usableRows := by omega
        simp [selector, this]
      · rw [hzz _ i (by omega)]

theorem lookupHolds_iff [FftParams F] [LawfulFft F] {d : Domain F} (hd : d.Ok) {u : Nat} {p : LookupPolys F} {Z : F[X]}
    {l : LookupOracles (VerifierOracle F C)} {zo qBlind : VerifierOracle F C} (hl : p.Answered d l)
    (hz : AnswersRows d zo Z) (hqb : ∀ i < d.size, qBlind.query (d.omega ^ i) = .ok (blinding u i)) (beta gamma : F) :
    LookupHolds d u qBlind l zo beta gamma ↔ ∀ i < d.size,
      ∀ x ∈ lookupConstraints beta gamma (selector i 0) (selector i u) (blinding u i)
        ⟨p.a.eval (d.omega ^ i), p.s.eval (d.omega ^ i), p.aPrime.eval (d.omega ^ i),
          p.aPrime.eval (d.omega ^ (i + (d.size - 1))), p.sPrime.eval (d.omega ^ i),
          Z.eval (d.omega ^ i), Z.eval (d.omega ^ (i + 1))⟩, x = 0 := by
  constructor
  · intro h i hi; exact lookup_constraints_zero hd hl hz hqb h hi
  · intro h i hi alphas hal
    rw [lookupOpen_rows hd hl hz (hqb i hi) _ _ _ _ _ hal, weighted_of_zero (h i hi)]

theorem lookup_blinding_aux [FftParams F] [LawfulFft F] {d : Domain F} (hd : d.Ok) {u : Nat}
    {p p' : LookupPolys F} {Z Z' : F[X]}
    (ha : AgreeRows d (max u 1) p.a p'.a) (hs : AgreeRows d (max u 1) p.s p'.s)
    (ha' : AgreeRows d (max u 1) p.aPrime p'.aPrime) (hs' : AgreeRows d (max u 1) p.sPrime p'.sPrime) (hZ : AgreeRows d (u + 1) Z Z')
    (beta gamma : F) (h : ∀ i < d.size,
      ∀ x ∈ lookupConstraints beta gamma (selector i 0) (selector i u) (blinding u i)
        ⟨p.a.eval (d.omega ^ i), p.s.eval (d.omega ^ i), p.aPrime.eval (d.omega ^ i),
          p.aPrime.eval (d.omega ^ (i + (d.size - 1))), p.sPrime.eval (d.omega ^ i),
          Z.eval (d.omega ^ i), Z.eval (d.omega ^ (i + 1))⟩, x = 0) (i : Nat) (hi : i < d.size) :
      ∀ x ∈ lookupConstraints beta gamma (selector i 0) (selector i u) (blinding u i)
        ⟨p'.a.eval (d.omega ^ i), p'.s.eval (d.omega ^ i), p'.aPrime.eval (d.omega ^ i),
          p'.aPrime.eval (d.omega ^ (i + (d.size - 1))), p'.sPrime.eval (d.omega ^ i),
          Z'.eval (d.omega ^ i), Z'.eval (d.omega ^ (i + 1))⟩, x = 0 := by
  have hrow := h i hi
  rcases lt_or_ge i u with hiu | hiu
  · have hiu' : i < max u 1 := by omega
    rw [← ha i hiu', ← hs i hiu', ← ha' i hiu', ← hs' i hiu', ← hZ i (by omega), ← hZ (i + 1) (by omega)]
    rcases Nat.eq_zero_or_pos i with hi0 | hi0
    · have h4 := hrow (selector i 0 * (p.aPrime.eval (d.omega ^ i) - p.sPrime.eval (d.omega ^ i)))
        (by simp [lookupConstraints])
      rw [hi0] at h4
      have h4 : p.aPrime.eval (d.omega ^ 0) - p.sPrime.eval (d.omega ^ 0) = 0 := by simpa [selector] using h4
      simp only [lookupConstraints, List.mem_cons, List.not_mem_nil, or_false] at hrow ⊢
      rintro x (rfl | rfl | rfl | rfl | rfl)
      · exact hrow _ (.inl rfl)
      · exact hrow _ (.inr (.inl rfl))
      · exact hrow _ (.inr (.inr (.inl rfl)))
      · exact hrow _ (.inr (.inr (.inr (.inl rfl))))
      · rw [hi0, h4]; ring
    · have e : d.omega ^ (i + (d.size - 1)) = d.omega ^ (i - 1) := by
        rw [show i + (d.size - 1) = (i - 1) + d.size by omega, pow_add, hd.prim.pow_eq_one, mul_one]
      rw [e] at hrow ⊢
      rw [← ha' (i - 1) (by omega)]
      exact hrow
  · have hzk : (1 : F) - (selector i u + blinding u i) = 0 := by
      unfold selector blinding
      rcases hiu.lt_or_eq with h1 | h1
      · rw [if_neg (by omega), if_neg (by omega)]; ring
      · rw [if_pos h1.symm, if_pos (by omega)]; ring
    simp only [lookupConstraints, List.mem_cons, List.not_mem_nil, or_false, hzk, zero_mul] at hrow ⊢
    rintro x (rfl | rfl | rfl | rfl | rfl)
    · rcases Nat.eq_zero_or_pos i with hi0 | hi0
      · rw [← hZ i (by omega)]; exact hrow _ (.inl rfl)
      · simp [selector, hi0.ne']
    · rfl
    · rcases hiu.lt_or_eq with h1 | h1
      · simp [selector, (show i ≠ u by omega)]
      · rw [← hZ i (by omega)]; exact hrow _ (.inr (.inr (.inl rfl)))
    · rcases Nat.eq_zero_or_pos i with hi0 | hi0
      · rw [← ha' i (by omega), ← hs' i (by omega)]; exact hrow _ (.inr (.inr (.inr (.inl rfl))))
      · simp [selector, hi0.ne']
    · rfl

/-- **C49** (lookup) Change the compressed and permuted columns arbitrarily from the last usable row on (keeping the first row
when there are no usable rows), and the grand product after that row: whether the verifier's evaluation of the lookup is zero on all rows for all weights stays the
same. (A single row can change: the first one looks at the permuted input on the last row of the domain, see
`C49_first_row_looks_back`.) -/
theorem C49_lookup [FftParams F] [LawfulFft F] {d : Domain F} (hd : d.Ok) {u : Nat}
    {p p' : LookupPolys F} {Z Z' : F[X]}
    (ha : AgreeRows d (max u 1) p.a p'.a) (hs : AgreeRows d (max u 1) p.s p'.s)
    (ha' : AgreeRows d (max u 1) p.aPrime p'.aPrime) (hs' : AgreeRows d (max u 1) p.sPrime p'.sPrime) (hZ : AgreeRows d (u + 1) Z Z')
    {l l' : LookupOracles (VerifierOracle F C)} {zo zo' qBlind : VerifierOracle F C}
    (hl : p.Answered d l) (hl' : p'.Answered d l') (hz : AnswersRows d zo Z) (hz' : AnswersRows d zo' Z')
    (hqb : ∀ i < d.size, qBlind.query (d.omega ^ i) = .ok (blinding u i)) (beta gamma : F) :
    LookupHolds d u qBlind l zo beta gamma ↔ LookupHolds d u qBlind l' zo' beta gamma := by
  rw [lookupHolds_iff hd hl hz hqb, lookupHolds_iff hd hl' hz' hqb]
  constructor
  · exact fun h i hi => lookup_blinding_aux hd ha hs ha' hs' hZ beta gamma h i hi
  · exact fun h i hi => lookup_blinding_aux hd (fun j hj => (ha j hj).symm) (fun j hj => (hs j hj).symm)
      (fun j hj => (ha' j hj).symm) (fun j hj => (hs' j hj).symm) (fun j hj => (hZ j hj).symm) beta gamma h i hi

/-- Without usable rows the lookup argument does constrain a blinding row: the first one. -/
theorem C49_no_usable_rows [FftParams F] [LawfulFft F] {d : Domain F} (hd : d.Ok) (h1 : 1 < d.size) (beta gamma : F)
    {l l' : LookupOracles (VerifierOracle F C)} {zo qBlind : VerifierOracle F C}
    (hl : LookupPolys.Answered d ⟨0, 0, 0, 0⟩ l) (hl' : LookupPolys.Answered d ⟨0, 0, 1, 0⟩ l') (hz : AnswersRows d zo 1)
    (hqb : ∀ i < d.size, qBlind.query (d.omega ^ i) = .ok (blinding 0 i)) :
    LookupHolds d 0 qBlind l zo beta gamma ∧ ¬ LookupHolds d 0 qBlind l' zo beta gamma := by
  rw [lookupHolds_iff hd hl hz hqb, lookupHolds_iff hd hl' hz hqb]
  constructor
  · intro i hi
    simp only [lookupConstraints, List.mem_cons, List.not_mem_nil, or_false, eval_one, eval_zero]
    rintro x (rfl | rfl | rfl | rfl | rfl) <;> ring
  · intro h
    have := h 0 (by omega) (selector 0 0 * (1 - 0)) (by simp [lookupConstraints])
    simp [selector] at this

end

namespace BlindingExample
open PermutationExample (arg dom dom_ok sigmaPolys blindPoly)

theorem agree {a b : List F97} {n : Nat} (h : ∀ i < n, peval a (dom.omega ^ i) = peval b (dom.omega ^ i)) :
    AgreeRows dom n (toPoly a) (toPoly b) := fun i hi => by rw [eval_toPoly, eval_toPoly]; exact h i hi

theorem agrees {l l' : List (List F97)} {n : Nat}
    (h : List.Forall₂ (fun a b => ∀ i < n, peval a (dom.omega ^ i) = peval b (dom.omega ^ i)) l l') :
    List.Forall₂ (AgreeRows dom n) (l.map toPoly) (l'.map toPoly) := by
  rw [List.forall₂_map_left_iff, List.forall₂_map_right_iff]
  exact h.imp fun a b h => agree h

theorem blind_ok : ∀ i < dom.size, (rowOracle Unit dom [] blindPoly).query (dom.omega ^ i) = .ok (blinding 2 i) := by
  intro i hi
  rw [rowOracle_answers dom_ok [] blindPoly i, eval_toPoly]
  have hi : i < 4 := hi
  interval_cases i <;> decide +kernel

def cols : List (List F97) := [dom.ifft [7, 3, 11, 4], dom.ifft [8, 7, 2, 6]]
/-- The same columns with other values from the last usable row on. -/
def cols' : List (List F97) := [dom.ifft [7, 3, 90, 91], dom.ifft [8, 7, 92, 93]]
def sigmas' : List (List F97) := [dom.ifft [5 * dom.omega, dom.omega, 50, 51], dom.ifft [5, 1, 52, 53]]
def grand : List (List F97) := [dom.ifft [1, 10, 20, 30], dom.ifft [20, 9, 1, 31]]
def grand' : List (List F97) := [dom.ifft [1, 10, 20, 60], dom.ifft [20, 9, 1, 61]]

/-- The hypotheses of `C49_permutation` hold for columns that differ on every blinding row. -/
example (i : Nat) (hi : i < dom.size) (alphas : List F97) (hal : alphas.length = arg.numberOfAlphas 2) :
    arg.open_ (selector i 0) (selector i 2) (rowOracle Unit dom [] blindPoly) (grand.map (rowOracle Unit dom []))
      (sigmaPolys.map (rowOracle Unit dom [])) (cols.map (rowOracle Unit dom [])) 2 3 dom (dom.omega ^ i) alphas
    = arg.open_ (selector i 0) (selector i 2) (rowOracle Unit dom [] blindPoly) (grand'.map (rowOracle Unit dom []))
      (sigmas'.map (rowOracle Unit dom [])) (cols'.map (rowOracle Unit dom [])) 2 3 dom (dom.omega ^ i) alphas :=
  C49_permutation arg dom (by decide)
    (agrees (l := cols) (l' := cols') (n := 2) (.cons (by decide +kernel) (.cons (by decide +kernel) .nil)))
    (agrees (l := sigmaPolys) (l' := sigmas') (n := 2) (.cons (by decide +kernel) (.cons (by decide +kernel) .nil)))
    (agrees (l := grand) (l' := grand') (n := 3) (.cons (by decide +kernel) (.cons (by decide +kernel) .nil)))
    (rowOracles_answer dom_ok _) (rowOracles_answer dom_ok _) (rowOracles_answer dom_ok _)
    (rowOracles_answer dom_ok _) (rowOracles_answer dom_ok _) (rowOracles_answer dom_ok _) blind_ok
    (by simp [cols]) (by simp [cols, sigmaPolys]) (by simp [cols, arg]) (by decide +kernel) 2 3 i hi alphas (by simpa [grand] using hal)

def four (a s a' s' : List F97) : LookupOracles (VerifierOracle F97 Unit) :=
  ⟨rowOracle Unit dom [] a, rowOracle Unit dom [] s, rowOracle Unit dom [] a', rowOracle Unit dom [] s'⟩

theorem four_answered (a s a' s' : List F97) :
    LookupPolys.Answered dom ⟨toPoly a, toPoly s, toPoly a', toPoly s'⟩ (four a s a' s') :=
  ⟨rowOracle_answers dom_ok _ _, rowOracle_answers dom_ok _ _, rowOracle_answers dom_ok _ _, rowOracle_answers dom_ok _ _⟩

/-- The hypotheses of `C49_lookup` hold for columns that differ on every blinding row. -/
example : LookupHolds dom 2 (rowOracle Unit dom [] blindPoly)
      (four (dom.ifft [7, 7, 1, 2]) (dom.ifft [8, 7, 3, 4]) (dom.ifft [7, 7, 5, 6]) (dom.ifft [7, 8, 9, 10]))
      (rowOracle Unit dom [] (dom.ifft [1, 12, 1, 11])) 2 3 ↔
    LookupHolds dom 2 (rowOracle Unit dom [] blindPoly)
      (four (dom.ifft [7, 7, 21, 22]) (dom.ifft [8, 7, 23, 24]) (dom.ifft [7, 7, 25, 26]) (dom.ifft [7, 8, 29, 30]))
      (rowOracle Unit dom [] (dom.ifft [1, 12, 1, 31])) 2 3 :=
  C49_lookup dom_ok
    (agree (n := 2) (by decide +kernel)) (agree (n := 2) (by decide +kernel)) (agree (n := 2) (by decide +kernel))
    (agree (n := 2) (by decide +kernel)) (agree (n := 3) (by decide +kernel))
    (four_answered _ _ _ _) (four_answered _ _ _ _) (rowOracle_answers dom_ok _ _) (rowOracle_answers dom_ok _ _)
    blind_ok 2 3

/-- The value on the first row may change with the blinding value on the last row, as long as the other constraints on the
first row are violated: the permuted input is compared with its predecessor, which wraps around. -/
theorem C49_first_row_looks_back :
    lookupOpen (selector 0 0) (selector 0 2) (rowOracle Unit dom [] blindPoly)
      (four [] [] (dom.ifft [7, 7, 5, 6]) []) (rowOracle Unit dom [] [1]) 2 3 (dom.omega ^ 0) dom [0, 0, 0, 0, 1]
    ≠ lookupOpen (selector 0 0) (selector 0 2) (rowOracle Unit dom [] blindPoly)
      (four [] [] (dom.ifft [7, 7, 5, 7]) []) (rowOracle Unit dom [] [1]) 2 3 (dom.omega ^ 0) dom [0, 0, 0, 0, 1] := by
  decide +kernel

end BlindingExample
end ZK
