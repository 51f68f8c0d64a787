import Verif.Lemmas.Blinded
/-! C53: blinding rows hide the columns. -/
set_option autoImplicit false
set_option linter.unusedSectionVars false
namespace ZK

section
variable {F : Type} [Field F] [FftParams F] [LawfulFft F]

/-- Draws for `m` columns with `t` random rows each. -/
def rowsEquiv (m t : Nat) : (Fin (m * t) → F) ≃ (Fin m → Fin t → F) :=
  (Equiv.arrowCongr finProdFinEquiv.symm (Equiv.refl F)).trans (Equiv.curry _ _ _)

theorem index_lt {m t : Nat} (c : Fin m) (i : Fin t) : c * t + i < m * t := by
  have h1 := c.2
  have h2 := i.2
  calc c * t + i < c * t + t := by omega
    _ = (c + 1) * t := by ring
    _ ≤ m * t := Nat.mul_le_mul_right t (by omega)

theorem rowsEquiv_apply {m t : Nat} (r : Fin (m * t) → F) (c : Fin m) (i : Fin t) :
    rowsEquiv m t r c i = r ⟨c * t + i, index_lt c i⟩ := by
  show r (finProdFinEquiv (c, i)) = _
  congr 1
  apply Fin.ext
  simp only [finProdFinEquiv_apply_val]
  ring

/-- Elements drawn alternately for two columns. -/
def pairsEquiv (t : Nat) : (Fin (2 * t) → F) ≃ (Fin t → F) × (Fin t → F) where
  toFun r := (fun i => r ⟨2 * i, by omega⟩, fun i => r ⟨2 * i + 1, by omega⟩)
  invFun p j := if j.1 % 2 = 0 then p.1 ⟨j / 2, by omega⟩ else p.2 ⟨j / 2, by omega⟩
  left_inv r := by
    funext j
    simp only
    split
    · congr 1; apply Fin.ext; simp only; omega
    · congr 1; apply Fin.ext; simp only; omega
  right_inv p := by
    refine Prod.ext ?_ ?_
    · funext i
      simp only
      rw [if_pos (by omega)]
      exact congrArg p.1 (Fin.ext (by simp only; omega))
    · funext i
      simp only
      rw [if_neg (by omega)]
      exact congrArg p.2 (Fin.ext (by simp only; omega))

variable [DecidableEq F]

theorem Masked.shifts {d : Domain F} (hd : d.Ok) {m t k : Nat} {G : (Fin t → F) → List F} (h : Masked d m t G)
    (hm : m + t = d.size) (hk : k ≤ t) {x : Fin k → F} (hx : Function.Injective x)
    (hoff : ∀ i, ∀ j < m, x i ≠ d.omega ^ j) : Shifts (fun r i => peval (G r) (x i)) := by
  obtain ⟨pre, hl, h1⟩ := h
  simp only [h1]
  subst hl
  exact shifts_evals hd hm hk hx hoff

theorem MaskedPair.shifts {d : Domain F} (hd : d.Ok) {m t k k' : Nat} {G : (Fin (2 * t) → F) → List F × List F}
    (h : MaskedPair d m t G) (hm : m + t = d.size) (hk : k ≤ t) (hk' : k' ≤ t) {x : Fin k → F} (hx : Function.Injective x)
    {x' : Fin k' → F} (hx' : Function.Injective x')
    (hoff : ∀ i, ∀ j < m, x i ≠ d.omega ^ j) (hoff' : ∀ i, ∀ j < m, x' i ≠ d.omega ^ j) :
    Shifts (fun r => ((fun i => peval (G r).1 (x i), fun i => peval (G r).2 (x' i)) : (Fin k → F) × (Fin k' → F))) := by
  obtain ⟨pre, pre', hl, hl', h1⟩ := h
  simp only [h1]
  have h2 := shifts_evals hd (pre := pre) (t := t) (by omega) hk hx (by rw [hl]; exact hoff)
  have h3 := shifts_evals hd (pre := pre') (t := t) (by omega) hk' hx' (by rw [hl']; exact hoff')
  exact (h2.prod h3).comp_equiv (pairsEquiv t)

end

section
variable {F : Type} [Field F] [Fintype F] [FftParams F] [LawfulFft F] [LinearOrder F]

/-- **C53** Fix the challenges `theta`, `beta` and `gamma` and let the three rounds that produce blinded columns succeed
once. Then they succeed for every state of the generator; the columns depend on the generator only through the elements it
hands out, at most `2 * (n - u')` per lookup, `n - 1 - u` per grand product of the permutation argument and `n - 1 - u'` per
grand product of a lookup; and as a function of these elements the values of all blinded columns at points outside of the
domain are jointly uniformly distributed, whatever the witness is, as long as no column is evaluated at more points than it
has random rows. -/
theorem C53_blinded_evaluations_uniform {S : Scheme F} {v : ProverView F} {index : Index F} {d : Domain F} (hd : d.Ok)
    {toCopy sigmas : List (ProverOracle F)} {theta beta gamma : F} {z z' z'' y y' y'' : S.Z}
    {ls : List (LookupOracles (ProverOracle F))} {ps ss : List (ProverOracle F)}
    (hl : lookupRound (S := S) v index d theta z = .ok (ls, y))
    (hp : permutationRound (S := S) index toCopy sigmas d beta gamma z' = (.ok (ps, y') : Res PiopErr _))
    (hs : subsetEqualityRound (S := S) index ls d beta gamma z'' = (.ok (ss, y'') : Res PiopErr _))
    -- the points
    {ka ks kp kz : Nat} {xa : Fin ka → F} {xs : Fin ks → F} {xp : Fin kp → F} {xz : Fin kz → F}
    (hxa : Function.Injective xa) (hxs : Function.Injective xs) (hxp : Function.Injective xp) (hxz : Function.Injective xz)
    (hoa : ∀ i, xa i ^ d.size ≠ 1) (hos : ∀ i, xs i ^ d.size ≠ 1) (hop : ∀ i, xp i ^ d.size ≠ 1)
    (hoz : ∀ i, xz i ^ d.size ≠ 1)
    (hka : ka ≤ d.size - index.usableRows) (hks : ks ≤ d.size - index.usableRows)
    (hkp : kp ≤ d.size - 1 - index.perm.usableRows) (hkz : kz ≤ d.size - 1 - index.usableRows) :
    ∃ (A B : (Fin (index.lookups.length * (2 * (d.size - index.usableRows))) → F) → Fin index.lookups.length → List F)
      (P : (Fin (ps.length * (d.size - 1 - index.perm.usableRows)) → F) → Fin ps.length → List F)
      (Z : (Fin (index.lookups.length * (d.size - 1 - index.usableRows)) → F) → Fin index.lookups.length → List F),
      (∀ z1 z2 z3, ∃ ls' ps' ss' y1 y2 y3, lookupRound (S := S) v index d theta z1 = .ok (ls', y1) ∧
        permutationRound (S := S) index toCopy sigmas d beta gamma z2 = (.ok (ps', y2) : Res PiopErr _) ∧
        subsetEqualityRound (S := S) index ls' d beta gamma z3 = (.ok (ss', y3) : Res PiopErr _) ∧
        ls'.map (·.aPrime.poly) = List.ofFn (A (fun i => draw S.next z1 i)) ∧
        ls'.map (·.sPrime.poly) = List.ofFn (B (fun i => draw S.next z1 i)) ∧
        ps'.map (·.poly) = List.ofFn (P (fun i => draw S.next z2 i)) ∧
        ss'.map (·.poly) = List.ofFn (Z (fun i => draw S.next z3 i))) ∧
      Uniform (fun r : (Fin (index.lookups.length * (2 * (d.size - index.usableRows))) → F)
          × (Fin (ps.length * (d.size - 1 - index.perm.usableRows)) → F)
          × (Fin (index.lookups.length * (d.size - 1 - index.usableRows)) → F) =>
        ((fun l => (fun i => peval (A r.1 l) (xa i), fun i => peval (B r.1 l) (xs i)),
          fun c i => peval (P r.2.1 c) (xp i), fun l i => peval (Z r.2.2 l) (xz i)) :
          (Fin index.lookups.length → (Fin ka → F) × (Fin ks → F)) × (Fin ps.length → Fin kp → F)
            × (Fin index.lookups.length → Fin kz → F))) := by
  have hoff : ∀ {x : F} {m : Nat}, x ^ d.size ≠ 1 → ∀ j < m, x ≠ d.omega ^ j := by
    rintro x m hx j - rfl
    exact hx (hd.element_pow j)
  obtain ⟨G, hG, h1⟩ := lookupRound_draws hl
  obtain ⟨G', hG', h2⟩ := permutationRound_draws hp
  have hlen : ls.length = index.lookups.length := by
    obtain ⟨out, -, h3, h4⟩ := h1 z
    have := congrArg List.length h4
    rw [List.length_map, List.length_ofFn] at this
    rw [← this]
    exact h3.length_eq
  obtain ⟨G'', hG'', h3⟩ := subsetEqualityRound_draws hlen hs
  refine ⟨fun r c => (G c (rowsEquiv _ _ r c)).1, fun r c => (G c (rowsEquiv _ _ r c)).2,
    fun r c => G' c (rowsEquiv _ _ r c), fun r c => G'' c (rowsEquiv _ _ r c), ?_, ?_⟩
  · intro z1 z2 z3
    obtain ⟨ls', e1, e2, e3⟩ := h1 z1
    obtain ⟨ps', e4, e5⟩ := h2 z2
    obtain ⟨ss', e6, e7⟩ := h3 ls' e2 z3
    have e8 := congrArg (List.map Prod.fst) e3
    have e9 := congrArg (List.map Prod.snd) e3
    rw [List.map_map, List.map_ofFn] at e8 e9
    refine ⟨ls', ps', ss', _, _, _, e1, e4, e6, e8.trans ?_, e9.trans ?_, e5.trans ?_, e7.trans ?_⟩
    all_goals
      congr 1
      funext c
      simp only [Function.comp]
      congr 1
      try congr 1
      funext i
      rw [rowsEquiv_apply]
  · have h4 := Shifts.comp_equiv (Shifts.pi (fun l => (hG l).1.shifts hd (by have := (hG l).2; omega) hka hks hxa hxs
      (fun i => hoff (hoa i)) (fun i => hoff (hos i)))) (rowsEquiv _ _)
    have h5 := Shifts.comp_equiv (Shifts.pi (fun c => (hG' c).1.shifts hd (by have := (hG' c).2; omega) hkp hxp
      (fun i => hoff (hop i)))) (rowsEquiv _ _)
    have h6 := Shifts.comp_equiv (Shifts.pi (fun l => (hG'' l).1.shifts hd (by have := (hG'' l).2; omega) hkz hxz
      (fun i => hoff (hoz i)))) (rowsEquiv _ _)
    exact Shifts.uniform (h4.prod (h5.prod h6))

end
end ZK
