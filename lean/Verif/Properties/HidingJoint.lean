import Verif.Properties.Hiding
/-! C60: the evaluations of the witness columns and of the blinded columns are jointly uniformly distributed. -/
set_option autoImplicit false
set_option linter.unusedSectionVars false
namespace ZK
open Polynomial

/-- A uniform result followed by a result that is uniform for every draw of the first. -/
theorem Uniform.bind {A B A' B' : Type} [Fintype A] [Fintype A'] [Finite B'] {f : A → B} {g : A → A' → B'}
    (hf : Uniform f) (hg : ∀ a, Uniform (g a)) : Uniform (fun p : A × A' => ((f p.1, g p.1 p.2) : B × B')) := by
  classical
  have := Fintype.ofFinite B'
  -- every result of `g a` has the same number of draws, whatever `a` is
  have hc : ∀ a y a' y', (Finset.univ.filter (fun b => g a b = y)).card = (Finset.univ.filter (fun b => g a' b = y')).card := by
    have h1 : ∀ a y, Fintype.card B' * (Finset.univ.filter (fun b => g a b = y)).card = Fintype.card A' := by
      intro a y
      have h2 := Finset.card_eq_sum_card_fiberwise (f := g a) (s := Finset.univ) (t := Finset.univ) (fun _ _ => Finset.mem_univ _)
      rw [Finset.card_univ] at h2
      rw [h2, Finset.sum_congr rfl (fun y' _ => by
        have := hg a y' y
        convert this), Finset.sum_const, Finset.card_univ, smul_eq_mul]
    intro a y a' y'
    have hpos : 0 < Fintype.card B' := Fintype.card_pos_iff.2 ⟨y⟩
    exact Nat.eq_of_mul_eq_mul_left hpos ((h1 a y).trans (h1 a' y').symm)
  intro y y'
  have key : ∀ y : B × B', (Finset.univ.filter (fun p : A × A' => (f p.1, g p.1 p.2) = y)).card
      = ∑ a ∈ Finset.univ.filter (fun a => f a = y.1), (Finset.univ.filter (fun b => g a b = y.2)).card := by
    intro y
    rw [← Finset.card_sigma]
    refine Finset.card_bij (fun p _ => ⟨p.1, p.2⟩) ?_ ?_ ?_
    · intro p hp
      simp only [Finset.mem_filter, Finset.mem_univ, true_and, Prod.ext_iff] at hp
      simp [hp.1, hp.2]
    · intro p _ q _ h
      simp only [Sigma.mk.injEq, heq_eq_eq] at h
      exact Prod.ext h.1 h.2
    · rintro ⟨a, b⟩ h
      simp only [Finset.mem_sigma, Finset.mem_filter, Finset.mem_univ, true_and] at h
      exact ⟨(a, b), by simp [h.1, h.2], rfl⟩
  have e1 := key y
  have e2 := key y'
  have h0 : (Finset.univ.filter (fun a => f a = y.1)).card = (Finset.univ.filter (fun a => f a = y'.1)).card := by
    have := hf y.1 y'.1
    convert this
  have hs : ∑ a ∈ Finset.univ.filter (fun a => f a = y.1), (Finset.univ.filter (fun b => g a b = y.2)).card
      = ∑ a ∈ Finset.univ.filter (fun a => f a = y'.1), (Finset.univ.filter (fun b => g a b = y'.2)).card := by
    rcases (Finset.univ.filter (fun a => f a = y.1)).eq_empty_or_nonempty with he | ⟨a0, ha0⟩
    · have : Finset.univ.filter (fun a => f a = y'.1) = ∅ := by
        rw [← Finset.card_eq_zero, ← h0, he, Finset.card_empty]
      rw [he, this]
      rfl
    · rw [Finset.sum_congr rfl (fun a _ => hc a y.2 a0 y.2), Finset.sum_const,
        Finset.sum_congr rfl (fun a _ => hc a y'.2 a0 y.2), Finset.sum_const, h0]
  convert e1.trans (hs.trans e2.symm)

section
variable {F : Type} [Field F] [Fintype F] [FftParams F] [LawfulFft F] [LinearOrder F]

/-- **C60**, the part that holds: the evaluations of the witness columns and of the columns the prover builds. Let the last
`t c` rows of witness column `c` be drawn uniformly, after any rows `pre c`, fix the challenges `theta`, `beta` and `gamma`,
and let the three rounds that produce blinded columns succeed for each of these witnesses. Then these rounds depend on the
generator only through the elements it hands out, and the values of all witness columns and of all columns of these rounds
at points outside of the domain are jointly uniformly distributed as long as no column is evaluated at more points than it
has random rows. In particular their distribution is the same for any two witnesses. Missing: the values of the quotient
parts, for which this is false (`Leak.C60_false`). -/
theorem C60_evaluations_uniform_partial {S : Scheme F} {index : Index F} {d : Domain F} (hd : d.Ok)
    -- the witness
    {m : Nat} {t : Fin m → Nat} {pre : Fin m → List F} (hpre : ∀ c, (pre c).length + t c = d.size)
    {v : (∀ c, Fin (t c) → F) → ProverView F}
    (hv : ∀ r, (v r).witness.map (·.poly) = List.ofFn (fun c => trim (d.ifft (pre c ++ List.ofFn (r c)))))
    -- the rounds
    {sigmas : List (ProverOracle F)} {theta beta gamma : F} {N : Nat}
    (hrun : ∀ r, ∃ (z z' z'' y y' y'' : S.Z) (ls : List (LookupOracles (ProverOracle F))) (ps ss : List (ProverOracle F)),
      lookupRound (S := S) (v r) index d theta z = .ok (ls, y) ∧
      permutationRound (S := S) index ((v r).witness.filter (·.shouldPermute)) sigmas d beta gamma z'
        = (.ok (ps, y') : Res PiopErr _) ∧
      subsetEqualityRound (S := S) index ls d beta gamma z'' = (.ok (ss, y'') : Res PiopErr _) ∧ ps.length = N)
    -- the points
    {kw : Fin m → Nat} {ka ks kp kz : Nat} {xw : ∀ c, Fin (kw c) → F}
    {xa : Fin ka → F} {xs : Fin ks → F} {xp : Fin kp → F} {xz : Fin kz → F}
    (hxw : ∀ c, Function.Injective (xw c))
    (hxa : Function.Injective xa) (hxs : Function.Injective xs) (hxp : Function.Injective xp) (hxz : Function.Injective xz)
    (how : ∀ c i, xw c i ^ d.size ≠ 1)
    (hoa : ∀ i, xa i ^ d.size ≠ 1) (hos : ∀ i, xs i ^ d.size ≠ 1) (hop : ∀ i, xp i ^ d.size ≠ 1)
    (hoz : ∀ i, xz i ^ d.size ≠ 1) (hkw : ∀ c, kw c ≤ t c)
    (hka : ka ≤ d.size - index.usableRows) (hks : ks ≤ d.size - index.usableRows)
    (hkp : kp ≤ d.size - 1 - index.perm.usableRows) (hkz : kz ≤ d.size - 1 - index.usableRows) :
    ∃ (W : (∀ c, Fin (t c) → F) → Fin m → List F)
      (A B : (∀ c, Fin (t c) → F) → (Fin (index.lookups.length * (2 * (d.size - index.usableRows))) → F) →
        Fin index.lookups.length → List F)
      (P : (∀ c, Fin (t c) → F) → (Fin (N * (d.size - 1 - index.perm.usableRows)) → F) → Fin N → List F)
      (Z : (∀ c, Fin (t c) → F) → (Fin (index.lookups.length * (d.size - 1 - index.usableRows)) → F) →
        Fin index.lookups.length → List F),
      (∀ r z1 z2 z3, ∃ ls' ps' ss' y1 y2 y3, lookupRound (S := S) (v r) index d theta z1 = .ok (ls', y1) ∧
        permutationRound (S := S) index ((v r).witness.filter (·.shouldPermute)) sigmas d beta gamma z2
          = (.ok (ps', y2) : Res PiopErr _) ∧
        subsetEqualityRound (S := S) index ls' d beta gamma z3 = (.ok (ss', y3) : Res PiopErr _) ∧
        (v r).witness.map (·.poly) = List.ofFn (W r) ∧
        ls'.map (·.aPrime.poly) = List.ofFn (A r (fun i => draw S.next z1 i)) ∧
        ls'.map (·.sPrime.poly) = List.ofFn (B r (fun i => draw S.next z1 i)) ∧
        ps'.map (·.poly) = List.ofFn (P r (fun i => draw S.next z2 i)) ∧
        ss'.map (·.poly) = List.ofFn (Z r (fun i => draw S.next z3 i))) ∧
      Uniform (fun r : (∀ c, Fin (t c) → F) × (Fin (index.lookups.length * (2 * (d.size - index.usableRows))) → F)
          × (Fin (N * (d.size - 1 - index.perm.usableRows)) → F)
          × (Fin (index.lookups.length * (d.size - 1 - index.usableRows)) → F) =>
        ((fun c i => peval (W r.1 c) (xw c i),
          fun l => (fun i => peval (A r.1 r.2.1 l) (xa i), fun i => peval (B r.1 r.2.1 l) (xs i)),
          fun c i => peval (P r.1 r.2.2.1 c) (xp i), fun l i => peval (Z r.1 r.2.2.2 l) (xz i)) :
          (∀ c, Fin (kw c) → F) × (Fin index.lookups.length → (Fin ka → F) × (Fin ks → F)) × (Fin N → Fin kp → F)
            × (Fin index.lookups.length → Fin kz → F))) := by
  have h1 : ∀ r, ∃ (A B : (Fin (index.lookups.length * (2 * (d.size - index.usableRows))) → F) → Fin index.lookups.length → List F)
      (P : (Fin (N * (d.size - 1 - index.perm.usableRows)) → F) → Fin N → List F)
      (Z : (Fin (index.lookups.length * (d.size - 1 - index.usableRows)) → F) → Fin index.lookups.length → List F),
      (∀ z1 z2 z3, ∃ ls' ps' ss' y1 y2 y3, lookupRound (S := S) (v r) index d theta z1 = .ok (ls', y1) ∧
        permutationRound (S := S) index ((v r).witness.filter (·.shouldPermute)) sigmas d beta gamma z2
          = (.ok (ps', y2) : Res PiopErr _) ∧
        subsetEqualityRound (S := S) index ls' d beta gamma z3 = (.ok (ss', y3) : Res PiopErr _) ∧
        ls'.map (·.aPrime.poly) = List.ofFn (A (fun i => draw S.next z1 i)) ∧
        ls'.map (·.sPrime.poly) = List.ofFn (B (fun i => draw S.next z1 i)) ∧
        ps'.map (·.poly) = List.ofFn (P (fun i => draw S.next z2 i)) ∧
        ss'.map (·.poly) = List.ofFn (Z (fun i => draw S.next z3 i))) ∧
      Uniform (fun r : (Fin (index.lookups.length * (2 * (d.size - index.usableRows))) → F)
          × (Fin (N * (d.size - 1 - index.perm.usableRows)) → F)
          × (Fin (index.lookups.length * (d.size - 1 - index.usableRows)) → F) =>
        ((fun l => (fun i => peval (A r.1 l) (xa i), fun i => peval (B r.1 l) (xs i)),
          fun c i => peval (P r.2.1 c) (xp i), fun l i => peval (Z r.2.2 l) (xz i)) :
          (Fin index.lookups.length → (Fin ka → F) × (Fin ks → F)) × (Fin N → Fin kp → F)
            × (Fin index.lookups.length → Fin kz → F))) := by
    intro r
    obtain ⟨z, z', z'', y, y', y'', ls, ps, ss, hl, hp, hs, rfl⟩ := hrun r
    exact C53_blinded_evaluations_uniform hd hl hp hs hxa hxs hxp hxz hoa hos hop hoz hka hks hkp hkz
  choose A B P Z h2 h3 using h1
  refine ⟨fun r c => trim (d.ifft (pre c ++ List.ofFn (r c))), A, B, P, Z, ?_, ?_⟩
  · intro r z1 z2 z3
    obtain ⟨ls', ps', ss', y1, y2, y3, e1, e2, e3, e4⟩ := h2 r z1 z2 z3
    exact ⟨ls', ps', ss', y1, y2, y3, e1, e2, e3, hv r, e4⟩
  · refine Uniform.bind (f := fun (r : ∀ c, Fin (t c) → F) c i => peval (trim (d.ifft (pre c ++ List.ofFn (r c)))) (xw c i))
      (Shifts.uniform (Shifts.pi (fun c => shifts_evals hd (hpre c) (hkw c) (hxw c) ?_))) h3
    intro i j hj he
    exact how c i (by rw [he]; exact hd.element_pow j)

end
end ZK
