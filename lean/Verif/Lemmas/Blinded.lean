import Verif.Lemmas.Hiding
import Verif.Lemmas.Rounds
/-! The columns the prover blinds are fixed rows followed by elements drawn from the generator. -/
set_option autoImplicit false
set_option linter.unusedSectionVars false
namespace ZK

/-- A loop that pushes one result per element and draws `t` elements for it. Any other run, started with similar results
on similar elements, succeeds as well and its results depend on the draws in the same way. -/
theorem foldM_draws {F Z O V α ε : Type} [Field F] {next : Z → F × Z} {t : Nat} {R : O → O → Prop} {Q : α → α → Prop}
    {val : O → V} {Good : ((Fin t → F) → V) → Prop} {f : List O × Z → α → Res ε (List O × Z)}
    (hstep : ∀ acc z a r, f (acc, z) a = .ok r → ∃ o, r.1 = acc ++ [o] ∧ ∃ G, Good G ∧
      ∀ acc' a', List.Forall₂ R acc acc' → Q a a' → ∀ z2, ∃ o', f (acc', z2) a' = .ok (acc' ++ [o'], after next t z2) ∧
        R o o' ∧ val o' = G (fun i => draw next z2 i))
    {l : List α} {acc : List O} {z : Z} {r : List O × Z} (h : Res.foldM f (acc, z) l = .ok r) :
    ∃ out, r.1 = acc ++ out ∧ ∃ G : Fin l.length → (Fin t → F) → V, (∀ c, Good (G c)) ∧
      ∀ acc' l', List.Forall₂ R acc acc' → List.Forall₂ Q l l' → ∀ z2, ∃ out',
        Res.foldM f (acc', z2) l' = .ok (acc' ++ out', after next (l.length * t) z2) ∧ List.Forall₂ R out out' ∧
        out'.map val = List.ofFn (fun c => G c (fun i => draw next z2 (c * t + i))) := by
  induction l generalizing acc z with
  | nil =>
    obtain rfl := Res.ok.inj h
    refine ⟨[], by simp, fun c => c.elim0, fun c => c.elim0, ?_⟩
    intro acc' l' _ hl z2
    cases hl
    exact ⟨[], by simp [after], .nil, rfl⟩
  | cons a l ih =>
    obtain ⟨b, h1, h2⟩ := Res.foldM_eq_ok_cons.1 h
    obtain ⟨o, h3, G, hG, h4⟩ := hstep _ _ _ _ h1
    obtain ⟨out, h5, G', hG', h6⟩ := ih (acc := b.1) (z := b.2) h2
    refine ⟨o :: out, by rw [h5, h3]; simp, Fin.cons G G', ?_, ?_⟩
    · intro c
      refine Fin.cases ?_ (fun c => ?_) c
      · exact hG
      · exact hG' c
    · intro acc' l' hacc hl z2
      cases hl with
      | @cons _ a' _ l' hq hl =>
      obtain ⟨o', e1, e2, e3⟩ := h4 acc' a' hacc hq z2
      obtain ⟨out', e4, e5, e6⟩ := h6 (acc' ++ [o']) l' (by rw [h3]; exact List.rel_append hacc (.cons e2 .nil)) hl
        (after next t z2)
      refine ⟨o' :: out', ?_, .cons e2 e5, ?_⟩
      · refine Res.foldM_eq_ok_cons.2 ⟨_, e1, ?_⟩
        rw [e4, ← after_add, List.append_assoc, List.length_cons, Nat.add_mul, Nat.one_mul, Nat.add_comm t]
        rfl
      · rw [List.map_cons, e3, e6, List.ofFn_succ]
        simp only [Fin.cons_zero, Fin.cons_succ, Fin.val_zero, Nat.zero_mul, Nat.zero_add, Fin.val_succ]
        congr 1
        congr 1
        funext c
        congr 1
        funext i
        rw [draw_after]
        congr 1
        ring

/-- The same for a whole loop over a list of known length. -/
theorem foldM_draws' {F Z O V α ε : Type} [Field F] {next : Z → F × Z} {t : Nat} {R : O → O → Prop} {Q : α → α → Prop}
    {val : O → V} {Good : ((Fin t → F) → V) → Prop} {f : List O × Z → α → Res ε (List O × Z)}
    (hstep : ∀ acc z a r, f (acc, z) a = .ok r → ∃ o, r.1 = acc ++ [o] ∧ ∃ G, Good G ∧
      ∀ acc' a', List.Forall₂ R acc acc' → Q a a' → ∀ z2, ∃ o', f (acc', z2) a' = .ok (acc' ++ [o'], after next t z2) ∧
        R o o' ∧ val o' = G (fun i => draw next z2 i))
    {l : List α} {m : Nat} (hm : l.length = m) {z : Z} {r : List O × Z} (h : Res.foldM f ([], z) l = .ok r) :
    ∃ G : Fin m → (Fin t → F) → V, (∀ c, Good (G c)) ∧
      ∀ l', List.Forall₂ Q l l' → ∀ z2, ∃ out',
        Res.foldM f ([], z2) l' = .ok (out', after next (m * t) z2) ∧ List.Forall₂ R r.1 out' ∧
        out'.map val = List.ofFn (fun c => G c (fun i => draw next z2 (c * t + i))) := by
  subst hm
  obtain ⟨out, e1, G, hG, e2⟩ := foldM_draws hstep h
  rw [List.nil_append] at e1
  subst e1
  exact ⟨G, hG, fun l' hl z2 => e2 [] l' .nil hl z2⟩

section
variable {F Z : Type} [Field F] [FftParams F] [DecidableEq F]

/-- The first `m` rows agree. -/
def SameRows (m : Nat) (o o' : ProverOracle F) : Prop := ∀ i < m, o.evals[i]? = o'.evals[i]?

/-- Fixed rows followed by `t` random ones. -/
def Masked (d : Domain F) (m t : Nat) (G : (Fin t → F) → List F) : Prop :=
  ∃ pre : List F, pre.length = m ∧ ∀ r, G r = trim (d.ifft (pre ++ List.ofFn r))

theorem zRun_length {ε : Type} {factor : Nat → Res ε F} {z : F} {rows : List Nat} {zs : List F}
    (h : zRun factor z rows = .ok zs) : zs.length = rows.length + 1 := by
  induction rows generalizing z zs with
  | nil => obtain rfl := Res.ok.inj h; rfl
  | cons i is ih =>
    unfold zRun at h
    cases hf : factor i with
    | err e => rw [hf] at h; simp at h
    | panic => rw [hf] at h; simp at h
    | ok f =>
      rw [hf] at h
      simp only at h
      cases hz : zRun factor (z * f) is with
      | err e => rw [hz] at h; simp [Res.map1] at h
      | panic => rw [hz] at h; simp [Res.map1] at h
      | ok l =>
        rw [hz] at h
        obtain rfl := Res.ok.inj h
        rw [List.length_cons, ih hz, List.length_cons]

theorem zRun_congr {ε : Type} {f g : Nat → Res ε F} (z : F) (rows : List Nat) (h : ∀ i ∈ rows, f i = g i) :
    zRun f z rows = zRun g z rows := by
  induction rows generalizing z with
  | nil => rfl
  | cons i is ih =>
    unfold zRun
    rw [h i (by simp)]
    cases g i with
    | ok x => simp only; rw [ih _ (fun j hj => h j (by simp [hj]))]
    | err e => rfl
    | panic => rfl

/-- A grand product of the permutation argument. -/
theorem gpConstruct_draws {ε : Type} {next : Z → F × Z} {idx : Nat} {isLast : Bool} {init : F}
    {sigmas ws : List (ProverOracle F)} {deltas : List F} {beta gamma : F} {u : Nat} {d ext : Domain F} {z : Z}
    {r : ProverOracle F × Z}
    (h : (gpConstruct next idx isLast init sigmas ws deltas beta gamma u d ext z : Res ε _) = .ok r) :
    u + 1 ≤ d.size ∧ ∃ G, Masked d (u + 1) (d.size - 1 - u) G ∧ ∀ z2, ∃ o,
      (gpConstruct next idx isLast init sigmas ws deltas beta gamma u d ext z2 : Res ε _)
        = .ok (o, after next (d.size - 1 - u) z2) ∧ SameRows (u + 1) r.1 o ∧
      o.poly = G (fun i => draw next z2 i) := by
  unfold gpConstruct at h
  simp only [Res.bind_eq_ok, Res.assert_eq_ok, decide_eq_true_eq] at h
  obtain ⟨zs, hz, _, hu, _, hlen, h⟩ := h
  obtain ⟨⟩ := Res.ok.inj h
  have hl := zRun_length hz
  rw [List.length_range] at hl
  refine ⟨hu, fun r => trim (d.ifft (zs ++ List.ofFn r)), ⟨zs, hl, fun _ => rfl⟩, ?_⟩
  intro z2
  let e := zs ++ List.ofFn (fun i : Fin (d.size - 1 - u) => draw next z2 i)
  refine ⟨⟨.witness, bytes "agg_permutation_" ++ natBytes idx, trim (d.ifft e), e, some (ext.cosetFft (trim (d.ifft e))),
    if isLast then setExtend [] [Rotation.curr, Rotation.next]
      else setInsert ⟨u, .plus⟩ (setExtend [] [Rotation.curr, Rotation.next]), false⟩, ?_, ?_, rfl⟩
  · unfold gpConstruct
    simp only [Res.bind_eq_ok, Res.assert_eq_ok, decide_eq_true_eq]
    refine ⟨zs, hz, (), hu, (), ?_, ?_⟩
    · simp only [List.length_append, drawN_length, hl]; omega
    · rw [drawN_eq next _ z2]
      rfl
  · intro i hi
    simp only [e]
    rw [List.getElem?_append_left (by omega), List.getElem?_append_left (by omega)]

/-- The grand product of a lookup. -/
theorem seConstruct_draws {ε : Type} {next : Z → F × Z} {l : LookupOracles (ProverOracle F)} {beta gamma : F}
    {idx u : Nat} {d ext : Domain F} {z : Z} {r : ProverOracle F × Z}
    (h : (seConstruct next l beta gamma idx u d ext z : Res ε _) = .ok r) :
    u + 1 ≤ d.size ∧ ∃ G, Masked d (u + 1) (d.size - 1 - u) G ∧ ∀ l' : LookupOracles (ProverOracle F),
      SameRows u l.a l'.a → SameRows u l.s l'.s → SameRows u l.aPrime l'.aPrime → SameRows u l.sPrime l'.sPrime → ∀ z2, ∃ o,
      (seConstruct next l' beta gamma idx u d ext z2 : Res ε _) = .ok (o, after next (d.size - 1 - u) z2) ∧
      SameRows (u + 1) r.1 o ∧ o.poly = G (fun i => draw next z2 i) := by
  unfold seConstruct at h
  simp only [Res.bind_eq_ok, Res.assert_eq_ok, decide_eq_true_eq] at h
  obtain ⟨zs, hz, zu, hzu, _, h1, _, hu, h⟩ := h
  obtain ⟨⟩ := Res.ok.inj h
  have hl := zRun_length hz
  rw [List.length_range] at hl
  refine ⟨hu, fun r => trim (d.ifft (zs ++ List.ofFn r)), ⟨zs, hl, fun _ => rfl⟩, ?_⟩
  intro l' ha hs ha' hs' z2
  have hz' : (zRun (seFactor l' beta gamma) 1 (List.range u) : Res ε _) = .ok zs := by
    rw [← hz]
    refine zRun_congr _ _ ?_
    intro i hi
    have hi := List.mem_range.1 hi
    unfold seFactor Res.idx
    rw [ha i hi, hs i hi, ha' i hi, hs' i hi]
  let e := zs ++ List.ofFn (fun i : Fin (d.size - 1 - u) => draw next z2 i)
  refine ⟨⟨.witness, bytes "lookup_" ++ natBytes idx ++ bytes "_agg_poly", trim (d.ifft e), e,
    some (ext.cosetFft (trim (d.ifft e))), setExtend [] [Rotation.curr, Rotation.next], false⟩, ?_, ?_, rfl⟩
  · unfold seConstruct
    simp only [Res.bind_eq_ok, Res.assert_eq_ok, decide_eq_true_eq]
    refine ⟨zs, hz', zu, hzu, (), h1, (), hu, ?_⟩
    rw [drawN_eq next _ z2]
    rfl
  · intro i hi
    simp only [e]
    rw [List.getElem?_append_left (by omega), List.getElem?_append_left (by omega)]

/-- The loop over the chunks of the permutation argument. -/
theorem constructAggPolys_draws {ε : Type} {p : PermutationArgument F} {next : Z → F × Z}
    {ws sigmas : List (ProverOracle F)} {beta gamma : F} {d ext : Domain F} {z : Z} {r : List (ProverOracle F) × Z}
    (h : (p.constructAggPolys next ws sigmas beta gamma d ext z : Res ε _) = .ok r) :
    p.usableRows + 1 ≤ d.size ∧ ∃ G : Fin r.1.length → (Fin (d.size - 1 - p.usableRows) → F) → List F,
      (∀ c, Masked d (p.usableRows + 1) (d.size - 1 - p.usableRows) (G c)) ∧
      ∀ z2, ∃ out, (p.constructAggPolys next ws sigmas beta gamma d ext z2 : Res ε _)
          = .ok (out, after next (r.1.length * (d.size - 1 - p.usableRows)) z2) ∧
        out.map (·.poly) = List.ofFn (fun c => G c (fun i => draw next z2 (c * (d.size - 1 - p.usableRows) + i))) := by
  unfold PermutationArgument.constructAggPolys at h
  simp only [Res.bind_eq_ok, Res.assert_eq_ok, decide_eq_true_eq] at h
  obtain ⟨_, h1, _, h2, wc, hw, sc, hs, dc, hdc, r', hf, last, hlast, zu, hzu, _, h3, h⟩ := h
  obtain rfl := Res.ok.inj h
  have key := foldM_draws (next := next) (t := d.size - 1 - p.usableRows) (R := SameRows (p.usableRows + 1))
    (Q := Eq) (val := fun o : ProverOracle F => o.poly)
    (Good := fun G => Masked d (p.usableRows + 1) (d.size - 1 - p.usableRows) G ∧ p.usableRows + 1 ≤ d.size) ?_ hf
  · obtain ⟨out, e1, G, hG, e2⟩ := key
    rw [List.nil_append] at e1
    obtain ⟨-, -, hR, -⟩ := e2 [] _ .nil (List.forall₂_refl _) z
    have hlen : r'.1.length = (List.zip (List.zip wc sc) dc).zipIdx.length := by
      obtain ⟨out', -, h5, h6⟩ := e2 [] _ .nil (List.forall₂_refl _) z
      have := congrArg List.length h6
      rw [List.length_map, List.length_ofFn] at this
      rw [e1, h5.length_eq, this]
    rw [hlen]
    have hne : 0 < r'.1.length := by
      obtain ⟨l, hl⟩ : ∃ l, r'.1.getLast? = some l := ⟨last, Res.unwrap_eq_ok.1 hlast⟩
      cases h7 : r'.1 with
      | nil => rw [h7] at hl; simp at hl
      | cons => simp
    refine ⟨(hG ⟨0, hlen ▸ hne⟩).2, G, fun c => (hG c).1, ?_⟩
    intro z2
    obtain ⟨out', h4, h5, h6⟩ := e2 [] _ .nil (List.forall₂_refl _) z2
    rw [List.nil_append] at h4
    refine ⟨out', ?_, h6⟩
    unfold PermutationArgument.constructAggPolys
    simp only [Res.bind_eq_ok, Res.assert_eq_ok, decide_eq_true_eq]
    have hlast' : ∃ last', out'.getLast? = some last' ∧ SameRows (p.usableRows + 1) last last' := by
      rw [← e1] at h5
      have h8 := Res.unwrap_eq_ok.1 hlast
      rw [List.getLast?_eq_getElem?] at h8 ⊢
      rw [← h5.length_eq]
      obtain ⟨hlt, h9⟩ := List.getElem?_eq_some_iff.1 h8
      refine ⟨out'[r'.1.length - 1]'(h5.length_eq ▸ hlt), List.getElem?_eq_getElem _, ?_⟩
      rw [← h9]
      exact h5.get hlt _
    obtain ⟨last', h7, h8⟩ := hlast'
    refine ⟨(), h1, (), h2, wc, hw, sc, hs, dc, hdc, _, h4, last', Res.unwrap_eq_ok.2 h7, zu, ?_, (), h3, rfl⟩
    rw [Res.idx_eq_ok] at hzu ⊢
    rw [← h8 _ (by omega), hzu]
  · intro acc z c r hr
    unfold PermutationArgument.aggStep at hr
    by_cases hc : c.2 = 0
    · simp only [if_pos hc, Res.bind_eq_ok] at hr
      obtain ⟨init, hi, q, hq, hr⟩ := hr
      obtain rfl := Res.ok.inj hr
      obtain ⟨hu, G, hG, h4⟩ := gpConstruct_draws hq
      refine ⟨q.1, rfl, G, ⟨hG, hu⟩, ?_⟩
      rintro acc' _ hacc rfl z2
      obtain ⟨o, h5, h6, h7⟩ := h4 z2
      refine ⟨o, ?_, h6, h7⟩
      unfold PermutationArgument.aggStep
      simp only [if_pos hc, Res.bind_eq_ok]
      exact ⟨init, hi, _, h5, rfl⟩
    · simp only [if_neg hc, Res.bind_eq_ok] at hr
      obtain ⟨prev, hp, init, hi, q, hq, hr⟩ := hr
      obtain rfl := Res.ok.inj hr
      obtain ⟨hu, G, hG, h4⟩ := gpConstruct_draws hq
      refine ⟨q.1, rfl, G, ⟨hG, hu⟩, ?_⟩
      rintro acc' _ hacc rfl z2
      obtain ⟨o, h5, h6, h7⟩ := h4 z2
      refine ⟨o, ?_, h6, h7⟩
      unfold PermutationArgument.aggStep
      simp only [if_neg hc, Res.bind_eq_ok]
      obtain ⟨hlt, h8⟩ := List.getElem?_eq_some_iff.1 (Res.idx_eq_ok.1 hp)
      refine ⟨acc'[c.2 - 1]'(hacc.length_eq ▸ hlt), Res.idx_eq_ok.2 (List.getElem?_eq_getElem _), init, ?_, _, h5, rfl⟩
      rw [Res.idx_eq_ok] at hi ⊢
      rw [← hi, ← h8]
      exact (hacc.get hlt (hacc.length_eq ▸ hlt) _ (by omega)).symm

theorem drawPairs_eq (next : Z → F × Z) (t : Nat) (z : Z) :
    drawPairs next t z = (List.ofFn (fun i : Fin t => draw next z (2 * i)), List.ofFn (fun i : Fin t => draw next z (2 * i + 1)),
      after next (2 * t) z) := by
  induction t generalizing z with
  | zero => rfl
  | succ t ih =>
    unfold drawPairs
    simp only
    rw [ih, show (next (next z).2).2 = after next 2 z from rfl, ← after_add, List.ofFn_succ, List.ofFn_succ,
      show 2 + 2 * t = 2 * (t + 1) from by ring]
    simp only [draw_after, Fin.val_succ, Prod.mk.injEq, List.cons.injEq, Fin.val_zero]
    refine ⟨⟨rfl, ?_⟩, ⟨rfl, ?_⟩, trivial⟩
    · congr 1; funext i; congr 1; ring
    · congr 1; funext i; congr 1; ring

/-- Both permuted columns of a lookup: fixed rows followed by `t` random ones, drawn alternately. -/
def MaskedPair (d : Domain F) (m t : Nat) (G : (Fin (2 * t) → F) → List F × List F) : Prop :=
  ∃ pre pre' : List F, pre.length = m ∧ pre'.length = m ∧ ∀ r, G r =
    (trim (d.ifft (pre ++ List.ofFn (fun i : Fin t => r ⟨2 * i, by omega⟩))),
      trim (d.ifft (pre' ++ List.ofFn (fun i : Fin t => r ⟨2 * i + 1, by omega⟩))))

/-- The rows the grand product of a lookup reads agree. -/
def SameLookup (u : Nat) (l l' : LookupOracles (ProverOracle F)) : Prop :=
  SameRows u l.a l'.a ∧ SameRows u l.s l'.s ∧ SameRows u l.aPrime l'.aPrime ∧ SameRows u l.sPrime l'.sPrime

end

section
variable {F Z : Type} [Field F] [FftParams F] [LinearOrder F]

/-- The permuted columns of a lookup. -/
theorem lookupConstruct_draws {next : Z → F × Z} {v : ProverView F} {u idx : Nat} {exprs : List (Expr F)}
    {tables : List OracleQuery} {theta : F} {d ext : Domain F} {z : Z} {r : LookupOracles (ProverOracle F) × Z}
    (h : lookupConstruct next v u idx exprs tables theta d ext z = .ok r) :
    u ≤ d.size ∧ ∃ G, MaskedPair d u (d.size - u) G ∧ ∀ z2, ∃ l,
      lookupConstruct next v u idx exprs tables theta d ext z2 = .ok (l, after next (2 * (d.size - u)) z2) ∧
      SameLookup u r.1 l ∧ (l.aPrime.poly, l.sPrime.poly) = G (fun i => draw next z2 i) := by
  unfold lookupConstruct at h
  simp only [Res.bind_eq_ok, Res.assert_eq_ok, decide_eq_true_eq] at h
  obtain ⟨_, h1, aRows, h2, aCoset, h3, _, h4, sRows, h5, sCoset, h6, _, h7, _, h8, _, h9, perm, h10, _, h11, _, h12, h⟩ := h
  obtain rfl := Res.ok.inj h
  have ha := Res.mapM_length h2
  rw [List.length_range] at ha
  have hl1 : perm.1.length = u := by
    rw [List.length_append, (drawPairs_length _ _ _).1] at h11; omega
  have hl2 : perm.2.length = u := by
    rw [List.length_append, (drawPairs_length _ _ _).2] at h12; omega
  refine ⟨by omega, fun r => _, ⟨perm.1, perm.2, hl1, hl2, fun _ => rfl⟩, ?_⟩
  intro z2
  let e := perm.1 ++ List.ofFn (fun i : Fin (d.size - u) => draw next z2 (2 * i))
  let e' := perm.2 ++ List.ofFn (fun i : Fin (d.size - u) => draw next z2 (2 * i + 1))
  refine ⟨⟨⟨.witness, bytes "lookup_a_" ++ natBytes idx ++ bytes "_poly", trim (d.ifft aRows), aRows, some aCoset,
      setExtend [] [Rotation.curr], false⟩,
    ⟨.witness, bytes "lookup_s_" ++ natBytes idx ++ bytes "_poly", trim (d.ifft sRows), sRows, some sCoset,
      setExtend [] [Rotation.curr], false⟩,
    ⟨.witness, bytes "lookup_a_prime_" ++ natBytes idx ++ bytes "_poly", trim (d.ifft e), e,
      some (ext.cosetFft (trim (d.ifft e))), setExtend [] [Rotation.curr, Rotation.prev], false⟩,
    ⟨.witness, bytes "lookup_s_prime_" ++ natBytes idx ++ bytes "_poly", trim (d.ifft e'), e',
      some (ext.cosetFft (trim (d.ifft e'))), setExtend [] [Rotation.curr], false⟩⟩, ?_, ?_, rfl⟩
  · unfold lookupConstruct
    simp only [Res.bind_eq_ok, Res.assert_eq_ok, decide_eq_true_eq]
    refine ⟨(), h1, aRows, h2, aCoset, h3, (), h4, sRows, h5, sCoset, h6, (), h7, (), h8, (), h9, perm, h10, (), ?_, (), ?_, ?_⟩
    · rw [List.length_append, (drawPairs_length _ _ _).1]; omega
    · rw [List.length_append, (drawPairs_length _ _ _).2]; omega
    · rw [drawPairs_eq next _ z2]
      rfl
  · refine ⟨fun _ _ => rfl, fun _ _ => rfl, ?_, ?_⟩
    · intro i hi
      simp only [e]
      rw [List.getElem?_append_left (by omega), List.getElem?_append_left (by omega)]
    · intro i hi
      simp only [e']
      rw [List.getElem?_append_left (by omega), List.getElem?_append_left (by omega)]

variable {S : Scheme F}

theorem lookupRound_draws {v : ProverView F} {index : Index F} {d : Domain F} {theta : F} {z : S.Z}
    {r : List (LookupOracles (ProverOracle F)) × S.Z} (h : lookupRound (S := S) v index d theta z = .ok r) :
    ∃ G : Fin index.lookups.length → (Fin (2 * (d.size - index.usableRows)) → F) → List F × List F,
      (∀ c, MaskedPair d index.usableRows (d.size - index.usableRows) (G c) ∧ index.usableRows ≤ d.size) ∧
      ∀ z2, ∃ out, lookupRound (S := S) v index d theta z2
          = .ok (out, after S.next (index.lookups.length * (2 * (d.size - index.usableRows))) z2) ∧
        List.Forall₂ (SameLookup index.usableRows) r.1 out ∧
        out.map (fun l => (l.aPrime.poly, l.sPrime.poly))
          = List.ofFn (fun c => G c (fun i => draw S.next z2 (c * (2 * (d.size - index.usableRows)) + i))) := by
  unfold lookupRound at h
  obtain ⟨G, hG, e⟩ := foldM_draws' (next := S.next) (t := 2 * (d.size - index.usableRows)) (R := SameLookup index.usableRows)
    (Q := Eq) (val := fun l : LookupOracles (ProverOracle F) => (l.aPrime.poly, l.sPrime.poly))
    (Good := fun G => MaskedPair d index.usableRows (d.size - index.usableRows) G ∧ index.usableRows ≤ d.size) (by
      intro acc z a r hr
      simp only [Res.bind_eq_ok] at hr
      obtain ⟨es, he, ts, ht, q, hq, hr⟩ := hr
      obtain rfl := Res.ok.inj hr
      obtain ⟨hu, G, hG, h4⟩ := lookupConstruct_draws hq
      refine ⟨q.1, rfl, G, ⟨hG, hu⟩, ?_⟩
      rintro acc' _ hacc rfl z2
      obtain ⟨o, h5, h6, h7⟩ := h4 z2
      refine ⟨o, ?_, h6, h7⟩
      simp only [Res.bind_eq_ok]
      exact ⟨es, he, ts, ht, _, h5, rfl⟩) (List.length_zipIdx (l := index.lookups)) h
  refine ⟨G, hG, fun z2 => e _ (List.forall₂_refl _) z2⟩

theorem permutationRound_draws {ε : Type} {index : Index F} {ws sigmas : List (ProverOracle F)} {d : Domain F} {beta gamma : F}
    {z : S.Z} {r : List (ProverOracle F) × S.Z} (h : (permutationRound (S := S) index ws sigmas d beta gamma z : Res ε _) = .ok r) :
    ∃ G : Fin r.1.length → (Fin (d.size - 1 - index.perm.usableRows) → F) → List F,
      (∀ c, Masked d (index.perm.usableRows + 1) (d.size - 1 - index.perm.usableRows) (G c) ∧ index.perm.usableRows + 1 ≤ d.size) ∧
      ∀ z2, ∃ out, (permutationRound (S := S) index ws sigmas d beta gamma z2 : Res ε _)
          = .ok (out, after S.next (r.1.length * (d.size - 1 - index.perm.usableRows)) z2) ∧
        out.map (·.poly) = List.ofFn (fun c => G c (fun i => draw S.next z2 (c * (d.size - 1 - index.perm.usableRows) + i))) := by
  unfold permutationRound at h ⊢
  split at h
  · obtain rfl := Res.ok.inj h
    refine ⟨fun c => c.elim0, fun c => c.elim0, fun z2 => ⟨[], ?_, rfl⟩⟩
    rw [List.length_nil, Nat.zero_mul, if_pos ‹_›]
    rfl
  · obtain ⟨hu, G, hG, h1⟩ := constructAggPolys_draws h
    refine ⟨G, fun c => ⟨hG c, hu⟩, ?_⟩
    intro z2
    rw [if_neg ‹_›]
    exact h1 z2

theorem subsetEqualityRound_draws {ε : Type} {index : Index F} {ls : List (LookupOracles (ProverOracle F))} {d : Domain F}
    {beta gamma : F} {z : S.Z} {r : List (ProverOracle F) × S.Z} {m : Nat} (hm : ls.length = m)
    (h : (subsetEqualityRound (S := S) index ls d beta gamma z : Res ε _) = .ok r) :
    ∃ G : Fin m → (Fin (d.size - 1 - index.usableRows) → F) → List F,
      (∀ c, Masked d (index.usableRows + 1) (d.size - 1 - index.usableRows) (G c) ∧ index.usableRows + 1 ≤ d.size) ∧
      ∀ ls', List.Forall₂ (SameLookup index.usableRows) ls ls' → ∀ z2, ∃ out,
        (subsetEqualityRound (S := S) index ls' d beta gamma z2 : Res ε _)
          = .ok (out, after S.next (m * (d.size - 1 - index.usableRows)) z2) ∧
        out.map (·.poly) = List.ofFn (fun c => G c (fun i => draw S.next z2 (c * (d.size - 1 - index.usableRows) + i))) := by
  unfold subsetEqualityRound at h
  obtain ⟨G, hG, e⟩ := foldM_draws' (next := S.next) (t := d.size - 1 - index.usableRows) (R := SameRows (index.usableRows + 1))
    (Q := fun p p' => SameLookup index.usableRows p.1 p'.1 ∧ p.2 = p'.2) (val := fun o : ProverOracle F => o.poly)
    (Good := fun G => Masked d (index.usableRows + 1) (d.size - 1 - index.usableRows) G ∧ index.usableRows + 1 ≤ d.size) (by
      intro acc z a r hr
      simp only [Res.bind_eq_ok] at hr
      obtain ⟨q, hq, hr⟩ := hr
      obtain rfl := Res.ok.inj hr
      obtain ⟨hu, G, hG, h4⟩ := seConstruct_draws hq
      refine ⟨q.1, rfl, G, ⟨hG, hu⟩, ?_⟩
      rintro acc' a' hacc ⟨⟨h1, h2, h3, h3'⟩, h8⟩ z2
      obtain ⟨o, h5, h6, h7⟩ := h4 a'.1 h1 h2 h3 h3' z2
      refine ⟨o, ?_, h6, h7⟩
      simp only [Res.bind_eq_ok]
      exact ⟨_, h8 ▸ h5, rfl⟩) ((List.length_zipIdx (l := ls)).trans hm) h
  refine ⟨G, hG, fun ls' hls z2 => ?_⟩
  obtain ⟨out, h1, -, h2⟩ := e ls'.zipIdx (by
    clear e h hm
    generalize 0 = k
    induction hls generalizing k with
    | nil => exact .nil
    | cons h1 _ ih => exact .cons ⟨h1, rfl⟩ (ih _)) z2
  exact ⟨out, h1, h2⟩

end

end ZK
