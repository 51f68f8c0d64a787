import Verif.Lemmas.Blinded
/-! The rounds of the prover read a known number of elements from the generator and depend on nothing else of it. -/
set_option autoImplicit false
set_option linter.unusedSectionVars false
namespace ZK

section
variable {F Z : Type} [Field F]

/-- A computation that reads `k` elements from the generator; its outcome is determined by these elements. -/
def Reads {ε A : Type} (next : Z → F × Z) (k : Nat) (f : Z → Res ε (A × Z)) : Prop :=
  ∀ z a z', f z = .ok (a, z') → z' = after next k z ∧
    ∀ y, (∀ i < k, draw next y i = draw next z i) → f y = .ok (a, after next k y)

theorem Reads.foldM {ε A B : Type} {next : Z → F × Z} {t : Nat} {f : A × Z → B → Res ε (A × Z)}
    (h : ∀ acc b, Reads next t (fun z => f (acc, z) b)) (l : List B) (acc : A) :
    Reads next (l.length * t) (fun z => Res.foldM f (acc, z) l) := by
  induction l generalizing acc with
  | nil =>
    intro z a z' h
    have h := Res.ok.inj h
    simp only [Prod.mk.injEq] at h
    obtain ⟨rfl, rfl⟩ := h
    rw [List.length_nil, Nat.zero_mul]
    exact ⟨rfl, fun y _ => rfl⟩
  | cons b l ih =>
    intro z a z' h'
    obtain ⟨c, h1, h2⟩ := Res.foldM_eq_ok_cons.1 h'
    obtain ⟨h3, h4⟩ := h acc b z c.1 c.2 h1
    have h2 : Res.foldM f (c.1, c.2) l = .ok (a, z') := h2
    obtain ⟨h5, h6⟩ := ih c.1 c.2 a z' h2
    rw [h3] at h5 h6
    rw [← after_add] at h5
    have e : (b :: l).length * t = t + l.length * t := by rw [List.length_cons]; ring
    rw [e]
    refine ⟨h5, fun y hy => ?_⟩
    refine Res.foldM_eq_ok_cons.2 ⟨_, h4 y (fun i hi => hy i (by omega)), ?_⟩
    refine (h6 (after next t y) (fun i hi => ?_)).trans (by rw [after_add])
    rw [draw_after, draw_after]
    exact hy _ (by omega)

theorem drawN_congr {next : Z → F × Z} {t : Nat} {y z : Z} (h : ∀ i < t, draw next y i = draw next z i) :
    (drawN next t y).1 = (drawN next t z).1 := by
  rw [drawN_eq, drawN_eq]
  simp only
  congr 1
  funext i
  exact h i i.2

theorem drawPairs_snd (next : Z → F × Z) (t : Nat) (z : Z) : (drawPairs next t z).2.2 = after next (2 * t) z := by
  induction t generalizing z with
  | zero => rfl
  | succ t ih =>
    unfold drawPairs
    simp only
    rw [ih, show (next (next z).2).2 = after next 2 z from rfl, ← after_add, show 2 * (t + 1) = 2 + 2 * t by ring]

theorem drawPairs_congr {next : Z → F × Z} {t : Nat} {y z : Z} (h : ∀ i < 2 * t, draw next y i = draw next z i) :
    (drawPairs next t y).1 = (drawPairs next t z).1 ∧ (drawPairs next t y).2.1 = (drawPairs next t z).2.1 := by
  induction t generalizing y z with
  | zero => exact ⟨rfl, rfl⟩
  | succ t ih =>
    have h0 : (next y).1 = (next z).1 := h 0 (by omega)
    have h1 : (next (next y).2).1 = (next (next z).2).1 := h 1 (by omega)
    obtain ⟨h2, h3⟩ := ih (y := after next 2 y) (z := after next 2 z) (fun i hi => by
      rw [draw_after, draw_after]; exact h _ (by omega))
    unfold drawPairs
    simp only
    rw [h0, h1]
    exact ⟨congrArg _ h2, congrArg _ h3⟩

variable [FftParams F]

theorem gpConstruct_reads [DecidableEq F] {ε : Type} (next : Z → F × Z) (c : Nat) (isLast : Bool) (init : F)
    (sigmas ws : List (ProverOracle F)) (deltas : List F) (beta gamma : F) (u : Nat) (d ext : Domain F) :
    Reads next (d.size - 1 - u) (fun z => (gpConstruct next c isLast init sigmas ws deltas beta gamma u d ext z : Res ε _)) := by
  intro z a z' h
  unfold gpConstruct at h
  simp only [Res.bind_eq_ok, Res.assert_eq_ok, decide_eq_true_eq] at h
  obtain ⟨zs, h1, _, h2, _, h3, h⟩ := h
  have h := Res.ok.inj h
  simp only [Prod.mk.injEq] at h
  refine ⟨by rw [← h.2, drawN_eq], fun y hy => ?_⟩
  have e := drawN_congr hy
  unfold gpConstruct
  simp only [Res.bind_eq_ok, Res.assert_eq_ok, decide_eq_true_eq]
  rw [← e] at h3 h
  refine ⟨zs, h1, (), h2, (), h3, ?_⟩
  rw [← h.1]
  exact congrArg (fun w => Res.ok (_, w)) (by rw [drawN_eq])

theorem seConstruct_reads [DecidableEq F] {ε : Type} (next : Z → F × Z) (l : LookupOracles (ProverOracle F)) (beta gamma : F)
    (c u : Nat) (d ext : Domain F) :
    Reads next (d.size - 1 - u) (fun z => (seConstruct next l beta gamma c u d ext z : Res ε _)) := by
  intro z a z' h
  unfold seConstruct at h
  simp only [Res.bind_eq_ok, Res.assert_eq_ok, decide_eq_true_eq] at h
  obtain ⟨zs, h1, zu, h2, _, h3, _, h4, h⟩ := h
  have h := Res.ok.inj h
  simp only [Prod.mk.injEq] at h
  refine ⟨by rw [← h.2, drawN_eq], fun y hy => ?_⟩
  have e := drawN_congr hy
  unfold seConstruct
  simp only [Res.bind_eq_ok, Res.assert_eq_ok, decide_eq_true_eq]
  rw [← e] at h
  refine ⟨zs, h1, zu, h2, (), h3, (), h4, ?_⟩
  rw [← h.1]
  exact congrArg (fun w => Res.ok (_, w)) (by rw [drawN_eq])

theorem lookupConstruct_reads [LinearOrder F] (next : Z → F × Z) (v : ProverView F) (u c : Nat) (exprs : List (Expr F))
    (tables : List OracleQuery) (theta : F) (d ext : Domain F) :
    Reads next (2 * (d.size - u)) (fun z => lookupConstruct next v u c exprs tables theta d ext z) := by
  intro z a z' h
  unfold lookupConstruct at h
  simp only [Res.bind_eq_ok, Res.assert_eq_ok, decide_eq_true_eq] at h
  obtain ⟨_, h1, ar, h2, ac, h3, _, h4, sr, h5, sc, h6, _, h7, _, h8, _, h9, pm, h10, _, h11, _, h12, h⟩ := h
  have h := Res.ok.inj h
  simp only [Prod.mk.injEq] at h
  refine ⟨by rw [← h.2, drawPairs_snd], fun y hy => ?_⟩
  obtain ⟨e, e'⟩ := drawPairs_congr hy
  unfold lookupConstruct
  simp only [Res.bind_eq_ok, Res.assert_eq_ok, decide_eq_true_eq]
  rw [← e] at h11 h
  rw [← e'] at h12 h
  refine ⟨(), h1, ar, h2, ac, h3, (), h4, sr, h5, sc, h6, (), h7, (), h8, (), h9, pm, h10, (), h11, (), h12, ?_⟩
  rw [← h.1]
  exact congrArg (fun w => Res.ok (_, w)) (drawPairs_snd ..)

/-- Appending the result of a computation to what has been computed so far. -/
theorem Reads.append {ε A : Type} {next : Z → F × Z} {t : Nat} {f : Z → Res ε (A × Z)} (h : Reads next t f) (acc : List A) :
    Reads next t (fun z => (do let r ← f z; pure (acc ++ [r.1], r.2) : Res ε (List A × Z))) := by
  intro z a z' h'
  obtain ⟨r, h1, h2⟩ := Res.bind_eq_ok.1 h'
  have h2 := Res.ok.inj h2
  simp only [Prod.mk.injEq] at h2
  obtain ⟨h3, h4⟩ := h z r.1 r.2 h1
  refine ⟨by rw [← h2.2, h3], fun y hy => ?_⟩
  refine Res.bind_eq_ok.2 ⟨_, h4 y hy, ?_⟩
  rw [← h2.1]
  rfl

theorem Reads.bind_const {ε A B : Type} {next : Z → F × Z} {t : Nat} {c : Res ε B} {f : B → Z → Res ε (A × Z)}
    (h : ∀ b, Reads next t (f b)) : Reads next t (fun z => (do let b ← c; f b z : Res ε (A × Z))) := by
  intro z a z' h'
  obtain ⟨b, h1, h2⟩ := Res.bind_eq_ok.1 h'
  obtain ⟨h3, h4⟩ := h b z a z' h2
  exact ⟨h3, fun y hy => Res.bind_eq_ok.2 ⟨b, h1, h4 y hy⟩⟩

theorem lookupRound_reads {S : Scheme F} [LinearOrder F] (v : ProverView F) (index : Index F) (d : Domain F) (theta : F) :
    Reads S.next (index.lookups.length * (2 * (d.size - index.usableRows))) (lookupRound (S := S) v index d theta) := by
  have h := Reads.foldM (next := S.next) (t := 2 * (d.size - index.usableRows))
    (f := fun (acc : List (LookupOracles (ProverOracle F)) × S.Z) (p : GenericLookupVO F × Nat) => (do
      let es ← (p.1.getExpressions).mapErr PiopErr.vo
      let ts ← (p.1.getTableQueries).mapErr PiopErr.vo
      let r ← lookupConstruct S.next v index.usableRows p.2 es ts theta d index.ext acc.2
      pure (acc.1 ++ [r.1], r.2) : Res PiopErr _)) (fun acc b => by
        refine Reads.bind_const (fun es => Reads.bind_const (fun ts => ?_))
        exact (lookupConstruct_reads S.next v index.usableRows b.2 es ts theta d index.ext).append acc) index.lookups.zipIdx []
  rw [List.length_zipIdx] at h
  exact h

theorem subsetEqualityRound_reads {S : Scheme F} [DecidableEq F] {ε : Type} (index : Index F)
    (ls : List (LookupOracles (ProverOracle F))) (d : Domain F) (beta gamma : F) :
    Reads S.next (ls.length * (d.size - 1 - index.usableRows))
      (fun z => (subsetEqualityRound (S := S) index ls d beta gamma z : Res ε _)) := by
  have h := Reads.foldM (next := S.next) (t := d.size - 1 - index.usableRows)
    (f := fun (acc : List (ProverOracle F) × S.Z) (p : LookupOracles (ProverOracle F) × Nat) => (do
      let r ← seConstruct S.next p.1 beta gamma p.2 index.usableRows d index.ext acc.2
      pure (acc.1 ++ [r.1], r.2) : Res ε _)) (fun acc b =>
        (seConstruct_reads S.next b.1 beta gamma b.2 index.usableRows d index.ext).append acc) ls.zipIdx []
  rw [List.length_zipIdx] at h
  exact h

theorem foldM_append_length {ε A B : Type} {f : List A × Z → B → Res ε (List A × Z)}
    (h : ∀ acc b r, f acc b = .ok r → r.1.length = acc.1.length + 1) {l : List B} {acc r : List A × Z}
    (hr : Res.foldM f acc l = .ok r) : r.1.length = acc.1.length + l.length := by
  induction l generalizing acc with
  | nil => obtain rfl := Res.ok.inj hr; rfl
  | cons b l ih =>
    obtain ⟨c, h1, h2⟩ := Res.foldM_eq_ok_cons.1 hr
    rw [ih h2, h _ _ _ h1, List.length_cons]
    ring

/-- The number of grand products for `c` copied columns. -/
def numProducts (index : Index F) (c : Nat) : Nat := (c + index.perm.maxCols - 1) / index.perm.maxCols

theorem permutationRound_reads {S : Scheme F} [DecidableEq F] {ε : Type} (index : Index F)
    (toCopy sigmas : List (ProverOracle F)) (d : Domain F) (beta gamma : F) :
    Reads S.next (numProducts index toCopy.length * (d.size - 1 - index.perm.usableRows))
        (fun z => (permutationRound (S := S) index toCopy sigmas d beta gamma z : Res ε _)) ∧
      ∀ z r, (permutationRound (S := S) index toCopy sigmas d beta gamma z : Res ε _) = .ok r →
        r.1.length = numProducts index toCopy.length := by
  unfold permutationRound
  by_cases h0 : toCopy.length = 0
  · simp only [if_pos h0]
    have e : numProducts index toCopy.length = 0 := by
      unfold numProducts
      rw [h0]
      rcases Nat.eq_zero_or_pos index.perm.maxCols with h | h
      · rw [h]
      · exact Nat.div_eq_of_lt (by omega)
    rw [e, Nat.zero_mul]
    refine ⟨fun z a z' h => ?_, fun z r h => ?_⟩
    · have h := Res.ok.inj h
      simp only [Prod.mk.injEq] at h
      obtain ⟨rfl, rfl⟩ := h
      exact ⟨rfl, fun y _ => rfl⟩
    · obtain rfl := Res.ok.inj h
      rfl
  · simp only [if_neg h0]
    have hstep : ∀ (n : Nat) (acc : List (ProverOracle F))
        (b : ((List (ProverOracle F) × List (ProverOracle F)) × List F) × Nat),
        Reads S.next (d.size - 1 - index.perm.usableRows)
          (fun z => (index.perm.aggStep S.next beta gamma d index.ext n (acc, z) b : Res ε _)) := by
      intro n acc b
      have hr : ∀ init, Reads S.next (d.size - 1 - index.perm.usableRows) (fun z => (do
          let r ← gpConstruct S.next b.2 (decide (b.2 = n - 1)) init b.1.1.2 b.1.1.1 b.1.2 beta gamma index.perm.usableRows d
            index.ext z
          pure (acc ++ [r.1], r.2) : Res ε _)) := fun init => (gpConstruct_reads S.next b.2 _ init b.1.1.2 b.1.1.1 b.1.2 beta gamma
        index.perm.usableRows d index.ext).append acc
      unfold PermutationArgument.aggStep
      by_cases hb : b.2 = 0
      · simp only [if_pos hb]
        exact Reads.bind_const (c := pure 1) hr
      · simp only [if_neg hb]
        exact Reads.bind_const (fun prev => Reads.bind_const hr)
    have hlen : ∀ (n : Nat) acc b r, (index.perm.aggStep S.next beta gamma d index.ext n acc b : Res ε _) = .ok r →
        r.1.length = acc.1.length + 1 := by
      intro n acc b r h
      have h' : ∃ init, (do
          let r ← gpConstruct S.next b.2 (decide (b.2 = n - 1)) init b.1.1.2 b.1.1.1 b.1.2 beta gamma index.perm.usableRows d
            index.ext acc.2
          pure (acc.1 ++ [r.1], r.2) : Res ε _) = .ok r := by
        unfold PermutationArgument.aggStep at h
        by_cases hb : b.2 = 0
        · simp only [if_pos hb] at h
          obtain ⟨i, -, h⟩ := Res.bind_eq_ok.1 h
          exact ⟨i, h⟩
        · simp only [if_neg hb] at h
          obtain ⟨_, -, h⟩ := Res.bind_eq_ok.1 h
          obtain ⟨i, -, h⟩ := Res.bind_eq_ok.1 h
          exact ⟨i, h⟩
      obtain ⟨i, h⟩ := h'
      obtain ⟨r', -, h⟩ := Res.bind_eq_ok.1 h
      obtain rfl := Res.ok.inj h
      simp
    have key : ∀ z r, (index.perm.constructAggPolys S.next toCopy sigmas beta gamma d index.ext z : Res ε _) = .ok r →
        r.1.length = numProducts index toCopy.length ∧ r.2 = after S.next (numProducts index toCopy.length
          * (d.size - 1 - index.perm.usableRows)) z ∧
        ∀ y, (∀ i < numProducts index toCopy.length * (d.size - 1 - index.perm.usableRows), draw S.next y i = draw S.next z i) →
          (index.perm.constructAggPolys S.next toCopy sigmas beta gamma d index.ext y : Res ε _)
            = .ok (r.1, after S.next (numProducts index toCopy.length * (d.size - 1 - index.perm.usableRows)) y) := by
      intro z r h
      unfold PermutationArgument.constructAggPolys at h
      simp only [Res.bind_eq_ok, Res.assert_eq_ok, decide_eq_true_eq] at h
      obtain ⟨_, h1, _, h2, wc, hw, sc, hs, dc, hdc, r', hf, last, hlast, zu, hzu, _, h3, h⟩ := h
      obtain rfl := Res.ok.inj h
      have hk : 0 < index.perm.maxCols := by
        rcases Nat.eq_zero_or_pos index.perm.maxCols with h | h
        · rw [h] at hw; cases hw
        · exact h
      have hw' := hw
      have hs' := hs
      have hdc' := hdc
      unfold chunksR at hw' hs' hdc'
      rw [if_neg hk.ne'] at hw' hs' hdc'
      have e : (List.zip (List.zip wc sc) dc).zipIdx.length = numProducts index toCopy.length := by
        rw [List.length_zipIdx, List.length_zip, List.length_zip, ← Res.ok.inj hw', ← Res.ok.inj hs', ← Res.ok.inj hdc',
          chunks_length hk, chunks_length hk, chunks_length hk, ← h1, ← h2, min_self, min_self]
        rfl
      obtain ⟨h4, h5⟩ := Reads.foldM (hstep wc.length) (List.zip (List.zip wc sc) dc).zipIdx [] z r'.1 r'.2 hf
      rw [e] at h4 h5
      refine ⟨by rw [foldM_append_length (hlen _) hf, e]; simp, h4, fun y hy => ?_⟩
      unfold PermutationArgument.constructAggPolys
      simp only [Res.bind_eq_ok, Res.assert_eq_ok, decide_eq_true_eq]
      exact ⟨(), h1, (), h2, wc, hw, sc, hs, dc, hdc, _, h5 y hy, last, hlast, zu, hzu, (), h3, rfl⟩
    exact ⟨fun z a z' h => ⟨(key z _ h).2.1, (key z _ h).2.2⟩, fun z r h => (key z r h).1⟩

theorem subsetEqualityRound_length {S : Scheme F} [DecidableEq F] {ε : Type} {index : Index F}
    {ls : List (LookupOracles (ProverOracle F))} {d : Domain F} {beta gamma : F} {z : S.Z} {r : List (ProverOracle F) × S.Z}
    (h : (subsetEqualityRound (S := S) index ls d beta gamma z : Res ε _) = .ok r) : r.1.length = ls.length := by
  have := foldM_append_length (fun acc b r' h' => by
    obtain ⟨r'', -, h'⟩ := Res.bind_eq_ok.1 h'
    obtain rfl := Res.ok.inj h'
    simp) h
  simpa using this

theorem lookupRound_length {S : Scheme F} [LinearOrder F] {v : ProverView F} {index : Index F} {d : Domain F} {theta : F} {z : S.Z}
    {r : List (LookupOracles (ProverOracle F)) × S.Z} (h : lookupRound (S := S) v index d theta z = .ok r) :
    r.1.length = index.lookups.length := by
  have := foldM_append_length (fun acc b r' h' => by
    obtain ⟨_, -, h'⟩ := Res.bind_eq_ok.1 h'
    obtain ⟨_, -, h'⟩ := Res.bind_eq_ok.1 h'
    obtain ⟨r'', -, h'⟩ := Res.bind_eq_ok.1 h'
    obtain rfl := Res.ok.inj h'
    simp) h
  simpa using this

end
end ZK
