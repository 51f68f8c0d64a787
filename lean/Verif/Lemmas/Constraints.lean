import Mathlib.Data.List.GetD
import Mathlib.Algebra.BigOperators.Ring.List
import Verif.Model.Lookup
import Verif.Spec.Constraints
import Verif.Lemmas.Chunks
/-! The code's argument evaluations are the weighted sums of the specified constraints. -/
set_option autoImplicit false
namespace ZK
section
variable {R : Type} [CommRing R]

/-- The weighted sum with the weights given by position. -/
def dotF (A : Nat → R) (cs : List R) : R := (cs.zipIdx.map (fun p => A p.2 * p.1)).sum

theorem dotF_nil (A : Nat → R) : dotF A [] = 0 := rfl

theorem dotF_append (A : Nat → R) (c d : List R) :
    dotF A (c ++ d) = dotF A c + dotF (fun i => A (i + c.length)) d := by
  unfold dotF
  rw [List.zipIdx_append, List.map_append, List.sum_append]
  congr 2
  rw [List.zipIdx_eq_map_add, List.map_map]
  apply List.map_congr_left
  intro p _
  simp [Nat.add_comm]

theorem dotF_cons (A : Nat → R) (c : R) (d : List R) :
    dotF A (c :: d) = A 0 * c + dotF (fun i => A (i + 1)) d := by
  have := dotF_append A [c] d
  simpa [dotF] using this

theorem weighted_eq_dotF (alphas cs : List R) (h : alphas.length = cs.length) :
    weighted alphas cs = dotF (fun i => alphas.getD i 0) cs := by
  induction cs generalizing alphas with
  | nil => cases alphas <;> simp_all [weighted, dotF]
  | cons c cs ih =>
    cases alphas with
    | nil => simp at h
    | cons a as =>
      rw [dotF_cons]
      have := ih as (by simpa using h)
      simp only [weighted, List.zipWith_cons_cons, List.sum_cons, List.getD_cons_zero, List.getD_cons_succ]
        at this ⊢
      rw [this]

theorem Res.foldM_add {ε α : Type} {f : R → α → Res ε R} {g : α → R} {l : List α}
    (h : ∀ b, ∀ a ∈ l, f b a = .ok (b + g a)) (b : R) : Res.foldM f b l = .ok (b + (l.map g).sum) := by
  induction l generalizing b with
  | nil => simp
  | cons a l ih =>
    rw [Res.foldM_cons, h b a (by simp), Res.bind_ok, ih (fun b a ha => h b a (by simp [ha]))]
    simp [add_assoc]

theorem Res.foldM_mul {ε α : Type} {f : R × R → α → Res ε (R × R)} {g k : α → R} {l : List α}
    (h : ∀ b, ∀ a ∈ l, f b a = .ok (b.1 * g a, b.2 * k a)) (b : R × R) :
    Res.foldM f b l = .ok (b.1 * (l.map g).prod, b.2 * (l.map k).prod) := by
  induction l generalizing b with
  | nil => simp
  | cons a l ih =>
    rw [Res.foldM_cons, h b a (by simp), Res.bind_ok, ih (fun b a ha => h b a (by simp [ha]))]
    simp [mul_assoc]

end

section
variable {F : Type} [Field F]

theorem permConstraints_length (beta gamma l0 lu qb : F) (z zN zU : Nat → F)
    (cs : List (List (PermCol F))) (h : cs ≠ []) :
    (permConstraints beta gamma l0 lu qb z zN zU cs).length = 2 * cs.length + 1 := by
  have : 0 < cs.length := List.length_pos_iff.2 h
  simp [permConstraints]; omega

theorem zipIdx_zip_chunks {α β γ : Type} {k : Nat} (hk : 0 < k) (a : List α) (b : List β) (c : List γ)
    (hab : a.length = b.length) (hac : a.length = c.length) :
    (List.zip (List.zip (chunks k a) (chunks k b)) (chunks k c)).zipIdx.map
      (fun p => (List.zip (List.zip p.1.1.1 p.1.1.2) p.1.2, p.2))
      = (chunks k (List.zip (List.zip a b) c)).zipIdx := by
  rw [← zip_chunks hk a b c hab hac, List.zipIdx_map]
  rfl

private theorem mem_of_mem_zip_chunk {α : Type} {k : Nat} (hk : 0 < k) {l c : List α} (hc : c ∈ chunks k l)
    {x : α} (hx : x ∈ c) : x ∈ l := by
  rw [← chunks_flatten hk l]
  exact List.mem_flatten.2 ⟨c, hc, hx⟩

private theorem triple_mem {α β γ : Type} {k : Nat} (hk : 0 < k) {a : List α} {b : List β} {c : List γ}
    {p : ((List α × List β) × List γ) × Nat}
    (hp : p ∈ (List.zip (List.zip (chunks k a) (chunks k b)) (chunks k c)).zipIdx) :
    (∀ x ∈ p.1.1.1, x ∈ a) ∧ (∀ x ∈ p.1.1.2, x ∈ b) := by
  have h1 : p.1 ∈ List.zip (List.zip (chunks k a) (chunks k b)) (chunks k c) :=
    List.fst_mem_of_mem_zipIdx hp
  have h2 := (List.of_mem_zip (a := p.1.1) (b := p.1.2) h1).1
  have h3 := List.of_mem_zip (a := p.1.1.1) (b := p.1.1.2) h2
  exact ⟨fun x hx => mem_of_mem_zip_chunk hk h3.1 hx, fun x hx => mem_of_mem_zip_chunk hk h3.2 hx⟩

theorem snd_lt_of_mem_zipIdx {α : Type} {l : List α} {p : α × Nat} (h : p ∈ l.zipIdx) : p.2 < l.length := by
  have := List.mem_zipIdx (x := p.1) (i := p.2) h
  omega

/-- The columns of a permutation argument, as the specification sees them, in chunks. -/
def permCols {O : Type} (k : Nat) (W S : O → F) (ws sigmas : List O) (deltas : List F) (x : F) :
    List (List (PermCol F)) :=
  (chunks k (List.zip (List.zip ws sigmas) deltas)).map
    (List.map (fun t => ⟨W t.1.1, S t.1.2, t.2 * x⟩))

private theorem weighted_perm (A : Nat → F) (beta gamma l0 lu qb : F) (z zN zU : Nat → F)
    (cs : List (List (PermCol F))) (hne : cs ≠ []) :
    dotF A (permConstraints beta gamma l0 lu qb z zN zU cs) =
      A 0 * l0 * (1 - z 0)
      + (cs.zipIdx.map (fun c => A (c.2 + 1) * ((1 - (lu + qb)) * (zN c.2 * (c.1.map (PermCol.den beta gamma)).prod
          - z c.2 * (c.1.map (PermCol.num beta gamma)).prod)))).sum
      + ((List.range (cs.length - 1)).map (fun j => A (j + (1 + cs.length)) * l0 * (z (j + 1) - zU j))).sum
      + A (2 * cs.length) * lu * (z (cs.length - 1) * z (cs.length - 1) - z (cs.length - 1)) := by
  have hpos : 0 < cs.length := List.length_pos_iff.2 hne
  unfold permConstraints
  rw [dotF_append, dotF_append, dotF_append]
  congr 1
  · congr 1
    · congr 1
      · simp [dotF, mul_assoc]
      · unfold dotF
        congr 1
        apply List.ext_getElem
        · simp
        · intro i h1 h2
          simp
    · unfold dotF
      congr 1
      apply List.ext_getElem
      · simp
      · intro i h1 h2
        simp [mul_assoc, Nat.add_comm]
  · have : 1 + cs.length + (cs.length - 1) = 2 * cs.length := by omega
    simp only [dotF, List.length_append, List.length_map, List.length_zipIdx, List.length_range,
      List.length_singleton, List.zipIdx_cons, List.zipIdx_nil, List.map_cons, List.map_nil,
      List.sum_cons, List.sum_nil, add_zero, Nat.zero_add, this, mul_assoc]

private theorem sum_zip_chunks {O : Type} {k : Nat} (hk : 0 < k) (W S : O → F) (ws sigmas : List O)
    (deltas : List F) (x : F) (hs : ws.length = sigmas.length) (hd : ws.length = deltas.length)
    (A : Nat → F) (c : F) (zN z : Nat → F) (beta gamma : F) :
    ((List.zip (List.zip (chunks k ws) (chunks k sigmas)) (chunks k deltas)).zipIdx.map (fun p =>
        A (p.2 + 1) * (c * (zN p.2 * ((List.zip (List.zip p.1.1.1 p.1.1.2) p.1.2).map
          (fun t => W t.1.1 + beta * S t.1.2 + gamma)).prod
        - z p.2 * ((List.zip (List.zip p.1.1.1 p.1.1.2) p.1.2).map
          (fun t => W t.1.1 + beta * (t.2 * x) + gamma)).prod)))).sum
    = ((permCols k W S ws sigmas deltas x).zipIdx.map (fun p => A (p.2 + 1) * (c *
        (zN p.2 * (p.1.map (PermCol.den beta gamma)).prod - z p.2 * (p.1.map (PermCol.num beta gamma)).prod)))).sum := by
  unfold permCols
  rw [List.zipIdx_map, ← zipIdx_zip_chunks hk ws sigmas deltas hs hd, List.map_map, List.map_map]
  congr 1
  apply List.map_congr_left
  intro p _
  simp only [Function.comp_apply, Prod.map_apply, id_eq, List.map_map]
  rfl

theorem permCols_length {O : Type} {k : Nat} (hk : 0 < k) (W S : O → F) (ws sigmas : List O)
    (deltas : List F) (x : F) (hs : ws.length = sigmas.length) (hd : ws.length = deltas.length) :
    (permCols k W S ws sigmas deltas x).length = (chunks k ws).length := by
  unfold permCols
  rw [List.length_map]
  exact chunks_length_congr hk (by simp [← hs, ← hd])

/-- The verifier's evaluation of the permutation argument. -/
theorem PermutationArgument.open_eq {C : Type} [DecidableEq F] (p : PermutationArgument F)
    (l0 lu : F) (qBlind : VerifierOracle F C) (agg sigmas ws : List (VerifierOracle F C))
    (beta gamma : F) (d : Domain F) (xi : F) (alphas : List F)
    (hk : 0 < p.maxCols) (hne : ws ≠ []) (hs : ws.length = sigmas.length)
    (hd : ws.length = p.deltas.length) (hagg : agg.length = (chunks p.maxCols ws).length)
    (hal : alphas.length = 2 * agg.length + 1)
    (W S : VerifierOracle F C → F) (z zN zU : Nat → F) (qb : F)
    (hW : ∀ o ∈ ws, o.query xi = .ok (W o)) (hS : ∀ o ∈ sigmas, o.query xi = .ok (S o))
    (hz : ∀ (j : Nat) (o : VerifierOracle F C), agg[j]? = some o → o.query xi = .ok (z j))
    (hzN : ∀ (j : Nat) (o : VerifierOracle F C), agg[j]? = some o → o.query (d.element 1 * xi) = .ok (zN j))
    (hzU : ∀ (j : Nat) (o : VerifierOracle F C), j + 1 < agg.length → agg[j]? = some o →
      o.query (d.element p.usableRows * xi) = .ok (zU j))
    (hqb : qBlind.query xi = .ok qb) :
    p.open_ l0 lu qBlind agg sigmas ws beta gamma d xi alphas
      = .ok (weighted alphas (permConstraints beta gamma l0 lu qb z zN zU
          (permCols p.maxCols W S ws sigmas p.deltas xi))) := by
  have hcol := permCols_length hk W S ws sigmas p.deltas xi hs hd
  have hcne : permCols p.maxCols W S ws sigmas p.deltas xi ≠ [] := by
    intro h
    rw [h] at hcol
    exact hne ((chunks_eq_nil hk).1 (List.length_eq_zero_iff.1 hcol.symm))
  have hpos : 0 < agg.length := by rw [hagg, ← hcol]; exact List.length_pos_iff.2 hcne
  rw [weighted_eq_dotF _ _ (by rw [permConstraints_length _ _ _ _ _ _ _ _ _ hcne, hcol, hal, hagg]),
    weighted_perm _ _ _ _ _ _ _ _ _ _ hcne]
  unfold PermutationArgument.open_
  simp only [hs.symm, hd.symm, decide_true, Res.assert_true, Res.bind_ok, chunksR_of_pos hk]
  rw [chunks_length_congr hk hs.symm, chunks_length_congr hk hd.symm]
  simp only [hagg.symm, decide_true, Res.assert_true, Res.bind_ok, hal, Nat.add_sub_cancel]
  rw [Res.idx_of_lt (i := 0) (by omega), Res.bind_ok, Res.idx_of_lt (l := agg) (i := 0) hpos, Res.bind_ok,
    hz 0 _ (List.getElem?_eq_getElem hpos), Res.bind_ok]
  have hA : ∀ j (h : j < alphas.length), alphas[j] = alphas.getD j 0 := by
    intro j h; rw [List.getD_eq_getElem _ _ h]
  rw [Res.foldM_add (g := fun c => alphas.getD (c.2 + 1) 0 * ((1 - (lu + qb)) *
      (zN c.2 * ((List.zip (List.zip c.1.1.1 c.1.1.2) c.1.2).map
        (fun t => W t.1.1 + beta * S t.1.2 + gamma)).prod
      - z c.2 * ((List.zip (List.zip c.1.1.1 c.1.1.2) c.1.2).map
        (fun t => W t.1.1 + beta * (t.2 * xi) + gamma)).prod)))]
  rotate_left
  · intro b c hc
    have hlt : c.2 < agg.length := by
      have := snd_lt_of_mem_zipIdx hc
      simp only [List.length_zip] at this
      rw [hagg]; omega
    rw [Res.idx_of_lt (i := c.2 + 1) (by omega), Res.bind_ok, Res.idx_of_lt (l := agg) hlt, Res.bind_ok, hA]
    obtain ⟨m1, m2⟩ := triple_mem hk hc
    unfold gpOpen
    simp only [hqb, hzN c.2 _ (List.getElem?_eq_getElem hlt), hz c.2 _ (List.getElem?_eq_getElem hlt),
      Res.bind_ok]
    rw [Res.foldM_mul (g := fun t : (VerifierOracle F C × VerifierOracle F C) × F =>
        W t.1.1 + beta * S t.1.2 + gamma) (k := fun t => W t.1.1 + beta * (t.2 * xi) + gamma)]
    · rfl
    · intro b' t ht
      have h1 := (List.of_mem_zip (a := t.1) (b := t.2) ht).1
      have h2 := List.of_mem_zip (a := t.1.1) (b := t.1.2) h1
      rw [hW _ (m1 _ h2.1), hS _ (m2 _ h2.2)]
      simp [mul_assoc]
  rw [Res.bind_ok, Res.foldM_add (g := fun j => alphas.getD (j + (1 + agg.length)) 0 * l0 * (z (j + 1) - zU j))]
  rotate_left
  · intro b j hj
    have hj := List.mem_range.1 hj
    rw [Res.idx_of_lt (by omega), Res.bind_ok, Res.idx_of_lt (l := agg) (i := j + 1) (by omega), Res.bind_ok,
      hz (j + 1) _ (List.getElem?_eq_getElem (by omega)), Res.bind_ok, Res.idx_of_lt (l := agg) (i := j) (by omega),
      Res.bind_ok, hzU j _ (by omega) (List.getElem?_eq_getElem (by omega)), Res.bind_ok, hA]
    rfl
  have hl : agg.getLast? = some (agg[agg.length - 1]'(by omega)) := by
    rw [List.getLast?_eq_getElem?, List.getElem?_eq_getElem]
  have hl' : alphas.getLast? = some (alphas[2 * agg.length]'(by omega)) := by
    rw [List.getLast?_eq_getElem?, show alphas.length - 1 = 2 * agg.length by omega,
      List.getElem?_eq_getElem]
  rw [Res.bind_ok, hl, Res.unwrap_some, Res.bind_ok, hz (agg.length - 1) _ (List.getElem?_eq_getElem (by omega)),
    Res.bind_ok, hl', Res.unwrap_some, Res.bind_ok, hA, hA, sum_zip_chunks hk W S ws sigmas p.deltas xi hs hd
      (fun i => alphas.getD i 0) (1 - (lu + qb)) zN z beta gamma]
  rw [← hcol] at hagg
  rw [hagg]
  rfl

/-- The prover's evaluation of the permutation argument at a coset point. -/
theorem PermutationArgument.instantiate_eq [FftParams F] (p : PermutationArgument F)
    (l0 qLast : List F) (qBlind : ProverOracle F) (ws sigmas agg : List (ProverOracle F))
    (i : Nat) (omega beta gamma : F) (alphas : List F)
    (hk : 0 < p.maxCols) (hne : ws ≠ []) (hs : ws.length = sigmas.length)
    (hd : ws.length = p.deltas.length) (hagg : agg.length = (chunks p.maxCols ws).length)
    (hal : alphas.length = 2 * agg.length + 1)
    (W S : ProverOracle F → F) (z zN zU : Nat → F) (qb l0i lui : F)
    (hl0 : l0[i]? = some l0i) (hlu : qLast[i]? = some lui)
    (hW : ∀ o ∈ ws, o.queryInCoset i .curr = .ok (W o))
    (hS : ∀ o ∈ sigmas, o.queryInCoset i .curr = .ok (S o))
    (hz : ∀ (j : Nat) (o : ProverOracle F), agg[j]? = some o → o.queryInCoset i .curr = .ok (z j))
    (hzN : ∀ (j : Nat) (o : ProverOracle F), agg[j]? = some o → o.queryInCoset i .next = .ok (zN j))
    (hzU : ∀ (j : Nat) (o : ProverOracle F), j + 1 < agg.length → agg[j]? = some o →
      o.queryInCoset i ⟨p.usableRows, .plus⟩ = .ok (zU j))
    (hqb : qBlind.queryInCoset i .curr = .ok qb) :
    p.instantiate l0 qLast qBlind ws sigmas agg i omega beta gamma alphas
      = .ok (weighted alphas (permConstraints beta gamma l0i lui qb z zN zU
          (permCols p.maxCols W S ws sigmas p.deltas (FftParams.gen * omega)))) := by
  have hcol := permCols_length hk W S ws sigmas p.deltas (FftParams.gen * omega) hs hd
  have hcne : permCols p.maxCols W S ws sigmas p.deltas (FftParams.gen * omega) ≠ [] := by
    intro h
    rw [h] at hcol
    exact hne ((chunks_eq_nil hk).1 (List.length_eq_zero_iff.1 hcol.symm))
  have hpos : 0 < agg.length := by rw [hagg, ← hcol]; exact List.length_pos_iff.2 hcne
  rw [weighted_eq_dotF _ _ (by rw [permConstraints_length _ _ _ _ _ _ _ _ _ hcne, hcol, hal, hagg]),
    weighted_perm _ _ _ _ _ _ _ _ _ _ hcne]
  unfold PermutationArgument.instantiate
  simp only [hs.symm, hd.symm, decide_true, Res.assert_true, Res.bind_ok, chunksR_of_pos hk]
  rw [chunks_length_congr hk hs.symm, chunks_length_congr hk hd.symm]
  simp only [hagg.symm, decide_true, Res.assert_true, Res.bind_ok, hal, Nat.add_sub_cancel]
  rw [Res.idx_of_lt (i := 0) (by omega), Res.bind_ok, Res.idx_of_some hl0, Res.bind_ok,
    Res.idx_of_lt (l := agg) (i := 0) hpos, Res.bind_ok,
    hz 0 _ (List.getElem?_eq_getElem hpos), Res.bind_ok]
  have hA : ∀ j (h : j < alphas.length), alphas[j] = alphas.getD j 0 := by
    intro j h; rw [List.getD_eq_getElem _ _ h]
  rw [Res.foldM_add (g := fun c => alphas.getD (c.2 + 1) 0 * ((1 - (lui + qb)) *
      (zN c.2 * ((List.zip (List.zip c.1.1.1 c.1.1.2) c.1.2).map
        (fun t => W t.1.1 + beta * S t.1.2 + gamma)).prod
      - z c.2 * ((List.zip (List.zip c.1.1.1 c.1.1.2) c.1.2).map
        (fun t => W t.1.1 + beta * (t.2 * (FftParams.gen * omega)) + gamma)).prod)))]
  rotate_left
  · intro b c hc
    have hlt : c.2 < agg.length := by
      have := snd_lt_of_mem_zipIdx hc
      simp only [List.length_zip] at this
      rw [hagg]; omega
    rw [Res.idx_of_lt (i := c.2 + 1) (by omega), Res.bind_ok, Res.idx_of_lt (l := agg) hlt, Res.bind_ok, hA]
    obtain ⟨m1, m2⟩ := triple_mem hk hc
    unfold gpInstantiate
    simp only [hqb, hzN c.2 _ (List.getElem?_eq_getElem hlt), hz c.2 _ (List.getElem?_eq_getElem hlt),
      Res.bind_ok, Res.idx_of_some hlu]
    rw [Res.foldM_mul (g := fun t : (ProverOracle F × ProverOracle F) × F =>
        W t.1.1 + beta * S t.1.2 + gamma) (k := fun t => W t.1.1 + beta * (t.2 * (FftParams.gen * omega)) + gamma)]
    · rfl
    · intro b' t ht
      have h1 := (List.of_mem_zip (a := t.1) (b := t.2) ht).1
      have h2 := List.of_mem_zip (a := t.1.1) (b := t.1.2) h1
      rw [hW _ (m1 _ h2.1), hS _ (m2 _ h2.2)]
      simp [mul_assoc]
  rw [Res.bind_ok, Res.foldM_add (g := fun j => alphas.getD (j + (1 + agg.length)) 0 * l0i * (z (j + 1) - zU j))]
  rotate_left
  · intro b j hj
    have hj := List.mem_range.1 hj
    rw [Res.idx_of_lt (by omega), Res.bind_ok, Res.bind_ok,
      Res.idx_of_lt (l := agg) (i := j + 1) (by omega), Res.bind_ok,
      hz (j + 1) _ (List.getElem?_eq_getElem (by omega)), Res.bind_ok, Res.idx_of_lt (l := agg) (i := j) (by omega),
      Res.bind_ok, hzU j _ (by omega) (List.getElem?_eq_getElem (by omega)), Res.bind_ok, hA]
    rfl
  have hl : agg.getLast? = some (agg[agg.length - 1]'(by omega)) := by
    rw [List.getLast?_eq_getElem?, List.getElem?_eq_getElem]
  have hl' : alphas.getLast? = some (alphas[2 * agg.length]'(by omega)) := by
    rw [List.getLast?_eq_getElem?, show alphas.length - 1 = 2 * agg.length by omega,
      List.getElem?_eq_getElem]
  rw [Res.bind_ok, hl, Res.unwrap_some, Res.bind_ok, hz (agg.length - 1) _ (List.getElem?_eq_getElem (by omega)),
    Res.bind_ok, hl', Res.unwrap_some, Res.bind_ok, Res.idx_of_some hlu, Res.bind_ok, hA, hA,
    sum_zip_chunks hk W S ws sigmas p.deltas (FftParams.gen * omega) hs hd
      (fun i => alphas.getD i 0) (1 - (lui + qb)) zN z beta gamma]
  rw [← hcol] at hagg
  rw [hagg]
  rfl

/-! ### Lookups -/

/-- The verifier's evaluation of one lookup. -/
theorem lookupOpen_eq {C : Type} [DecidableEq F] (l0 lu : F) (qBlind : VerifierOracle F C)
    (l : LookupOracles (VerifierOracle F C)) (zo : VerifierOracle F C) (beta gamma xi : F)
    (d : Domain F) (alphas : List F) (hal : alphas.length = 5) (hω : d.element 1 ≠ 0)
    (v : LookupVals F) (qb : F)
    (ha : l.a.query xi = .ok v.a) (hs : l.s.query xi = .ok v.s)
    (ha' : l.aPrime.query xi = .ok v.aPrime)
    (hap : l.aPrime.query ((d.element 1)⁻¹ * xi) = .ok v.aPrimePrev)
    (hs' : l.sPrime.query xi = .ok v.sPrime) (hz : zo.query xi = .ok v.z)
    (hzN : zo.query (d.element 1 * xi) = .ok v.zNext) (hqb : qBlind.query xi = .ok qb) :
    lookupOpen l0 lu qBlind l zo beta gamma xi d alphas
      = .ok (weighted alphas (lookupConstraints beta gamma l0 lu qb v)) := by
  match alphas, hal with
  | [a0, a1, a2, a3, a4], _ =>
    simp [lookupOpen, seOpen, hω, ha, hs, ha', hap, hs', hz, hzN, hqb, Res.idx, weighted,
      lookupConstraints, List.zipWith]
    ring

/-- The prover's evaluation of one lookup at a coset point. -/
theorem lookupInstantiate_eq (l0 qLast : List F) (qBlind : ProverOracle F)
    (l : LookupOracles (ProverOracle F)) (zo : ProverOracle F) (beta gamma : F) (i : Nat)
    (alphas : List F) (hal : alphas.length = 5) (v : LookupVals F) (qb l0i lui : F)
    (hl0 : l0[i]? = some l0i) (hlu : qLast[i]? = some lui)
    (ha : l.a.queryInCoset i .curr = .ok v.a) (hs : l.s.queryInCoset i .curr = .ok v.s)
    (ha' : l.aPrime.queryInCoset i .curr = .ok v.aPrime)
    (hap : l.aPrime.queryInCoset i .prev = .ok v.aPrimePrev)
    (hs' : l.sPrime.queryInCoset i .curr = .ok v.sPrime) (hz : zo.queryInCoset i .curr = .ok v.z)
    (hzN : zo.queryInCoset i .next = .ok v.zNext) (hqb : qBlind.queryInCoset i .curr = .ok qb) :
    lookupInstantiate l0 qLast qBlind l zo beta gamma i alphas
      = .ok (weighted alphas (lookupConstraints beta gamma l0i lui qb v)) := by
  match alphas, hal with
  | [a0, a1, a2, a3, a4], _ =>
    simp [lookupInstantiate, seInstantiate, ha, hs, ha', hap, hs', hz, hzN, hqb, Res.idx, weighted,
      lookupConstraints, List.zipWith, hl0, hlu]
    ring

end
end ZK
