import Verif.Lemmas.Numerator
import Verif.Properties.Indexer
import Verif.Properties.Lookup
/-! C17, C31: the quotient the prover commits to, and the identity the verifier checks. -/
set_option autoImplicit false
set_option linter.unusedSectionVars false
namespace ZK
open Polynomial

section
variable {F : Type} [Field F] [DecidableEq F] [FftParams F] [LawfulFft F]

theorem recombine_cons (n : Nat) (q : F[X]) (qs : List F[X]) :
    recombine n (q :: qs) = q + X ^ n * recombine n qs := by
  unfold recombine
  rw [List.zipIdx_cons, List.map_cons, List.sum_cons, List.zipIdx_eq_map_add, List.map_map, ← List.sum_map_mul_left]
  congr 1
  · simp
  · congr 1
    apply List.map_congr_left
    intro p _
    simp only [Function.comp_apply, ← mul_assoc, ← pow_add]
    congr 2
    ring

/-- Cutting a list of coefficients into chunks and putting the polynomials together again. -/
theorem recombine_chunks {n : Nat} (hn : 0 < n) (l : List F) :
    recombine n ((chunks n l).map toPoly) = toPoly l := by
  induction l using chunks_induction hn with
  | h0 => simp [recombine]
  | hs l hl ih =>
    rw [chunks_cons hn hl, List.map_cons, recombine_cons, ih]
    rcases Nat.lt_or_ge l.length n with h | h
    · rw [List.drop_eq_nil_of_le h.le, List.take_of_length_le h.le]
      simp
    · conv_rhs => rw [← List.take_append_drop n l, toPoly_append]
      rw [List.length_take, min_eq_left h]

omit [FftParams F] [LawfulFft F] [DecidableEq F] in
theorem eval_recombine (n : Nat) (qs : List (ProverOracle F)) (x : F) :
    (recombine n (qs.map (fun o => toPoly o.poly))).eval x
      = (qs.zipIdx.map (fun q => x ^ (n * q.2) * q.1.query x)).sum := by
  unfold recombine
  have := map_list_sum (evalRingHom x) ((qs.map (fun o => toPoly o.poly)).zipIdx.map
        (fun q => X ^ (n * q.2) * q.1))
  rw [coe_evalRingHom] at this
  rw [this, List.zipIdx_map, List.map_map, List.map_map]
  congr 1
  apply List.map_congr_left
  intro q _
  simp [ProverOracle.query, eval_toPoly]

/-- The chunks of the quotient. -/
theorem quotientChunks_spec {d : Domain F} (hd : d.Ok) (extSize : Nat) (quotient : List F)
    (hlen : quotient.length ≤ extSize) :
    recombine d.size ((quotientChunks d extSize quotient).map (fun o => toPoly o.poly)) = toPoly quotient ∧
    (quotientChunks d extSize quotient).length = (extSize + d.size - 1) / d.size ∧
    ∀ (i : Nat) (o : ProverOracle F), (quotientChunks d extSize quotient)[i]? = some o →
      o.label = bytes "quotient_chunk_" ++ natBytes i ∧ o.poly.length ≤ d.size ∧
      o.rotations = setExtend [] [Rotation.curr] ∧ o.evals = d.fft o.poly ∧ o.kind = .witness ∧
      o.shouldPermute = false := by
  have hn := hd.size_pos
  unfold quotientChunks
  refine ⟨?_, ?_, ?_⟩
  · rw [List.map_map]
    have : (chunks d.size (quotient ++ List.replicate (extSize - quotient.length) 0)).zipIdx.map
        ((fun o : ProverOracle F => toPoly o.poly) ∘ fun p => ⟨.witness, bytes "quotient_chunk_" ++ natBytes p.2,
          trim p.1, d.fft (trim p.1), none, setExtend [] [Rotation.curr], false⟩)
        = (chunks d.size (quotient ++ List.replicate (extSize - quotient.length) 0)).map toPoly := by
      apply List.ext_getElem
      · simp
      · intro i h1 h2
        simp
    rw [this, recombine_chunks hn, toPoly_append]
    simp
  · rw [List.length_map, List.length_zipIdx, chunks_length hn]
    simp only [List.length_append, List.length_replicate]
    congr 2
    omega
  · intro i o ho
    rw [List.getElem?_map, Option.map_eq_some_iff] at ho
    obtain ⟨⟨l, j⟩, h1, rfl⟩ := ho
    rw [List.getElem?_zipIdx, Option.map_eq_some_iff] at h1
    obtain ⟨l', h2, h3⟩ := h1
    obtain ⟨rfl, rfl⟩ := Prod.mk.inj h3
    refine ⟨by simp, ?_, rfl, rfl, rfl, rfl⟩
    exact (trim_length_le _).trans (chunks_length_le hn _ _ (List.mem_of_getElem? h2))

/-- C17. Let the prover's oracles be honest and stand for the polynomials `c`, and let the stored values be
the inverses of the vanishing polynomial `Z` on the coset. If the aggregated constraint is a multiple `Q * Z`
and `Q` has fewer coefficients than the extended domain has points, the quotient round succeeds, its chunks
have at most `n` coefficients each, and for every `x`
`(sum_i x^(n i) * chunk_i(x)) * Z(x)` is the aggregated constraint at `x`. -/
theorem C17_quotient_chunks {d : Domain F} {v : ProverView F} {vos : List (GenericVO F)} {index : Index F}
    (hd : d.Ok) (he : index.ext.Ok) (hle : d.size ≤ index.ext.size) (h1 : 1 < d.size)
    {sigmas : List (ProverOracle F)} {qBlind : ProverOracle F} {r : ProverRounds F} {c : CircuitPolys F}
    (hP : ProverPolys d index.ext v vos sigmas qBlind r c) (hF : c.Fits d index.perm)
    (hL : index.lookups.length = c.lookups.length) {Z : F[X]} {zhInverses : List F}
    (hlen : zhInverses.length = index.ext.size)
    (hinv : ∀ i < index.ext.size, ∃ y, zhInverses[i]? = some y ∧
      y * Z.eval ((FftParams.gen : F) * index.ext.element i) = 1)
    (alpha beta gamma : F) {Q : F[X]} (hQ : c.numerator d index.perm alpha beta gamma = Q * Z)
    (hdeg : Q.degree < index.ext.size) :
    ∃ qs, quotientRound v vos index zhInverses sigmas qBlind r d alpha beta gamma = .ok qs ∧
      (∀ x, ((qs.zipIdx.map (fun q => x ^ (d.size * q.2) * q.1.query x)).sum) * Z.eval x
        = (c.numerator d index.perm alpha beta gamma).eval x) ∧
      recombine d.size (qs.map (fun o => toPoly o.poly)) = Q ∧
      qs.length = (index.ext.size + d.size - 1) / d.size ∧
      ∀ (i : Nat) (o : ProverOracle F), qs[i]? = some o →
        o.label = bytes "quotient_chunk_" ++ natBytes i ∧ o.poly.length ≤ d.size ∧
        o.rotations = setExtend [] [Rotation.curr] ∧ o.evals = d.fft o.poly ∧ o.kind = .witness ∧
        o.shouldPermute = false := by
  obtain ⟨l0, hl0, hl0l, hl0p⟩ := lagrangeRow_eq (ε := PiopErr) hd hd.size_pos
  obtain ⟨lu, hlu, hlul, hlup⟩ := lagrangeRow_eq (ε := PiopErr) hd hF.usable
  have hg : 0 < vos.length := by rw [hP.gates.length_eq]; exact List.length_pos_iff.2 hF.gates
  have hnum := Res.mapM_ok_map (l := List.range index.ext.size) (fun i hi =>
    numeratorAt_eq hd he hle hP hF hl0l hl0p hlul hlup alpha beta gamma h1 (List.mem_range.1 hi))
  obtain ⟨V, hV⟩ : ∃ V, V = (List.range index.ext.size).map (fun i => (c.numerator d index.perm alpha beta gamma).eval
          ((FftParams.gen : F) * index.ext.element i)) := ⟨_, rfl⟩
  obtain ⟨q, hqd⟩ : ∃ q, q = trim (index.ext.cosetIfft (List.zipWith (· * ·) V zhInverses)) := ⟨_, rfl⟩
  have hround : quotientRound v vos index zhInverses sigmas qBlind r d alpha beta gamma
      = .ok (quotientChunks d index.ext.size q) := by
    unfold quotientRound
    rw [mkAlphas_eq _ _ hg, Res.bind_ok, hl0, Res.bind_ok, hlu, Res.bind_ok, hL]
    unfold alphasOf at hnum
    simp only
    rw [hnum, Res.bind_ok, hqd, hV]
    rfl
  have hq : toPoly q = Q := by
    rw [hqd, toPoly_trim]
    apply he.toPoly_cosetIfft (by simp [hlen, hV]) hdeg
    intro i hi
    obtain ⟨y, hy1, hy2⟩ := hinv i hi
    rw [List.getElem?_eq_getElem (by omega)] at hy1
    have hVi : V[i]'(by rw [hV]; simpa using hi) = (c.numerator d index.perm alpha beta gamma).eval
          ((FftParams.gen : F) * index.ext.element i) := by
      simp only [hV, List.getElem_map, List.getElem_range]
    rw [List.getElem_zipWith, hVi, Option.some.inj hy1, hQ, eval_mul, mul_assoc, mul_comm _ y, hy2, mul_one]
  have hql : q.length ≤ index.ext.size := by
    rw [hqd]
    refine (trim_length_le _).trans ?_
    simp
  obtain ⟨hs1, hs2, hs3⟩ := quotientChunks_spec hd index.ext.size q hql
  rw [hq] at hs1
  refine ⟨_, hround, ?_, hs1, hs2, hs3⟩
  intro x
  rw [hQ, eval_mul, ← eval_recombine, hs1]

/-! ### The degree of the aggregated constraint -/

theorem natDegree_prod_cols (l : List F[X]) {m : Nat} (h : ∀ p ∈ l, p.natDegree ≤ m) :
    l.prod.natDegree ≤ l.length * m := by
  induction l with
  | nil => simp
  | cons p l ih =>
    rw [List.prod_cons, List.length_cons, Nat.succ_mul, Nat.add_comm]
    exact natDegree_mul_le.trans (Nat.add_le_add (h p (by simp)) (ih fun q hq => h q (by simp [hq])))

/-- The polynomials of the circuit other than the gates have degree below `n`. -/
structure CircuitPolys.Bounded (c : CircuitPolys F) (n : Nat) : Prop where
  ws : ∀ p ∈ c.ws, p.natDegree ≤ n - 1
  sigmas : ∀ p ∈ c.sigmas, p.natDegree ≤ n - 1
  zs : ∀ p ∈ c.zs, p.natDegree ≤ n - 1
  lookups : ∀ l ∈ c.lookups, l.1.a.natDegree ≤ n - 1 ∧ l.1.s.natDegree ≤ n - 1 ∧ l.1.aPrime.natDegree ≤ n - 1 ∧
    l.1.sPrime.natDegree ≤ n - 1 ∧ l.2.natDegree ≤ n - 1
  qBlind : c.qBlind.natDegree ≤ n - 1

theorem natDegree_rowPoly {d : Domain F} (hd : d.Ok) {i : Nat} (hi : i < d.size) :
    (rowPoly d i).natDegree ≤ d.size - 1 := by
  obtain ⟨l, -, h1, h2⟩ := lagrangeRow_eq (ε := Unit) hd hi
  rw [← h2]
  have := degree_toPoly_lt l
  by_cases h0 : toPoly l = 0
  · simp [h0]
  · rw [degree_eq_natDegree h0] at this
    have : (toPoly l).natDegree < l.length := by exact_mod_cast this
    omega


theorem natDegree_aggregate {alpha : F} {gates perm : List F[X]} {m : Nat} {ls : List (List F[X])} {B : Nat}
    (h1 : ∀ p ∈ gates, p.natDegree ≤ B) (h2 : ∀ p ∈ perm, p.natDegree ≤ B)
    (h3 : ∀ l ∈ ls, ∀ p ∈ l, p.natDegree ≤ B) : (aggregate (C alpha) gates perm m ls).natDegree ≤ B := by
  have hs : ∀ (e : Nat → Nat) (l : List F[X]), (∀ p ∈ l, p.natDegree ≤ B) →
      ((l.zipIdx.map (fun c => (C alpha) ^ e c.2 * c.1)).sum).natDegree ≤ B := by
    intro e l hl
    apply natDegree_list_sum_le
    intro p hp
    obtain ⟨c, hc, rfl⟩ := List.mem_map.1 hp
    refine natDegree_mul_le.trans ?_
    rw [← C_pow, natDegree_C, zero_add]
    exact hl _ (List.fst_mem_of_mem_zipIdx hc)
  unfold aggregate
  refine (natDegree_add_le _ _).trans (max_le ((natDegree_add_le _ _).trans (max_le ?_ ?_)) ?_)
  · exact hs (fun i => i) gates h1
  · exact hs (fun i => gates.length + i) perm h2
  · apply natDegree_list_sum_le
    intro p hp
    obtain ⟨c, hc, rfl⟩ := List.mem_map.1 hp
    exact hs (fun i => gates.length + 2 * m + 5 * c.2 + i) c.1 (h3 _ (List.fst_mem_of_mem_zipIdx hc))

theorem natDegree_one_sub {p q : F[X]} {m : Nat} (hp : p.natDegree ≤ m) (hq : q.natDegree ≤ m) :
    (1 - (p + q)).natDegree ≤ m := by
  refine (natDegree_sub_le _ _).trans (max_le (by simp) ?_)
  exact (natDegree_add_le _ _).trans (max_le hp hq)

theorem natDegree_mul_le' {p q : F[X]} {a b m : Nat} (hp : p.natDegree ≤ a) (hq : q.natDegree ≤ b) (h : a + b ≤ m) :
    (p * q).natDegree ≤ m := (natDegree_mul_le.trans (Nat.add_le_add hp hq)).trans h

theorem natDegree_sub_le' {p q : F[X]} {m : Nat} (hp : p.natDegree ≤ m) (hq : q.natDegree ≤ m) :
    (p - q).natDegree ≤ m := (natDegree_sub_le _ _).trans (max_le hp hq)

theorem natDegree_add_le'' {p q : F[X]} {m : Nat} (hp : p.natDegree ≤ m) (hq : q.natDegree ≤ m) :
    (p + q).natDegree ≤ m := (natDegree_add_le _ _).trans (max_le hp hq)

/-- The degree of the constraints of the permutation argument: at most `(maxCols + 2)(N - 1)`. -/
theorem natDegree_permutation {d : Domain F} (hd : d.Ok) {p : PermutationArgument F}
    {c : CircuitPolys F} (hF : c.Fits d p) {N : Nat} (hN : d.size ≤ N) (hb : c.Bounded N) {B : Nat}
    (hw : c.ws ≠ [] → (p.maxCols + 2) * (N - 1) ≤ B) (hn : 2 ≤ d.size)
    (beta gamma : F) : ∀ q ∈ c.permutation d p beta gamma, q.natDegree ≤ B := by
  have hL0 := (natDegree_rowPoly hd hd.size_pos).trans (Nat.sub_le_sub_right hN 1)
  have hLU := (natDegree_rowPoly hd hF.usable).trans (Nat.sub_le_sub_right hN 1)
  obtain ⟨n, hnd⟩ : ∃ n, N - 1 = n := ⟨_, rfl⟩
  have hz : ∀ j, (c.zs.getD j 0).natDegree ≤ n := by
    intro j
    rw [List.getD_eq_getElem?_getD]
    cases h : c.zs[j]? with
    | none => simp
    | some q => rw [← hnd]; exact hb.zs _ (List.mem_of_getElem? h)
  rw [hnd] at hL0 hLU hw
  have hqb := hb.qBlind
  rw [hnd] at hqb
  have hsel := natDegree_one_sub hLU hqb
  have h1 : (1 : F[X]).natDegree ≤ n := by simp
  intro q hq
  unfold CircuitPolys.permutation at hq
  split at hq
  · simp at hq
  rename_i hne
  have hB := hw hne
  have hcol : ∀ cs ∈ c.columns p, cs.length ≤ p.maxCols ∧ ∀ t ∈ cs, t.w.natDegree ≤ n ∧ t.sigma.natDegree ≤ n ∧
      t.ident.natDegree ≤ n := by
    obtain ⟨hk, e1, e2, e3⟩ := hF.cols hne
    intro cs hcs
    unfold CircuitPolys.columns at hcs
    obtain ⟨l, hl, rfl⟩ := List.mem_map.1 hcs
    refine ⟨by rw [List.length_map]; exact chunks_length_le hk _ _ hl, ?_⟩
    intro t ht
    obtain ⟨x, hx, rfl⟩ := List.mem_map.1 ht
    have hx' : x ∈ List.zip (List.zip c.ws c.sigmas) p.deltas := by
      rw [← chunks_flatten hk (List.zip (List.zip c.ws c.sigmas) p.deltas)]
      exact List.mem_flatten.2 ⟨l, hl, hx⟩
    have h2 := (List.of_mem_zip (a := x.1) (b := x.2) hx').1
    have h3 := List.of_mem_zip (a := x.1.1) (b := x.1.2) h2
    rw [← hnd]
    refine ⟨hb.ws _ h3.1, hb.sigmas _ h3.2, ?_⟩
    exact natDegree_mul_le' (natDegree_C _).le natDegree_X_le (by omega)
  have hBn : n + n ≤ B := le_trans (by nlinarith) hB
  have hBk : 2 * n + p.maxCols * n ≤ B := le_trans (by nlinarith) hB
  have hsq : ∀ j, (c.zs.getD j 0).natDegree ≤ n := hz
  unfold permConstraints at hq
  simp only [List.mem_append, List.mem_singleton, List.mem_map] at hq
  rcases hq with ((rfl | ⟨t, ht, rfl⟩) | ⟨j, -, rfl⟩) | rfl
  · exact natDegree_mul_le' hL0 (natDegree_sub_le' h1 (hz 0)) hBn
  · obtain ⟨hl1, hl2⟩ := hcol t.1 (List.fst_mem_of_mem_zipIdx ht)
    have hden : ((t.1.map (PermCol.den (C beta) (C gamma))).prod).natDegree ≤ p.maxCols * n := by
      refine (natDegree_prod_cols _ (m := n) ?_).trans (Nat.mul_le_mul_right _ (by simpa using hl1))
      intro q hq
      obtain ⟨x, hx, rfl⟩ := List.mem_map.1 hq
      obtain ⟨a1, a2, a3⟩ := hl2 x hx
      exact natDegree_add_le'' (natDegree_add_le'' a1 (natDegree_mul_le' (natDegree_C _).le a2 (by omega))) (by simp)
    have hnum : ((t.1.map (PermCol.num (C beta) (C gamma))).prod).natDegree ≤ p.maxCols * n := by
      refine (natDegree_prod_cols _ (m := n) ?_).trans (Nat.mul_le_mul_right _ (by simpa using hl1))
      intro q hq
      obtain ⟨x, hx, rfl⟩ := List.mem_map.1 hq
      obtain ⟨a1, a2, a3⟩ := hl2 x hx
      exact natDegree_add_le'' (natDegree_add_le'' a1 (natDegree_mul_le' (natDegree_C _).le a3 (by omega))) (by simp)
    refine natDegree_mul_le' hsel (natDegree_sub_le' (m := n + p.maxCols * n) ?_ ?_) (by omega)
    · exact natDegree_mul_le' ((natDegree_shifted_le _ _ _).trans (hz _)) hden le_rfl
    · exact natDegree_mul_le' (hz _) hnum le_rfl
  · exact natDegree_mul_le' hL0 (natDegree_sub_le' (hz _) ((natDegree_shifted_le _ _ _).trans (hz _))) hBn
  · have hpos : 1 ≤ p.maxCols := (hF.cols hne).1
    have : n ≤ p.maxCols * n := Nat.le_mul_of_pos_left _ hpos
    exact natDegree_mul_le' hLU (natDegree_sub_le' (m := n + n) (natDegree_mul_le' (hz _) (hz _) le_rfl)
      ((hz _).trans (by omega))) (by omega)

/-- The degree of the constraints of one lookup: at most `4 (N - 1)`. -/
theorem natDegree_lookupPolys {d : Domain F} (hd : d.Ok) {u : Nat} (hu : u < d.size) {N : Nat} (hN : d.size ≤ N)
    {B : Nat} (hB : 4 * (N - 1) ≤ B) {qBlind : F[X]} (hqb : qBlind.natDegree ≤ N - 1) {t : LookupPolys F × F[X]}
    (ht : t.1.a.natDegree ≤ N - 1 ∧ t.1.s.natDegree ≤ N - 1 ∧ t.1.aPrime.natDegree ≤ N - 1 ∧
      t.1.sPrime.natDegree ≤ N - 1 ∧ t.2.natDegree ≤ N - 1)
    (beta gamma : F) : ∀ q ∈ lookupPolys d u qBlind beta gamma t, q.natDegree ≤ B := by
  have hL0 := (natDegree_rowPoly hd hd.size_pos).trans (Nat.sub_le_sub_right hN 1)
  have hLU := (natDegree_rowPoly hd hu).trans (Nat.sub_le_sub_right hN 1)
  obtain ⟨n, hnd⟩ : ∃ n, N - 1 = n := ⟨_, rfl⟩
  rw [hnd] at hL0 hLU hB hqb ht
  have hsel := natDegree_one_sub hLU hqb
  have h1 : (1 : F[X]).natDegree ≤ n := by simp
  obtain ⟨ha, hs, ha', hs', hzz⟩ := ht
  intro q hq
  have hC : ∀ x : F, (C x).natDegree ≤ n := fun x => by simp
  have hzN := (natDegree_shifted_le d t.2 .next).trans hzz
  have hap := (natDegree_shifted_le d t.1.aPrime .prev).trans ha'
  unfold lookupPolys lookupConstraints at hq
  simp only [List.mem_cons, List.not_mem_nil, or_false] at hq
  rcases hq with rfl | rfl | rfl | rfl | rfl
  · exact natDegree_mul_le' hL0 (natDegree_sub_le' h1 hzz) (by omega)
  · refine natDegree_mul_le' hsel (natDegree_sub_le' (m := n + n + n) ?_ ?_) (by omega)
    · exact natDegree_mul_le' (natDegree_mul_le' hzN (natDegree_add_le'' ha' (hC _)) le_rfl)
        (natDegree_add_le'' hs' (hC _)) le_rfl
    · exact natDegree_mul_le' (natDegree_mul_le' hzz (natDegree_add_le'' ha (hC _)) le_rfl)
        (natDegree_add_le'' hs (hC _)) le_rfl
  · exact natDegree_mul_le' hLU (natDegree_sub_le' (m := n + n) (natDegree_mul_le' hzz hzz le_rfl)
      (hzz.trans (by omega))) (by omega)
  · exact natDegree_mul_le' hL0 (natDegree_sub_le' ha' hs') (by omega)
  · exact natDegree_mul_le' (natDegree_mul_le' hsel (natDegree_sub_le' ha' hs') le_rfl)
      (natDegree_sub_le' ha' hap) (by omega)

/-- The degree of the aggregated constraint: bounded by the gates, by `(maxCols + 2)(n - 1)` with copied columns
and by `4 (n - 1)` with lookups. -/
theorem natDegree_numerator {d : Domain F} (hd : d.Ok) (hn : 2 ≤ d.size) {p : PermutationArgument F}
    {c : CircuitPolys F} (hF : c.Fits d p) {N : Nat} (hN : d.size ≤ N) (hb : c.Bounded N) {B : Nat}
    (hg : ∀ g ∈ c.gates, g.natDegree ≤ B)
    (hw : c.ws ≠ [] → (p.maxCols + 2) * (N - 1) ≤ B) (hl : c.lookups ≠ [] → 4 * (N - 1) ≤ B)
    (alpha beta gamma : F) : (c.numerator d p alpha beta gamma).natDegree ≤ B := by
  apply natDegree_aggregate hg (natDegree_permutation hd hF hN hb hw hn beta gamma)
  intro l hlm
  obtain ⟨t, ht, rfl⟩ := List.mem_map.1 hlm
  exact natDegree_lookupPolys hd hF.usable hN (hl (List.ne_nil_of_mem ht)) hb.qBlind (hb.lookups t ht) beta gamma

end

section
variable {F : Type} [Field F] [LinearOrder F] [FftParams F] [LawfulFft F]

/-- C31. For an honest prover whose aggregated constraint is divisible by the vanishing polynomial of the key:
the quotient round succeeds, and at every evaluation challenge a verifier whose oracles answer with the values
of the prover's polynomials computes zero in its identity check. -/
theorem C31_identity_check_passes {S : Scheme F} {vk : VerifierKey S} {d : Domain F} {v : ProverView F}
    {vos : List (GenericVO F)} (hd : d.Ok) (he : vk.index.ext.Ok) (hle : d.size ≤ vk.index.ext.size) (h1 : 1 < d.size)
    {sigmas : List (ProverOracle F)} {qBlind : ProverOracle F} {r : ProverRounds F} {c : CircuitPolys F}
    (hP : ProverPolys d vk.index.ext v vos sigmas qBlind r c) (hF : c.Fits d vk.index.perm)
    (hL : vk.index.lookups.length = c.lookups.length) {vanishing : List F}
    (hlen : vk.zhInverses.length = vk.index.ext.size)
    (hinv : ∀ i < vk.index.ext.size, ∃ y, vk.zhInverses[i]? = some y ∧
      y * (toPoly vanishing).eval ((FftParams.gen : F) * vk.index.ext.element i) = 1)
    (theta beta gamma alpha : F) {Q : F[X]}
    (hQ : c.numerator d vk.index.perm alpha beta gamma = Q * toPoly vanishing)
    (hdeg : Q.degree < vk.index.ext.size) :
    ∃ qs, quotientRound v vos vk.index vk.zhInverses sigmas qBlind r d alpha beta gamma = .ok qs ∧
      ∀ (xi : F) (st : VState S) (is : List (InstanceVerifierOracle F)),
        VerifierPolys d st is vos xi vk.index.perm.usableRows c (qs.map (fun o => toPoly o.poly)) →
        quotientCheckValue S vk st is vos d.size vanishing ⟨theta, beta, gamma, alpha, xi⟩ = .ok 0 := by
  obtain ⟨qs, h2, -, h3, -⟩ := C17_quotient_chunks hd he hle h1 hP hF hL hlen hinv alpha beta gamma hQ hdeg
  refine ⟨qs, h2, ?_⟩
  intro xi st is hV
  rw [quotientCheckValue_eq hd (ch := ⟨theta, beta, gamma, alpha, xi⟩) hV hF hL vanishing]
  simp only [h3, hQ, sub_self, eval_zero]

/-- C31, the other direction: with true evaluations of any polynomials the verifier's value is the difference
of the two sides of the identity at the challenge, so the check passes exactly when they agree there. -/
theorem C31_identity_check_iff {S : Scheme F} {vk : VerifierKey S} {d : Domain F} {vos : List (GenericVO F)}
    (hd : d.Ok) {st : VState S} {is : List (InstanceVerifierOracle F)} {ch : Challenges F} {c : CircuitPolys F}
    {qs : List F[X]} (hV : VerifierPolys d st is vos ch.xi vk.index.perm.usableRows c qs)
    (hF : c.Fits d vk.index.perm) (hL : vk.index.lookups.length = c.lookups.length) (vanishing : List F) :
    quotientCheckValue S vk st is vos d.size vanishing ch = .ok 0 ↔
      (c.numerator d vk.index.perm ch.alpha ch.beta ch.gamma).eval ch.xi
        = (recombine d.size qs).eval ch.xi * (toPoly vanishing).eval ch.xi := by
  rw [quotientCheckValue_eq hd hV hF hL vanishing, Res.ok.injEq, eval_sub, eval_mul, sub_eq_zero]

end
end ZK
