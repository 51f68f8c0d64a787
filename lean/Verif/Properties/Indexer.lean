import Verif.Lemmas.Indexer
import Verif.Lemmas.F97
import Verif.Spec.Ideal
/-! C15, C16, C18, C19: interpolation, stored vanishing inverses, size of the extended domain, outcome of
the indexer. -/
set_option autoImplicit false
namespace ZK
open Polynomial

section
variable {F : Type} [Field F] [DecidableEq F] [FftParams F] [LawfulFft F]

/-- C15. Interpolating row values and evaluating at the `i`-th domain point returns the `i`-th value, and
the interpolant is the only polynomial of degree below `n` doing so; evaluating a polynomial that fits
the extended domain over its coset and interpolating back returns it; a fixed oracle built from row values
has a polynomial with these row values and its coset values are that polynomial's. -/
theorem C15_round_trips {d e : Domain F} (hd : d.Ok) (he : e.Ok) :
    (∀ v : List F, v.length = d.size →
      (∀ i < d.size, (toPoly (d.ifft v)).eval (d.element i) = v.getD i 0) ∧
      (toPoly (d.ifft v)).degree < d.size ∧
      (∀ p : F[X], p.degree < d.size → (∀ i < d.size, p.eval (d.element i) = v.getD i 0) →
        p = toPoly (d.ifft v)) ∧ d.fft (d.ifft v) = v) ∧
    (∀ p : List F, p.length ≤ e.size → toPoly (e.cosetIfft (e.cosetFft p)) = toPoly p) ∧
    (∀ v : List F, v.length = e.size → e.cosetFft (e.cosetIfft v) = v) ∧
    (∀ (l : Label) (v : List F), v.length = d.size → d.size ≤ e.size →
      let o := ProverOracle.fromEvalsAndDomains l v d e
      o.evals = v ∧ (∀ i < d.size, o.query (d.element i) = v.getD i 0) ∧
      ∀ i < e.size, o.queryInCoset i .curr = .ok (o.query ((FftParams.gen : F) * e.element i))) := by
  have hev : ∀ v : List F, v.length = d.size → ∀ i < d.size,
      (toPoly (d.ifft v)).eval (d.element i) = v.getD i 0 := by
    intro v hv i hi
    rw [← peval_eq_eval, hd.peval_ifft hv i hi, List.getD_eq_getElem _ _ (hv ▸ hi)]
  have hdeg : ∀ v : List F, (toPoly (d.ifft v)).degree < d.size := by
    intro v
    exact lt_of_lt_of_eq (degree_toPoly_lt _) (by simp)
  refine ⟨?_, ?_, ?_, ?_⟩
  · intro v hv
    refine ⟨hev v hv, hdeg v, ?_, hd.fft_ifft hv⟩
    intro p hp hpe
    apply hd.poly_ext hp (hdeg v)
    intro i hi
    rw [hpe i hi, hev v hv i hi]
  · intro p hp
    exact he.toPoly_cosetIfft_cosetFft hp
  · intro v hv
    exact he.cosetFft_cosetIfft hv
  · intro l v hv hle
    refine ⟨rfl, ?_, ?_⟩
    · intro i hi
      show peval (trim (d.ifft v)) _ = _
      rw [peval_trim, peval_eq_eval, hev v hv i hi]
    · intro i hi
      have hl : (trim (d.ifft v)).length ≤ e.size := (trim_length_le _).trans (by simpa using hle)
      have := Domain.cosetFft_get e hl i hi
      simp only [ProverOracle.queryInCoset, ProverOracle.cosetEvals, ProverOracle.fromEvalsAndDomains,
        Rotation.curr, if_true, ProverOracle.query]
      exact Res.idx_of_some this

/-- Four rows, sixteen points on the coset. -/
example : (F97.dom 2).Ok ∧ (F97.dom 4).Ok ∧ (F97.dom 2).ifft [1, 2, 3, 4] ≠ [1, 2, 3, 4] ∧
    (ProverOracle.fromEvalsAndDomains (bytes "q") [1, 2, 3, 4] (F97.dom 2) (F97.dom 4)).coset ≠ none :=
  ⟨F97.dom_ok (by decide), F97.dom_ok (by decide), by decide +kernel, by decide +kernel⟩

/-! ### C19 -/

section
variable {S : Scheme F} {W I K : Type} [ConcreteOracle W] [ConcreteOracle I] [ConcreteOracle K]

/-- C19. Indexing a circuit over a domain of `n` rows. `gateError` is the first thing wrong with a gate,
`maxGateDegree` the largest gate degree, `k` the quotient degree.
1. A wrong gate gives its error (the first wrong gate in the list).
2. Otherwise a largest degree below the degree of the vanishing polynomial panics.
3. Otherwise the field having no domain for `k` points panics, a domain smaller than the original gives
   `QuotientTooSmall`.
4. Otherwise a key with quotient degree `k` and extended domain of `scalingFactor * n` points is returned
   if the field has such a domain, and the call panics if not.
These cases are exhaustive. Consequently the extended domain of a key is never smaller than the
original. -/
theorem C19_indexer_outcome (copyFlag : W → Bool) (vk : S.VK) (vos : List (GenericVO F))
    (lookups : List (GenericLookupVO F)) (ws : List W) (is : List I) (fs : List K) (d : Domain F)
    (hd : d.Ok) (zh : List F) (info : PermutationInfo F) (usableRows : Nat) :
    let out := indexer copyFlag vk vos lookups ws is fs d zh info usableRows (S := S)
    let wrong := vos.findSome? (gateError (E := S.E) (Labels.of ws is fs))
    let M := maxGateDegree d.size vos
    let k := M - (toPoly zh).natDegree
    let sf := scalingFactor d.size k (ws.filter copyFlag).length lookups.length
    (∀ er, wrong = some er → out = .err er) ∧
    (wrong = none → M < (toPoly zh).natDegree → out = .panic) ∧
    (wrong = none → (toPoly zh).natDegree ≤ M → 2 ^ FftParams.adicity F < k → out = .panic) ∧
    (wrong = none → (toPoly zh).natDegree ≤ M → k ≤ 2 ^ FftParams.adicity F → 2 ^ Nat.clog 2 k < d.size →
      out = .err .quotientTooSmall) ∧
    (wrong = none → (toPoly zh).natDegree ≤ M → k ≤ 2 ^ FftParams.adicity F → d.size ≤ 2 ^ Nat.clog 2 k →
      2 ^ FftParams.adicity F < sf * d.size → out = .panic) ∧
    (wrong = none → (toPoly zh).natDegree ≤ M → k ≤ 2 ^ FftParams.adicity F → d.size ≤ 2 ^ Nat.clog 2 k →
      sf * d.size ≤ 2 ^ FftParams.adicity F →
      ∃ key, out = .ok key ∧ key.vk = vk ∧ key.index.quotientDegree = k ∧ key.index.ext.Ok ∧
        key.index.ext.size = sf * d.size ∧ key.index.perm = ⟨sf - 1, info.u, info.deltas⟩ ∧
        key.index.lookups = lookups ∧ key.index.usableRows = usableRows) ∧
    (∀ key, out = .ok key → d.size ≤ key.index.ext.size) := by
  have h := indexer_outcome copyFlag vk vos lookups ws is fs d hd zh info usableRows (S := S)
  refine ⟨h.1, h.2.1, h.2.2.1, h.2.2.2.1, h.2.2.2.2.1, ?_, h.2.2.2.2.2.2⟩
  intro h1 h2 h3 h4 h5
  obtain ⟨key, k1, k2, k3, k4, k5, k6, k7, k8, -⟩ := h.2.2.2.2.2.1 h1 h2 h3 h4 h5
  exact ⟨key, k1, k2, k3, k4, k5, k6, k7, k8⟩

/-! ### C16 -/

/-- C16, proved part. The `i`-th value stored in a key is the inverse of the vanishing polynomial at the
`i`-th coset point, when the polynomial is `X^n - 1` (where it is never zero on the coset) or has at most
as many coefficients as the extended domain has points.
Missing: a custom polynomial with more coefficients, for which it is false (`C16_truncated`). -/
theorem C16_vanishing_inverses_partial {copyFlag : W → Bool} {vk : S.VK} {vos : List (GenericVO F)}
    {lookups : List (GenericLookupVO F)} {ws : List W} {is : List I} {fs : List K} {d : Domain F}
    (hd : d.Ok) {zh : List F} {info : PermutationInfo F} {usableRows : Nat} {key : VerifierKey S}
    (h : indexer copyFlag vk vos lookups ws is fs d zh info usableRows (S := S) = .ok key)
    (hz : toPoly zh = X ^ d.size - 1 ∨ zh.length ≤ key.index.ext.size) :
    key.zhInverses.length = key.index.ext.size ∧
    ∀ i < key.index.ext.size,
      key.zhInverses[i]? = some ((toPoly zh).eval ((FftParams.gen : F) * key.index.ext.element i))⁻¹ ∧
      (toPoly zh = X ^ d.size - 1 → (toPoly zh).eval ((FftParams.gen : F) * key.index.ext.element i) ≠ 0) := by
  obtain ⟨-, -, -, -, hext, hle, -, -, -, -, -, -, -, hzh⟩ := indexer_ok hd h
  obtain ⟨l, hl, hlen, hval⟩ := zhEvals_ok (ε := Err S.E) hd hext hle zh
  rw [hl] at hzh
  simp only [Res.ok.injEq] at hzh
  subst hzh
  refine ⟨hlen, fun i hi => ⟨hval ?_ i hi, ?_⟩⟩
  · rcases hz with hz | hz
    · right
      have : trim d.vanishing = d.vanishing := trim_vanishing d
      rw [← this]
      apply trim_eq_of_toPoly_eq
      rw [hz, toPoly_vanishing d hd.size_pos]
    · exact Or.inl hz
  · intro hz
    rw [hz]
    simp only [eval_sub, eval_pow, eval_X, eval_one]
    exact sub_ne_zero.2 (hd.coset_pow_ne hext i)

/-- C16 for vanishing polynomials of sets of rows, the documented use of a custom polynomial: a proper
divisor of `X^n - 1`, stored without leading zeros. It has no zero on the coset, so the stored values are
inverses. -/
theorem C16_row_set {copyFlag : W → Bool} {vk : S.VK} {vos : List (GenericVO F)}
    {lookups : List (GenericLookupVO F)} {ws : List W} {is : List I} {fs : List K} {d : Domain F}
    (hd : d.Ok) {zh : List F} {info : PermutationInfo F} {usableRows : Nat} {key : VerifierKey S}
    (h : indexer copyFlag vk vos lookups ws is fs d zh info usableRows (S := S) = .ok key)
    (htrim : zh = trim zh) (hdvd : toPoly zh ∣ X ^ d.size - 1)
    (hproper : toPoly zh = X ^ d.size - 1 ∨ (toPoly zh).natDegree < d.size) :
    key.zhInverses.length = key.index.ext.size ∧
    ∀ i < key.index.ext.size, ∃ v, key.zhInverses[i]? = some v ∧
      v * (toPoly zh).eval ((FftParams.gen : F) * key.index.ext.element i) = 1 := by
  obtain ⟨-, -, -, -, hext, hle, -⟩ := indexer_ok hd h
  have hlen : toPoly zh = X ^ d.size - 1 ∨ zh.length ≤ key.index.ext.size := by
    rcases hproper with hp | hp
    · exact Or.inl hp
    · right
      have : (trim zh).length ≤ d.size := by
        apply trim_length_le_of_degree
        by_cases h0 : toPoly zh = 0
        · rw [h0, degree_zero]; exact WithBot.bot_lt_coe _
        · rw [degree_eq_natDegree h0]; exact_mod_cast hp
      rw [htrim]; omega
  obtain ⟨h1, h2⟩ := C16_vanishing_inverses_partial hd h hlen
  refine ⟨h1, fun i hi => ⟨_, (h2 i hi).1, inv_mul_cancel₀ ?_⟩⟩
  intro h0
  obtain ⟨q, hq⟩ := hdvd
  have := congrArg (fun p => p.eval ((FftParams.gen : F) * key.index.ext.element i)) hq
  simp only [eval_mul, h0, zero_mul, eval_sub, eval_pow, eval_X, eval_one] at this
  exact hd.coset_pow_ne hext i (sub_eq_zero.1 this)

/-! ### C18 -/

/-- C18, proved part. For an indexed circuit and column polynomials of degree below `n`:
1. the quotient of any combination of the gates by the vanishing polynomial has degree at most the
   quotient degree of the key, which is at most the number of points of the extended domain; so it fits
   whenever these two numbers differ;
2. with copy constraints, the quotient of the constraint of a chunk of at most `maxCols` columns fits;
3. with lookups, the quotient of the lookup product constraint fits.
Missing: a quotient degree equal to the size of the extended domain, where it is false
(`C18_off_by_one`). -/
theorem C18_extended_domain_partial {copyFlag : W → Bool} {vk : S.VK} {vos : List (GenericVO F)}
    {lookups : List (GenericLookupVO F)} {ws : List W} {is : List I} {fs : List K} {d : Domain F}
    (hd : d.Ok) {zh : List F} {info : PermutationInfo F} {usableRows : Nat} {key : VerifierKey S}
    (h : indexer copyFlag vk vos lookups ws is fs d zh info usableRows (S := S) = .ok key) :
    (∀ (es : List (Expr F)) (alphas : List F) (P : OracleQuery → F[X]) (Q : F[X]),
      vos.map (·.expr) = es.map some → (∀ q, (P q).natDegree ≤ d.size - 1) → toPoly zh ≠ 0 →
      (List.zipWith (fun a e => C a * e.denote C P) alphas es).sum = Q * toPoly zh →
      Q.natDegree ≤ key.index.quotientDegree ∧ key.index.quotientDegree ≤ key.index.ext.size ∧
      (key.index.quotientDegree ≠ key.index.ext.size → Q.natDegree + 1 ≤ key.index.ext.size)) ∧
    (0 < (ws.filter copyFlag).length →
      ∀ (cols : List (F[X] × F[X] × F)) (z z' lu qb Q : F[X]) (beta gamma : F),
      cols.length ≤ key.index.perm.maxCols →
      (∀ c ∈ cols, c.1.natDegree ≤ d.size - 1 ∧ c.2.1.natDegree ≤ d.size - 1) →
      z.natDegree ≤ d.size - 1 → z'.natDegree ≤ d.size - 1 → lu.natDegree ≤ d.size - 1 →
      qb.natDegree ≤ d.size - 1 → 2 ≤ d.size →
      (1 - (lu + qb)) * (z' * (cols.map (fun c => c.1 + C beta * c.2.1 + C gamma)).prod
          - z * (cols.map (fun c => c.1 + C (beta * c.2.2) * X + C gamma)).prod) = Q * (X ^ d.size - 1) →
      Q.natDegree + 1 ≤ key.index.ext.size) ∧
    (lookups ≠ [] → ∀ (a a' s s' z z' lu qb Q : F[X]) (beta gamma : F),
      (∀ p ∈ [a, a', s, s', z, z', lu, qb], p.natDegree ≤ d.size - 1) →
      (1 - (lu + qb)) * (z' * (a' + C beta) * (s' + C gamma) - z * (a + C beta) * (s + C gamma))
        = Q * (X ^ d.size - 1) →
      Q.natDegree + 1 ≤ key.index.ext.size) := by
  obtain ⟨-, hM, hqd, hqe, hext, hle, hsz, hcp, hlk, -⟩ := indexer_ok hd h
  have hpos := hd.size_pos
  have hZ0 : (X ^ d.size - 1 : F[X]) ≠ 0 := (monic_X_pow_sub_C 1 hpos.ne').ne_zero
  have hZd : (X ^ d.size - 1 : F[X]).natDegree = d.size := natDegree_X_pow_sub_C (r := 1)
  refine ⟨?_, ?_, ?_⟩
  · intro es alphas P Q hes hP hz hQ
    have hN : (List.zipWith (fun a e => C a * e.denote C P) alphas es).sum.natDegree
        ≤ maxGateDegree d.size vos := by
      apply natDegree_list_sum_le
      intro p hp
      obtain ⟨i, hi, rfl⟩ := List.getElem_of_mem hp
      rw [List.getElem_zipWith]
      refine natDegree_mul_le.trans ?_
      rw [natDegree_C, zero_add]
      exact (Expr.natDegree_le_formal P _ hP _).trans
        (formalDegree_le_max d.size hes _ (List.getElem_mem _))
    have := natDegree_quotient hQ hz hN
    rw [← hqd] at this
    exact ⟨this, hqe, fun hne => by omega⟩
  · intro hc cols z z' lu qb Q beta gamma hlen hcols hz hz' hlu hqb hn2 hQ
    have hsel : (1 - (lu + qb)).natDegree ≤ d.size - 1 := by
      refine (natDegree_sub_le _ _).trans (max_le (by simp) ?_)
      exact (natDegree_add_le _ _).trans (max_le hlu hqb)
    have h1 : (cols.map (fun c => c.1 + C beta * c.2.1 + C gamma)).prod.natDegree
        ≤ cols.length * (d.size - 1) := by
      apply natDegree_list_prod_le
      intro c hc
      refine (natDegree_add_le _ _).trans (max_le ((natDegree_add_le _ _).trans (max_le (hcols c hc).1 ?_))
        (by simp))
      refine natDegree_mul_le.trans ?_
      rw [natDegree_C, zero_add]; exact (hcols c hc).2
    have h2 : (cols.map (fun c : F[X] × F[X] × F => c.1 + C (beta * c.2.2) * X + C gamma)).prod.natDegree
        ≤ cols.length * (d.size - 1) := by
      apply natDegree_list_prod_le
      intro c hc
      refine (natDegree_add_le _ _).trans (max_le ((natDegree_add_le _ _).trans (max_le (hcols c hc).1 ?_))
        (by simp))
      refine natDegree_mul_le.trans ?_
      rw [natDegree_C, zero_add]; exact natDegree_X_le.trans (by omega)
    have hmul : cols.length * (d.size - 1) ≤ key.index.perm.maxCols * (d.size - 1) :=
      Nat.mul_le_mul_right _ hlen
    have hN := natDegree_mul_le (p := 1 - (lu + qb))
      (q := z' * (cols.map (fun c => c.1 + C beta * c.2.1 + C gamma)).prod
          - z * (cols.map (fun c => c.1 + C (beta * c.2.2) * X + C gamma)).prod)
    have hN2 : ((1 - (lu + qb)) * (z' * (cols.map (fun c => c.1 + C beta * c.2.1 + C gamma)).prod
          - z * (cols.map (fun c => c.1 + C (beta * c.2.2) * X + C gamma)).prod)).natDegree
          ≤ (d.size - 1) + ((d.size - 1) + key.index.perm.maxCols * (d.size - 1)) := by
      refine hN.trans (Nat.add_le_add hsel ?_)
      refine (natDegree_sub_le _ _).trans (max_le ?_ ?_)
      · exact natDegree_mul_le.trans (Nat.add_le_add hz' (h1.trans hmul))
      · exact natDegree_mul_le.trans (Nat.add_le_add hz (h2.trans hmul))
    have := natDegree_quotient hQ hZ0 hN2
    rw [hZd] at this
    rw [hsz]
    obtain ⟨m, hm⟩ : ∃ m, d.size = m + 1 := ⟨d.size - 1, by omega⟩
    rw [hm] at this ⊢
    simp only [Nat.add_sub_cancel] at this
    rw [show ∀ M : Nat, (M + 1) * (m + 1) = M * m + M + m + 1 from fun M => by ring]
    generalize key.index.perm.maxCols * m = t at this ⊢
    omega
  · intro hl a a' s s' z z' lu qb Q beta gamma hp hQ
    simp only [List.mem_cons, List.not_mem_nil, or_false, forall_eq_or_imp, forall_eq] at hp
    obtain ⟨ha, ha', hs, hs', hz, hz', hlu, hqb⟩ := hp
    have hsel : (1 - (lu + qb)).natDegree ≤ d.size - 1 := by
      refine (natDegree_sub_le _ _).trans (max_le (by simp) ?_)
      exact (natDegree_add_le _ _).trans (max_le hlu hqb)
    have hadd : ∀ (p : F[X]) (c : F), p.natDegree ≤ d.size - 1 → (p + C c).natDegree ≤ d.size - 1 :=
      fun p c hp => (natDegree_add_le _ _).trans (max_le hp (by simp))
    have hthree : ∀ p q r : F[X], p.natDegree ≤ d.size - 1 → q.natDegree ≤ d.size - 1 →
        r.natDegree ≤ d.size - 1 → (p * q * r).natDegree ≤ (d.size - 1) + (d.size - 1) + (d.size - 1) :=
      fun p q r h1 h2 h3 => natDegree_mul_le.trans
        (Nat.add_le_add (natDegree_mul_le.trans (Nat.add_le_add h1 h2)) h3)
    have hN : ((1 - (lu + qb)) * (z' * (a' + C beta) * (s' + C gamma) - z * (a + C beta) * (s + C gamma))).natDegree
        ≤ (d.size - 1) + ((d.size - 1) + (d.size - 1) + (d.size - 1)) := by
      refine natDegree_mul_le.trans (Nat.add_le_add hsel ?_)
      refine (natDegree_sub_le _ _).trans (max_le ?_ ?_)
      · exact hthree _ _ _ hz' (hadd _ _ ha') (hadd _ _ hs')
      · exact hthree _ _ _ hz (hadd _ _ ha) (hadd _ _ hs)
    have := natDegree_quotient hQ hZ0 hN
    rw [hZd] at this
    have h4 := Nat.mul_le_mul_right d.size (hlk hl)
    rw [← hsz] at h4
    omega

end

/-! ### Concrete circuits -/

/-- A witness oracle. -/
def exW (s : String) : ProverOracle F97 := .newWitness (bytes s) [] [] false
/-- A configured gate. -/
def exGate (e : Expr F97) : GenericVO F97 := ⟨.const 0, [], some e⟩
/-- A query of a witness at the current row. -/
def exQ (s : String) : Expr F97 := .oracle ⟨bytes s, .curr, .witness⟩
/-- Some scheme over the example field. -/
def exS : Scheme F97 := idealScheme (fun _ => 3) (fun x => [x.val])
/-- Indexing a circuit with the given gates over the domain with `2^j` rows. -/
def exIndex (j : Nat) (copy : Bool) (lookups : List (GenericLookupVO F97)) (gates : List (GenericVO F97))
    (zh : List F97) : Res (Err Unit) (VerifierKey exS) :=
  indexer (S := exS) (fun _ => copy) () gates lookups [exW "a", exW "b", exW "c", exW "d"]
    ([] : List (ProverOracle F97)) ([] : List (ProverOracle F97)) (F97.dom j) zh ⟨3, [1, 5]⟩ 3

/-- Size of the extended domain, quotient degree and maximal number of columns per chunk. -/
def exShow (r : Res (Err Unit) (VerifierKey exS)) : Res (Err Unit) (Nat × Nat × Nat) :=
  r.map1 (fun k => (k.index.ext.size, k.index.quotientDegree, k.index.perm.maxCols))

/-- All outcomes of C19 occur: an uninitialised gate, an unknown label, an underflow, a quotient that is
too small, and keys with ratios 2 and 4. -/
example :
    exShow (exIndex 2 false [] [⟨.const 0, [], none⟩] (F97.dom 2).vanishing) = .err (.vo .uninitializedExpr) ∧
    exShow (exIndex 2 false [] [exGate (exQ "e")] (F97.dom 2).vanishing) =
      .err (.iop (.missingWitnessOracle (bytes "e"))) ∧
    exShow (exIndex 2 false [] [exGate (exQ "a")] (F97.dom 2).vanishing) = .panic ∧
    exShow (exIndex 2 false [] [exGate (.prod (exQ "a") (exQ "b"))] (F97.dom 2).vanishing) =
      .err .quotientTooSmall ∧
    exShow (exIndex 2 false [] [exGate (.prod (exQ "a") (.prod (exQ "b") (exQ "c")))]
      (F97.dom 2).vanishing) = .ok (8, 5, 1) ∧
    exShow (exIndex 2 true [⟨[], [], [], some [], some []⟩]
      [exGate (.prod (exQ "a") (.prod (exQ "b") (exQ "c")))] (F97.dom 2).vanishing) = .ok (16, 5, 3) := by
  decide +kernel

/-- The vanishing polynomial of the first three rows is a proper divisor of `X^4 - 1` and is accepted: the
hypotheses of `C16_row_set` are met. -/
example : exShow (exIndex 2 false [] [exGate (.prod (exQ "a") (.prod (exQ "b") (exQ "c")))]
      [1, 1, 1, 1]) = .ok (8, 6, 1) ∧ pmul [1, 1, 1, 1] [-1, 1] = (F97.dom 2).vanishing ∧
    ([1, 1, 1, 1] : List F97) = trim [1, 1, 1, 1] := by
  decide +kernel

/-- A property of the key of a successful run, decided by computation. -/
theorem exIndex_key {r : Res (Err Unit) (VerifierKey exS)} (p : VerifierKey exS → Bool)
    (h : (match r with | .ok k => p k | _ => false) = true) : ∃ k, r = .ok k ∧ p k = true := by
  cases r with
  | ok k => exact ⟨k, rfl, h⟩
  | err e => simp at h
  | panic => simp at h

/-- C16 is false for a vanishing polynomial with more coefficients than the extended domain has points:
a gate of degree 5 over two rows with a vanishing polynomial of degree 3 is indexed with an extended domain
of 2 points, and the first stored value is not the inverse. -/
theorem C16_truncated : ∃ key : VerifierKey exS,
    exIndex 1 false [] [exGate (.prod (.prod (exQ "a") (exQ "b")) (.prod (exQ "c") (.prod (exQ "d") (exQ "a"))))]
      [1, 2, 0, 1] = .ok key ∧ key.index.ext.size = 2 ∧
    (toPoly [1, 2, 0, 1]).eval ((FftParams.gen : F97) * key.index.ext.element 0) ≠ 0 ∧
    key.zhInverses[0]? ≠
      some ((toPoly [1, 2, 0, 1]).eval ((FftParams.gen : F97) * key.index.ext.element 0))⁻¹ := by
  simp only [← peval_eq_eval]
  obtain ⟨k, hk, hp⟩ := exIndex_key (r := exIndex 1 false []
    [exGate (.prod (.prod (exQ "a") (exQ "b")) (.prod (exQ "c") (.prod (exQ "d") (exQ "a"))))] [1, 2, 0, 1])
    (fun key => decide (key.index.ext.size = 2 ∧
      peval [1, 2, 0, 1] ((FftParams.gen : F97) * key.index.ext.element 0) ≠ 0 ∧
      key.zhInverses[0]? ≠ some (peval [1, 2, 0, 1] ((FftParams.gen : F97) * key.index.ext.element 0))⁻¹))
    (by decide +kernel)
  exact ⟨k, hk, of_decide_eq_true hp⟩

/-- C18 is false at a power of two: over four rows the gate `a b c d` is indexed with an extended domain of
eight points, but the columns below (of degree 3) satisfy it on all rows and the quotient `X^8` has nine
coefficients. -/
theorem C18_off_by_one : ∃ key : VerifierKey exS,
    exIndex 2 false [] [exGate (.prod (.prod (exQ "a") (exQ "b")) (.prod (exQ "c") (exQ "d")))]
      (F97.dom 2).vanishing = .ok key ∧ key.index.ext.size = 8 ∧
    ∃ P : OracleQuery → F97[X], (∀ q, (P q).natDegree ≤ 3) ∧
      (Expr.prod (.prod (exQ "a") (exQ "b")) (.prod (exQ "c") (exQ "d"))).denote C P
        = X ^ 8 * toPoly (F97.dom 2).vanishing ∧ ¬ (X ^ 8 : F97[X]).natDegree + 1 ≤ key.index.ext.size := by
  obtain ⟨k, hk, hp⟩ := exIndex_key (r := exIndex 2 false []
    [exGate (.prod (.prod (exQ "a") (exQ "b")) (.prod (exQ "c") (exQ "d")))] (F97.dom 2).vanishing)
    (fun key => decide (key.index.ext.size = 8)) (by decide +kernel)
  have hs : k.index.ext.size = 8 := of_decide_eq_true hp
  refine ⟨k, hk, hs, fun q => toPoly (if q.label = bytes "a" then [0, 1, 0, 1] else if q.label = bytes "b"
    then [0, 0, -1, 1] else if q.label = bytes "c" then [0, 0, 1, 1] else [0, 0, 0, 1]), ?_, ?_, ?_⟩
  · intro q
    refine (natDegree_toPoly_le _).trans ?_
    split_ifs <;> simp
  · have h1 : bytes "b" ≠ bytes "a" := by decide +kernel
    have h2 : bytes "c" ≠ bytes "a" := by decide +kernel
    have h3 : bytes "c" ≠ bytes "b" := by decide +kernel
    have h4 : bytes "d" ≠ bytes "a" := by decide +kernel
    have h5 : bytes "d" ≠ bytes "b" := by decide +kernel
    have h6 : bytes "d" ≠ bytes "c" := by decide +kernel
    rw [toPoly_vanishing _ (by decide)]
    have : (F97.dom 2).size = 4 := rfl
    simp only [Expr.denote, exQ, h1, h2, h3, h4, h5, h6, if_true, if_false, toPoly_cons, toPoly_nil, this,
      map_zero, map_one, map_neg]
    ring
  · rw [natDegree_X_pow, hs]; decide

end
end ZK
