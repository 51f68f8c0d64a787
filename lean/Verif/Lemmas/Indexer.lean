import Verif.Spec.Indexer
import Verif.Lemmas.Expression
import Verif.Lemmas.Fft
/-! The indexer. -/
set_option autoImplicit false
namespace ZK
open Polynomial

theorem clog2_eq (k : Nat) : clog2 k = Nat.clog 2 k := by
  apply le_antisymm
  · exact (clog2_spec k).2 _ (Nat.le_pow_clog (by norm_num) k)
  · exact (Nat.clog_le_iff_le_pow (by norm_num)).2 (clog2_spec k).1

/-! ### Label lookup -/

section
variable {O : Type} [ConcreteOracle O]

theorem withOracle_known {os : List O} {l : Label} (h : l ∈ os.map ConcreteOracle.label) :
    ∃ o, findOracle os l = some o ∧ ConcreteOracle.label o = l ∧ o ∈ os := by
  unfold findOracle
  cases hl : lastIndexOf (os.map ConcreteOracle.label) l with
  | none => exact absurd h (lastIndexOf_eq_none.1 hl)
  | some i =>
    obtain ⟨h1, _⟩ := lastIndexOf_eq_some.1 hl
    rw [List.getElem?_map, Option.map_eq_some_iff] at h1
    obtain ⟨o, ho, hlab⟩ := h1
    exact ⟨o, ho, hlab, List.mem_of_getElem? ho⟩

theorem findOracle_unknown {os : List O} {l : Label} (h : l ∉ os.map ConcreteOracle.label) :
    findOracle os l = none := by
  unfold findOracle
  rw [lastIndexOf_eq_none.2 h]

end

section
variable {F : Type} {W I X : Type} [ConcreteOracle W] [ConcreteOracle I] [ConcreteOracle X]

theorem degreeOf_eq (ws : List W) (is : List I) (fs : List X) {n : Nat} (hn : 0 < n) (q : OracleQuery) :
    degreeOf ws is fs n q =
      if (Labels.of ws is fs).knows q then .ok (n - 1) else .err (missingOracle q) := by
  have hn0 : n ≠ 0 := by omega
  have key : ∀ {O : Type} [ConcreteOracle O] (os : List O) (l : Label) (er : PiopErr),
      withOracle os l er (fun _ => oracleDegree n) =
        if decide (l ∈ os.map ConcreteOracle.label) then .ok (n - 1) else .err er := by
    intro O _ os l er
    unfold withOracle
    by_cases h : l ∈ os.map ConcreteOracle.label
    · obtain ⟨o, ho, _⟩ := withOracle_known h
      simp only [ho, oracleDegree, hn0, if_false, h, decide_true, if_true]
    · rw [findOracle_unknown h]
      simp only [h, decide_false, Bool.false_eq_true, if_false]
  unfold degreeOf Labels.knows missingOracle Labels.of
  cases q.oracleType <;> exact key _ _ _

/-- Degree of an expression, or the first unknown query. -/
theorem Expr.degree_eq (ws : List W) (is : List I) (fs : List X) {n : Nat} (hn : 0 < n) (e : Expr F) :
    e.degree (degreeOf ws is fs n) =
      match e.queries.find? (fun q => !(Labels.of ws is fs).knows q) with
      | none => .ok (e.formalDegree (n - 1))
      | some q => .err (missingOracle q) := by
  induction e with
  | const c => rfl
  | oracle q =>
    simp only [Expr.degree, degreeOf_eq ws is fs hn, Expr.queries, List.find?_cons, List.find?_nil]
    cases (Labels.of ws is fs).knows q <;> simp [Expr.formalDegree]
  | neg a ih => simpa only [Expr.degree, Expr.queries, Expr.formalDegree] using ih
  | sum a b iha ihb =>
    simp only [Expr.degree, Expr.queries, Expr.formalDegree, iha, ihb, List.find?_append]
    cases List.find? (fun q => !(Labels.of ws is fs).knows q) a.queries with
    | some q => rfl
    | none => cases List.find? (fun q => !(Labels.of ws is fs).knows q) b.queries <;> rfl
  | prod a b iha ihb =>
    simp only [Expr.degree, Expr.queries, Expr.formalDegree, iha, ihb, List.find?_append]
    cases List.find? (fun q => !(Labels.of ws is fs).knows q) a.queries with
    | some q => rfl
    | none => cases List.find? (fun q => !(Labels.of ws is fs).knows q) b.queries <;> rfl
  | scaled a c ih => simpa only [Expr.degree, Expr.queries, Expr.formalDegree] using ih

theorem quotientDegree_eq {E : Type} (ws : List W) (is : List I) (fs : List X)
    (vos : List (GenericVO F)) {n : Nat} (hn : 0 < n) (zhd : Nat) :
    quotientDegree (E := E) ws is fs vos n zhd =
      match vos.findSome? (gateError (E := E) (Labels.of ws is fs)) with
      | some er => .err er
      | none => if zhd ≤ maxGateDegree n vos then .ok (maxGateDegree n vos - zhd) else .panic := by
  obtain ⟨f, hf⟩ : ∃ f : Nat → GenericVO F → Res (Err E) Nat, f = (fun (m : Nat) (vo : GenericVO F) => do
      let e ← (vo.getExpression).mapErr (Err.vo (E := E))
      let d ← (e.degree (degreeOf ws is fs n)).mapErr Err.iop
      pure (max m d)) := ⟨_, rfl⟩
  have key : ∀ m : Nat, Res.foldM f m vos =
      match vos.findSome? (gateError (E := E) (Labels.of ws is fs)) with
      | some er => .err er
      | none => .ok (max m (maxGateDegree n vos)) := by
    induction vos with
    | nil => intro m; simp [maxGateDegree]
    | cons vo vos ih =>
      intro m
      have hstep : f m vo = match gateError (E := E) (Labels.of ws is fs) vo with
          | some er => .err er
          | none => .ok (max m (match vo.expr with
            | some e => e.formalDegree (n - 1)
            | none => 0)) := by
        simp only [hf, gateError, GenericVO.getExpression]
        cases he : vo.expr with
        | none => rfl
        | some e =>
          simp only [Res.mapErr_ok, Res.bind_ok]
          rw [Expr.degree_eq ws is fs hn e]
          cases hq : List.find? (fun q => !(Labels.of ws is fs).knows q) e.queries <;> rfl
      rw [Res.foldM_cons, hstep, List.findSome?_cons]
      cases gateError (E := E) (Labels.of ws is fs) vo with
      | some er => rfl
      | none =>
        simp only [Res.bind_ok]
        rw [ih]
        cases vos.findSome? (gateError (E := E) (Labels.of ws is fs)) with
        | some er => rfl
        | none =>
          simp only [maxGateDegree, List.map_cons, List.foldr_cons]
          rw [max_assoc]
          rfl
  unfold quotientDegree
  rw [← hf, key 0]
  cases vos.findSome? (gateError (E := E) (Labels.of ws is fs)) with
  | some er => rfl
  | none => simp [Res.pure_eq]

end

section
variable {F : Type} [Field F] [DecidableEq F] [FftParams F] [LawfulFft F]

/-- `compute_zh_evals` does not fail on an extension of the domain, and is correct when the vanishing
polynomial fits the extended domain or is `X^n - 1`. -/
theorem zhEvals_ok {ε : Type} {d ext : Domain F} (hd : d.Ok) (he : ext.Ok) (hle : d.size ≤ ext.size)
    (zh : List F) :
    ∃ l : List F, zhEvals (ε := ε) d ext zh = .ok l ∧ l.length = ext.size ∧
      (zh.length ≤ ext.size ∨ d.vanishing = trim zh → ∀ i < ext.size,
        l[i]? = some ((toPoly zh).eval ((FftParams.gen : F) * ext.element i))⁻¹) := by
  unfold zhEvals
  simp only [hle, decide_true, Res.assert_true, Res.bind_ok]
  have hval : d.vanishing = trim zh → ∀ x : F, (toPoly zh).eval x = x ^ d.size - 1 := by
    intro hv x
    rw [← toPoly_trim, ← hv, toPoly_vanishing d hd.size_pos]
    simp
  by_cases h1 : d.vanishing = trim zh ∧ d.size = ext.size
  · simp only [h1, and_self, if_true]
    have hg : (FftParams.gen : F) ^ ext.size - 1 ≠ 0 := by
      have := hd.coset_pow_ne he 0
      rw [h1.2] at this
      simp only [Domain.element, pow_zero, mul_one] at this
      exact sub_ne_zero.2 this
    simp only [hg, ne_eq, not_false_eq_true, decide_true, Res.assert_true, Res.bind_ok]
    refine ⟨_, rfl, by simp, ?_⟩
    intro _ i hi
    rw [List.getElem?_replicate, if_pos hi, hval h1.1, h1.2, mul_pow, he.element_pow, mul_one]
  · simp only [h1, if_false]
    by_cases h2 : d.vanishing = trim zh
    · have hlt : d.size < ext.size := lt_of_le_of_ne hle (fun h => h1 ⟨h2, h⟩)
      simp only [h2, if_true, vanishingOverCoset, hlt, Res.bind_ok]
      refine ⟨_, rfl, by simp, ?_⟩
      intro _ i hi
      simp only [List.map_map, List.getElem?_map, List.getElem?_range hi, Option.map_some, Function.comp]
      rw [hval h2, mul_pow, Domain.element, Domain.element, pow_one, ← pow_mul, mul_comm i]
    · simp only [h2, if_false]
      refine ⟨_, rfl, by simp, ?_⟩
      intro hz i hi
      replace hz : zh.length ≤ ext.size := by simpa using hz
      rw [List.getElem?_map, Domain.cosetFft_get ext hz i hi]
      simp

variable {S : Scheme F} {W I X : Type} [ConcreteOracle W] [ConcreteOracle I] [ConcreteOracle X]

/-- All outcomes of the indexer (see C19). -/
theorem indexer_outcome (copyFlag : W → Bool) (vk : S.VK) (vos : List (GenericVO F))
    (lookups : List (GenericLookupVO F)) (ws : List W) (is : List I) (fs : List X) (d : Domain F)
    (hd : d.Ok) (zh : List F) (info : PermutationInfo F) (usableRows : Nat) :
    let out := indexer copyFlag vk vos lookups ws is fs d zh info usableRows (S := S)
    let wrong := vos.findSome? (gateError (E := S.E) (Labels.of ws is fs))
    let M := maxGateDegree d.size vos
    let k := M - (toPoly zh).natDegree
    let sf := scalingFactor d.size k (ws.filter copyFlag).length lookups.length
    (∀ er, wrong = some er → out = .err er) ∧
    (wrong = none → M < (toPoly zh).natDegree → out = .panic) ∧
    (wrong = none → (toPoly zh).natDegree ≤ M → 2 ^ FftParams.adicity F < k → out = .panic) ∧
    (wrong = none → (toPoly zh).natDegree ≤ M → k ≤ 2 ^ FftParams.adicity F → 2 ^ Nat.clog 2 k < d.size →
      out = .err .quotientTooSmall) ∧
    (wrong = none → (toPoly zh).natDegree ≤ M → k ≤ 2 ^ FftParams.adicity F → d.size ≤ 2 ^ Nat.clog 2 k →
      2 ^ FftParams.adicity F < sf * d.size → out = .panic) ∧
    (wrong = none → (toPoly zh).natDegree ≤ M → k ≤ 2 ^ FftParams.adicity F → d.size ≤ 2 ^ Nat.clog 2 k →
      sf * d.size ≤ 2 ^ FftParams.adicity F →
      ∃ key, out = .ok key ∧ key.vk = vk ∧ key.index.quotientDegree = k ∧ key.index.ext.Ok ∧
        key.index.ext.size = sf * d.size ∧ key.index.perm = ⟨sf - 1, info.u, info.deltas⟩ ∧
        key.index.lookups = lookups ∧ key.index.usableRows = usableRows ∧
        zhEvals (ε := Err S.E) d key.index.ext zh = .ok key.zhInverses) ∧
    (∀ key, out = .ok key → d.size ≤ key.index.ext.size) := by
  intro out wrong M k sf
  have hzd : pdegree zh = (toPoly zh).natDegree := pdegree_eq zh
  have hout : out = (quotientDegree (E := S.E) ws is fs vos d.size (pdegree zh) >>= fun qd =>
      Res.unwrap (Domain.new (F := F) qd) >>= fun ext0 =>
      if ext0.size < d.size then .err .quotientTooSmall else do
        let sf := ext0.size / d.size
        let sf := if 0 < (ws.filter copyFlag).length then max sf 2 else sf
        let sf := if lookups.length ≠ 0 then max sf 4 else sf
        let perm ← PermutationArgument.new sf info
        let ext ← Res.unwrap (Domain.new (F := F) (sf * d.size))
        let inv ← zhEvals d ext zh
        pure (⟨vk, ⟨qd, ext, perm, lookups, usableRows⟩, inv⟩ : VerifierKey S)) := rfl
  have hpos := hd.size_pos
  rw [quotientDegree_eq ws is fs vos hpos, hzd] at hout
  have hclog : ∀ m, Nat.clog 2 k ≤ m ↔ k ≤ 2 ^ m := fun m => Nat.clog_le_iff_le_pow (by norm_num)
  -- the domain for `k` points
  have hnew : Domain.new (F := F) k = if k ≤ 2 ^ FftParams.adicity F then
      some ⟨2 ^ Nat.clog 2 k, (FftParams.root : F) ^ (2 ^ (FftParams.adicity F - Nat.clog 2 k))⟩ else none := by
    unfold Domain.new
    simp only [clog2_eq, hclog]
  obtain ⟨j, hj, hdj⟩ := hd
  have hsize : d.size = 2 ^ j := by rw [hdj]
  -- the ratio is a power of two
  have hsf : d.size ≤ 2 ^ Nat.clog 2 k → ∃ t, sf = 2 ^ t ∧
      sf = (if lookups.length ≠ 0 then max (if 0 < (ws.filter copyFlag).length then
        max (2 ^ Nat.clog 2 k / d.size) 2 else 2 ^ Nat.clog 2 k / d.size) 4 else
        (if 0 < (ws.filter copyFlag).length then max (2 ^ Nat.clog 2 k / d.size) 2
          else 2 ^ Nat.clog 2 k / d.size)) := by
    intro hle
    rw [hsize] at hle
    have hjc : j ≤ Nat.clog 2 k := (Nat.pow_le_pow_iff_right (by norm_num)).1 hle
    have hdiv : 2 ^ Nat.clog 2 k / d.size = 2 ^ (Nat.clog 2 k - j) := by
      rw [hsize, Nat.pow_div hjc (by norm_num)]
    have hmax : ∀ a b : Nat, max (2 ^ a) (2 ^ b) = 2 ^ max a b := by
      intro a b
      exact ((pow_right_mono₀ (by norm_num : (1 : Nat) ≤ 2)).map_max).symm
    have h2 : (2 : Nat) = 2 ^ 1 := rfl
    have h4 : (4 : Nat) = 2 ^ 2 := rfl
    simp only [sf, scalingFactor, hdiv]
    by_cases hl : lookups.length ≠ 0 <;> by_cases hp : 0 < (ws.filter copyFlag).length
    · refine ⟨max (max (Nat.clog 2 k - j) 1) 2, ?_, ?_⟩
      · simp only [hl, hp, if_true, ne_eq, not_false_eq_true]
        rw [← hmax, ← hmax, max_assoc]; rfl
      · simp only [hl, hp, if_true, ne_eq, not_false_eq_true, max_assoc]
    · refine ⟨max (Nat.clog 2 k - j) 2, ?_, ?_⟩
      · simp only [hl, hp, if_true, if_false, ne_eq, not_false_eq_true]
        rw [← hmax]; simp
      · simp only [hl, hp, if_true, if_false, ne_eq, not_false_eq_true]; simp
    · refine ⟨max (Nat.clog 2 k - j) 1, ?_, ?_⟩
      · simp only [hl, hp, if_true, if_false]
        rw [← hmax]; simp
      · simp only [hl, hp, if_true, if_false]; simp
    · refine ⟨Nat.clog 2 k - j, ?_, ?_⟩
      · simp only [hl, hp, if_false]; simp
      · simp only [hl, hp, if_false]; simp
  have hnew2 : ∀ t, sf = 2 ^ t → Domain.new (F := F) (sf * d.size) =
      if sf * d.size ≤ 2 ^ FftParams.adicity F then
        some ⟨sf * d.size, (FftParams.root : F) ^ (2 ^ (FftParams.adicity F - (t + j)))⟩ else none := by
    intro t ht
    rw [ht, hsize, ← pow_add]
    unfold Domain.new
    simp only [clog2_pow, Nat.pow_le_pow_iff_right (by norm_num : 1 < 2)]
  have hd' : d.Ok := ⟨j, hj, hdj⟩
  have h1 : ∀ er, wrong = some er → out = .err er := by
    intro er h
    rw [hout, show vos.findSome? (gateError (E := S.E) (Labels.of ws is fs)) = some er from h]; rfl
  have h2 : wrong = none → M < (toPoly zh).natDegree → out = .panic := by
    intro h hM
    rw [hout, show vos.findSome? (gateError (E := S.E) (Labels.of ws is fs)) = none from h]
    simp only [M] at hM
    simp only [not_le.2 hM, if_false]; rfl
  have h3 : wrong = none → (toPoly zh).natDegree ≤ M → 2 ^ FftParams.adicity F < k → out = .panic := by
    intro h hM hk
    rw [hout, show vos.findSome? (gateError (E := S.E) (Labels.of ws is fs)) = none from h]
    simp only [M] at hM
    simp only [hM, if_true, Res.bind_ok]
    show (Res.unwrap (Domain.new (F := F) k) >>= _) = _
    rw [hnew, if_neg (not_le.2 hk)]; rfl
  have h4 : wrong = none → (toPoly zh).natDegree ≤ M → k ≤ 2 ^ FftParams.adicity F →
      2 ^ Nat.clog 2 k < d.size → out = .err .quotientTooSmall := by
    intro h hM hk hlt
    rw [hout, show vos.findSome? (gateError (E := S.E) (Labels.of ws is fs)) = none from h]
    simp only [M] at hM
    simp only [hM, if_true, Res.bind_ok]
    show (Res.unwrap (Domain.new (F := F) k) >>= _) = _
    rw [hnew, if_pos hk]
    simp only [Res.unwrap_some, Res.bind_ok, hlt, if_true]
  have hrest : wrong = none → (toPoly zh).natDegree ≤ M → k ≤ 2 ^ FftParams.adicity F →
      d.size ≤ 2 ^ Nat.clog 2 k → out = (do
        let perm ← PermutationArgument.new sf info
        let ext ← Res.unwrap (Domain.new (F := F) (sf * d.size))
        let inv ← zhEvals d ext zh
        pure (⟨vk, ⟨k, ext, perm, lookups, usableRows⟩, inv⟩ : VerifierKey S)) := by
    intro h hM hk hle
    obtain ⟨t, _, hs⟩ := hsf hle
    rw [hout, show vos.findSome? (gateError (E := S.E) (Labels.of ws is fs)) = none from h]
    simp only [M] at hM
    simp only [hM, if_true, Res.bind_ok]
    show (Res.unwrap (Domain.new (F := F) k) >>= _) = _
    rw [hnew, if_pos hk]
    simp only [Res.unwrap_some, Res.bind_ok, not_lt.2 hle, if_false]
    rw [← hs]
  have h5 : wrong = none → (toPoly zh).natDegree ≤ M → k ≤ 2 ^ FftParams.adicity F →
      d.size ≤ 2 ^ Nat.clog 2 k → 2 ^ FftParams.adicity F < sf * d.size → out = .panic := by
    intro h hM hk hle hlt
    obtain ⟨t, ht, _⟩ := hsf hle
    rw [hrest h hM hk hle, hnew2 t ht, if_neg (not_le.2 hlt)]
    have : sf ≠ 0 := by rw [ht]; positivity
    simp only [PermutationArgument.new, this, if_false, Res.bind_ok]; rfl
  have h6 : wrong = none → (toPoly zh).natDegree ≤ M → k ≤ 2 ^ FftParams.adicity F →
      d.size ≤ 2 ^ Nat.clog 2 k → sf * d.size ≤ 2 ^ FftParams.adicity F →
      ∃ key, out = .ok key ∧ key.vk = vk ∧ key.index.quotientDegree = k ∧ key.index.ext.Ok ∧
        key.index.ext.size = sf * d.size ∧ key.index.perm = ⟨sf - 1, info.u, info.deltas⟩ ∧
        key.index.lookups = lookups ∧ key.index.usableRows = usableRows ∧
        zhEvals (ε := Err S.E) d key.index.ext zh = .ok key.zhInverses := by
    intro h hM hk hle hfit
    obtain ⟨t, ht, _⟩ := hsf hle
    have hsf0 : sf ≠ 0 := by rw [ht]; positivity
    have hn2 := hnew2 t ht
    rw [if_pos hfit] at hn2
    have hok := Domain.new_ok hn2
    obtain ⟨l, hl, _⟩ := zhEvals_ok (ε := Err S.E) hd' hok
      (by simp only; exact Nat.le_mul_of_pos_left _ (Nat.pos_of_ne_zero hsf0)) zh
    refine ⟨⟨vk, ⟨k, ⟨sf * d.size, (FftParams.root : F) ^ (2 ^ (FftParams.adicity F - (t + j)))⟩,
      ⟨sf - 1, info.u, info.deltas⟩, lookups, usableRows⟩, l⟩, ?_, rfl, rfl, hok, rfl, rfl, rfl, rfl, hl⟩
    rw [hrest h hM hk hle, hn2]
    simp only [PermutationArgument.new, hsf0, if_false, Res.bind_ok, Res.unwrap_some, hl, Res.pure_eq]
  refine ⟨h1, h2, h3, h4, h5, h6, ?_⟩
  intro key hkey
  cases hw : wrong with
  | some er => rw [h1 er hw] at hkey; simp at hkey
  | none =>
    rcases lt_or_ge M (toPoly zh).natDegree with hM | hM
    · rw [h2 hw hM] at hkey; simp at hkey
    rcases lt_or_ge (2 ^ FftParams.adicity F) k with hk | hk
    · rw [h3 hw hM hk] at hkey; simp at hkey
    rcases lt_or_ge (2 ^ Nat.clog 2 k) d.size with hle | hle
    · rw [h4 hw hM hk hle] at hkey; simp at hkey
    rcases lt_or_ge (2 ^ FftParams.adicity F) (sf * d.size) with hf | hf
    · rw [h5 hw hM hk hle hf] at hkey; simp at hkey
    obtain ⟨key', hk', _, _, _, hs, _⟩ := h6 hw hM hk hle hf
    rw [hk'] at hkey
    simp only [Res.ok.injEq] at hkey
    subst hkey
    rw [hs]
    obtain ⟨t, ht, _⟩ := hsf hle
    exact Nat.le_mul_of_pos_left _ (by rw [ht]; positivity)

/-- A key of an indexed circuit: what the successful branch returns. -/
theorem indexer_ok {copyFlag : W → Bool} {vk : S.VK} {vos : List (GenericVO F)}
    {lookups : List (GenericLookupVO F)} {ws : List W} {is : List I} {fs : List X} {d : Domain F}
    (hd : d.Ok) {zh : List F} {info : PermutationInfo F} {usableRows : Nat} {key : VerifierKey S}
    (h : indexer copyFlag vk vos lookups ws is fs d zh info usableRows (S := S) = .ok key) :
    vos.findSome? (gateError (E := S.E) (Labels.of ws is fs)) = none ∧
    (toPoly zh).natDegree ≤ maxGateDegree d.size vos ∧
    key.index.quotientDegree = maxGateDegree d.size vos - (toPoly zh).natDegree ∧
    key.index.quotientDegree ≤ key.index.ext.size ∧ key.index.ext.Ok ∧ d.size ≤ key.index.ext.size ∧
    key.index.ext.size = (key.index.perm.maxCols + 1) * d.size ∧
    (0 < (ws.filter copyFlag).length → 2 ≤ key.index.perm.maxCols + 1) ∧
    (lookups ≠ [] → 4 ≤ key.index.perm.maxCols + 1) ∧
    key.index.perm.usableRows = info.u ∧ key.index.perm.deltas = info.deltas ∧
    key.index.lookups = lookups ∧ key.index.usableRows = usableRows ∧
    zhEvals (ε := Err S.E) d key.index.ext zh = .ok key.zhInverses := by
  have hq := indexer_outcome copyFlag vk vos lookups ws is fs d hd zh info usableRows (S := S)
  simp only at hq
  obtain ⟨h1, h2, h3, h4, h5, h6, -⟩ := hq
  cases hw : vos.findSome? (gateError (E := S.E) (Labels.of ws is fs)) with
  | some er => rw [h1 er hw] at h; simp at h
  | none =>
    rcases lt_or_ge (maxGateDegree d.size vos) (toPoly zh).natDegree with hM | hM
    · rw [h2 hw hM] at h; simp at h
    rcases lt_or_ge (2 ^ FftParams.adicity F) (maxGateDegree d.size vos - (toPoly zh).natDegree) with hk | hk
    · rw [h3 hw hM hk] at h; simp at h
    rcases lt_or_ge (2 ^ Nat.clog 2 (maxGateDegree d.size vos - (toPoly zh).natDegree)) d.size with hle | hle
    · rw [h4 hw hM hk hle] at h; simp at h
    obtain ⟨k, hkd⟩ : ∃ k, k = maxGateDegree d.size vos - (toPoly zh).natDegree := ⟨_, rfl⟩
    rw [← hkd] at h5 h6 hle hk
    obtain ⟨sf, hsf⟩ : ∃ sf, sf = scalingFactor d.size k (ws.filter copyFlag).length lookups.length := ⟨_, rfl⟩
    rw [← hsf] at h5 h6
    rcases lt_or_ge (2 ^ FftParams.adicity F) (sf * d.size) with hf | hf
    · rw [h5 hw hM hk hle hf] at h; simp at h
    obtain ⟨key', hk', _, hq, hok, hs, hp, hl, hu, hz⟩ := h6 hw hM hk hle hf
    rw [hk'] at h
    simp only [Res.ok.injEq] at h
    subst h
    have hdvd : d.size ∣ 2 ^ Nat.clog 2 k := by
      obtain ⟨j, _, hdj⟩ := hd
      rw [hdj] at hle ⊢
      exact pow_dvd_pow 2 ((Nat.pow_le_pow_iff_right (by norm_num)).1 hle)
    have hpos := hd.size_pos
    have hdiv : 2 ^ Nat.clog 2 k / d.size ≤ sf := by rw [hsf]; exact le_max_left _ _
    have hdivpos : 0 < 2 ^ Nat.clog 2 k / d.size := Nat.div_pos hle hpos
    have hsf1 : sf - 1 + 1 = sf := by omega
    refine ⟨rfl, hM, hq.trans hkd, ?_, hok, ?_, ?_, ?_, ?_, ?_, ?_, hl, hu, hz⟩
    · rw [hq, hs]
      calc k ≤ 2 ^ Nat.clog 2 k := Nat.le_pow_clog (by norm_num) _
        _ = 2 ^ Nat.clog 2 k / d.size * d.size := (Nat.div_mul_cancel hdvd).symm
        _ ≤ sf * d.size := Nat.mul_le_mul_right _ hdiv
    · rw [hs]; exact Nat.le_mul_of_pos_left _ (by omega)
    · rw [hs, hp, hsf1]
    · intro hc
      rw [hp, hsf1, hsf]
      simp only [scalingFactor, hc, if_true]
      exact le_trans (le_max_left _ _) (le_max_right _ _)
    · intro hc
      rw [hp, hsf1, hsf]
      have : lookups.length ≠ 0 := by simpa using hc
      simp only [scalingFactor, this, ne_eq, not_false_eq_true, if_true]
      exact le_trans (le_max_right _ _) (le_max_right _ _)
    · rw [hp]
    · rw [hp]

omit [DecidableEq F] [FftParams F] [LawfulFft F] in
/-- The degree computed from the shape of an expression bounds the degree of its value. -/
theorem Expr.natDegree_le_formal (P : OracleQuery → F[X]) (m : Nat) (hP : ∀ q, (P q).natDegree ≤ m)
    (e : Expr F) : (e.denote C P).natDegree ≤ e.formalDegree m := by
  induction e with
  | const c => simp [Expr.denote]
  | oracle q => exact hP q
  | neg a ih => simpa [Expr.denote, Expr.formalDegree] using ih
  | sum a b iha ihb =>
    exact (natDegree_add_le _ _).trans (max_le_max iha ihb)
  | prod a b iha ihb => exact natDegree_mul_le.trans (Nat.add_le_add iha ihb)
  | scaled a c ih => exact natDegree_mul_le.trans (by simpa [Expr.formalDegree] using ih)

omit [Field F] [DecidableEq F] [FftParams F] [LawfulFft F] in
theorem formalDegree_le_max (n : Nat) {vos : List (GenericVO F)} {es : List (Expr F)}
    (h : vos.map (·.expr) = es.map some) : ∀ e ∈ es, e.formalDegree (n - 1) ≤ maxGateDegree n vos := by
  induction vos generalizing es with
  | nil => intro e he; cases es <;> simp_all
  | cons vo vos ih =>
    cases es with
    | nil => simp
    | cons e0 es =>
      simp only [List.map_cons, List.cons.injEq] at h
      intro e he
      have hm : maxGateDegree n (vo :: vos) = max (e0.formalDegree (n - 1)) (maxGateDegree n vos) := by
        simp only [maxGateDegree, List.map_cons, List.foldr_cons, h.1]
      rw [hm]
      rcases List.mem_cons.1 he with rfl | he
      · exact le_max_left _ _
      · exact (ih h.2 e he).trans (le_max_right _ _)

omit [DecidableEq F] [FftParams F] [LawfulFft F] in
theorem natDegree_list_sum_le {l : List F[X]} {m : Nat} (h : ∀ p ∈ l, p.natDegree ≤ m) :
    l.sum.natDegree ≤ m := by
  induction l with
  | nil => simp
  | cons p l ih =>
    rw [List.sum_cons]
    exact (natDegree_add_le _ _).trans (max_le (h p (by simp)) (ih fun q hq => h q (by simp [hq])))

omit [DecidableEq F] [FftParams F] [LawfulFft F] in
theorem natDegree_list_prod_le {ι : Type} (l : List ι) (f : ι → F[X]) {m : Nat}
    (h : ∀ p ∈ l, (f p).natDegree ≤ m) : (l.map f).prod.natDegree ≤ l.length * m := by
  induction l with
  | nil => simp
  | cons p l ih =>
    rw [List.map_cons, List.prod_cons, List.length_cons, Nat.succ_mul, Nat.add_comm]
    exact natDegree_mul_le.trans (Nat.add_le_add (h p (by simp)) (ih fun q hq => h q (by simp [hq])))

omit [DecidableEq F] [FftParams F] [LawfulFft F] in
/-- Degree of an exact quotient. -/
theorem natDegree_quotient {N Q Z : F[X]} (h : N = Q * Z) (hZ : Z ≠ 0) {m : Nat} (hN : N.natDegree ≤ m) :
    Q.natDegree ≤ m - Z.natDegree := by
  by_cases hQ : Q = 0
  · simp [hQ]
  · rw [h, natDegree_mul hQ hZ] at hN
    omega

end
end ZK
