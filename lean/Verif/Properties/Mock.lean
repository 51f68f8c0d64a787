import Verif.Lemmas.System
import Verif.Lemmas.Toy
import Verif.Properties.Oracles
/-! C43: the mock prover. -/
set_option autoImplicit false
namespace ZK
open Polynomial

section
variable {F : Type} [Field F] [DecidableEq F] [FftParams F] [LawfulFft F]

theorem Res.mapM_isOk {ε α β : Type} {f : α → Res ε β} {l : List α} :
    (∃ bs, Res.mapM f l = .ok bs) ↔ ∀ a ∈ l, ∃ b, f a = .ok b := by
  constructor
  · rintro ⟨bs, h⟩ a ha
    obtain ⟨i, hi, rfl⟩ := List.getElem_of_mem ha
    have hl := Res.mapM_length h
    exact ⟨_, Res.mapM_getElem h i hi⟩
  · intro h
    obtain ⟨bs, hbs⟩ := Res.mapM_ok_of h
    exact ⟨bs, hbs⟩

omit [DecidableEq F] in
theorem Interpolates.eval_zpow {d : Domain F} (hd : d.Ok) {o : ProverOracle F} (h : Interpolates d o) (k : ℤ) :
    ∃ j : Nat, (j : ℤ) = k % d.size ∧ o.evals[j]? = some (peval o.poly (d.omega ^ k)) := by
  have hpos : (0 : ℤ) < d.size := by exact_mod_cast hd.size_pos
  refine ⟨(k % d.size).toNat, Int.toNat_of_nonneg (Int.emod_nonneg _ (by omega)), ?_⟩
  have hlt : (k % d.size).toNat < d.size := by
    have := Int.emod_lt_of_pos k hpos
    omega
  rw [h.2 _ hlt, eval_toPoly]
  congr 2
  have h1 : d.omega ^ (k % (d.size : ℤ)) = d.omega ^ k := by
    conv_rhs => rw [← Int.emod_add_mul_ediv k d.size, zpow_add₀ hd.omega_ne_zero, zpow_mul, zpow_natCast,
      hd.prim.pow_eq_one, one_zpow, mul_one]
  rw [← h1]
  conv_rhs => rw [← Int.toNat_of_nonneg (Int.emod_nonneg k (by omega : (d.size : ℤ) ≠ 0))]
  rw [zpow_natCast]

theorem mockQuery_iff {d : Domain F} (hd : d.Ok) {v : ProverView F}
    (hv : ∀ ty, ∀ o ∈ v.oracles ty, Interpolates d o) {i : Nat} {q : OracleQuery} {y : F} :
    v.mockQuery d.elements (d.omega ^ i) q = .ok y ↔ ReadsCell d.size v i q y := by
  by_cases hr : q.rotation.degree < d.size
  · have hx : q.rotation.point (ε := PiopErr) (d.omega ^ i) d.elements
        = .ok (d.omega ^ ((i : ℤ) + q.rotation.signed)) := by
      rw [Rotation.point_ok hd _ _ hr, zpow_add₀ hd.omega_ne_zero, zpow_natCast]
    have key : v.mockQuery d.elements (d.omega ^ i) q = .ok y ↔
        ∃ o, Resolves (v.oracles q.oracleType) q.label o ∧
          peval o.poly (d.omega ^ ((i : ℤ) + q.rotation.signed)) = y := by
      unfold ProverView.mockQuery
      rw [hx]
      simp only [Res.bind_ok]
      cases q.oracleType <;> simp only [ProverView.oracles, withOracle] <;>
        [cases h : findOracle v.witness q.label; cases h : findOracle v.inst q.label;
          cases h : findOracle v.fixed q.label] <;>
        simp only [← findOracle_eq_some, h, ProverOracle.query] <;> simp
    rw [key]
    constructor
    · rintro ⟨o, ho, rfl⟩
      obtain ⟨j, hj, he⟩ := (hv _ o ho.mem).eval_zpow hd ((i : ℤ) + q.rotation.signed)
      exact ⟨hr, o, ho, j, hj, he⟩
    · rintro ⟨_, o, ho, j, hj, he⟩
      obtain ⟨j', hj', he'⟩ := (hv _ o ho.mem).eval_zpow hd ((i : ℤ) + q.rotation.signed)
      have : j = j' := by have := hj.trans hj'.symm; exact_mod_cast this
      subst this
      rw [he'] at he
      exact ⟨o, ho, Option.some.inj he⟩
  · constructor
    · intro h
      unfold ProverView.mockQuery at h
      rw [Rotation.point_oob d _ _ (by have := hd.size_pos; omega) (by omega)] at h
      simp at h
    · exact fun h => absurd h.1 hr

/-- The value of a gate in row `i` is `y`: it is configured, all its queries can be answered, and with these values it evaluates to `y`. -/
def GateValue (d : Domain F) (v : ProverView F) (i : Nat) (vo : GenericVO F) (y : F) : Prop :=
  ∃ e cell, vo.expr = some e ∧ (∀ q ∈ e.queries, ReadsCell d.size v i q (cell q)) ∧ e.denote id cell = y

theorem mockAt_iff {ε : Type} {d : Domain F} (hd : d.Ok) {v : ProverView F}
    (hv : ∀ ty, ∀ o ∈ v.oracles ty, Interpolates d o) {i : Nat} {vo : GenericVO F} {y : F} :
    mockAt (ε := ε) v d.elements (d.omega ^ i) vo = .ok y ↔ GateValue d v i vo y := by
  unfold mockAt GenericVO.getExpression GateValue
  cases he : vo.expr with
  | none => simp [Res.expect]
  | some e =>
    simp only [Res.expect, Res.bind_ok, Option.some.injEq, exists_and_left, exists_eq_left']
    constructor
    · intro hx
      cases hev : e.evalR (v.mockQuery d.elements (d.omega ^ i)) with
      | err _ => simp [hev] at hx
      | panic => simp [hev] at hx
      | ok x =>
        simp only [hev, Res.ok.injEq] at hx
        subst hx
        have hq := Expr.evalR_queries_ok hev
        choose! val hval using hq
        refine ⟨val, fun q hq => (mockQuery_iff hd hv).1 (hval q hq), ?_⟩
        have := Expr.evalR_ok (v := val) hval
        rw [hev] at this
        exact (Res.ok.inj this).symm
    · rintro ⟨cell, hq, rfl⟩
      have := Expr.evalR_ok (v := cell) (fun q h => (mockQuery_iff hd hv).2 (hq q h))
      rw [this]

omit [Field F] [DecidableEq F] [FftParams F] [LawfulFft F] in
/-- A loop that returns an error returns that of the first step that does not succeed. -/
theorem Res.mapM_eq_err {ε α β : Type} {f : α → Res ε β} {l : List α} {e : ε} :
    Res.mapM f l = .err e ↔ ∃ (i : Nat) (a : α), l[i]? = some a ∧ f a = .err e ∧ ∀ j < i, ∀ b, l[j]? = some b → ∃ c, f b = .ok c := by
  induction l with
  | nil => simp
  | cons a l ih =>
    rw [Res.mapM_cons]
    constructor
    · intro h
      rcases Res.bind_eq_err.1 h with h | ⟨b, hb, h⟩
      · exact ⟨0, a, rfl, h, fun j hj => absurd hj (by omega)⟩
      · rcases Res.bind_eq_err.1 h with h | ⟨bs, _, h⟩
        · obtain ⟨i, x, h1, h2, h3⟩ := ih.1 h
          refine ⟨i + 1, x, h1, h2, fun j hj y hy => ?_⟩
          cases j with
          | zero =>
            obtain rfl : a = y := Option.some.inj hy
            exact ⟨b, hb⟩
          | succ j => exact h3 j (by omega) y hy
        · simp at h
    · rintro ⟨i, x, h1, h2, h3⟩
      cases i with
      | zero =>
        obtain rfl : a = x := Option.some.inj h1
        rw [h2, Res.bind_err]
      | succ i =>
        obtain ⟨c, hc⟩ := h3 0 (by omega) a rfl
        rw [hc, Res.bind_ok, ih.2 ⟨i, x, h1, h2, fun j hj y hy => h3 (j + 1) (by omega) y hy⟩, Res.bind_err]

/-- One check of the mock prover. -/
theorem mockStep_ok {d : Domain F} (hd : d.Ok) {v : ProverView F} (hv : ∀ ty, ∀ o ∈ v.oracles ty, Interpolates d o) {i : Nat}
    {vo : GenericVO F} {e : Nat × Nat} :
    (∃ u : Unit, (do let x ← mockAt v d.elements (d.omega ^ i) vo; if x = 0 then .ok () else .err e) = .ok u) ↔ GateValue d v i vo 0 := by
  rw [← mockAt_iff (ε := Nat × Nat) hd hv]
  constructor
  · rintro ⟨u, h⟩
    obtain ⟨x, hx, h⟩ := Res.bind_eq_ok.1 h
    split at h
    · next h0 => rw [hx, h0]
    · simp at h
  · intro h
    exact ⟨(), by rw [h]; simp⟩

theorem mockStep_err {d : Domain F} (hd : d.Ok) {v : ProverView F} (hv : ∀ ty, ∀ o ∈ v.oracles ty, Interpolates d o) {i : Nat}
    {vo : GenericVO F} {e e' : Nat × Nat} :
    (do let x ← mockAt v d.elements (d.omega ^ i) vo; if x = 0 then .ok () else .err e) = (.err e' : Res _ Unit) ↔
      (∃ y, y ≠ 0 ∧ GateValue d v i vo y) ∧ e = e' := by
  constructor
  · intro h
    rcases Res.bind_eq_err.1 h with h | ⟨x, hx, h⟩
    · unfold mockAt at h
      rcases Res.bind_eq_err.1 h with h | ⟨_, _, h⟩ <;> revert h <;> unfold Res.expect <;> split <;> simp
    · split at h
      · simp at h
      · next h0 => exact ⟨⟨x, h0, (mockAt_iff hd hv).1 hx⟩, Res.err.inj h⟩
  · rintro ⟨⟨y, h0, hy⟩, rfl⟩
    rw [(mockAt_iff hd hv).2 hy, Res.bind_ok, if_neg h0]

omit [LawfulFft F] [DecidableEq F] [FftParams F] in
theorem Domain.elements_zipIdx (d : Domain F) (i : Nat) :
    d.elements.zipIdx[i]? = if i < d.size then some (d.omega ^ i, i) else none := by
  by_cases h : i < d.size <;> simp [Domain.elements, Domain.element, List.getElem?_range, h]

/-- One row. -/
theorem mockRow_ok {d : Domain F} (hd : d.Ok) {v : ProverView F} (hv : ∀ ty, ∀ o ∈ v.oracles ty, Interpolates d o) {i r : Nat}
    {vos : List (GenericVO F)} :
    (∃ us : List Unit, Res.mapM (fun (vo : GenericVO F × Nat) => do
      let x ← mockAt v d.elements (d.omega ^ i) vo.1
      if x = 0 then .ok () else .err (vo.2, r)) vos.zipIdx = .ok us) ↔ ∀ vo ∈ vos, GateValue d v i vo 0 := by
  rw [Res.mapM_isOk]
  constructor
  · intro h vo hvo
    obtain ⟨j, hj, rfl⟩ := List.getElem_of_mem hvo
    exact (mockStep_ok hd hv).1 (h (vos[j], j) (List.mem_zipIdx_iff_getElem?.2 (List.getElem?_eq_getElem hj)))
  · intro h vo hvo
    exact (mockStep_ok hd hv).2 (h vo.1 (List.mem_of_getElem? (List.mem_zipIdx_iff_getElem?.1 hvo)))

/-- **C43** The mock prover returns a proof exactly when every gate is configured, all its queries can be
answered, and it evaluates to zero in every row. Copy constraints and lookups do not occur. -/
theorem C43_mock_prover {ε : Type} (v : ProverView F) (vos : List (GenericVO F)) (domainSize : Nat)
    (d : Domain F) (hd : Domain.new (F := F) domainSize = some d)
    (hv : ∀ ty, ∀ o ∈ v.oracles ty, Interpolates d o) :
    mockProve (ε := ε) v vos domainSize = .ok () ↔
      ∀ i < d.size, ∀ vo ∈ vos, ∃ e cell, vo.expr = some e ∧ (∀ q ∈ e.queries, ReadsCell d.size v i q (cell q)) ∧
        e.denote id cell = 0 := by
  have hok := Domain.new_ok hd
  have h0 : mockProve (ε := ε) v vos domainSize = .ok () ↔ mockRun v vos domainSize = .ok () := by
    unfold mockProve Res.expect
    cases mockRun v vos domainSize <;> simp
  rw [h0]
  unfold mockRun
  rw [hd]
  simp only [Res.unwrap_some, Res.bind_ok]
  constructor
  · intro h i hi vo hvo
    obtain ⟨bs, hbs, _⟩ := Res.bind_eq_ok.1 h
    obtain ⟨us, hus⟩ := Res.mapM_isOk.1 ⟨bs, hbs⟩ (d.omega ^ i, i)
      (List.mem_of_getElem? (by rw [Domain.elements_zipIdx, if_pos hi]))
    exact (mockRow_ok hok hv).1 ⟨us, hus⟩ vo hvo
  · intro h
    have : ∃ bs, Res.mapM (fun (w : F × Nat) => Res.mapM (fun (vo : GenericVO F × Nat) => do
        let x ← mockAt v d.elements w.1 vo.1
        if x = 0 then .ok () else .err (vo.2, w.2)) vos.zipIdx) d.elements.zipIdx = (.ok bs : Res (Nat × Nat) _) := by
      rw [Res.mapM_isOk]
      intro w hw
      obtain ⟨i, hw⟩ := List.getElem?_of_mem hw
      rw [Domain.elements_zipIdx] at hw
      split at hw
      · next hi =>
        obtain rfl := Option.some.inj hw
        exact (mockRow_ok hok hv).2 (h i hi)
      · simp at hw
    obtain ⟨bs, hbs⟩ := this
    rw [hbs]
    rfl

/-- **C43** The mock prover panics with the message that gate `j` failed at row `i` exactly when this gate has a value in this row that
is not zero, and all gates of the earlier rows and the earlier gates of this row are zero. -/
theorem C43_first_failure (v : ProverView F) (vos : List (GenericVO F)) (domainSize : Nat)
    (d : Domain F) (hd : Domain.new (F := F) domainSize = some d)
    (hv : ∀ ty, ∀ o ∈ v.oracles ty, Interpolates d o) (i j : Nat) :
    mockRun v vos domainSize = .err (j, i) ↔
      i < d.size ∧ (∃ vo y, vos[j]? = some vo ∧ y ≠ 0 ∧ GateValue d v i vo y) ∧
      (∀ i' < i, ∀ vo ∈ vos, GateValue d v i' vo 0) ∧ ∀ j' < j, ∀ vo, vos[j']? = some vo → GateValue d v i vo 0 := by
  have hok := Domain.new_ok hd
  unfold mockRun
  rw [hd]
  simp only [Res.unwrap_some, Res.bind_ok]
  constructor
  · intro h
    rcases Res.bind_eq_err.1 h with h | ⟨_, _, h⟩
    swap
    · simp at h
    obtain ⟨i0, w, hw, h, hbefore⟩ := Res.mapM_eq_err.1 h
    rw [Domain.elements_zipIdx] at hw
    split at hw
    swap
    · simp at hw
    next hi =>
    obtain rfl := Option.some.inj hw
    obtain ⟨j0, g, hg, h, hearlier⟩ := Res.mapM_eq_err.1 h
    rw [List.getElem?_zipIdx, Option.map_eq_some_iff] at hg
    obtain ⟨vo, hvo, rfl⟩ := hg
    have h : (do let x ← mockAt v d.elements (d.omega ^ i0) vo; if x = 0 then .ok () else .err (0 + j0, i0)) = (.err (j, i) : Res _ Unit) := h
    obtain ⟨⟨y, hy0, hy⟩, he⟩ := (mockStep_err hok hv).1 h
    rw [Prod.mk.injEq, Nat.zero_add] at he
    obtain ⟨rfl, rfl⟩ := he
    refine ⟨hi, ⟨vo, y, hvo, hy0, hy⟩, fun i' hi' g hg => ?_, fun j' hj' g hg => ?_⟩
    · have hr := hbefore i' hi' (d.omega ^ i', i') (by rw [Domain.elements_zipIdx, if_pos (by omega)])
      exact (mockRow_ok hok hv).1 hr g hg
    · exact (mockStep_ok hok hv).1 (hearlier j' hj' (g, j') (by simp [hg]))
  · rintro ⟨hi, ⟨vo, y, hvo, hy0, hy⟩, hrows, hgates⟩
    refine Res.bind_eq_err.2 (Or.inl ?_)
    refine Res.mapM_eq_err.2 ⟨i, (d.omega ^ i, i), by rw [Domain.elements_zipIdx, if_pos hi], ?_, fun i' hi' w hw => ?_⟩
    · refine Res.mapM_eq_err.2 ⟨j, (vo, j), by simp [hvo], (mockStep_err hok hv).2 ⟨⟨y, hy0, hy⟩, rfl⟩, fun j' hj' g hg => ?_⟩
      rw [List.getElem?_zipIdx, Option.map_eq_some_iff] at hg
      obtain ⟨g, hg, rfl⟩ := hg
      exact (mockStep_ok hok hv).2 (hgates j' hj' g hg)
    · rw [Domain.elements_zipIdx, if_pos (by omega)] at hw
      obtain rfl := Option.some.inj hw
      exact (mockRow_ok hok hv).2 (hrows i' hi')

omit [LawfulFft F] in
/-- **C43** When it does not return a proof it panics; it never returns an error. -/
theorem C43_mock_panics {ε : Type} (v : ProverView F) (vos : List (GenericVO F)) (domainSize : Nat) (e : ε) :
    mockProve v vos domainSize ≠ .err e := by
  unfold mockProve Res.expect
  cases mockRun v vos domainSize <;> simp

omit [DecidableEq F] [FftParams F] [LawfulFft F] in
/-- **C43** The mock verifier accepts everything. -/
theorem C43_mock_verify {S : Scheme F} {P : Type} (vk : VerifierKey S) (pre : VerifierPreprocessed S) (proof : P)
    (ws : List (VerifierOracle F S.Comm)) (is : List (InstanceVerifierOracle F)) (vos : List (GenericVO F))
    (domainSize : Nat) (vanishing : List F) : mockVerify vk pre proof ws is vos domainSize vanishing = .ok () := rfl

end

/-- The toy circuit satisfies the hypotheses of C43, and so does the circuit with a wrong cell, for which
the mock prover panics. With another wrong cell, the second gate fails in the first row. -/
example : mockProve (ε := Unit) ⟨Toy.witness, Toy.inst, Toy.fixed, []⟩ Toy.vos 4 = .ok () ∧
    mockProve (ε := Unit) ⟨[Toy.column .witness [1] [7, 3, 11, 4] [.curr] true,
      Toy.column .witness [2] [8, 7, 2, 6] [.curr, .next] true,
      Toy.column .witness [3] [57, 26, 9, 2] [.curr] false], Toy.inst, Toy.fixed, []⟩ Toy.vos 4 = .panic ∧
    mockRun ⟨[Toy.column .witness [1] [7, 3, 11, 4] [.curr] true,
      Toy.column .witness [2] [8, 6, 2, 6] [.curr, .next] true,
      Toy.column .witness [3] [56, 26, 9, 2] [.curr] false], Toy.inst, Toy.fixed, []⟩ Toy.vos 4 = .err (1, 0) ∧
    Domain.new (F := F97) 4 = some Toy.dom := by decide +kernel

theorem Toy.column_interpolates (k : OracleType) (l : Label) {evals : List F97} (h : evals.length = 4)
    (rots : List Rotation) (b : Bool) : Interpolates Toy.dom (Toy.column k l evals rots b) := by
  have hd : Toy.dom.Ok := F97.dom_ok (by norm_num)
  have hs : Toy.dom.size = 4 := by decide +kernel
  refine ⟨h.trans hs.symm, fun i hi => ?_⟩
  have hi' : i < evals.length := by omega
  simp only [Toy.column, toPoly_trim, List.getElem?_eq_getElem hi']
  have := hd.peval_ifft (h.trans hs.symm) i hi
  rw [eval_toPoly]
  exact congrArg some this.symm

example : ∀ ty, ∀ o ∈ (⟨Toy.witness, Toy.inst, Toy.fixed, []⟩ : ProverView F97).oracles ty, Interpolates Toy.dom o := by
  intro ty o ho
  cases ty <;> simp only [ProverView.oracles, Toy.witness, Toy.inst, Toy.fixed, List.mem_cons, List.not_mem_nil,
    or_false] at ho
  · rcases ho with rfl | rfl | rfl <;> exact Toy.column_interpolates _ _ rfl _ _
  · subst ho; exact Toy.column_interpolates _ _ rfl _ _
  · rcases ho with rfl | rfl <;> exact Toy.column_interpolates _ _ rfl _ _

end ZK
