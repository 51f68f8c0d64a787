import Verif.Spec.Client
import Verif.Properties.Configure
import Verif.Properties.Indexer
import Verif.Properties.Setup
/-! C76: from the description of a circuit to an accepted proof, without assumptions about intermediate results. -/
set_option autoImplicit false
set_option linter.unusedSectionVars false
namespace ZK
open Polynomial

section
variable {F : Type} [Field F]

/-- The configured expression has `totalDegree` times the degree of the columns. -/
theorem VExpr.toExpr_formalDegree {W I X : Type} [ConcreteOracle W] [ConcreteOracle I] [ConcreteOracle X] (ws : List W) (is : List I)
    (fs : List X) (m : Nat) (e : VExpr F) : ∀ e', e.toExpr ws is fs = .ok e' → e'.formalDegree m = e.totalDegree * m := by
  induction e with
  | const a => intro e' h; obtain rfl := Res.ok.inj h; simp [VExpr.totalDegree, Expr.formalDegree]
  | oracle q =>
    intro e' h
    obtain ⟨x, -, rfl⟩ := Res.map1_eq_ok.1 h
    simp [VExpr.totalDegree, Expr.formalDegree]
  | neg a ih =>
    intro e' h
    obtain ⟨x, hx, rfl⟩ := Res.map1_eq_ok.1 h
    exact ih x hx
  | scaled a c ih =>
    intro e' h
    obtain ⟨x, hx, rfl⟩ := Res.map1_eq_ok.1 h
    exact ih x hx
  | sum a b iha ihb =>
    intro e' h
    unfold VExpr.toExpr at h
    cases ha : a.toExpr ws is fs with
    | ok x =>
      rw [ha] at h
      obtain ⟨y, hy, rfl⟩ := Res.map1_eq_ok.1 h
      simp only [VExpr.totalDegree, Expr.formalDegree, iha x ha, ihb y hy]
      exact (Nat.mul_max_mul_right _ _ _).symm ▸ rfl
    | err _ => simp [ha] at h
    | panic => simp [ha] at h
  | prod a b iha ihb =>
    intro e' h
    unfold VExpr.toExpr at h
    cases ha : a.toExpr ws is fs with
    | ok x =>
      rw [ha] at h
      obtain ⟨y, hy, rfl⟩ := Res.map1_eq_ok.1 h
      simp only [VExpr.totalDegree, Expr.formalDegree, iha x ha, ihb y hy, Nat.add_mul]
    | err _ => simp [ha] at h
    | panic => simp [ha] at h

theorem maxGateDegree_eq {n m : Nat} {vos : List (GenericVO F)}
    (hle : ∀ vo ∈ vos, ∃ e, vo.expr = some e ∧ e.formalDegree (n - 1) ≤ m)
    (hex : ∃ vo ∈ vos, ∃ e, vo.expr = some e ∧ e.formalDegree (n - 1) = m) : maxGateDegree n vos = m := by
  unfold maxGateDegree
  have h1 : ∀ vos : List (GenericVO F), (∀ vo ∈ vos, ∃ e, vo.expr = some e ∧ e.formalDegree (n - 1) ≤ m) →
      (vos.map (fun vo => match vo.expr with
        | some e => e.formalDegree (n - 1)
        | none => 0)).foldr max 0 ≤ m := by
    intro vos
    induction vos with
    | nil => intro _; exact Nat.zero_le _
    | cons vo vos ih =>
      intro h
      obtain ⟨e, he, hm⟩ := h vo List.mem_cons_self
      simp only [List.map_cons, List.foldr_cons, he]
      exact max_le hm (ih fun v hv => h v (List.mem_cons_of_mem _ hv))
  refine le_antisymm (h1 vos hle) ?_
  obtain ⟨vo, hvo, e, he, rfl⟩ := hex
  clear hle h1
  induction vos with
  | nil => cases hvo
  | cons v vos ih =>
    simp only [List.map_cons, List.foldr_cons]
    rcases List.mem_cons.1 hvo with rfl | h
    · simp only [he]; exact le_max_left _ _
    · exact (ih h).trans (le_max_right _ _)

variable [DecidableEq F] [FftParams F]

/-- **C76** The key depends on the labels of the oracles and the number of copied columns only. The prover and the verifier call the
indexer on oracles of different types and get the same key, or fail in the same way. -/
theorem C76_same_key {S : Scheme F} {W I X W' I' X' : Type} [ConcreteOracle W] [ConcreteOracle I] [ConcreteOracle X]
    [ConcreteOracle W'] [ConcreteOracle I'] [ConcreteOracle X'] (copyFlag : W → Bool) (copyFlag' : W' → Bool)
    {s : Oracles W I X} {s' : Oracles W' I' X'} (hl : s.SameLabels s')
    (hcopied : (s'.witness.filter copyFlag').length = (s.witness.filter copyFlag).length)
    (vk : S.VK) (vos : List (GenericVO F)) (lookups : List (GenericLookupVO F)) {d : Domain F} (hd : d.Ok) (zh : List F)
    (info : PermutationInfo F) (usableRows : Nat) :
    indexer copyFlag' vk vos lookups s'.witness s'.inst s'.fixed d zh info usableRows (S := S) =
    indexer copyFlag vk vos lookups s.witness s.inst s.fixed d zh info usableRows := by
  unfold indexer
  rw [quotientDegree_eq _ _ _ _ hd.size_pos, quotientDegree_eq _ _ _ _ hd.size_pos, hcopied]
  unfold Labels.of
  rw [hl.1, hl.2.1, hl.2.2]

end

section
variable {F : Type} [Field F] [DecidableEq F] [FftParams F] [LawfulFft F]

/-- Eight rows are enough for every degree from two on that is smaller than their number. -/
theorem degreeFits_of_eight {n m : Nat} (hm : 2 ≤ m) (hmn : m < n) (h8 : 8 ≤ n) : DegreeFits n m := by
  refine ⟨fun h => absurd (Nat.le_of_dvd (by omega) h) (by omega), ?_⟩
  obtain ⟨t, rfl⟩ : ∃ t, m = t + 2 := ⟨m - 2, by omega⟩
  have e6 : (t + 2) * n = t * n + 2 * n := by ring
  have e7 : t * 8 ≤ t * n := Nat.mul_le_mul_left t h8
  have e1 : (t + 2) * (n - 1) = (t + 2) * n - (t + 2) := Nat.mul_sub_one _ n
  omega

theorem DegreeFits.one_lt {n m : Nat} (h : DegreeFits n m) : 1 < n := by
  have := h.2
  rcases n with _ | _ | n
  · simp at this
  · simp at this
  · omega

/-- The sizes the indexer computes for gates of degree `m` over `n = 2 ^ j` rows. -/
theorem indexer_sizes {n a m copied lookups : Nat} (hn : ∃ j, n = 2 ^ j) (hm : 2 ≤ m) (hfit : DegreeFits n m) (ha : max 4 m * n ≤ 2 ^ a) :
    n ≤ m * (n - 1) ∧ m * (n - 1) - n ≤ 2 ^ a ∧ n ≤ 2 ^ Nat.clog 2 (m * (n - 1) - n) ∧
    scalingFactor n (m * (n - 1) - n) copied lookups * n ≤ 2 ^ a ∧
    m * (n - 1) - n ≠ scalingFactor n (m * (n - 1) - n) copied lookups * n := by
  obtain ⟨j, rfl⟩ := hn
  set n := 2 ^ j with hn
  obtain ⟨k, hk⟩ : ∃ k, k = m * (n - 1) - n := ⟨_, rfl⟩
  have e1 : m * (n - 1) = m * n - m := Nat.mul_sub_one m n
  have e2 : 2 * n ≤ m * n := Nat.mul_le_mul_right n hm
  have e5 : n < 2 * k := by rw [hk]; exact hfit.2
  have h1n := hfit.one_lt
  have e3 : n ≤ m * (n - 1) := by omega
  have e4 : k + n + m = m * n := by omega
  have hj : 0 < j := by
    rcases Nat.eq_zero_or_pos j with h | h
    · subst h; simp at hn; omega
    · exact h
  have hpow : n = 2 * 2 ^ (j - 1) := by rw [hn, ← pow_succ']; congr 1; omega
  have e8 : n ≤ 2 ^ Nat.clog 2 k := by
    rw [hn]
    apply Nat.pow_le_pow_right (by norm_num)
    by_contra hlt
    have : k ≤ 2 ^ (j - 1) := (Nat.clog_le_iff_le_pow (by norm_num)).1 (by omega)
    omega
  have hk1 : 1 < k := by omega
  have ha4 : 4 * n ≤ 2 ^ a := (Nat.mul_le_mul_right n (le_max_left 4 m)).trans ha
  have ham : m * n ≤ 2 ^ a := (Nat.mul_le_mul_right n (le_max_right 4 m)).trans ha
  have e9 : 2 ^ Nat.clog 2 k ≤ 2 ^ a :=
    Nat.pow_le_pow_right (by norm_num) ((Nat.clog_le_iff_le_pow (by norm_num)).2 (by omega))
  rw [← hk]
  refine ⟨e3, by omega, e8, ?_, ?_⟩
  · have : scalingFactor n k copied lookups ≤ max (2 ^ Nat.clog 2 k / n) 4 := by
      unfold scalingFactor
      refine max_le (le_max_left _ _) (max_le ?_ ?_) <;> split <;> simp
    refine (Nat.mul_le_mul_right n this).trans ?_
    rw [max_mul_of_nonneg _ _ (Nat.zero_le n)]
    refine max_le ((Nat.div_mul_le_self _ _).trans ?_) ?_
    · omega
    · omega
  · intro h
    have h1 : n ∣ k := ⟨_, h.trans (Nat.mul_comm ..)⟩
    have h2 : n ∣ k + n + m := by rw [e4]; exact Dvd.intro_left m rfl
    have h3 : n ∣ m := (Nat.dvd_add_right (Dvd.dvd.add h1 (dvd_refl n))).1 h2
    exact hfit.1 h3

variable {s : Oracles (ProverOracle F) (ProverOracle F) (ProverOracle F)} {ts : List (ProverOracle F)} {calls : List (Call F)}
  {d : Domain F} {sigmas : List (ProverOracle F)} {qBlind : ProverOracle F} {info : PermutationInfo F} {usableRows : Nat}

/-- **C76** The indexer makes a key for a circuit whose gates have degree at most `m`. The quotient has degree `m (n - 1) - n`, which is
never the size of the extended domain. -/
theorem C76_key {S : Scheme F} (hd : d.Ok) (hgood : GoodCircuit d d.size s ts calls sigmas qBlind info usableRows) {m : Nat}
    (hdeg : GateDegrees d.size (FftParams.adicity F) m calls)
    {c : Configured F (ProverOracle F) (ProverOracle F) (ProverOracle F) (ProverOracle F)} (hc : configureAll calls s ts = .ok c) (vk : S.VK) :
    ∃ key, indexer (fun o => o.shouldPermute) vk c.vos c.lookups c.oracles.witness c.oracles.inst c.oracles.fixed d d.vanishing info
        usableRows (S := S) = .ok key ∧ key.vk = vk ∧ key.index.quotientDegree = m * (d.size - 1) - d.size ∧
      key.index.quotientDegree ≠ key.index.ext.size := by
  have hC := configureAll_ok hc
  have hz : toPoly d.vanishing = X ^ d.size - 1 := toPoly_vanishing d hd.size_pos
  have hzd : (toPoly d.vanishing).natDegree = d.size := by rw [hz]; exact natDegree_X_pow_sub_C (r := (1 : F))
  have hmax : maxGateDegree d.size c.vos = m * (d.size - 1) := by
    refine maxGateDegree_eq ?_ ?_
    · intro vo hvo
      obtain ⟨⟨e, qs⟩, h1, e', h2, rfl⟩ := mem_forall₂ hC.vos hvo
      refine ⟨e', rfl, ?_⟩
      rw [VExpr.toExpr_formalDegree _ _ _ _ _ _ h2]
      exact Nat.mul_le_mul_right _ (hdeg.bound e qs (mem_gates.1 h1))
    · obtain ⟨e, qs, h1, h2⟩ := hdeg.reached
      obtain ⟨vo, hvo, e', h3, rfl⟩ := mem_forall₂' hC.vos (mem_gates.2 h1)
      exact ⟨_, hvo, e', rfl, by rw [VExpr.toExpr_formalDegree _ _ _ _ _ _ h3, h2]⟩
  have hwrong : c.vos.findSome? (gateError (E := S.E) (Labels.of c.oracles.witness c.oracles.inst c.oracles.fixed)) = none := by
    rw [List.findSome?_eq_none_iff]
    intro vo hvo
    have hidx : ∃ index : Index F, index.lookups = c.lookups ∧ index.perm.usableRows = info.u ∧ index.usableRows = usableRows ∧
        index.perm.deltas = info.deltas ∧ d.size ≤ index.ext.size ∧ 0 < index.perm.maxCols :=
      ⟨⟨0, d, ⟨1, info.u, info.deltas⟩, c.lookups, usableRows⟩, rfl, rfl, rfl, rfl, le_rfl, Nat.one_pos⟩
    obtain ⟨index, i1, i2, i3, i4, i5, i6⟩ := hidx
    obtain ⟨e, he, hq⟩ := (circuit_parts hc hgood i1 i2 i3 i4 i5 (fun _ => i6)).2.2.1 vo hvo
    have he' : vo.expr = some e := by
      unfold GenericVO.getExpression at he
      cases hx : vo.expr with
      | none => rw [hx] at he; cases he
      | some x => rw [hx] at he; exact congrArg some (Res.ok.inj he)
    unfold gateError
    rw [he']
    simp only [Option.map_eq_none_iff]
    rw [List.find?_eq_none]
    intro q hq'
    obtain ⟨-, o, ⟨i, h1, h2, -⟩, -⟩ := hq q hq'
    have hmem : ∀ os : List (ProverOracle F), os[i]? = some o → q.label ∈ os.map ConcreteOracle.label := fun os h =>
      List.mem_map.2 ⟨o, List.mem_of_getElem? h, h2⟩
    unfold Labels.knows Labels.of
    revert h1
    cases q.oracleType <;> intro h1 <;> dsimp only <;> rw [Bool.not_eq_true', decide_eq_false_iff_not, not_not] <;> exact hmem _ h1
  have hpow : ∃ j, d.size = 2 ^ j := by
    obtain ⟨j, -, rfl⟩ := hd
    exact ⟨j, rfl⟩
  obtain ⟨f1, f2, f3, f4, f5⟩ := indexer_sizes (copied := (c.oracles.witness.filter (·.shouldPermute)).length) (lookups := c.lookups.length)
    hpow hdeg.two hdeg.rows hdeg.field
  obtain ⟨-, -, -, -, -, h, -⟩ := C19_indexer_outcome (S := S) (fun o : ProverOracle F => o.shouldPermute) vk c.vos c.lookups c.oracles.witness
    c.oracles.inst c.oracles.fixed d hd d.vanishing info usableRows
  rw [hmax, hzd] at h
  obtain ⟨key, h1, h2, h3, -, h5, -⟩ := h hwrong f1 f2 f3 f4
  exact ⟨key, h1, h2, h3, by rw [h3, h5]; exact f5⟩

end

section
variable {F : Type} [Field F] [LinearOrder F] [FftParams F] [LawfulFft F]
variable {s : Oracles (ProverOracle F) (ProverOracle F) (ProverOracle F)} {ts : List (ProverOracle F)} {calls : List (Call F)}
  {d : Domain F} {sigmas : List (ProverOracle F)} {qBlind : ProverOracle F} {info : PermutationInfo F} {usableRows : Nat}

/-- **C76** Prover and verifier make the same calls of `configure` on columns and on handles of them. Both succeed, and the indexer makes
the same key on both sides. -/
theorem C76_both_sides {S : Scheme F} (vk : S.VK) {com : F[X] → S.Rand → S.Comm} (hd : d.Ok)
    (hgood : GoodCircuit d d.size s ts calls sigmas qBlind info usableRows) (hrange : InRange s.count ts.length calls)
    {m : Nat} (hdeg : GateDegrees d.size (FftParams.adicity F) m calls)
    {s' : Oracles (VerifierOracle F S.Comm) (InstanceVerifierOracle F) (VerifierOracle F S.Comm)} {ts' : List (VerifierOracle F S.Comm)}
    (hv : FreshVerifier S com s ts s' ts') :
    ∃ c c' key, configureAll calls s ts = .ok c ∧ configureAll calls s' ts' = .ok c' ∧ c'.vos = c.vos ∧
      indexer (fun o => o.shouldPermute) vk c.vos c.lookups c.oracles.witness c.oracles.inst c.oracles.fixed d d.vanishing info usableRows
        (S := S) = .ok key ∧
      indexer (fun o => o.shouldPermute) vk c'.vos c'.lookups c'.oracles.witness c'.oracles.inst c'.oracles.fixed d d.vanishing info
        usableRows (S := S) = .ok key ∧
      key.vk = vk ∧ key.index.quotientDegree ≠ key.index.ext.size := by
  obtain ⟨c, hc⟩ := (C74_configure_succeeds calls s ts).2 hrange
  obtain ⟨key, hkey, rfl, -, hq⟩ := C76_key (S := S) hd hgood hdeg hc vk
  obtain ⟨hboth, hset⟩ := C74_set_up hgood.fresh hv calls
  obtain ⟨c', hc'⟩ := hboth.1 ⟨c, hc⟩
  obtain ⟨hvos, hlks, hsu⟩ := hset c c' hc hc'
  have hsu := hsu [] testSelector [] (VerifierOracle.newFixed (bytes "q_blind") (some (com (toPoly []) S.emptyRand))) .nil
    ⟨⟨rfl, rfl, rfl⟩, rfl⟩
  refine ⟨c, c', key, hc, hc', hvos, hkey, ?_, rfl, hq⟩
  rw [hvos, hlks]
  have hlab : ∀ {os : List (ProverOracle F)} {ps : List (VerifierOracle F S.Comm)} {P : ProverOracle F → VerifierOracle F S.Comm → Prop},
      List.Forall₂ P os ps → (∀ o p, P o p → SameConfig o p) → ps.map ConcreteOracle.label = os.map ConcreteOracle.label := by
    intro os ps P h hP
    induction h with
    | nil => rfl
    | cons h _ ih => rw [List.map_cons, List.map_cons, ih]; exact congrArg (· :: _) (hP _ _ h).1
  have hil : c'.oracles.inst.map ConcreteOracle.label = c.oracles.inst.map ConcreteOracle.label := by
    have := hsu.inst
    dsimp only at this
    generalize c.oracles.inst = os at this
    generalize c'.oracles.inst = ps at this
    induction this with
    | nil => rfl
    | cons h _ ih => rw [List.map_cons, List.map_cons, ih]; exact congrArg (· :: _) h.1
  rw [C76_same_key (S := S) (fun o : ProverOracle F => o.shouldPermute) (fun o : VerifierOracle F S.Comm => o.shouldPermute)
    (s := c.oracles) (s' := c'.oracles) ⟨hlab hsu.witness fun _ _ h => h, hil, hlab hsu.fixed fun _ _ h => h.1⟩
    (filter_forall₂ (fun _ _ h => h.2.2) hsu.witness).length_eq.symm key.vk c.vos c.lookups hd]
  exact hkey

/-- **C76** From the description of a circuit to an accepted proof. The hypotheses are about what the client supplies: a commitment
scheme that supports `n` coefficients, columns, calls of `configure` with indices in range, gates of degree between two and `n`, the
sigmas of a permutation, a blinding selector, and values that satisfy the gates, the lookups and the copies on all rows. Then
`configure` and the indexer succeed on both sides, both sides hold the same gates and the same key, and the proof made with this key
is accepted by the verifier with its own key, except for the three events of C52. -/
theorem C76_client {S : Scheme F} {ck : S.CK} {vk : S.VK} {com : F[X] → S.Rand → S.Comm} (hS : HomomorphicScheme S ck vk com)
    (hd : d.Ok) (hn : SupportsDegree S ck d.size)
    -- the circuit
    (hgood : GoodCircuit d d.size s ts calls sigmas qBlind info usableRows) (hrange : InRange s.count ts.length calls)
    {m : Nat} (hdeg : GateDegrees d.size (FftParams.adicity F) m calls)
    {tau : Equiv.Perm (Fin (s.witness.filter (·.shouldPermute)).length × Fin info.u)} (henc : MadeFrom d info.deltas sigmas tau)
    -- the verifier's side
    {s' : Oracles (VerifierOracle F S.Comm) (InstanceVerifierOracle F) (VerifierOracle F S.Comm)} {ts' : List (VerifierOracle F S.Comm)}
    (hv : FreshVerifier S com s ts s' ts') {perm : List (VerifierOracle F S.Comm)} {vBlind : VerifierOracle F S.Comm}
    (hperm : List.Forall₂ (fun o p => SameConfig o p ∧ p.commitment = some (com (toPoly o.poly) S.emptyRand)) sigmas perm)
    (hblind : SameConfig qBlind vBlind ∧ vBlind.commitment = some (com (toPoly qBlind.poly) S.emptyRand))
    -- the columns satisfy the circuit
    (hg : GateCallsHold d s calls (X ^ d.size - 1)) (hl : LookupCallsHold d.size usableRows s ts calls)
    (hcop : ∀ x, cell (s.witness.filter (·.shouldPermute)) (tau x) = cell (s.witness.filter (·.shouldPermute)) x) :
    ∃ c c' key, configureAll calls s ts = .ok c ∧ configureAll calls s' ts' = .ok c' ∧ c'.vos = c.vos ∧
      indexer (fun o => o.shouldPermute) vk c.vos c.lookups c.oracles.witness c.oracles.inst c.oracles.fixed d d.vanishing info usableRows
        (S := S) = .ok key ∧
      indexer (fun o => o.shouldPermute) vk c'.vos c'.lookups c'.oracles.witness c'.oracles.inst c'.oracles.fixed d d.vanishing info
        usableRows (S := S) = .ok key ∧
      ∀ z, ∃ theta beta gamma,
        FirstMessages S ⟨key, ck⟩ ⟨c.oracles.witness, c.oracles.inst, c.oracles.fixed, c.tables⟩ d z theta beta gamma ∧
        (GoodDraw d key.index ⟨c.oracles.witness, c.oracles.inst, c.oracles.fixed, c.tables⟩ sigmas theta beta gamma →
          ∃ tr, proveRounds S ⟨key, ck⟩ (.new S c.oracles.fixed sigmas c.tables qBlind key.index) c.oracles.witness c.oracles.inst c.vos
              d.size z = .ok tr ∧ tr.chal.theta = theta ∧ tr.chal.beta = beta ∧ tr.chal.gamma = gamma ∧
            (tr.chal.xi ≠ 0 →
              ∃ proof, prove S ⟨key, ck⟩ (.new S c.oracles.fixed sigmas c.tables qBlind key.index) c.oracles.witness c.oracles.inst c.vos
                  d.size z = .ok proof ∧ (verifierChallenges S proof).1 = tr.chal ∧
                ((∀ k : ℤ, (mpChallenges S proof.multiopen (verifierChallenges S proof).2).2.2.1 ≠ tr.chal.xi * d.omega ^ k) →
                  verify S key ⟨c'.oracles.fixed, c'.tables, perm, vBlind⟩ proof c'.oracles.witness c'.oracles.inst c'.vos d.size d.vanishing =
                    .ok ()))) := by
  obtain ⟨c, c', key, hc, hc', hvos, hkey, hkey', rfl, hq⟩ := C76_both_sides vk hd hgood hrange hdeg hv
  have hz : toPoly d.vanishing = X ^ d.size - 1 := toPoly_vanishing d hd.size_pos
  have hzd : (toPoly d.vanishing).natDegree = d.size := by rw [hz]; exact natDegree_X_pow_sub_C (r := (1 : F))
  have h1 : 1 < d.size := hdeg.rows.one_lt
  have hC := configureAll_ok hc
  refine ⟨c, c', key, hc, hc', hvos, hkey, hkey', fun z => ?_⟩
  obtain ⟨c'', hc'', h⟩ := C74_end_to_end (pk := ⟨key, ck⟩) hS hd h1 hn hgood henc hc hv hperm hblind (fun ⟨o, ho, hp⟩ => by
      obtain ⟨o', ho', he⟩ := mem_forall₂' hC.oracles.1.erased ho
      exact ⟨o', ho', (erase_copied he).trans hp⟩) hkey (trim_vanishing d).symm (by rw [hz]) (Or.inl hz) hq
    (fun _ => by rw [hzd]; omega) (by rw [hz]; exact hg) hl hcop z
  obtain rfl := Res.ok.inj (hc'.symm.trans hc'')
  exact h

/-- **C76** Circuits that consist of gates, as in the tests of the precompiled gates (src/vo/precompiled/mul.rs 73-240, tests.rs): no
column is copied, nothing is looked up, the selector is the zero polynomial and the verifier's inputs are made with `new_wo_blind`. Then
no challenge makes the prover fail before the evaluation challenge is drawn; it returns a proof unless this challenge is zero; and the
proof is accepted unless `x3` meets an opening point. -/
theorem C76_gates_only {S : Scheme F} {ck : S.CK} {vk : S.VK} {com : F[X] → S.Rand → S.Comm} (hS : HomomorphicScheme S ck vk com)
    (hd : d.Ok) (hn : SupportsDegree S ck d.size)
    -- the circuit
    (hfresh : FreshColumns d d.size s []) (hcalls : GoodCalls d.size calls) (hrange : InRange s.count 0 calls)
    (hgates : ∀ call ∈ calls, ∃ e qs, call = .gate e qs) (hplain : ∀ o ∈ s.witness, o.shouldPermute = false)
    {m : Nat} (hdeg : GateDegrees d.size (FftParams.adicity F) m calls) (hu : info.u < d.size)
    -- the verifier's side
    {s' : Oracles (VerifierOracle F S.Comm) (InstanceVerifierOracle F) (VerifierOracle F S.Comm)}
    (hv : FreshVerifier S com s [] s' [])
    -- the columns satisfy the gates
    (hg : GateCallsHold d s calls (X ^ d.size - 1)) :
    ∃ c c' key, configureAll calls s ([] : List (ProverOracle F)) = .ok c ∧
      configureAll calls s' ([] : List (VerifierOracle F S.Comm)) = .ok c' ∧
      indexer (fun o => o.shouldPermute) vk c.vos [] c.oracles.witness c.oracles.inst c.oracles.fixed d d.vanishing info usableRows
        (S := S) = .ok key ∧
      indexer (fun o => o.shouldPermute) vk c'.vos [] c'.oracles.witness c'.oracles.inst c'.oracles.fixed d d.vanishing info usableRows
        (S := S) = .ok key ∧
      ∀ z, ∃ tr, proveRounds S ⟨key, ck⟩ (.new S c.oracles.fixed [] [] testSelector key.index) c.oracles.witness c.oracles.inst c.vos
          d.size z = .ok tr ∧
        (tr.chal.xi ≠ 0 →
          ∃ proof, prove S ⟨key, ck⟩ (.new S c.oracles.fixed [] [] testSelector key.index) c.oracles.witness c.oracles.inst c.vos
              d.size z = .ok proof ∧ (verifierChallenges S proof).1 = tr.chal ∧
            ((∀ k : ℤ, (mpChallenges S proof.multiopen (verifierChallenges S proof).2).2.2.1 ≠ tr.chal.xi * d.omega ^ k) →
              verify S key (.newWoBlind S c'.oracles.fixed [] []) proof c'.oracles.witness c'.oracles.inst c'.vos d.size d.vanishing =
                .ok ())) := by
  have hnocopy : ¬ ∃ o ∈ s.witness, o.shouldPermute = true := fun ⟨o, ho, h⟩ => by rw [hplain o ho] at h; cases h
  have hnolook : ¬ ∃ es qs ts, Call.lookup es qs ts ∈ calls := fun ⟨es, qs, ts, h⟩ => by
    obtain ⟨e, qs', h'⟩ := hgates _ h
    cases h'
  have hnil : s.witness.filter (·.shouldPermute) = [] := by
    rw [List.filter_eq_nil_iff]
    intro o ho h
    exact hnocopy ⟨o, ho, h⟩
  have hgood : GoodCircuit d d.size s [] calls [] testSelector info usableRows := by
    refine ⟨hfresh, hcalls, ?_, ?_, ?_, ⟨Nat.zero_le _, .inl rfl⟩, ?_, ?_, hu, ?_⟩
    · obtain ⟨e, qs, h, -⟩ := hdeg.reached
      exact ⟨e, qs, h⟩
    · intro i o ho h
      exact absurd ⟨o, List.mem_of_getElem? ho, h⟩ hnocopy
    · intro o ho; cases ho
    · intro h; exact absurd h hnocopy
    · intro h; exact absurd h hnocopy
    · intro h; exact absurd h hnolook
  have hempty : ∀ x : Fin (s.witness.filter (·.shouldPermute)).length × Fin info.u, False := by
    rintro ⟨⟨i, hi⟩, -⟩
    rw [hnil] at hi
    exact Nat.not_lt_zero _ hi
  obtain ⟨c, c', key, hc, hc', hvos, hkey, hkey', h⟩ := C76_client (sigmas := []) (qBlind := testSelector) (perm := [])
    (vBlind := VerifierOracle.newFixed (bytes "q_blind") (some S.zero)) (tau := Equiv.refl _) hS hd hn hgood hrange hdeg
    (fun x => (hempty x).elim) hv .nil ⟨⟨rfl, rfl, rfl⟩, congrArg some hS.zero⟩ hg (fun es qs ts h => absurd ⟨es, qs, ts, h⟩ hnolook)
    (fun x => (hempty x).elim)
  have hC := configureAll_ok hc
  have hC' := configureAll_ok hc'
  have hno : calls.filterMap Call.isLookup? = [] := by
    rw [List.filterMap_eq_nil_iff]
    intro call hcall
    obtain ⟨e, qs, rfl⟩ := hgates call hcall
    rfl
  have hl : c.lookups = [] := by
    have := hC.lookups
    rw [hno] at this
    exact List.forall₂_nil_left_iff.1 this
  have hl' : c'.lookups = [] := by
    have := hC'.lookups
    rw [hno] at this
    exact List.forall₂_nil_left_iff.1 this
  have ht : c.tables = [] := by
    have := hC.tables.erased
    exact List.forall₂_nil_left_iff.1 this
  have ht' : c'.tables = [] := by
    have := hC'.tables.erased
    exact List.forall₂_nil_left_iff.1 this
  have hfil : c.oracles.witness.filter (·.shouldPermute) = [] := by
    have := configured_copied hC
    rw [hnil] at this
    exact List.forall₂_nil_left_iff.1 this
  have hlk : key.index.lookups = c.lookups := (indexer_ok hd hkey).2.2.2.2.2.2.2.2.2.2.2.1
  rw [hl] at hkey hlk
  rw [hl'] at hkey'
  refine ⟨c, c', key, hc, hc', hkey, hkey', fun z => ?_⟩
  obtain ⟨theta, beta, gamma, -, h⟩ := h z
  obtain ⟨tr, h1, -, -, -, h2⟩ := h ⟨fun x => by
      obtain ⟨⟨i, hi⟩, -⟩ := x
      dsimp only at hi
      rw [hfil] at hi
      exact absurd hi (Nat.not_lt_zero _), fun l hl => by rw [hlk] at hl; cases hl⟩
  rw [ht, ht'] at *
  exact ⟨tr, h1, h2⟩

end
end ZK
