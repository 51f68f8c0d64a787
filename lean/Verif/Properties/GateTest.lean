import Verif.Properties.Client
import Verif.Properties.Gates
/-! C77: the crate's tests of single gates succeed for all inputs. -/
set_option autoImplicit false
set_option linter.unusedSectionVars false
namespace ZK
open Polynomial

section
variable {F : Type} [Field F] [LinearOrder F] [FftParams F] [LawfulFft F]

theorem interpolated_isColumn {d : Domain F} (hd : d.Ok) {o : ProverOracle F} {v : List F} (hv : v.length = d.size) (he : o.evals = v)
    (hp : o.poly = trim (d.ifft v)) : Interpolates d o ∧ o.poly.length ≤ d.size := by
  refine ⟨⟨by rw [he, hv], fun i hi => ?_⟩, ?_⟩
  · rw [he, hp, toPoly_trim, ← peval_eq_eval]
    have := hd.peval_ifft hv i hi
    unfold Domain.element at this
    rw [this, List.getElem?_eq_getElem (by omega)]
  · rw [hp]
    exact (trim_length_le _).trans (by rw [Domain.ifft_length])

theorem test_fresh {d : Domain F} (hd : d.Ok) {t : TestColumns F} (ht : t.Wellformed d.size) : FreshColumns d d.size (t.prover d) [] := by
  constructor
  · intro o ho
    simp only [TestColumns.prover, List.append_nil, List.mem_append, List.mem_map] at ho
    rcases ho with (⟨c, hc, rfl⟩ | ⟨c, hc, rfl⟩) | ⟨c, hc, rfl⟩
    · exact ⟨interpolated_isColumn hd ((ht .witness).1 c hc) rfl rfl, rfl⟩
    · exact ⟨interpolated_isColumn hd ((ht .instance_).1 c hc) rfl rfl, rfl⟩
    · exact ⟨interpolated_isColumn hd ((ht .fixed).1 c hc) rfl rfl, rfl⟩
  · refine ⟨⟨?_, ?_, ?_⟩, List.nodup_nil⟩
    · have := (ht .witness).2
      simp only [TestColumns.prover, List.map_map]
      exact this
    · have := (ht .instance_).2
      simp only [TestColumns.prover, List.map_map]
      exact this
    · have := (ht .fixed).2
      simp only [TestColumns.prover, List.map_map]
      exact this

theorem test_reads {d : Domain F} {t : TestColumns F} {i : Nat} {q : VirtualQuery} {y : F} (h : VReads d.size (t.prover d) i q y) :
    y = t.cell d.size i q := by
  obtain ⟨o, ho, j, hj, hy⟩ := h
  have key : ∃ c, (t.ofType q.oracleType)[q.index]? = some c ∧ o.evals = c.2 := by
    revert ho
    cases q.oracleType <;> intro ho <;> simp only [TestColumns.prover, Oracles.ofType, List.getElem?_map, Option.map_eq_some_iff] at ho <;>
      obtain ⟨c, hc, rfl⟩ := ho <;> exact ⟨c, hc, rfl⟩
  obtain ⟨c, hc, he⟩ := key
  unfold TestColumns.cell
  rw [hc, ← hj, Int.toNat_natCast]
  rw [he] at hy
  simp only [List.getD_eq_getElem?_getD, hy, Option.getD_some]

theorem configureAll_single {W I X Y : Type} [ConcreteOracle W] [ConcreteOracle I] [ConcreteOracle X] [ConcreteOracle Y]
    {gate : VExpr F × List VirtualQuery} {s : Oracles W I X} {ts : List Y} {c : Configured F W I X Y}
    (h : configureAll [.gate gate.1 gate.2] s ts = .ok c) :
    ∃ vo s', (GenericVO.init gate).configure s = .ok (vo, s') ∧ c = ⟨[vo], [], s', ts⟩ := by
  unfold configureAll at h
  cases hc : (GenericVO.init gate).configure s with
  | ok r =>
    obtain ⟨vo, s'⟩ := r
    have hc' : (GenericVO.init (gate.1, gate.2)).configure s = .ok (vo, s') := hc
    rw [hc'] at h
    exact ⟨vo, s', rfl, (Res.ok.inj h).symm⟩
  | err e =>
    have hc' : (GenericVO.init (gate.1, gate.2)).configure s = .err e := hc
    rw [hc'] at h
    cases h
  | panic =>
    have hc' : (GenericVO.init (gate.1, gate.2)).configure s = .panic := hc
    rw [hc'] at h
    cases h

theorem test_fixed {S : Scheme F} {ck : S.CK} {com : F[X] → S.Rand → S.Comm} {d : Domain F} (hn : SupportsDegree S ck d.size)
    (hplain : ∀ p cs, S.commitPlain ck p = .ok cs → cs = [com (toPoly p.poly) S.emptyRand]) (l : List (Label × List F)) :
    Res.mapM (fixedHandle S ck d) l =
      .ok (l.map (fun c => VerifierOracle.newFixed c.1 (some (com (toPoly (trim (d.ifft c.2))) S.emptyRand)))) := by
  induction l with
  | nil => rfl
  | cons c l ih =>
    obtain ⟨cs, hcs⟩ := hn.commitPlain ⟨c.1, trim (d.ifft c.2), false⟩ ((trim_length_le _).trans (by rw [Domain.ifft_length]))
    have hh : fixedHandle S ck d c = .ok (VerifierOracle.newFixed c.1 (some (com (toPoly (trim (d.ifft c.2))) S.emptyRand))) := by
      unfold fixedHandle
      rw [hcs, hplain _ _ hcs]
      rfl
    simp only [Res.mapM, hh, ih, List.map_cons]

/-- **C77** The test program of a single gate, for every gate, all columns and every number of rows. If the gate is zero on every row,
then the prover reaches the evaluation challenge; it returns a proof unless this challenge is zero; and the verifier, which has its own
oracles and makes its own key, accepts it unless `x3` meets an opening point. -/
theorem C77_gate {S : Scheme F} {ck : S.CK} {vk : S.VK} {com : F[X] → S.Rand → S.Comm} (hS : HomomorphicScheme S ck vk com)
    (hplain : ∀ p cs, S.commitPlain ck p = .ok cs → cs = [com (toPoly p.poly) S.emptyRand])
    {d : Domain F} (hd : d.Ok) (hn : SupportsDegree S ck d.size) {t : TestColumns F} (ht : t.Wellformed d.size)
    {gate : VExpr F × List VirtualQuery} {m : Nat}
    (hfits : GateFits d.size (FftParams.adicity F) m (fun ty => (t.ofType ty).length) gate)
    (hzero : ∀ i < d.size, gate.1.denote id (t.cell d.size i) = 0) (z : S.Z) :
    ∃ tr, runRounds S ck vk d t gate z = .ok tr ∧
      (tr.chal.xi ≠ 0 → ∃ proof, runProver S ck vk d t gate z = .ok proof ∧ (verifierChallenges S proof).1 = tr.chal ∧
        ((∀ k : ℤ, (mpChallenges S proof.multiopen (verifierChallenges S proof).2).2.2.1 ≠ tr.chal.xi * d.omega ^ k) →
          runVerifier S ck vk d t gate proof = .ok ())) := by
  have hmem : ∀ {call : Call F}, call ∈ [Call.gate gate.1 gate.2] → call = .gate gate.1 gate.2 := fun h => List.mem_singleton.1 h
  have hpos : 0 < d.size := hd.size_pos
  have hcount : ∀ ty, (t.prover d).count ty = (t.ofType ty).length := by
    intro ty
    cases ty <;> exact List.length_map ..
  have hcalls : GoodCalls d.size [Call.gate gate.1 gate.2] := by
    constructor
    · intro c hc e he q hq
      obtain rfl := hmem hc
      obtain rfl := List.mem_singleton.1 he
      exact hfits.listed q hq
    · intro c hc q hq
      obtain rfl := hmem hc
      exact hfits.small q (by simpa [Call.queries, Call.tables] using hq)
    · intro c hc c' hc' q hq q' hq'
      obtain rfl := hmem hc
      obtain rfl := hmem hc'
      exact hfits.distinct q (by simpa [Call.queries, Call.tables] using hq) q' (by simpa [Call.queries, Call.tables] using hq')
    · intro es qs ts h
      cases hmem h
  obtain ⟨c, c', key, hc, hc', hkey, hkey', h⟩ := C76_gates_only (s := t.prover d) (calls := [.gate gate.1 gate.2])
    (info := PermutationInfo.empty) (usableRows := 0) (m := m) hS hd hn (test_fresh hd ht) hcalls (by
      intro call hcall
      obtain rfl := hmem hcall
      refine ⟨fun q hq => by rw [hcount]; exact hfits.range q hq, fun e he q hq => ?_, fun t ht => by cases ht⟩
      obtain rfl := List.mem_singleton.1 he
      rw [hcount]
      exact hfits.range q (hfits.listed q hq))
    (fun call hcall => ⟨_, _, hmem hcall⟩) (by
      intro o ho
      obtain ⟨c, -, rfl⟩ := List.mem_map.1 ho
      rfl)
    ⟨fun e qs h => by cases hmem h; exact hfits.degree.le, ⟨_, _, List.mem_singleton.2 rfl, hfits.degree⟩, hfits.two, hfits.rows, hfits.field⟩
    hpos
    (s' := ⟨t.witness.map (fun c => VerifierOracle.newWitness c.1 false),
      t.inst.map (fun c => (⟨c.1, trim (d.ifft c.2), []⟩ : InstanceVerifierOracle F)),
      t.fixed.map (fun c => VerifierOracle.newFixed c.1 (some (com (toPoly (trim (d.ifft c.2))) S.emptyRand)))⟩) (by
      refine ⟨?_, ?_, ?_, .nil⟩
      · exact List.forall₂_map_left_iff.2 (List.forall₂_map_right_iff.2 (List.forall₂_same.2 fun c _ => ⟨rfl, rfl, rfl⟩))
      · exact List.forall₂_map_left_iff.2 (List.forall₂_map_right_iff.2 (List.forall₂_same.2 fun c _ => ⟨rfl, rfl, rfl⟩))
      · exact List.forall₂_map_left_iff.2 (List.forall₂_map_right_iff.2 (List.forall₂_same.2 fun c _ => ⟨⟨rfl, rfl, rfl⟩, rfl⟩)))
    (by
      intro e qs h i hi _ y hy
      cases hmem h
      rw [VExpr.denote_congr id _ fun q hq => test_reads (hy q hq)]
      exact hzero i hi)
  obtain ⟨vo, s1, g1, rfl⟩ := configureAll_single hc
  obtain ⟨vo', s1', g1', rfl⟩ := configureAll_single hc'
  have htest : testProver S vk d t gate = .ok ⟨key, vo, s1⟩ := by
    unfold testProver
    rw [g1]
    exact Res.bind_eq_ok.2 ⟨_, rfl, Res.bind_eq_ok.2 ⟨_, by rw [hkey]; rfl, rfl⟩⟩
  obtain ⟨tr, h1, h2⟩ := h z
  refine ⟨tr, Res.bind_eq_ok.2 ⟨_, htest, h1⟩, fun hxi => ?_⟩
  obtain ⟨proof, h3, h4, h5⟩ := h2 hxi
  refine ⟨proof, Res.bind_eq_ok.2 ⟨_, htest, ?_⟩, h4, fun hx3 => ?_⟩
  · show (prove _ _ _ _ _ _ _ _).orPanic = _
    rw [h3]
    rfl
  · refine Res.bind_eq_ok.2 ⟨_, test_fixed hn hplain t.fixed, Res.bind_eq_ok.2 ⟨(vo', s1'), by rw [g1']; rfl, Res.bind_eq_ok.2 ⟨key, ?_, h5 hx3⟩⟩⟩
    show (indexer _ _ _ _ _ _ _ _ _ _ _).orPanic = _
    rw [hkey']
    rfl

end

section
variable {F : Type} [Field F]

/-- The number of columns of every type a gate needs. -/
def needs (w i f : Nat) : OracleType → Nat
  | .witness => w
  | .instance_ => i
  | .fixed => f

theorem gateFits_of {n adicity m : Nat} {columns need : OracleType → Nat} {gate : VExpr F × List VirtualQuery}
    (hlisted : ∀ q ∈ gate.1.queries, q ∈ gate.2) (hq : ∀ q ∈ gate.2, q.index < need q.oracleType ∧
      (q.rotation = ⟨0, .plus⟩ ∨ q.rotation = ⟨1, .plus⟩)) (hdeg : gate.1.totalDegree = m) (hm : 2 ≤ m)
    (hcols : ∀ ty, need ty ≤ columns ty) (hrows : DegreeFits n m) (hf : max 4 m * n ≤ 2 ^ adicity) : GateFits n adicity m columns gate := by
  have hn := hrows.one_lt
  have hne : ¬ ((0 : ℤ) ≡ 1 [ZMOD n]) := by
    intro h
    have h1 := (Int.modEq_iff_dvd.1 h)
    have h2 : (n : ℤ) ≤ 1 := Int.le_of_dvd (by norm_num) (by simpa using h1)
    omega
  refine ⟨hlisted, fun q h => (hq q h).1.trans_le (hcols _), ?_, ?_, hdeg, hm, hrows, hf⟩
  · intro q h
    rcases (hq q h).2 with h | h <;> rw [h] <;> show _ < n <;> dsimp only <;> omega
  · intro q h1 q' h1' h
    rcases (hq q h1).2 with e | e <;> rcases (hq q' h1').2 with e' | e' <;> rw [e, e'] at h ⊢
    · exact absurd h hne
    · exact absurd h.symm hne

/-- **C77** Every precompiled gate is one of the gates `C77_gate` is about, for every number of rows from eight on, every field with
the domains for its degree, and as many columns as it reads or more. -/
theorem C77_precompiled {n adicity : Nat} (hn : 8 ≤ n) (columns : OracleType → Nat) :
    ((∀ ty, needs 2 1 0 ty ≤ columns ty) → 4 * n ≤ 2 ^ adicity → GateFits n adicity 2 columns (Gates.mul (F := F))) ∧
    ((∀ ty, needs 3 1 5 ty ≤ columns ty) → 4 * n ≤ 2 ^ adicity → GateFits n adicity 3 columns (Gates.plonkArith (F := F))) ∧
    ((∀ ty, needs 3 1 6 ty ≤ columns ty) → 4 * n ≤ 2 ^ adicity → GateFits n adicity 3 columns (Gates.plonkArith4 (F := F))) ∧
    ((∀ ty, needs 5 0 4 ty ≤ columns ty) → 6 * n ≤ 2 ^ adicity → GateFits n adicity 6 columns (Gates.rescue (F := F))) ∧
    ((∀ ty, needs 1 0 1 ty ≤ columns ty) → 5 * n ≤ 2 ^ adicity → GateFits n adicity 5 columns (Gates.delta (F := F))) ∧
    ((∀ ty, needs 4 0 1 ty ≤ columns ty) → 4 * n ≤ 2 ^ adicity → GateFits n adicity 3 columns (Gates.deltaXorAnd (F := F))) := by
  have hall := fun g hg q => (Gates.all_queries (F := F) g hg q).1
  refine ⟨fun hc hf => gateFits_of (hall _ ?_) (?_ : ∀ q ∈ [Gates.wq 0, Gates.wq 1, Gates.iq 0], _) rfl (by norm_num) hc (degreeFits_of_eight (by norm_num) (by omega) hn) hf,
    fun hc hf => gateFits_of (hall _ ?_) (?_ : ∀ q ∈ [Gates.fq 0, Gates.fq 1, Gates.fq 2, Gates.fq 3, Gates.fq 4, Gates.iq 0, Gates.wq 0,
      Gates.wq 1, Gates.wq 2], _) rfl (by norm_num) hc (degreeFits_of_eight (by norm_num) (by omega) hn) hf,
    fun hc hf => gateFits_of (hall _ ?_) (?_ : ∀ q ∈ [Gates.fq 0, Gates.fq 1, Gates.fq 2, Gates.fq 3, Gates.fq 4, Gates.fq 5, Gates.iq 0,
      Gates.wq 0, Gates.wq 1, Gates.wq 2], _) rfl (by norm_num) hc (degreeFits_of_eight (by norm_num) (by omega) hn) hf,
    fun hc hf => gateFits_of (hall _ ?_) (?_ : ∀ q ∈ [Gates.fq 0, Gates.fq 1, Gates.fq 2, Gates.fq 3, Gates.wq 0, Gates.wq 1, Gates.wq 2,
      Gates.wq 3, Gates.wq 4], _) rfl (by norm_num) hc (degreeFits_of_eight (by norm_num) (by omega) hn) hf,
    fun hc hf => gateFits_of (hall _ ?_) (?_ : ∀ q ∈ [Gates.fq 0, Gates.wq 0, ⟨0, .next, .witness⟩], _) rfl (by norm_num) hc (degreeFits_of_eight (by norm_num) (by omega) hn) hf,
    fun hc hf => gateFits_of (hall _ ?_) (?_ : ∀ q ∈ [Gates.wq 0, Gates.wq 1, Gates.wq 2, Gates.wq 3, Gates.fq 0], _) rfl (by norm_num) hc
      (degreeFits_of_eight (by norm_num) (by omega) hn) hf⟩
  all_goals first
    | decide
    | simp [Gates.all]

end

section
variable {F : Type} [Field F] [LinearOrder F] [FftParams F] [LawfulFft F] {G : Type} [AddCommGroup G] [Module F G]
variable {G2 GT : Type} [AddCommGroup G2] [Module F G2] [AddCommGroup GT] [Module F GT] [DecidableEq GT]

/-- **C77** The test program of a single gate with KZG keys made by `universal_setup` and `prepare_keys` for the degree `n - 1` (as in the
tests) or more. -/
theorem C77_kzg (e : G →ₗ[F] G2 →ₗ[F] GT) (env : KzgEnv F G) {maxDegree : Nat} {beta : F} {g gammaG : G} {h : G2} {srs : KzgSrs G G2}
    {ck : KzgKey G} {vk : KzgVk G G2} (hsrs : universalSetup maxDegree beta g gammaG h = .ok srs) (hkeys : prepareKeys srs = .ok (ck, vk))
    {d : Domain F} (hd : d.Ok) (hn : d.size ≤ maxDegree + 1) {t : TestColumns F} (ht : t.Wellformed d.size)
    {gate : VExpr F × List VirtualQuery} {m : Nat}
    (hfits : GateFits d.size (FftParams.adicity F) m (fun ty => (t.ofType ty).length) gate)
    (hzero : ∀ i < d.size, gate.1.denote id (t.cell d.size i) = 0) (z : env.Z) :
    ∃ tr, runRounds (kzgScheme e env) ck vk d t gate z = .ok tr ∧
      (tr.chal.xi ≠ 0 → ∃ proof, runProver (kzgScheme e env) ck vk d t gate z = .ok proof ∧
        (verifierChallenges (kzgScheme e env) proof).1 = tr.chal ∧
        ((∀ k : ℤ, (mpChallenges (kzgScheme e env) proof.multiopen (verifierChallenges _ proof).2).2.2.1 ≠ tr.chal.xi * d.omega ^ k) →
          runVerifier (kzgScheme e env) ck vk d t gate proof = .ok ())) := by
  have hf := fromSetup_of_keys hsrs hkeys
  have h3 : 3 ≤ ck.gammaPowers.length := by rw [hf.gammaPowers]; exact le_rfl
  have hpos := hd.size_pos
  refine C77_gate (C44_homomorphic e env hf.kzgSetup h3) ?_ hd (C52_kzg_supports e env hpos (by rw [hf.powers]; simpa using hn) h3) ht hfits hzero z
  intro p cs hcs
  obtain ⟨c, hc, hcs⟩ := Res.bind_eq_ok.1 hcs
  obtain ⟨-, -, rfl⟩ := (kzgCommitWith_iff ..).1 hc
  exact (Res.ok.inj hcs).symm

/-- **C77** `test_simple_mul` (src/vo/precompiled/mul.rs 73-240) for all inputs: for two columns `a` and `b` of `n` values and the public
column of their products, every secret of the setup and all randomness, the verifier accepts the proof unless the evaluation challenge is
zero or `x3` meets an opening point. -/
theorem C77_mul (e : G →ₗ[F] G2 →ₗ[F] GT) (env : KzgEnv F G) {maxDegree : Nat} {beta : F} {g gammaG : G} {h : G2} {srs : KzgSrs G G2}
    {ck : KzgKey G} {vk : KzgVk G G2} (hsrs : universalSetup maxDegree beta g gammaG h = .ok srs) (hkeys : prepareKeys srs = .ok (ck, vk))
    {d : Domain F} (hd : d.Ok) (h8 : 8 ≤ d.size) (h4 : 4 * d.size ≤ 2 ^ FftParams.adicity F) (hn : d.size ≤ maxDegree + 1)
    {la lb lc : Label} (hl : la ≠ lb) {a b : List F} (ha : a.length = d.size) (hb : b.length = d.size) (z : env.Z) :
    let t : TestColumns F := ⟨[(la, a), (lb, b)], [(lc, List.zipWith (· * ·) a b)], []⟩
    ∃ tr, runRounds (kzgScheme e env) ck vk d t Gates.mul z = .ok tr ∧
      (tr.chal.xi ≠ 0 → ∃ proof, runProver (kzgScheme e env) ck vk d t Gates.mul z = .ok proof ∧
        (verifierChallenges (kzgScheme e env) proof).1 = tr.chal ∧
        ((∀ k : ℤ, (mpChallenges (kzgScheme e env) proof.multiopen (verifierChallenges _ proof).2).2.2.1 ≠ tr.chal.xi * d.omega ^ k) →
          runVerifier (kzgScheme e env) ck vk d t Gates.mul proof = .ok ())) := by
  intro t
  have hlen : (List.zipWith (· * ·) a b).length = d.size := by rw [List.length_zipWith, ha, hb, min_self]
  refine C77_kzg e env hsrs hkeys hd hn ?_ ((C77_precompiled h8 _).1 ?_ (by omega)) ?_ z
  · intro ty
    cases ty
    · simp [t, TestColumns.ofType, ha, hb, hl]
    · simp only [t, TestColumns.ofType, List.mem_singleton, forall_eq, hlen, List.map_cons, List.map_nil, List.nodup_singleton, and_self]
    · simp [t, TestColumns.ofType]
  · intro ty
    cases ty <;> simp [t, TestColumns.ofType, needs]
  · intro i hi
    have hcell : ∀ (c : Label × List F) (q : VirtualQuery), (t.ofType q.oracleType)[q.index]? = some c → q.rotation.signed = 0 →
        t.cell d.size i q = c.2.getD i 0 := by
      intro c q h1 h2
      unfold TestColumns.cell
      have : (((i : ℤ) + q.rotation.signed) % d.size).toNat = i := by
        rw [h2, add_zero, Int.emod_eq_of_lt (by omega) (by omega), Int.toNat_natCast]
      rw [h1, this]
    show t.cell d.size i (Gates.wq 0) * t.cell d.size i (Gates.wq 1) + -t.cell d.size i (Gates.iq 0) = 0
    rw [hcell _ (Gates.wq 0) rfl rfl, hcell _ (Gates.wq 1) rfl rfl, hcell _ (Gates.iq 0) rfl rfl]
    have h1 : i < a.length := by omega
    have h2 : i < b.length := by omega
    have h3 : i < (List.zipWith (· * ·) a b).length := by omega
    simp only [List.getD_eq_getElem _ _ h1, List.getD_eq_getElem _ _ h2, List.getD_eq_getElem _ _ h3, List.getElem_zipWith]
    ring

end
end ZK
