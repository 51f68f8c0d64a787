import Verif.Properties.Completeness
import Verif.Lemmas.SoundRow
import Verif.Lemmas.Ideal
/-! The hypotheses of completeness are met by a small circuit with two gates, a copy constraint and a lookup, and
completeness fails for a quotient whose degree is the size of the extended domain. -/
set_option autoImplicit false
set_option linter.unusedSectionVars false
namespace ZK
open Polynomial

section
variable {F : Type} [Field F] [LinearOrder F] [FftParams F] [LawfulFft F]

/-- What the mock prover accepts satisfies the gates. -/
theorem gatesHold_of_mock {ε : Type} {v : ProverView F} {vos : List (GenericVO F)} {d : Domain F} (hd : d.Ok)
    (hv : ∀ ty, ∀ o ∈ v.oracles ty, Interpolates d o) (h : mockProve (ε := ε) v vos d.size = .ok ()) (zh : F[X]) :
    GatesHold d v vos zh := by
  intro vo hvo e he i hi _ y hy
  obtain ⟨e', cell, h1, h2, h3⟩ := (C43_mock_prover v vos d.size d hd.new_self hv).1 h i hi vo hvo
  obtain rfl := Option.some.inj ((getExpression_eq_ok.1 he).symm.trans h1)
  rw [← h3]
  exact Expr.denote_congr id e (fun q hq => (hy q hq).unique (h2 q hq))

/-- The value of a gate on a row is that of its expression in the cells of the row. -/
theorem gatePoly_cells {d : Domain F} (hd : d.Ok) {index : Index F} {v : ProverView F} {sigmas : List (ProverOracle F)}
    {qBlind : ProverOracle F} {vos : List (GenericVO F)} (hs : SupportedShape d index v sigmas qBlind vos) {vo : GenericVO F}
    (hvo : vo ∈ vos) (i : Nat) : ∃ e cell, vo.expr = some e ∧ (∀ q ∈ e.queries, ReadsCell d.size v i q (cell q)) ∧
      e.denote id cell = (gatePoly d v vo).eval (d.omega ^ i) := by
  obtain ⟨e, h1, h2⟩ := hs.gates vo hvo
  refine ⟨e, fun q => (v.polyOf d q).eval (d.omega ^ i), getExpression_eq_ok.1 h1, ?_, by
    rw [gatePoly_eq h1, Expr.eval_denote]⟩
  intro q hq
  obtain ⟨h3, o, h4, -⟩ := h2 q hq
  have hI : Interpolates d o := by
    refine (hs.columns o ?_).1
    have := h4.mem
    revert this
    cases q.oracleType <;> intro this <;> simp only [ProverView.oracles] at this <;> simp [this]
  refine ⟨h3, o, h4, ?_⟩
  obtain ⟨j, hj, he⟩ := hI.eval_zpow hd ((i : ℤ) + q.rotation.signed)
  refine ⟨j, hj, ?_⟩
  have hpoly : v.polyOf d q = shifted d (toPoly o.poly) q.rotation := by
    rw [ProverView.polyOf, findOracle_eq_some.2 h4]
  rw [he]
  simp only [hpoly, eval_shifted, eval_toPoly]
  rw [zpow_add₀ hd.omega_ne_zero, zpow_natCast, mul_comm]

/-- A query that can be answered, in decidable form. -/
def answers (n : Nat) (v : ProverView F) (q : OracleQuery) : Bool :=
  decide (q.rotation.degree < n) && match findOracle (v.oracles q.oracleType) q.label with
    | some o => decide (q.oracleType = .instance_) || decide (q.rotation ∈ o.rotations)
    | none => false

omit [LinearOrder F] [FftParams F] [LawfulFft F] in
theorem answerable_of {n : Nat} {v : ProverView F} {q : OracleQuery} (h : answers n v q = true) : Answerable n v q := by
  unfold answers at h
  rw [Bool.and_eq_true, decide_eq_true_eq] at h
  obtain ⟨h1, h2⟩ := h
  refine ⟨h1, ?_⟩
  cases h3 : findOracle (v.oracles q.oracleType) q.label with
  | none => rw [h3] at h2; simp at h2
  | some o =>
    rw [h3] at h2
    simp only [Bool.or_eq_true, decide_eq_true_eq] at h2
    exact ⟨o, findOracle_eq_some.1 h3, fun hne => h2.resolve_left hne⟩

end

namespace Toy

theorem dom_Ok : dom.Ok := F97.dom_ok (by norm_num)
theorem dom_size : dom.size = 4 := by decide +kernel

theorem column_isColumn (k : OracleType) (l : Label) {evals : List F97} (h : evals.length = 4)
    (rots : List Rotation) (b : Bool) : IsColumn dom (column k l evals rots b) := by
  refine ⟨column_interpolates k l h rots b, ?_⟩
  simp only [column]
  refine (trim_length_le _).trans ?_
  rw [Domain.ifft_length]

/-- The witness columns with the given cells. -/
def wit (a b c : List F97) : List (ProverOracle F97) :=
  [column .witness [1] a [.curr] true, column .witness [2] b [.curr, .next] true, column .witness [3] c [.curr] false]

def viewOf (a b c : List F97) : ProverView F97 := ⟨wit a b c, inst, fixed, table⟩
def view : ProverView F97 := viewOf [7, 3, 11, 4] [8, 7, 2, 6] [56, 26, 9, 2]

theorem ext_size {k : VerifierKey S} (hk : key = .ok k) : k.index.ext.size = 16 := by
  have : (match key with | .ok k => decide (k.index.ext.size = 16) | _ => false) = true := by decide +kernel
  rw [hk] at this
  exact of_decide_eq_true this

theorem supportedOf {k : VerifierKey S} (hk : key = .ok k) {a b c : List F97} (ha : a.length = 4) (hb : b.length = 4)
    (hc : c.length = 4) : Supported dom k.index (viewOf a b c) sigma qBlind vos := by
  have hs := dom_size
  obtain ⟨-, -, -, -, -, -, -, -, -, hu, -, hl, hu', -⟩ := indexer_ok dom_Ok hk
  have hext := ext_size hk
  apply Supported.of_columns
  · intro o ho
    simp only [viewOf, wit, inst, fixed, table, sigma, qBlind, List.cons_append, List.nil_append, List.mem_cons,
      List.not_mem_nil, or_false] at ho
    rcases ho with rfl | rfl | rfl | h
    · exact column_isColumn _ _ ha _ _
    · exact column_isColumn _ _ hb _ _
    · exact column_isColumn _ _ hc _ _
    · rcases h with rfl | rfl | rfl | rfl | rfl | rfl | rfl <;> exact column_isColumn _ _ rfl _ _
  · exact ⟨by simp [viewOf, wit, column], by simp [viewOf, fixed, column], by simp [viewOf, table, column]⟩
  · rw [hs]
    intro o ho
    simp only [viewOf, wit, inst, fixed, table, List.cons_append, List.nil_append, List.mem_cons, List.not_mem_nil,
      or_false] at ho
    rcases ho with rfl | rfl | rfl | rfl | rfl | rfl <;> simp only [column] <;> decide +kernel
  · decide +kernel
  · intro vo hvo
    rw [hs]
    simp only [vos, List.mem_cons, List.not_mem_nil, or_false] at hvo
    rcases hvo with rfl | rfl
    · exact ⟨gate, rfl, fun q hq => answerable_of (by
        simp only [gate, Expr.queries, List.cons_append, List.nil_append, List.append_assoc, List.mem_cons, List.not_mem_nil, or_false] at hq
        rcases hq with rfl | rfl | rfl | rfl | rfl <;> rfl)⟩
    · exact ⟨gateNext, rfl, fun q hq => answerable_of (by
        simp only [gateNext, Expr.queries, List.cons_append, List.nil_append, List.append_nil, List.mem_cons, List.not_mem_nil, or_false] at hq
        rcases hq with rfl | rfl <;> rfl)⟩
  · intro o ho hc
    simp only [viewOf, wit, List.mem_cons, List.not_mem_nil, or_false] at ho
    rcases ho with rfl | rfl | rfl <;> exact ⟨.curr, by simp [column], rfl⟩
  · intro l hll
    rw [hl] at hll
    obtain rfl := List.mem_singleton.1 hll
    refine ⟨_, _, rfl, rfl, ?_, ?_⟩
    · intro e he
      obtain rfl := List.mem_singleton.1 he
      refine ⟨?_, 3, ?_, by rw [hext]; norm_num⟩
      · intro q hq
        rw [hs]
        simp only [Expr.queries, List.mem_cons, List.not_mem_nil, or_false] at hq
        subst hq
        exact ⟨answerable_of rfl, by simp [qC]⟩
      · rw [hs]; rfl
    · intro t ht
      obtain rfl := List.mem_singleton.1 ht
      refine ⟨rfl, _, findOracle_eq_some.1 (show findOracle (viewOf a b c).table [6] = some (column .fixed [6] [26, 56, 0, 0] [.curr] false) from ?_), .curr, ?_, rfl⟩
      · rfl
      · simp [column]
  · intro _ i hi
    rw [hu, show info.u = 2 from rfl]
    rw [hs] at hi
    revert i
    decide +kernel
  · intro _
    rw [hu, hu']
    exact ⟨rfl, by norm_num⟩
  · intro _
    rw [hu, hs]
    decide

theorem supported {k : VerifierKey S} (hk : key = .ok k) : Supported dom k.index view sigma qBlind vos :=
  supportedOf hk rfl rfl rfl

theorem gatesHold (zh : F97[X]) : GatesHold dom view vos zh := by
  refine gatesHold_of_mock (ε := Unit) dom_Ok ?_ ?_ zh
  · intro ty o ho
    have h : ∀ o ∈ view.witness ++ view.inst ++ view.fixed ++ view.table ++ sigma, IsColumn dom o := by
      obtain ⟨k, p, hk, -⟩ := honest
      exact (supported hk).columns
    refine (h o ?_).1
    cases ty <;> simp only [ProverView.oracles] at ho <;> simp [ho]
  · rw [dom_size]; decide +kernel

theorem blank_same (os : List (ProverOracle F97)) : List.Forall₂ SameConfig os (os.map blank) := by
  rw [List.forall₂_map_right_iff]
  exact List.forall₂_same.2 (fun o _ => ⟨rfl, rfl, rfl⟩)

theorem setUp : SetUp S (fun p _ => coeffs p) view sigma qBlind (witness.map blank) vinst vpre := by
  have key : ∀ os : List (ProverOracle F97), (∀ o ∈ os, o.poly = trim o.poly) →
      List.Forall₂ (fun (o : ProverOracle F97) (p : VerifierOracle F97 (List F97)) => SameConfig o p ∧
        p.commitment = some (coeffs (toPoly o.poly))) os (os.map published) := by
    intro os h
    rw [List.forall₂_map_right_iff]
    refine List.forall₂_same.2 (fun o ho => ⟨⟨rfl, rfl, rfl⟩, ?_⟩)
    rw [coeffs_toPoly, ← h o ho]; rfl
  constructor
  · exact blank_same _
  · unfold vinst
    rw [List.forall₂_map_right_iff]
    exact List.forall₂_same.2 (fun o _ => ⟨rfl, rfl⟩)
  · exact key _ (by decide +kernel)
  · exact key _ (by decide +kernel)
  · exact key _ (by decide +kernel)
  · refine ⟨⟨rfl, rfl, rfl⟩, ?_⟩
    change some qBlind.poly = some (coeffs (toPoly qBlind.poly))
    rw [coeffs_toPoly]
    decide +kernel

/-- Is the challenge `x3` of a proof away from the opening points? -/
def goodX3 (p : TPProof S) : Bool :=
  decide ((mpChallenges S p.multiopen (verifierChallenges S p).2).2.2.1 ^ 4 ≠ (verifierChallenges S p).1.xi ^ 4)

theorem ne_of_goodX3 {p : TPProof S} (h : goodX3 p = true) (k : ℤ) :
    (mpChallenges S p.multiopen (verifierChallenges S p).2).2.2.1 ≠ (verifierChallenges S p).1.xi * dom.omega ^ k := by
  intro he
  refine of_decide_eq_true h ?_
  have h4 : dom.omega ^ 4 = 1 := by decide +kernel
  rw [he, mul_pow, ← zpow_natCast (dom.omega ^ k), ← zpow_mul, mul_comm k, zpow_mul, zpow_natCast]
  change _ * (dom.omega ^ 4) ^ k = _
  rw [h4, one_zpow, mul_one]

/-- The hypotheses of C46 are met by the toy circuit. -/
theorem complete : ∃ k proof, key = .ok k ∧ proveWith k witness = .ok proof ∧ verifyWith k vinst proof = .ok () := by
  obtain ⟨k, p, hk, hp, h⟩ := of_holds (ws := witness) (P := fun k p => decide
    (k.index.quotientDegree ≠ k.index.ext.size) && goodX3 p) (by decide +kernel)
  rw [Bool.and_eq_true] at h
  refine ⟨k, p, hk, hp, ?_⟩
  have hsz := dom_size
  have hz : toPoly dom.vanishing = X ^ dom.size - 1 := toPoly_vanishing dom dom_Ok.size_pos
  have hdeg : (X ^ dom.size - 1 : F97[X]).natDegree = dom.size := natDegree_X_pow_sub_C (r := (1 : F97))
  have hp' : prove S ⟨k, ()⟩ (.new S fixed sigma table qBlind k.index) witness inst vos dom.size () = .ok p := by
    rw [hsz]; exact hp
  have := C46_completeness (pk := ⟨k, ()⟩) (ideal_homomorphic _ _) dom_Ok (by rw [hsz]; norm_num) hk (by decide +kernel)
    (by rw [hz]) (Or.inl hz) (of_decide_eq_true h.1) (fun _ => by rw [hz, hdeg]; omega) (supported hk) (gatesHold _) setUp hp'
    (ne_of_goodX3 h.2)
  rw [hsz] at this
  exact this

/-- What is known about the run for the cells `a, b, c`. -/
theorem run {a b c : List F97} (ha : a.length = 4) (hb : b.length = 4) (hc : c.length = 4) {k : VerifierKey S}
    {p : TPProof S} (hk : key = .ok k) (hp : proveWith k (wit a b c) = .ok p) :
    ∃ r quotient wc lc zc lzc qc, ProverRun S ⟨k, ()⟩ (fun p _ => coeffs p) dom (pre k) vos (verifierChallenges S p).1
      ((viewOf a b c).extend k.index.ext) r quotient wc lc zc lzc qc p := by
  obtain ⟨-, -, -, -, hext, hle, -⟩ := indexer_ok dom_Ok hk
  refine prove_run (pk := ⟨k, ()⟩) (z := ()) (ideal_homomorphic _ _) dom_Ok hext hle (supportedOf hk ha hb hc).toSupportedShape ?_
  rw [dom_size]; exact hp

theorem maxCols {k : VerifierKey S} (hk : key = .ok k) : k.index.perm.maxCols = 3 := by
  obtain ⟨-, -, -, -, -, -, h, -⟩ := indexer_ok dom_Ok hk
  rw [ext_size hk, dom_size] at h
  omega

/-- C17, C30 and C31: their hypotheses are met by the run for the satisfying witness, and the conclusion of C30 speaks
about two gates, a grand product and a lookup. -/
theorem quotient_example : ∃ k p r c Q, key = .ok k ∧ proveWith k witness = .ok p ∧
    ProverPolys dom k.index.ext (view.extend k.index.ext) vos (pre k).perm (pre k).qBlind r c ∧ c.Fits dom k.index.perm ∧
    k.index.lookups.length = c.lookups.length ∧ k.zhInverses.length = k.index.ext.size ∧
    (∀ i < k.index.ext.size, ∃ y, k.zhInverses[i]? = some y ∧
      y * (toPoly dom.vanishing).eval ((FftParams.gen : F97) * k.index.ext.element i) = 1) ∧
    c.numerator dom k.index.perm (verifierChallenges S p).1.alpha (verifierChallenges S p).1.beta
      (verifierChallenges S p).1.gamma = Q * toPoly dom.vanishing ∧ Q.degree < k.index.ext.size ∧
    c.weights ≤ (Finset.univ : Finset F97).card ∧
    (∀ i < dom.size, ∀ alpha ∈ (Finset.univ : Finset F97), (c.numerator dom k.index.perm alpha
      (verifierChallenges S p).1.beta (verifierChallenges S p).1.gamma).eval (dom.omega ^ i) = 0) ∧
    c.gates.length = 2 ∧ c.zs.length = 1 ∧ c.lookups.length = 1 := by
  obtain ⟨k, p, hk, hp, -⟩ := of_holds (ws := witness) (P := fun k p => true) (by decide +kernel)
  obtain ⟨-, -, hqd, -, hext, hle, -, -, -, -, -, hl, -, -⟩ := indexer_ok dom_Ok hk
  obtain ⟨r, quotient, wc, lc, zc, lzc, qc, hr⟩ := run (a := [7, 3, 11, 4]) (b := [8, 7, 2, 6]) (c := [56, 26, 9, 2]) rfl rfl
    rfl hk hp
  have hlv : LookupsVanish S dom k.index ((viewOf [7, 3, 11, 4] [8, 7, 2, 6] [56, 26, 9, 2]).extend k.index.ext) (pre k).perm
      (pre k).qBlind := Supported.lookupsVanish dom_Ok hext hle hr.allHonest ((supportedOf hk rfl rfl rfl).extend _)
  have hs := dom_size
  have hz : toPoly dom.vanishing = X ^ dom.size - 1 := toPoly_vanishing dom dom_Ok.size_pos
  have hdeg : (X ^ dom.size - 1 : F97[X]).natDegree = dom.size := natDegree_X_pow_sub_C (r := (1 : F97))
  have hM : maxGateDegree dom.size vos = 9 := by rw [hs]; decide +kernel
  have hes := ext_size hk
  have hmc := maxCols hk
  obtain ⟨Q, hQ, hQd⟩ := hr.quotient_fits (B := 19) dom_Ok hext hle (by omega) hlv (by rw [hz]) ((gatesHold _).extend _)
    (by rw [hz, hdeg]; simp only; omega) (by omega) (fun _ _ => by simp only; rw [hmc, hs]; norm_num)
    (fun _ => by rw [hs]; norm_num)
  obtain ⟨hlen, hinv⟩ := C16_row_set dom_Ok hk (by decide +kernel) (by rw [hz]) (Or.inl hz)
  have hzl : r.zs.length = 1 := by
    rw [hr.ran.zs_length hr.allHonest (by simp [ProverView.extend, viewOf, wit, column, ProverOracle.computeExtended]),
      chunks_length (by simp only; rw [hmc]; norm_num)]
    simp only
    rw [hmc]
    simp [ProverView.extend, viewOf, wit, column, ProverOracle.computeExtended]
  have h1 : (runPolys dom ((viewOf [7, 3, 11, 4] [8, 7, 2, 6] [56, 26, 9, 2]).extend k.index.ext) vos (pre k).perm
      (pre k).qBlind r).gates.length = 2 := by simp [runPolys, vos]
  have h2 : (runPolys dom ((viewOf [7, 3, 11, 4] [8, 7, 2, 6] [56, 26, 9, 2]).extend k.index.ext) vos (pre k).perm
      (pre k).qBlind r).zs.length = 1 := by simp [runPolys, hzl]
  have h3 : (runPolys dom ((viewOf [7, 3, 11, 4] [8, 7, 2, 6] [56, 26, 9, 2]).extend k.index.ext) vos (pre k).perm
      (pre k).qBlind r).lookups.length = 1 := by
    rw [← hr.lookups]; simp only; rw [hl]; rfl
  refine ⟨k, p, r, _, Q, hk, hp, hr.polys, hr.fits, hr.lookups, hlen, hinv, hQ, hQd, ?_, ?_, h1, h2, h3⟩
  · unfold CircuitPolys.weights
    rw [h1, h2, h3]
    have : (Finset.univ : Finset F97).card = 97 := by decide +kernel
    rw [this]
    split_ifs <;> norm_num
  · intro i hi alpha _
    obtain ⟨q, hq⟩ := hr.ran.divides dom_Ok hr.allHonest hr.supported hlv (zh := X ^ dom.size - 1) dvd_rfl
      ((gatesHold _).extend _) alpha
    rw [hq, eval_mul, eval_sub, eval_pow, eval_X, eval_one, ← pow_mul, mul_comm i, pow_mul, dom_Ok.prim.pow_eq_one, one_pow,
      sub_self, zero_mul]

/-- C32: its hypotheses are met by the run for a witness that violates the first gate in row 1. -/
theorem failing_example : ∃ k p r c i, key = .ok k ∧ proveWith k (wit [7, 4, 11, 4] [8, 7, 2, 6] [56, 26, 9, 2]) = .ok p ∧
    ProverPolys dom k.index.ext ((viewOf [7, 4, 11, 4] [8, 7, 2, 6] [56, 26, 9, 2]).extend k.index.ext) vos (pre k).perm
      (pre k).qBlind r c ∧ c.Fits dom k.index.perm ∧ k.index.lookups.length = c.lookups.length ∧ c.Bounded dom.size ∧
    (∀ g ∈ c.gates, g.natDegree ≤ 19) ∧ (k.index.perm.maxCols + 2) * (dom.size - 1) ≤ 19 ∧ 4 * (dom.size - 1) ≤ 19 ∧
    i < dom.size ∧ (toPoly dom.vanishing).eval (dom.omega ^ i) = 0 ∧
    ¬ c.RowHolds dom k.index.perm (verifierChallenges S p).1.beta (verifierChallenges S p).1.gamma i := by
  obtain ⟨k, p, hk, hp, -⟩ := of_holds (ws := wit [7, 4, 11, 4] [8, 7, 2, 6] [56, 26, 9, 2]) (P := fun k p => true)
    (by decide +kernel)
  obtain ⟨r, quotient, wc, lc, zc, lzc, qc, hr⟩ := run rfl rfl rfl hk hp
  have hs := dom_size
  have hz : toPoly dom.vanishing = X ^ dom.size - 1 := toPoly_vanishing dom dom_Ok.size_pos
  have hM : maxGateDegree dom.size vos = 9 := by rw [hs]; decide +kernel
  by_contra hno
  have hmock : mockProve (ε := Unit) ((viewOf [7, 4, 11, 4] [8, 7, 2, 6] [56, 26, 9, 2]).extend k.index.ext) vos dom.size
      = .ok () := by
    rw [C43_mock_prover _ _ _ dom dom_Ok.new_self (fun ty o ho => (hr.allHonest.oracles ty o ho).1)]
    intro i hi vo hvo
    obtain ⟨e, cell, g1, g2, g3⟩ := gatePoly_cells dom_Ok hr.supported hvo i
    refine ⟨e, cell, g1, g2, ?_⟩
    rw [g3]
    by_contra hne
    refine hno ⟨k, p, r, _, i, hk, hp, hr.polys, hr.fits, hr.lookups, hr.bounded,
      fun g hg => (hr.gates g hg).trans (by rw [hM]; norm_num), by rw [maxCols hk, hs]; norm_num, by rw [hs]; norm_num, hi, ?_, ?_⟩
    · rw [hz, eval_sub, eval_pow, eval_X, eval_one, ← pow_mul, mul_comm i, pow_mul, dom_Ok.prim.pow_eq_one, one_pow, sub_self]
    · intro hrow
      exact hne (hrow.1 _ (List.mem_map.2 ⟨vo, hvo, rfl⟩))
  rw [hs] at hmock
  have : (match key with
    | .ok k => decide (mockProve (ε := Unit) ((viewOf [7, 4, 11, 4] [8, 7, 2, 6] [56, 26, 9, 2]).extend k.index.ext) vos 4
        = .panic)
    | _ => false) = true := by decide +kernel
  rw [hk] at this
  rw [of_decide_eq_true this] at hmock
  simp at hmock

end Toy

namespace OffByOne
open Toy (S dom column blank published dom_Ok dom_size)

/-- Four columns with `a b c d = X^8 (X^4 - 1)`. -/
def col (l : Label) (p : List F97) : ProverOracle F97 := ⟨.witness, l, p, dom.fft p, none, [.curr], false⟩
def witness : List (ProverOracle F97) :=
  [col [1] [0, 1, 0, 1], col [2] [0, 0, -1, 1], col [3] [0, 0, 1, 1], col [4] [0, 0, 0, 1]]
def q (l : Label) : Expr F97 := .oracle ⟨l, .curr, .witness⟩
def gate : Expr F97 := .prod (.prod (q [1]) (q [2])) (.prod (q [3]) (q [4]))
def vos : List (GenericVO F97) := [Toy.vo gate]
def key : Res (Err Unit) (VerifierKey S) :=
  indexer (S := S) (fun (o : ProverOracle F97) => o.shouldPermute) () vos [] witness ([] : List (ProverOracle F97))
    ([] : List (ProverOracle F97)) dom dom.vanishing ⟨3, []⟩ 3
def qBlind : ProverOracle F97 := column .fixed (bytes "q_blind") [0, 0, 0, 0] [.curr] false
def view : ProverView F97 := ⟨witness, [], [], []⟩
def vpre : VerifierPreprocessed S := ⟨[], [], [], published qBlind⟩
def proof (k : VerifierKey S) : Res (Err Unit) (TPProof S) :=
  prove S ⟨k, ()⟩ (.new S [] [] [] qBlind k.index) witness [] vos 4 ()

def outcome (k : VerifierKey S) (p : TPProof S) : Res (Err Unit) Unit :=
  verify S k vpre p (witness.map blank) [] vos 4 dom.vanishing

theorem col_isColumn (l : Label) {p : List F97} (h : p.length = 4) : IsColumn dom (col l p) := by
  have hs := dom_size
  refine ⟨⟨by simp [col], ?_⟩, by simp [col, h, hs]⟩
  intro i hi
  simp only [col]
  rw [dom.fft_get (by omega) i hi, eval_toPoly]
  rfl

theorem columns : ∀ o ∈ witness, IsColumn dom o := by
  intro o ho
  simp only [witness, List.mem_cons, List.not_mem_nil, or_false] at ho
  rcases ho with rfl | rfl | rfl | rfl <;> exact col_isColumn _ rfl

/-- C46 fails without the hypothesis on the degree of the quotient: the columns satisfy the gate on every row, `prove`
returns a proof, no challenge is bad, and `verify` rejects. -/
theorem C46_off_by_one : ∃ k p, key = .ok k ∧ k.index.quotientDegree = k.index.ext.size ∧
    Supported dom k.index view [] qBlind vos ∧ GatesHold dom view vos (toPoly dom.vanishing) ∧
    SetUp S (fun p _ => coeffs p) view [] qBlind (witness.map blank) [] vpre ∧ proof k = .ok p ∧
    (∀ n : ℤ, (mpChallenges S p.multiopen (verifierChallenges S p).2).2.2.1
      ≠ (verifierChallenges S p).1.xi * dom.omega ^ n) ∧
    outcome k p = .err .quotientNotZero := by
  obtain ⟨k, p, hk, hp, h⟩ : ∃ k p, key = .ok k ∧ proof k = .ok p ∧ (decide (k.index.quotientDegree = k.index.ext.size) &&
      (Toy.goodX3 p && decide (outcome k p = .err .quotientNotZero)))
        = true := by
    have h : (match key with
      | .ok k => match proof k with
        | .ok p => decide (k.index.quotientDegree = k.index.ext.size) &&
          (Toy.goodX3 p && decide (outcome k p = .err .quotientNotZero))
        | _ => false
      | _ => false) = true := by decide +kernel
    split at h
    · rename_i k hk
      split at h
      · rename_i p hp
        exact ⟨k, p, hk, hp, h⟩
      · simp at h
    · simp at h
  rw [Bool.and_eq_true, Bool.and_eq_true] at h
  obtain ⟨-, -, -, -, -, -, -, -, -, hu, -, hl, hu', -⟩ := indexer_ok dom_Ok hk
  have hs := dom_size
  have hz : toPoly dom.vanishing = X ^ dom.size - 1 := toPoly_vanishing dom dom_Ok.size_pos
  refine ⟨k, p, hk, of_decide_eq_true h.1, ?_, ?_, ?_, hp, Toy.ne_of_goodX3 h.2.1, of_decide_eq_true h.2.2⟩
  · apply Supported.of_columns
    · intro o ho
      simp only [view, List.append_nil, List.mem_append, List.mem_singleton] at ho
      rcases ho with ho | rfl
      · exact columns o ho
      · exact Toy.column_isColumn _ _ rfl _ _
    · decide +kernel
    · rw [hs]; decide +kernel
    · decide +kernel
    · intro vo hvo
      rw [hs]
      obtain rfl := List.mem_singleton.1 hvo
      exact ⟨gate, rfl, fun q hq => answerable_of (by revert q; decide +kernel)⟩
    · intro o ho hc
      simp only [view, witness, List.mem_cons, List.not_mem_nil, or_false] at ho
      rcases ho with rfl | rfl | rfl | rfl <;> simp [col] at hc
    · rw [hl]; simp
    · rintro (⟨o, ho, hc⟩ | h)
      · simp only [view, witness, List.mem_cons, List.not_mem_nil, or_false] at ho
        rcases ho with rfl | rfl | rfl | rfl <;> simp [col] at hc
      · exact absurd hl h
    · intro h; exact absurd hl h
    · intro h; exact absurd hl h
  · refine gatesHold_of_mock (ε := Unit) dom_Ok ?_ ?_ _
    · intro ty o ho
      cases ty
      · exact (columns o ho).1
      · simp [ProverView.oracles, view] at ho
      · simp [ProverView.oracles, view] at ho
    · rw [hs]; decide +kernel
  · constructor
    · exact Toy.blank_same _
    · exact List.Forall₂.nil
    · exact List.Forall₂.nil
    · exact List.Forall₂.nil
    · exact List.Forall₂.nil
    · refine ⟨⟨rfl, rfl, rfl⟩, ?_⟩
      change some qBlind.poly = some (coeffs (toPoly qBlind.poly))
      rw [coeffs_toPoly]
      decide +kernel

end OffByOne
end ZK
