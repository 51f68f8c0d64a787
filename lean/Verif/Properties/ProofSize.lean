import Verif.Model.Info
import Verif.Properties.Completeness
import Verif.Properties.Verifier
import Verif.Spec.Verifier
/-! C58: the size of a proof. -/
set_option autoImplicit false
set_option linter.unusedSectionVars false
namespace ZK
open Polynomial

section
variable {F : Type} [Field F] [FftParams F] [LawfulFft F] [LinearOrder F]

/-- The number of grand products for `c` copied columns, at most `m` in each. -/
def grandProducts (c m : Nat) : Nat := (c + m - 1) / m

/-- The different sets of rotations the columns of a proof are opened at: those of the circuit's own columns, the current row
for the quotient, the current and previous row for the permuted lookup inputs, the current and next row for grand products,
and also the row after the usable rows for all but the last grand product of the copy argument. -/
def openedSets (columns : List (ProverOracle F)) (lookups grand usableRows : Nat) : Finset (List Rotation) :=
  (columns.map (·.rotations)).toFinset ∪ {[Rotation.curr]}
    ∪ (if 0 < lookups then {[Rotation.curr, Rotation.prev], [Rotation.curr, Rotation.next]} else ∅)
    ∪ (if 0 < grand then {[Rotation.curr, Rotation.next]} else ∅)
    ∪ (if 1 < grand ∧ 2 ≤ usableRows then {[Rotation.curr, Rotation.next, ⟨usableRows, .plus⟩]} else ∅)

theorem evaluateQuerySet_length {ε : Type} {os : List (ProverOracle F)} {qs : List (Query F)} {l : List F}
    (h : evaluateQuerySet (ε := ε) os qs = .ok l) : l.length = qs.length := by
  unfold evaluateQuerySet at h
  exact Res.mapM_length h

/-- The number of chunks the quotient round returns. -/
theorem quotientRound_length {v : ProverView F} {vos : List (GenericVO F)} {index : Index F} {zhInverses : List F}
    {sigmas : List (ProverOracle F)} {qBlind : ProverOracle F} {r : ProverRounds F} {d : Domain F} (hd : d.Ok)
    {alpha beta gamma : F} {qs : List (ProverOracle F)}
    (h : quotientRound v vos index zhInverses sigmas qBlind r d alpha beta gamma = .ok qs) :
    qs.length = (index.ext.size + d.size - 1) / d.size ∧ ∀ o ∈ qs, o.rotations = setExtend [] [Rotation.curr] := by
  unfold quotientRound at h
  simp only [Res.bind_eq_ok, Res.pure_eq, Res.ok.injEq] at h
  obtain ⟨al, -, l0, -, lu, -, nums, -, rfl⟩ := h
  obtain ⟨-, h2, h3⟩ := quotientChunks_spec hd index.ext.size (trim (index.ext.cosetIfft (List.zipWith (· * ·) nums zhInverses)))
    ((trim_length_le _).trans (by rw [Domain.cosetIfft_length]))
  refine ⟨h2, fun o ho => ?_⟩
  obtain ⟨i, hi⟩ := List.getElem?_of_mem ho
  exact (h3 i o hi).2.2.1

omit [Field F] [FftParams F] [LawfulFft F] [LinearOrder F] in
theorem expectedEvals_forall₂ {O O' : Type} [ConcreteOracle O] [ConcreteOracle O'] {os : List O} {os' : List O'}
    (h : List.Forall₂ (fun o o' => ConcreteOracle.label o = ConcreteOracle.label o' ∧
      ConcreteOracle.rotations o = ConcreteOracle.rotations o') os os') : expectedEvals os = expectedEvals os' := by
  unfold expectedEvals
  congr 2
  induction h with
  | nil => rfl
  | cons h _ ih => rw [List.flatMap_cons, List.flatMap_cons, ih, h.1, h.2]

theorem expectedEvals_extend (e : Domain F) (os : List (ProverOracle F)) :
    expectedEvals (os.map (·.computeExtended e)) = expectedEvals os := by
  refine expectedEvals_forall₂ ?_
  rw [List.forall₂_map_left_iff]
  exact List.forall₂_same.2 (fun _ _ => ⟨rfl, rfl⟩)

/-- One evaluation of `q` per opening set. -/
theorem OpenedWith.qEvals_length {S : Scheme F} {ck : S.CK} {oracles : List (ProverOracle F)} {rands : List S.Rand} {xi : F}
    {d : Domain F} {x1 x2 x3 x4 : F} {p : MpProof S} (h : OpenedWith S ck oracles rands xi d x1 x2 x3 x4 p)
    (hl : oracles.length = rands.length) : p.qEvals.length = distinctRotations oracles := by
  obtain ⟨qs, f, -, -, -, -, -, h1, -, -, h2, -⟩ := h.run
  unfold mpFirstRound at h1
  simp only [Res.bind_eq_ok, Res.pure_eq, Res.ok.injEq, Prod.mk.injEq] at h1
  obtain ⟨qs', h3, -, -, -, -, rfl, -⟩ := h1
  rw [h2, List.length_map, List.length_map, Res.mapM_length h3, openingSets_eq, List.length_map]
  have hmap : (List.zip oracles rands).map (fun (o : OracleRand S) => o.1.rotations) = oracles.map (·.rotations) := by
    have := List.map_fst_zip (l₁ := oracles) (l₂ := rands) hl.le
    conv_rhs => rw [← this, List.map_map]
    rfl
  rw [hmap, ← List.toFinset_card_of_nodup ((setExtend_sorted List.Pairwise.nil).imp (fun h => ne_of_lt h))]
  unfold distinctRotations
  congr 1
  ext r
  simp [mem_setExtend]
  rfl

omit [Field F] [FftParams F] [LawfulFft F] [LinearOrder F] in
theorem curr_next : setExtend [] [Rotation.curr, Rotation.next] = [Rotation.curr, Rotation.next] := by decide

omit [Field F] [FftParams F] [LawfulFft F] [LinearOrder F] in
theorem curr_prev : setExtend [] [Rotation.curr, Rotation.prev] = [Rotation.curr, Rotation.prev] := by decide

omit [Field F] [FftParams F] [LawfulFft F] [LinearOrder F] in
theorem curr_only : setExtend [] [Rotation.curr] = [Rotation.curr] := by decide

omit [Field F] [FftParams F] [LawfulFft F] [LinearOrder F] in
theorem insert_usable (u : Nat) : setInsert (⟨u, .plus⟩ : Rotation) [Rotation.curr, Rotation.next]
    = if 2 ≤ u then [Rotation.curr, Rotation.next, ⟨u, .plus⟩] else [Rotation.curr, Rotation.next] := by
  rcases u with _ | _ | u
  · decide
  · decide
  · rw [if_pos (by omega)]
    have hlt : ∀ a b : Rotation, a < b ↔ a.key < b.key := fun _ _ => Iff.rfl
    have h0 : Rotation.curr.key = 0 := rfl
    have h1 : Rotation.next.key = 2 := rfl
    have h2 : (⟨u + 2, .plus⟩ : Rotation).key = 2 * (u + 2) := rfl
    simp only [setInsert, hlt, h0, h1, h2]
    rw [if_neg (by omega), if_pos (by omega), if_neg (by omega), if_pos (by omega)]

omit [Field F] [FftParams F] [LawfulFft F] [LinearOrder F] in
theorem opened_shuffle {w f t g q c cp cn cu l z z1 u : Prop} :
    (((((w ∨ l ∧ (cp ∨ c)) ∨ l ∧ cn) ∨ c) ∨ z ∧ cn ∨ z1 ∧ u ∧ cu) ∨ ((f ∨ t) ∨ g) ∨ q) ↔
    (((((((w ∨ f) ∨ t) ∨ g) ∨ q) ∨ c) ∨ l ∧ (cp ∨ cn)) ∨ z ∧ cn) ∨ (z1 ∧ u) ∧ cu := by
  by_cases c <;> by_cases q <;> by_cases w <;> by_cases f <;> by_cases t <;> by_cases g <;> simp [*] <;> tauto

variable {S : Scheme F} {com : F[X] → S.Rand → S.Comm}

theorem length_primes {O : Type} (l : List (LookupOracles O)) : (primes l).length = 2 * l.length := by
  unfold primes
  induction l with
  | nil => rfl
  | cons a l ih => rw [List.flatMap_cons, List.length_append, ih]; simp; omega

theorem openedSets_extend (e : Domain F) (os : List (ProverOracle F)) (l g u : Nat) :
    openedSets (os.map (·.computeExtended e)) l g u = openedSets os l g u := by
  unfold openedSets
  rw [List.map_map]
  rfl

/-- The sets of rotations of the oracles that are opened. -/
theorem rotations_opened {index : Index F} {v : ProverView F} {sigmas : List (ProverOracle F)} {qBlind : ProverOracle F}
    {vos : List (GenericVO F)} {d : Domain F} (hd : d.Ok) (hext : index.ext.Ok) (hle : d.size ≤ index.ext.size)
    (hH : AllHonest d index.ext v sigmas qBlind) (hs : SupportedShape d index v sigmas qBlind vos) {theta beta gamma : F}
    {r : ProverRounds F} (hr : RoundsRan S d index v sigmas theta beta gamma r) {quotient : List (ProverOracle F)}
    (hspos : 0 < quotient.length) (hqr : ∀ o ∈ quotient, o.rotations = setExtend [] [Rotation.curr]) :
    r.zs.length = grandProducts (v.witness.filter (·.shouldPermute)).length index.perm.maxCols ∧
    ((openingOrder v.witness (primes r.lookups) r.lookupZs quotient r.zs v.fixed v.table sigmas qBlind).map (·.rotations)).toFinset
      = openedSets (v.witness ++ v.fixed ++ v.table ++ sigmas ++ [qBlind]) index.lookups.length
        (grandProducts (v.witness.filter (·.shouldPermute)).length index.perm.maxCols) index.perm.usableRows := by
  have hZ : r.zs.length = grandProducts (v.witness.filter (·.shouldPermute)).length index.perm.maxCols := by
    by_cases hne : v.witness.filter (·.shouldPermute) = []
    · rw [hr.noAgg hne, hne]
      unfold grandProducts
      simp only [List.length_nil]
      rcases Nat.eq_zero_or_pos index.perm.maxCols with h0 | h0
      · rw [h0]
      · rw [Nat.div_eq_of_lt (by omega)]
    · rw [hr.zs_length hH hne, chunks_length (hr.agg hH hne).1]
      rfl
  refine ⟨hZ, ?_⟩
  generalize grandProducts (v.witness.filter (·.shouldPermute)).length index.perm.maxCols = Z at hZ ⊢
  obtain ⟨L, hL⟩ : ∃ L, L = index.lookups.length := ⟨_, rfl⟩
  have hL1 : r.lookups.length = L := by rw [hr.lookup.1, hL]
  have hL2 : r.lookupZs.length = L := by rw [hr.lookupZ.1, hL1]
  rw [← hL]
  have hall : ∀ {l : List (ProverOracle F)} {ρ : List Rotation}, (∀ o ∈ l, o.rotations = ρ) → ∀ ρ', 
      (∃ o ∈ l, o.rotations = ρ') ↔ 0 < l.length ∧ ρ' = ρ := by
    intro l ρ h ρ'
    constructor
    · rintro ⟨o, ho, rfl⟩; exact ⟨List.length_pos_of_mem ho, h o ho⟩
    · rintro ⟨h1, rfl⟩
      exact ⟨l[0], List.getElem_mem h1, h _ (List.getElem_mem h1)⟩
  have hprimes : ∀ ρ, (∃ o ∈ primes r.lookups, o.rotations = ρ) ↔ 0 < L ∧ (ρ = [Rotation.curr, Rotation.prev] ∨ ρ = [Rotation.curr]) := by
    have hrot : ∀ l ∈ r.lookups, l.aPrime.rotations = [Rotation.curr, Rotation.prev] ∧ l.sPrime.rotations = [Rotation.curr] := by
      intro l hl
      obtain ⟨i, hi⟩ := List.getElem?_of_mem hl
      obtain ⟨A, T, hb⟩ := hr.built hd hext hle hH hs hi
      exact ⟨hb.aPrimeRot.trans curr_prev, hb.sPrimeRot.trans curr_only⟩
    intro ρ
    rw [← hL1]
    unfold primes
    constructor
    · rintro ⟨o, ho, rfl⟩
      obtain ⟨l, hl, ho⟩ := List.mem_flatMap.1 ho
      refine ⟨List.length_pos_of_mem hl, ?_⟩
      simp only [List.mem_cons, List.not_mem_nil, or_false] at ho
      rcases ho with rfl | rfl
      · exact .inl (hrot l hl).1
      · exact .inr (hrot l hl).2
    · rintro ⟨h1, h2⟩
      have hm := List.getElem_mem h1
      rcases h2 with rfl | rfl
      · exact ⟨_, List.mem_flatMap.2 ⟨_, hm, List.mem_cons_self⟩, (hrot _ hm).1⟩
      · exact ⟨_, List.mem_flatMap.2 ⟨_, hm, List.mem_cons_of_mem _ List.mem_cons_self⟩, (hrot _ hm).2⟩
  have hlz := hall (l := r.lookupZs) (ρ := [Rotation.curr, Rotation.next]) (by
    intro o ho
    obtain ⟨i, hi⟩ := List.getElem?_of_mem ho
    have hlt := getElem?_some_lt hi
    rw [hL2, ← hL1] at hlt
    exact (hr.lookupZ.2 i _ o (List.getElem?_eq_getElem hlt) hi).rotations.trans curr_next)
  have hq := hall (l := quotient) (ρ := [Rotation.curr]) (fun o ho => (hqr o ho).trans curr_only)
  have hzs : ∀ ρ, (∃ o ∈ r.zs, o.rotations = ρ) ↔ (0 < Z ∧ ρ = [Rotation.curr, Rotation.next]) ∨
      (1 < Z ∧ 2 ≤ index.perm.usableRows ∧ ρ = [Rotation.curr, Rotation.next, ⟨index.perm.usableRows, .plus⟩]) := by
    have hrot : ∀ i o, r.zs[i]? = some o → o.rotations = if i = Z - 1 ∨ index.perm.usableRows < 2 then [Rotation.curr, Rotation.next]
        else [Rotation.curr, Rotation.next, ⟨index.perm.usableRows, .plus⟩] := by
      intro i o ho
      obtain ⟨init, ratio, ha⟩ := hr.aggPoly hH ho
      rw [ha.rotations, hZ]
      unfold aggRotations
      rw [curr_next, insert_usable]
      by_cases h1 : i = Z - 1 <;> by_cases h2 : 2 ≤ index.perm.usableRows <;> simp [h1, h2, not_lt] <;> omega
    intro ρ
    constructor
    · rintro ⟨o, ho, rfl⟩
      obtain ⟨i, hi⟩ := List.getElem?_of_mem ho
      have hlt := getElem?_some_lt hi
      rw [hZ] at hlt
      rw [hrot i o hi]
      by_cases hc : i = Z - 1 ∨ index.perm.usableRows < 2
      · rw [if_pos hc]; exact .inl ⟨by omega, rfl⟩
      · rw [if_neg hc]
        rw [not_or] at hc
        exact .inr ⟨by omega, by omega, rfl⟩
    · rintro (⟨h1, rfl⟩ | ⟨h1, h2, rfl⟩)
      · have hlt : Z - 1 < r.zs.length := by omega
        refine ⟨r.zs[Z - 1], List.getElem_mem hlt, ?_⟩
        rw [hrot _ _ (List.getElem?_eq_getElem hlt), if_pos (.inl rfl)]
      · have hlt : 0 < r.zs.length := by omega
        refine ⟨r.zs[0], List.getElem_mem hlt, ?_⟩
        rw [hrot _ _ (List.getElem?_eq_getElem hlt), if_neg (by omega)]
  ext ρ
  rw [List.mem_toFinset, List.mem_map]
  unfold openingOrder openedSets
  simp only [List.mem_append, or_and_right, exists_or, hprimes, hlz, hq, hzs, hL2, hspos, true_and, List.mem_singleton,
    exists_eq_left, Finset.mem_union, List.map_append, List.toFinset_append, List.mem_toFinset,
    Finset.mem_singleton, List.map_cons, List.map_nil]
  simp only [List.mem_map]
  have h1 : (ρ ∈ if 0 < L then ({[Rotation.curr, Rotation.prev], [Rotation.curr, Rotation.next]} : Finset (List Rotation)) else ∅)
      ↔ 0 < L ∧ (ρ = [Rotation.curr, Rotation.prev] ∨ ρ = [Rotation.curr, Rotation.next]) := by
    split_ifs with h <;> simp [h]
  have h2 : (ρ ∈ if 0 < Z then ({[Rotation.curr, Rotation.next]} : Finset (List Rotation)) else ∅)
      ↔ 0 < Z ∧ ρ = [Rotation.curr, Rotation.next] := by
    split_ifs with h <;> simp [h]
  have h3 : (ρ ∈ if 1 < Z ∧ 2 ≤ index.perm.usableRows then ({[Rotation.curr, Rotation.next, ⟨index.perm.usableRows, .plus⟩]} : Finset (List Rotation)) else ∅)
      ↔ (1 < Z ∧ 2 ≤ index.perm.usableRows) ∧ ρ = [Rotation.curr, Rotation.next, ⟨index.perm.usableRows, .plus⟩] := by
    split_ifs with h <;> simp [h]
  rw [h1, h2, h3, eq_comm (a := qBlind.rotations)]
  exact opened_shuffle

/-- **C58** The size of a proof. For a key made by the indexer and a supported circuit with `c` copied columns and `L` lookups,
every proof returned by `prove` has the same numbers of commitments and field elements, whatever the witness, the randomness
and the challenges are, and these are the numbers shown by `info` and `cumulative_info`. -/
theorem C58_proof_size {W I K : Type} [ConcreteOracle W] [ConcreteOracle I] [ConcreteOracle K]
    {pk : ProverKey S} (hS : HomomorphicScheme S pk.ck pk.vk.vk com)
    {d : Domain F} (hd : d.Ok) {vos : List (GenericVO F)}
    {copyFlag : W → Bool} {vk : S.VK} {lookups : List (GenericLookupVO F)} {ows : List W} {ois : List I} {ofs : List K}
    {zh : List F} {info : PermutationInfo F} {usableRows : Nat}
    (hkey : indexer copyFlag vk vos lookups ows ois ofs d zh info usableRows (S := S) = .ok pk.vk)
    {ws is fixed table sigmas : List (ProverOracle F)} {qBlind : ProverOracle F}
    (hs : Supported d pk.vk.index ⟨ws, is, fixed, table⟩ sigmas qBlind vos) {z : S.Z} {proof : TPProof S}
    (hp : prove S pk (.new S fixed sigmas table qBlind pk.vk.index) ws is vos d.size z = .ok proof) :
    let c := (ws.filter (·.shouldPermute)).length
    let L := lookups.length
    let s := pk.vk.index.perm.maxCols + 1
    let Z := grandProducts c pk.vk.index.perm.maxCols
    let q := (openedSets (ws ++ fixed ++ table ++ sigmas ++ [qBlind]) L Z info.u).card
    proof.infoCounts = [ws.length, expectedEvals ws, expectedEvals fixed, expectedEvals table, sigmas.length,
      2 * L, 3 * L, L, 2 * L, s, s, Z, expectedZEvals info.u Z, q] ∧
    proof.numCommitments = ws.length + 3 * L + s + Z + 1 ∧
    proof.numFieldElements = expectedEvals ws + expectedEvals fixed + expectedEvals table + sigmas.length + 1 + 5 * L + s
      + expectedZEvals info.u Z + q := by
  intro c L s Z q
  obtain ⟨-, -, -, -, hext, hle, hsz, -, -, hu, -, hlks, -, -⟩ := indexer_ok hd hkey
  obtain ⟨r, quotient, wc, lc, zc, lzc, qc, hr⟩ := prove_run hS hd hext hle hs hp
  obtain ⟨hql, hqr⟩ := quotientRound_length hd hr.round
  have H := hr.honest hqr
  have hn := hd.size_pos
  have hs' : quotient.length = s := by
    rw [hql, hsz, show (pk.vk.index.perm.maxCols + 1) * d.size + d.size - 1 = d.size - 1 + d.size * s by
      show _ = d.size - 1 + d.size * (pk.vk.index.perm.maxCols + 1); rw [Nat.mul_comm d.size]; omega,
      Nat.add_mul_div_left _ _ hn, Nat.div_eq_of_lt (by omega), Nat.zero_add]
  have hL1 : r.lookups.length = L := by rw [hr.ran.lookup.1, hlks]
  have hL2 : r.lookupZs.length = L := by rw [hr.ran.lookupZ.1, hL1]
  have hvw : ((⟨ws, is, fixed, table⟩ : ProverView F).extend pk.vk.index.ext).witness
    = ws.map (·.computeExtended pk.vk.index.ext) := rfl
  have hfw : (((⟨ws, is, fixed, table⟩ : ProverView F).extend pk.vk.index.ext).witness.filter (·.shouldPermute)).length = c := by
    rw [hvw, List.filter_map, List.length_map]
    rfl
  have hZ : r.zs.length = Z := by
    rw [(rotations_opened hd hext hle hr.allHonest hr.supported hr.ran (quotient := quotient)
      (by rw [hs']; exact Nat.succ_pos _) hqr).1, hfw]
  have hwl : wc.length = ws.length := by rw [← H.wcOk.length_eq, hvw, List.length_map]
  have hll : lc.length = 2 * L := by rw [← H.lcOk.length_eq, length_primes, hL1]
  have hzl : zc.length = Z := by rw [← H.zcOk.length_eq, hZ]
  have hlzl : lzc.length = L := by rw [← H.lzcOk.length_eq, hL2]
  have hqcl : qc.length = s := by rw [← H.qcOk.length_eq, hs']
  -- evaluations
  have hcount : ∀ {os : List (ProverOracle F)} {l : List F}, (∃ qs, getQuerySet (ε := Err S.E) os xiLabel
      (verifierChallenges S proof).1.xi d.elements = .ok qs ∧ evaluateQuerySet (ε := Err S.E) os qs = .ok l) →
      l.length = expectedEvals os := by
    rintro os l ⟨qs, h1, h2⟩
    rw [evaluateQuerySet_length h2, getQuerySet_length hd h1]
  have e1 : proof.witnessEvals.length = expectedEvals ws := by rw [hcount H.evals.witness, hvw, expectedEvals_extend]
  have e2 : proof.fixedEvals.length = expectedEvals fixed := by
    rw [hcount H.evals.fixed]; exact expectedEvals_extend _ _
  have e3 : proof.tableEvals.length = expectedEvals table := by
    rw [hcount H.evals.table]; exact expectedEvals_extend _ _
  have e4 : proof.permEvals.length = sigmas.length := by
    rw [H.evals.perm, List.length_map]; exact List.length_map _
  have e5 : proof.lookupEvals.length = 3 * L := by
    rw [H.evals.lookups, ← hL1]
    unfold lookupEvalsOf
    generalize r.lookups = l
    induction l with
    | nil => rfl
    | cons a l ih => rw [List.flatMap_cons, List.length_append, ih]; simp; omega
  have e6 : proof.lookupZEvals.length = 2 * L := by
    rw [H.evals.lookupZs, ← hL2]
    unfold lookupZEvalsOf
    generalize r.lookupZs = l
    induction l with
    | nil => rfl
    | cons a l ih => rw [List.flatMap_cons, List.length_append, ih]; simp; omega
  have e7 : proof.quotientEvals.length = s := by rw [H.evals.quotient, List.length_map, hs']
  have e8 : proof.zEvals.length = expectedZEvals info.u Z := by
    rw [hcount H.evals.zs, ← hzl, ← hu]
    have := expectedEvals_zs (S := S) pk.vk.index.perm.usableRows (zc.map Prod.fst)
    rw [List.length_map] at this
    rw [← this]
    refine expectedEvals_forall₂ (forall₂_of_getElem? (by rw [List.length_map, List.length_zipIdx, List.length_map, hZ, hzl]) ?_)
    intro i o v ho hv
    obtain ⟨init, ratio, ha⟩ := hr.ran.aggPoly hr.allHonest ho
    rw [List.getElem?_map, Option.map_eq_some_iff] at hv
    obtain ⟨⟨c', j⟩, hv, rfl⟩ := hv
    rw [List.getElem?_zipIdx, Option.map_eq_some_iff] at hv
    obtain ⟨c'', -, hv⟩ := hv
    obtain ⟨-, rfl⟩ := Prod.mk.inj hv
    refine ⟨by rw [Nat.zero_add]; exact ha.label, ?_⟩
    have h3 : (o.rotations) = _ := ha.rotations
    show o.rotations = _
    rw [h3, Nat.zero_add]
    unfold aggRotations
    simp only [verifierZ, ConcreteOracle.rotations]
    rw [hZ, hzl]
    by_cases hi : i = Z - 1 <;> simp [hi]
  have e9 : proof.multiopen.qEvals.length = q := by
    rw [hr.opened.qEvals_length hr.length]
    unfold distinctRotations
    show _ = (openedSets _ _ _ _).card
    congr 1
    have hro := (rotations_opened hd hext hle hr.allHonest hr.supported hr.ran (quotient := quotient)
      (by rw [hs']; exact Nat.succ_pos _) hqr).2
    rw [hfw, hu, hlks] at hro
    refine hro.trans ?_
    show openedSets (ws.map (·.computeExtended pk.vk.index.ext) ++ fixed.map (·.computeExtended pk.vk.index.ext)
      ++ table.map (·.computeExtended pk.vk.index.ext) ++ sigmas.map (·.computeExtended pk.vk.index.ext)
      ++ [qBlind.computeExtended pk.vk.index.ext]) L Z info.u = _
    rw [← openedSets_extend pk.vk.index.ext (ws ++ fixed ++ table ++ sigmas ++ [qBlind])]
    simp only [List.map_append, List.map_cons, List.map_nil]
  have c1 : proof.witnessCommitments.length = ws.length := by rw [H.witnessCommitments, List.length_map, hwl]
  have c2 : proof.lookupCommitments.length = 2 * L := by rw [H.lookupCommitments, List.length_map, hll]
  have c3 : proof.lookupZCommitments.length = L := by rw [H.lookupZCommitments, List.length_map, hlzl]
  have c4 : proof.quotientCommitments.length = s := by rw [H.quotientCommitments, List.length_map, hqcl]
  have c5 : proof.zCommitments.length = Z := by rw [H.zCommitments, List.length_map, hzl]
  refine ⟨?_, ?_, ?_⟩
  · simp only [TPProof.infoCounts, e1, e2, e3, e4, e5, e6, e7, e8, e9, c1, c2, c3, c4, c5]
  · simp only [TPProof.numCommitments, c1, c2, c3, c4, c5]; omega
  · simp only [TPProof.numFieldElements, e1, e2, e3, e4, e5, e6, e7, e8, e9]; omega

omit [Field F] [FftParams F] [LawfulFft F] [LinearOrder F] in
theorem formalDegree_mul (e : Expr F) (m : Nat) : e.formalDegree m = e.formalDegree 1 * m := by
  induction e with
  | const c => simp [Expr.formalDegree]
  | oracle q => simp [Expr.formalDegree]
  | neg a ih => simpa [Expr.formalDegree] using ih
  | sum a b iha ihb => simp only [Expr.formalDegree, iha, ihb]; exact Nat.mul_max_mul_right _ _ _
  | prod a b iha ihb => simp only [Expr.formalDegree, iha, ihb]; ring
  | scaled a c ih => simpa [Expr.formalDegree] using ih

omit [Field F] [FftParams F] [LawfulFft F] [LinearOrder F] in
theorem maxGateDegree_mul (n : Nat) (vos : List (GenericVO F)) : maxGateDegree n vos = maxGateDegree 2 vos * (n - 1) := by
  unfold maxGateDegree
  induction vos with
  | nil => simp
  | cons v vos ih =>
    simp only [List.map_cons, List.foldr_cons] at ih ⊢
    rw [ih, ← Nat.mul_max_mul_right]
    congr 1
    cases v.expr with
    | none => simp
    | some e => exact formalDegree_mul e _

/-- **C58** The number of quotient parts does not grow with the number of rows: it is at most twice the degree of the gates
in the cells (`maxGateDegree 2`), or four. Together with `C58_proof_size` the size of a proof is bounded by the configuration
alone. -/
theorem C58_quotient_parts {W I K : Type} [ConcreteOracle W] [ConcreteOracle I] [ConcreteOracle K]
    {d : Domain F} (hd : d.Ok) {vos : List (GenericVO F)} {key : VerifierKey S}
    {copyFlag : W → Bool} {vk : S.VK} {lookups : List (GenericLookupVO F)} {ows : List W} {ois : List I} {ofs : List K}
    {zh : List F} {info : PermutationInfo F} {usableRows : Nat}
    (hkey : indexer copyFlag vk vos lookups ows ois ofs d zh info usableRows (S := S) = .ok key) :
    key.index.perm.maxCols + 1 ≤ max 4 (2 * maxGateDegree 2 vos) := by
  have hq := indexer_outcome copyFlag vk vos lookups ows ois ofs d hd zh info usableRows (S := S)
  simp only at hq
  obtain ⟨h1, h2, h3, h4, h5, h6, -⟩ := hq
  cases hw : vos.findSome? (gateError (E := S.E) (Labels.of ows ois ofs)) with
  | some er => rw [h1 er hw] at hkey; simp at hkey
  | none =>
    rcases lt_or_ge (maxGateDegree d.size vos) (toPoly zh).natDegree with hM | hM
    · rw [h2 hw hM] at hkey; simp at hkey
    rcases lt_or_ge (2 ^ FftParams.adicity F) (maxGateDegree d.size vos - (toPoly zh).natDegree) with hk | hk
    · rw [h3 hw hM hk] at hkey; simp at hkey
    rcases lt_or_ge (2 ^ Nat.clog 2 (maxGateDegree d.size vos - (toPoly zh).natDegree)) d.size with hle | hle
    · rw [h4 hw hM hk hle] at hkey; simp at hkey
    obtain ⟨k, hkd⟩ : ∃ k, k = maxGateDegree d.size vos - (toPoly zh).natDegree := ⟨_, rfl⟩
    rw [← hkd] at h5 h6 hle hk
    obtain ⟨sf, hsf⟩ : ∃ sf, sf = scalingFactor d.size k (ows.filter copyFlag).length lookups.length := ⟨_, rfl⟩
    rw [← hsf] at h5 h6
    rcases lt_or_ge (2 ^ FftParams.adicity F) (sf * d.size) with hf | hf
    · rw [h5 hw hM hk hle hf] at hkey; simp at hkey
    obtain ⟨key', hk', _, -, -, -, hp, -⟩ := h6 hw hM hk hle hf
    rw [hk'] at hkey
    simp only [Res.ok.injEq] at hkey
    subst hkey
    have hpos := hd.size_pos
    have hdivpos : 0 < 2 ^ Nat.clog 2 k / d.size := Nat.div_pos hle hpos
    have hdiv : 2 ^ Nat.clog 2 k / d.size ≤ sf := by rw [hsf]; exact le_max_left _ _
    rw [hp]
    show sf - 1 + 1 ≤ _
    rw [show sf - 1 + 1 = sf by omega, hsf]
    unfold scalingFactor
    refine max_le ?_ (max_le ?_ ?_)
    · rw [maxGateDegree_mul] at hkd
      generalize maxGateDegree 2 vos = D at hkd ⊢
      rcases Nat.lt_or_ge k 2 with hk2 | hk2
      · have : 2 ^ Nat.clog 2 k / d.size ≤ 1 := by
          have : Nat.clog 2 k = 0 := Nat.clog_of_right_le_one (by omega) _
          rw [this]
          exact Nat.div_le_of_le_mul (by omega)
        exact this.trans (le_max_of_le_left (by norm_num))
      · have hlt : 2 ^ Nat.clog 2 k < 2 * k := by
          have h0 : 1 < k := hk2
          have h1 := Nat.pow_pred_clog_lt_self (b := 2) (by norm_num) h0
          have h2 : 0 < Nat.clog 2 k := Nat.clog_pos (by norm_num) hk2
          obtain ⟨m, hm⟩ : ∃ m, Nat.clog 2 k = m + 1 := ⟨Nat.clog 2 k - 1, by omega⟩
          rw [hm] at h1 ⊢
          rw [pow_succ]
          have : 2 ^ m < k := h1
          omega
        refine le_max_of_le_right (Nat.div_le_of_le_mul ?_)
        have hle2 : k ≤ D * d.size := by
          rw [hkd]
          exact (Nat.sub_le _ _).trans (Nat.mul_le_mul_left _ (Nat.sub_le _ _))
        calc 2 ^ Nat.clog 2 k ≤ 2 * k := hlt.le
          _ ≤ 2 * (D * d.size) := Nat.mul_le_mul_left _ hle2
          _ = d.size * (2 * D) := by ring
    · split_ifs <;> omega
    · split_ifs <;> omega

end
end ZK
