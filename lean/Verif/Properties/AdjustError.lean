import Verif.Properties.AnyStatement
import Verif.Properties.RandomOracle
/-! C92: with which probability a proof with two changed numbers is accepted although the gates do not hold. -/
set_option autoImplicit false
set_option linter.unusedSectionVars false
namespace ZK
open Polynomial MeasureTheory

section
variable {F : Type} [Field F] [LinearOrder F] [FftParams F] [LawfulFft F]

/-- C61 for columns that satisfy the copies and the lookups: the prover returns a proof whatever the gates say, and with two numbers in it
changed the verifier accepts it. -/
theorem adjusted_accepted {W I K : Type} [ConcreteOracle W] [ConcreteOracle I] [ConcreteOracle K]
    {S : Scheme F} {pk : ProverKey S} {com : F[X] → S.Rand → S.Comm} (hS : HomomorphicScheme S pk.ck pk.vk.vk com)
    {d : Domain F} (hd : d.Ok) (h1 : 1 < d.size) (hn : SupportsDegree S pk.ck d.size) {vos : List (GenericVO F)}
    {copyFlag : W → Bool} {vk : S.VK} {lookups : List (GenericLookupVO F)} {ows : List W} {ois : List I} {ofs : List K}
    {zh : List F} {info : PermutationInfo F} {usableRows : Nat}
    (hkey : indexer copyFlag vk vos lookups ows ois ofs d zh info usableRows (S := S) = .ok pk.vk)
    (hparts : d.size < pk.vk.index.ext.size)
    {ws is fixed table sigmas : List (ProverOracle F)} {qBlind : ProverOracle F}
    (hs : Supported d pk.vk.index ⟨ws, is, fixed, table⟩ sigmas qBlind vos)
    (hp : Provable d pk.vk.index ⟨ws, is, fixed, table⟩ sigmas qBlind vos)
    {tau : Equiv.Perm (Fin (ws.filter (·.shouldPermute)).length × Fin pk.vk.index.perm.usableRows)}
    (henc : MadeFrom d pk.vk.index.perm.deltas sigmas tau)
    {vws : List (VerifierOracle F S.Comm)} {vis : List (InstanceVerifierOracle F)} {vpre : VerifierPreprocessed S}
    (hsu : SetUp S com ⟨ws, is, fixed, table⟩ sigmas qBlind vws vis vpre)
    (hcop : CopiesHold ⟨ws, is, fixed, table⟩ tau)
    (hl : LookupsHold d.size pk.vk.index.usableRows ⟨ws, is, fixed, table⟩ pk.vk.index.lookups) (z : S.Z) :
    ∃ theta beta gamma, FirstMessages S pk ⟨ws, is, fixed, table⟩ d z theta beta gamma ∧
      (GoodDraw d pk.vk.index ⟨ws, is, fixed, table⟩ sigmas theta beta gamma →
        ∃ tr, proveRounds S pk (.new S fixed sigmas table qBlind pk.vk.index) ws is vos d.size z = .ok tr ∧
          (tr.chal.xi ≠ 0 → ∃ proof,
            prove S pk (.new S fixed sigmas table qBlind pk.vk.index) ws is vos d.size z = .ok proof ∧
            (verifierChallenges S proof).1 = tr.chal ∧
            (peval zh tr.chal.xi ≠ 0 →
              (mpChallenges S proof.multiopen (verifierChallenges S proof).2).1 ≠ tr.chal.xi ^ d.size →
              (∀ k : ℤ, (mpChallenges S proof.multiopen (verifierChallenges S proof).2).2.2.1 ≠ tr.chal.xi * d.omega ^ k) →
              ∃ b st', verifyRegister S pk.vk vpre
                  (adjust proof (mpChallenges S proof.multiopen (verifierChallenges S proof).2).1 b) vws vis
                  d.size (verifierChallenges S proof).1 = .ok st' ∧
                proof.multiopen.qEvals.length = distinctRotations st'.oracles ∧
                verify S pk.vk vpre (adjust proof (mpChallenges S proof.multiopen (verifierChallenges S proof).2).1 b) vws vis vos
                  d.size zh = .ok ()))) := by
  obtain ⟨-, -, -, -, hext, hle, -⟩ := indexer_ok hd hkey
  obtain ⟨theta, beta, gamma, h2, h3⟩ := proveRounds_succeeds hd hext hle h1 hs hp hl henc hcop hn z
  refine ⟨theta, beta, gamma, h2, fun hgood => ?_⟩
  obtain ⟨tr, h4, -, -, -⟩ := h3 hgood
  refine ⟨tr, h4, fun hxi => ?_⟩
  obtain ⟨proof, h8, h9⟩ := prove_succeeds hS hd hext hle h1 hs hp hn h4 hxi
  have h10 : (verifierChallenges S proof).1 = tr.chal := by rw [h9]
  refine ⟨proof, h8, h10, fun hv hx1 hx3 => ?_⟩
  rw [← h10] at hv hx1 hx3
  exact C61_gates_not_enforced hS hd h1 hkey hparts hs hsu h8 hv hx1 hx3

/-- The tuples of eight whose sixth entry is determined by the others. -/
theorem ncard_determined [Fintype F] {f : (Fin 8 → F) → F} (hf : ∀ c c' : Fin 8 → F, (∀ i, i ≠ 5 → c i = c' i) → f c = f c') :
    {c : Fin 8 → F | c 5 = f c}.ncard ≤ Fintype.card F ^ 7 := by
  classical
  refine (Set.ncard_le_ncard_of_injOn (t := (Set.univ : Set (Fin 7 → F))) (fun c => (5 : Fin 8).removeNth c) (fun _ _ => Set.mem_univ _) ?_
    (Set.toFinite _)).trans (le_of_eq ?_)
  · intro c hc c' hc' h
    have hi : ∀ i, i ≠ 5 → c i = c' i := by
      intro i hi
      obtain ⟨k, rfl⟩ := Fin.exists_succAbove_eq hi
      exact congrFun h k
    funext i
    by_cases h5 : i = 5
    · subst h5
      have hc : c 5 = f c := hc
      have hc' : c' 5 = f c' := hc'
      rw [hc, hc', hf c c' hi]
    · exact hi i h5
  · rw [Set.ncard_univ, Nat.card_eq_fintype_card, Fintype.card_fun, Fintype.card_fin]

/-- **C92** The attack of C61 with a random oracle. For a key made by the indexer with at least two parts of the quotient and columns that
satisfy the copies and the lookups, whatever the gates say: with `m` copied columns of `u` usable rows, `l` lookups of `u'` usable rows, `n` rows
and a vanishing polynomial of degree `k`, the probability that the prover returns no proof, or one that the verifier does not accept after
two numbers in it are changed, is at most `(m * u + 2 * l * u' + k + 2 + n) / |F|`. The proof has one `q` evaluation for each opening set. -/
theorem C92_adjusted_random_oracle [Fintype F] [MeasurableSpace F] [DiscreteMeasurableSpace F]
    {W I K : Type} [ConcreteOracle W] [ConcreteOracle I] [ConcreteOracle K]
    {S : Scheme F} {pk : ProverKey S} {com : F[X] → S.Rand → S.Comm} (hS : HomomorphicScheme S pk.ck pk.vk.vk com)
    {d : Domain F} (hd : d.Ok) (h1 : 1 < d.size) (hn : SupportsDegree S pk.ck d.size) {vos : List (GenericVO F)}
    -- the key
    {copyFlag : W → Bool} {vk : S.VK} {lookups : List (GenericLookupVO F)} {ows : List W} {ois : List I} {ofs : List K}
    {zh : List F} {info : PermutationInfo F} {usableRows : Nat}
    (hkey : indexer copyFlag vk vos lookups ows ois ofs d zh info usableRows (S := S) = .ok pk.vk)
    (hz0 : toPoly zh ≠ 0) (hparts : d.size < pk.vk.index.ext.size)
    -- the circuit, the witness and the verifier's oracles
    {ws is fixed table sigmas : List (ProverOracle F)} {qBlind : ProverOracle F}
    (hs : Supported d pk.vk.index ⟨ws, is, fixed, table⟩ sigmas qBlind vos)
    (hp : Provable d pk.vk.index ⟨ws, is, fixed, table⟩ sigmas qBlind vos)
    {tau : Equiv.Perm (Fin (ws.filter (·.shouldPermute)).length × Fin pk.vk.index.perm.usableRows)}
    (henc : MadeFrom d pk.vk.index.perm.deltas sigmas tau)
    {vws : List (VerifierOracle F S.Comm)} {vis : List (InstanceVerifierOracle F)} {vpre : VerifierPreprocessed S}
    (hsu : SetUp S com ⟨ws, is, fixed, table⟩ sigmas qBlind vws vis vpre)
    -- the witness satisfies the copies and the lookups
    (hcop : CopiesHold ⟨ws, is, fixed, table⟩ tau)
    (hl : LookupsHold d.size pk.vk.index.usableRows ⟨ws, is, fixed, table⟩ pk.vk.index.lookups) (z : S.Z) :
    randomOracle F {H | ¬ ∃ proof,
      prove (S.hashing H) (pk.hashing H) (.new _ fixed sigmas table qBlind pk.vk.index) ws is vos d.size z = .ok proof ∧
      ∃ b st', verifyRegister (S.hashing H) (pk.vk.hashing H) (vpre.hashing H) (adjust proof (mpChallenges (S.hashing H) proof.multiopen (verifierChallenges (S.hashing H) proof).2).1 b)
          vws vis d.size (verifierChallenges (S.hashing H) proof).1 = .ok st' ∧
        proof.multiopen.qEvals.length = distinctRotations st'.oracles ∧
        verify (S.hashing H) (pk.vk.hashing H) (vpre.hashing H) (adjust proof (mpChallenges (S.hashing H) proof.multiopen (verifierChallenges (S.hashing H) proof).2).1 b) vws vis vos d.size zh = .ok ()}
    ≤ (((ws.filter (·.shouldPermute)).length * pk.vk.index.perm.usableRows
        + 2 * (pk.vk.index.lookups.length * pk.vk.index.usableRows) + ((toPoly zh).natDegree + 1) + 1 + d.size : Nat) : ENNReal) / (Fintype.card F : ENNReal) := by
  classical
  have hmain : ∀ H : History → F, _ := fun H => adjusted_accepted (S := S.hashing H) (pk := pk.hashing H) (com := com)
    ⟨hS.commit, hS.zero, hS.add, hS.scale, hS.opens⟩ hd h1 ⟨hn.commit, hn.commitPlain, hn.open_⟩ (indexer_hashing hkey H)
    hparts hs hp henc (vws := vws) (vis := vis) (vpre := vpre.hashing H)
    ⟨hsu.witness, hsu.inst, hsu.fixed, hsu.table, hsu.perm, hsu.qBlind⟩ hcop hl z
  have hcard : (Fintype.card F : ENNReal) ≠ 0 := by exact_mod_cast Fintype.card_ne_zero
  have hdiv : ∀ (N k m : Nat), N ≤ k * Fintype.card F ^ m → (N : ENNReal) / (Fintype.card F : ENNReal) ^ (m + 1) ≤ k / (Fintype.card F : ENNReal) := by
    intro N k m h
    refine (ENNReal.div_le_div_right (b := ((k * Fintype.card F ^ m : Nat) : ENNReal)) (by exact_mod_cast h) _).trans (le_of_eq ?_)
    rw [Nat.cast_mul, Nat.cast_pow, pow_succ', ENNReal.mul_div_mul_right _ _ (pow_ne_zero _ hcard) (ENNReal.pow_ne_top (ENNReal.natCast_ne_top _))]
  let v : ProverView F := ⟨ws, is, fixed, table⟩
  let view := v.extend pk.vk.index.ext
  let perm := sigmas.map (·.computeExtended pk.vk.index.ext)
  let qb := qBlind.computeExtended pk.vk.index.ext
  let es := List.replicate (fixed.length + sigmas.length + table.length + 1) S.emptyRand
  -- the four ways to fail
  let E1 : Set (History → F) := {H | ∃ theta beta gamma, FirstMessages (S.hashing H) (pk.hashing H) v d z theta beta gamma ∧
    ¬ GoodDraw d pk.vk.index v sigmas theta beta gamma}
  let E2 : Set (History → F) := {H | ∃ tr, proveRounds (S.hashing H) (pk.hashing H) (.new _ fixed sigmas table qBlind pk.vk.index) ws is vos
    d.size z = .ok tr ∧ (tr.chal.xi = 0 ∨ peval zh tr.chal.xi = 0)}
  let E3 : Set (History → F) := {H | ∃ tr proof, proveRounds (S.hashing H) (pk.hashing H) (.new _ fixed sigmas table qBlind pk.vk.index) ws is
    vos d.size z = .ok tr ∧
    prove (S.hashing H) (pk.hashing H) (.new _ fixed sigmas table qBlind pk.vk.index) ws is vos d.size z = .ok proof ∧
    ∃ k : ℤ, (mpChallenges (S.hashing H) proof.multiopen (verifierChallenges (S.hashing H) proof).2).2.2.1 = tr.chal.xi * d.omega ^ k}
  let E4 : Set (History → F) := {H | ∃ tr proof, proveRounds (S.hashing H) (pk.hashing H) (.new _ fixed sigmas table qBlind pk.vk.index) ws is
    vos d.size z = .ok tr ∧
    prove (S.hashing H) (pk.hashing H) (.new _ fixed sigmas table qBlind pk.vk.index) ws is vos d.size z = .ok proof ∧
    (mpChallenges (S.hashing H) proof.multiopen (verifierChallenges (S.hashing H) proof).2).1 = tr.chal.xi ^ d.size}
  have hsub : {H | ¬ ∃ proof,
      prove (S.hashing H) (pk.hashing H) (.new _ fixed sigmas table qBlind pk.vk.index) ws is vos d.size z = .ok proof ∧
      ∃ b st', verifyRegister (S.hashing H) (pk.vk.hashing H) (vpre.hashing H) (adjust proof (mpChallenges (S.hashing H) proof.multiopen (verifierChallenges (S.hashing H) proof).2).1 b)
          vws vis d.size (verifierChallenges (S.hashing H) proof).1 = .ok st' ∧
        proof.multiopen.qEvals.length = distinctRotations st'.oracles ∧
        verify (S.hashing H) (pk.vk.hashing H) (vpre.hashing H) (adjust proof (mpChallenges (S.hashing H) proof.multiopen (verifierChallenges (S.hashing H) proof).2).1 b) vws vis vos d.size zh = .ok ()} ⊆ E1 ∪ (E2 ∪ (E3 ∪ E4)) := by
    intro H hH
    obtain ⟨theta, beta, gamma, g1, g2⟩ := hmain H
    by_cases hgood : GoodDraw d pk.vk.index v sigmas theta beta gamma
    · obtain ⟨tr, g3, g4⟩ := g2 hgood
      refine Or.inr ?_
      by_cases hxi : tr.chal.xi = 0 ∨ peval zh tr.chal.xi = 0
      · exact Or.inl ⟨tr, g3, hxi⟩
      · obtain ⟨hxi, hzx⟩ := not_or.1 hxi
        obtain ⟨proof, g5, g6, g7⟩ := g4 hxi
        refine Or.inr ?_
        by_cases hx1 : (mpChallenges (S.hashing H) proof.multiopen (verifierChallenges (S.hashing H) proof).2).1 = tr.chal.xi ^ d.size
        · exact Or.inr ⟨tr, proof, g3, g5, hx1⟩
        · refine Or.inl ⟨tr, proof, g3, g5, ?_⟩
          by_contra hk
          exact hH ⟨proof, g5, g7 hzx hx1 (fun k h => hk ⟨k, h⟩)⟩
    · exact Or.inl ⟨theta, beta, gamma, g1, hgood⟩
  have m1 : randomOracle F E1 ≤ (((ws.filter (·.shouldPermute)).length * pk.vk.index.perm.usableRows
        + 2 * (pk.vk.index.lookups.length * pk.vk.index.usableRows) : Nat) : ENNReal) / (Fintype.card F : ENNReal) := by
    refine (randomOracle_le E1 {c : Fin 3 → F | (c 1, c 2) ∈ {p : F × F | ¬ GoodDraw d pk.vk.index v sigmas (c 0) p.1 p.2}}
      (Asked3 S pk.ck pk.vk.index view d z) (fun c q q' => Asked3.unique) ?_).trans (hdiv _ _ 2 ?_)
    · rintro H ⟨theta, beta, gamma, ⟨wc, z1, ls, z2, lc, z3, a1, a2, a3, e1, e2, e3⟩, hbad⟩
      have hq : Asked3 S pk.ck pk.vk.index view d z ![theta, beta, gamma] _ := ⟨wc, z1, ls, z2, lc, z3, a1, a2, a3, rfl⟩
      refine ⟨![theta, beta, gamma], hbad, _, hq, hq.injective, fun k => ?_⟩
      fin_cases k
      · exact e1.symm
      · exact e2.symm
      · exact e3.symm
    · refine (ncard_pair (A := fun x => {p : F × F | ¬ GoodDraw d pk.vk.index v sigmas x p.1 p.2}) (k := ((ws.filter (·.shouldPermute)).length * pk.vk.index.perm.usableRows
        + 2 * (pk.vk.index.lookups.length * pk.vk.index.usableRows)) * Fintype.card F) (fun x => ?_)).trans (le_of_eq (by ring))
      have h := C52_few_bad_draws d pk.vk.index v sigmas x Finset.univ
      rw [Finset.card_univ] at h
      refine le_trans (le_of_eq ?_) h
      rw [Set.ncard_eq_toFinset_card _ (Set.toFinite _)]
      congr 1
      ext p
      simp
  have m2 : randomOracle F E2 ≤ (((toPoly zh).natDegree + 1 : Nat) : ENNReal) / (Fintype.card F : ENNReal) := by
    refine (randomOracle_le E2 {c : Fin 5 → F | c 4 = 0 ∨ peval zh (c 4) = 0} (fun c q => ∃ r quot wc lc zc lzc qc y,
      Messages S pk.ck pk.vk.index pk.vk.zhInverses view perm qb vos d z (c 0) (c 1) (c 2) (c 3) r quot wc lc zc lzc qc y ∧
      q = history5 S wc lc zc lzc qc) ?_ ?_).trans (hdiv _ _ 4 ?_)
    · rintro c q q' ⟨r, quot, wc, lc, zc, lzc, qc, y, a, rfl⟩ ⟨r', quot', wc', lc', zc', lzc', qc', y', b, rfl⟩
      obtain ⟨-, -, rfl, rfl, rfl, rfl, rfl, -⟩ := a.unique b
      rfl
    · rintro H ⟨tr, g, hxi⟩
      exact ⟨![tr.chal.theta, tr.chal.beta, tr.chal.gamma, tr.chal.alpha, tr.chal.xi], hxi, _,
        ⟨tr.rounds, tr.quotient, tr.wc, tr.lc, tr.zc, tr.lzc, tr.qc, tr.z, ⟨(proveRounds_messages _ hd.new_self g).1.run⟩, rfl⟩,
        history5_injective S _ _ _ _ _, (proveRounds_hashing g).1⟩
    · refine ncard_last (fun c => ?_)
      refine (Set.ncard_le_ncard (t := (insert 0 (toPoly zh).roots.toFinset : Finset F)) (fun x hx => ?_) (Set.toFinite _)).trans ?_
      · have hx : (Fin.snoc c x : Fin 5 → F) (Fin.last 4) = 0 ∨ peval zh ((Fin.snoc c x : Fin 5 → F) (Fin.last 4)) = 0 := hx
        rw [Fin.snoc_last, peval_eq_eval] at hx
        simpa [hz0] using hx
      · rw [Set.ncard_coe_finset]
        exact (Finset.card_insert_le _ _).trans (Nat.succ_le_succ ((Multiset.toFinset_card_le _).trans (Polynomial.card_roots' _)))
  have m3 : randomOracle F E3 ≤ (d.size : ENNReal) / (Fintype.card F : ENNReal) := by
    refine (randomOracle_le E3 {c : Fin 8 → F | c 7 ∈ (Finset.range d.size).image (fun i => c 4 * d.omega ^ i)} (fun c q => ∃ r quot wc lc zc lzc qc y f,
      Messages S pk.ck pk.vk.index pk.vk.zhInverses view perm qb vos d z (c 0) (c 1) (c 2) (c 3) r quot wc lc zc lzc qc y ∧
      Aggregated S pk.ck view perm qb es d r quot wc lc zc lzc qc y (c 4) (c 5) (c 6) f ∧
      q = history8 S wc lc zc lzc qc f) ?_ ?_).trans (hdiv _ _ 7 ?_)
    · rintro c q q' ⟨r, quot, wc, lc, zc, lzc, qc, y, f, a, a', rfl⟩ ⟨r', quot', wc', lc', zc', lzc', qc', y', f', b, b', rfl⟩
      obtain ⟨rfl, rfl, rfl, rfl, rfl, rfl, rfl, rfl⟩ := a.unique b
      rw [a'.unique b']
    · rintro H ⟨tr, proof, g, g', k, hk⟩
      obtain ⟨ha, hv⟩ := prove_aggregated _ hd.new_self g g'
      rw [hv] at hk
      obtain ⟨hm, hview⟩ := proveRounds_messages _ hd.new_self g
      obtain ⟨hh, ht⟩ := proveRounds_hashing g
      rw [hview, ht] at ha
      rw [ht] at hk
      let q8 := history8 S tr.wc tr.lc tr.zc tr.lzc tr.qc proof.multiopen.fCommit
      have hk : H (q8 7) = tr.chal.xi * d.omega ^ k := hk
      refine ⟨![tr.chal.theta, tr.chal.beta, tr.chal.gamma, tr.chal.alpha, tr.chal.xi, H (q8 5), H (q8 6), H (q8 7)], ?_, _,
        ⟨tr.rounds, tr.quotient, tr.wc, tr.lc, tr.zc, tr.lzc, tr.qc, tr.z, proof.multiopen.fCommit, ⟨hm.run⟩, ha, rfl⟩,
        history8_injective S _ _ _ _ _ _, fun k => ?_⟩
      · show H (q8 7) ∈ (Finset.range d.size).image (fun i => tr.chal.xi * d.omega ^ i)
        rw [hk]
        exact zpow_mem_image hd _ k
      · fin_cases k
        · exact hh 0
        · exact hh 1
        · exact hh 2
        · exact hh 3
        · exact hh 4
        · rfl
        · rfl
        · rfl
    · refine ncard_last (fun c => ?_)
      refine (Set.ncard_le_ncard (t := ((Finset.range d.size).image (fun i => c 4 * d.omega ^ i) : Finset F)) (fun x hx => ?_) (Set.toFinite _)).trans ?_
      · have hx : (Fin.snoc c x : Fin 8 → F) (Fin.last 7) ∈ (Finset.range d.size).image (fun i => (Fin.snoc c x : Fin 8 → F) (Fin.castSucc 4) * d.omega ^ i) := hx
        rw [Fin.snoc_last, Fin.snoc_castSucc] at hx
        exact hx
      · rw [Set.ncard_coe_finset]
        exact Finset.card_image_le.trans (Finset.card_range _).le
  have m4 : randomOracle F E4 ≤ ((1 : Nat) : ENNReal) / (Fintype.card F : ENNReal) := by
    refine (randomOracle_le E4 {c : Fin 8 → F | c 5 = c 4 ^ d.size} (fun c q => ∃ r quot wc lc zc lzc qc y f,
      Messages S pk.ck pk.vk.index pk.vk.zhInverses view perm qb vos d z (c 0) (c 1) (c 2) (c 3) r quot wc lc zc lzc qc y ∧
      Aggregated S pk.ck view perm qb es d r quot wc lc zc lzc qc y (c 4) (c 5) (c 6) f ∧
      q = history8 S wc lc zc lzc qc f) ?_ ?_).trans (hdiv _ _ 7 ?_)
    · rintro c q q' ⟨r, quot, wc, lc, zc, lzc, qc, y, f, a, a', rfl⟩ ⟨r', quot', wc', lc', zc', lzc', qc', y', f', b, b', rfl⟩
      obtain ⟨rfl, rfl, rfl, rfl, rfl, rfl, rfl, rfl⟩ := a.unique b
      rw [a'.unique b']
    · rintro H ⟨tr, proof, g, g', hk⟩
      obtain ⟨ha, hv⟩ := prove_aggregated _ hd.new_self g g'
      rw [hv] at hk
      obtain ⟨hm, hview⟩ := proveRounds_messages _ hd.new_self g
      obtain ⟨hh, ht⟩ := proveRounds_hashing g
      rw [hview, ht] at ha
      rw [ht] at hk
      let q8 := history8 S tr.wc tr.lc tr.zc tr.lzc tr.qc proof.multiopen.fCommit
      have hk : H (q8 5) = tr.chal.xi ^ d.size := hk
      refine ⟨![tr.chal.theta, tr.chal.beta, tr.chal.gamma, tr.chal.alpha, tr.chal.xi, H (q8 5), H (q8 6), H (q8 7)], ?_, _,
        ⟨tr.rounds, tr.quotient, tr.wc, tr.lc, tr.zc, tr.lzc, tr.qc, tr.z, proof.multiopen.fCommit, ⟨hm.run⟩, ha, rfl⟩,
        history8_injective S _ _ _ _ _ _, fun k => ?_⟩
      · exact hk
      · fin_cases k
        · exact hh 0
        · exact hh 1
        · exact hh 2
        · exact hh 3
        · exact hh 4
        · rfl
        · rfl
        · rfl
    · exact (ncard_determined (f := fun c => c 4 ^ d.size) (fun c c' h => by rw [h 4 (by decide)])).trans (one_mul _).ge
  refine (measure_mono hsub).trans ((measure_union_le _ _).trans ((add_le_add m1 ((measure_union_le _ _).trans (add_le_add m2
    ((measure_union_le _ _).trans (add_le_add m3 m4))))).trans (le_of_eq ?_)))
  rw [ENNReal.div_add_div_same, ENNReal.div_add_div_same, ENNReal.div_add_div_same]
  congr 1
  push_cast
  ring

end
end ZK
