import Verif.Model.LookupTest
import Verif.Lemmas.ArgumentTest
import Verif.Lemmas.Outcome
import Verif.Spec.LookupTest
import Verif.Spec.Hiding
/-! What the tests of the lookup argument compute. -/
set_option autoImplicit false
set_option linter.unusedSectionVars false
namespace ZK
open Polynomial
section
variable {F : Type} [Field F] [FftParams F] [LawfulFft F] [LinearOrder F]

/-- The grand product of a lookup is constructed exactly when the product of the permuted columns is not zero and equals that of the
original ones. -/
theorem seConstruct_outcome {Z ε : Type} (next : Z → F × Z) (l : LookupOracles (ProverOracle F)) (beta gamma : F) (idx : Nat)
    {u : Nat} {d ext : Domain F} (hu : u < d.size) (z : Z) {a s a' s' : Nat → F}
    (ha : ∀ i < u, l.a.evals[i]? = some (a i)) (hs : ∀ i < u, l.s.evals[i]? = some (s i))
    (ha' : ∀ i < u, l.aPrime.evals[i]? = some (a' i)) (hs' : ∀ i < u, l.sPrime.evals[i]? = some (s' i)) :
    (((∏ i ∈ Finset.range u, (a' i + beta) * (s' i + gamma) ≠ 0) ∧
      ∏ i ∈ Finset.range u, (a i + beta) * (s i + gamma) = ∏ i ∈ Finset.range u, (a' i + beta) * (s' i + gamma)) ∧
      ∃ o, (seConstruct next l beta gamma idx u d ext z : Res ε _) = .ok o) ∨
    (¬ ((∏ i ∈ Finset.range u, (a' i + beta) * (s' i + gamma) ≠ 0) ∧
      ∏ i ∈ Finset.range u, (a i + beta) * (s i + gamma) = ∏ i ∈ Finset.range u, (a' i + beta) * (s' i + gamma)) ∧
      (seConstruct next l beta gamma idx u d ext z : Res ε _) = .panic) := by
  have hfac : ∀ i < u, (seFactor l beta gamma i : Res ε F)
      = mulInv ((a i + beta) * (s i + gamma)) ((a' i + beta) * (s' i + gamma)) := by
    intro i hi
    unfold seFactor
    simp only [Res.idx, ha i hi, hs i hi, ha' i hi, hs' i hi, Res.bind_ok]
  by_cases h0 : ∏ i ∈ Finset.range u, (a' i + beta) * (s' i + gamma) = 0
  · right
    refine ⟨fun h => h.1 h0, ?_⟩
    unfold seConstruct
    refine Res.bind_panic_of (zRun_noErr (fun i hi => ?_) _) fun zs hz => ?_
    · rw [hfac i (List.mem_range.1 hi)]; exact mulInv_noErr _ _
    · exfalso
      obtain ⟨i, hi, h1⟩ := Finset.prod_eq_zero_iff.1 h0
      have hi' := Finset.mem_range.1 hi
      obtain ⟨f, hf⟩ := zRun_inv hz i (List.mem_range.2 hi')
      rw [hfac i hi', mulInv, if_pos h1] at hf
      cases hf
  have hden : ∀ i < u, (a' i + beta) * (s' i + gamma) ≠ 0 := fun i hi =>
    Finset.prod_ne_zero_iff.1 h0 i (Finset.mem_range.2 hi)
  have hrun := zRun_ok (ε := ε) (factor := seFactor l beta gamma)
    (f := fun i => (a i + beta) * (s i + gamma) / ((a' i + beta) * (s' i + gamma))) 1 (List.range u) (by
      intro i hi
      have hi' := List.mem_range.1 hi
      rw [hfac i hi', mulInv, if_neg (hden i hi'), div_eq_mul_inv])
  have hlast : ∏ i ∈ Finset.range u, (a i + beta) * (s i + gamma) / ((a' i + beta) * (s' i + gamma))
      = (∏ i ∈ Finset.range u, (a i + beta) * (s i + gamma)) / ∏ i ∈ Finset.range u, (a' i + beta) * (s' i + gamma) :=
    Finset.prod_div_distrib ..
  have hidx : Res.idx (ε := ε) ((List.range ((List.range u).length + 1)).map (fun i => 1 * (((List.range u).take i).map
      (fun i => (a i + beta) * (s i + gamma) / ((a' i + beta) * (s' i + gamma)))).prod)) u
      = .ok ((∏ i ∈ Finset.range u, (a i + beta) * (s i + gamma)) / ∏ i ∈ Finset.range u, (a' i + beta) * (s' i + gamma)) := by
    rw [Res.idx_of_some]
    rw [List.getElem?_map, List.getElem?_range (by simp), Option.map_some, List.take_of_length_le (by simp), one_mul, ← hlast]
    rfl
  unfold seConstruct
  rw [hrun, Res.bind_ok, hidx, Res.bind_ok]
  by_cases h1 : ∏ i ∈ Finset.range u, (a i + beta) * (s i + gamma) = ∏ i ∈ Finset.range u, (a' i + beta) * (s' i + gamma)
  · left
    refine ⟨⟨h0, h1⟩, ?_⟩
    rw [h1, div_self h0]
    simp only [decide_true, Res.assert_true, Res.bind_ok, decide_eq_true (show u + 1 ≤ d.size from hu)]
    exact ⟨_, rfl⟩
  · right
    refine ⟨fun h => h1 h.2, ?_⟩
    rw [decide_eq_false (fun h => h1 ((div_eq_one_iff_eq h0).1 h))]
    rfl

/-- The constraints of a lookup hold on every row: the first three for any columns whose grand product exists, and all five if the rows are
as the permuted columns of a lookup should be. -/
theorem lookupTest_rows {d ext : Domain F} (hd : d.Ok) {u idx : Nat} {full : Bool} (hu0 : full = true → 0 < u)
    {l : LookupOracles (ProverOracle F)} {o : ProverOracle F} {beta gamma : F}
    (hla : Honest d ext l.a) (hls : Honest d ext l.s) (hla' : Honest d ext l.aPrime) (hls' : Honest d ext l.sPrime)
    (hrows : full = true → ∀ i < u, l.sPrime.evals[i]? = l.aPrime.evals[i]? ∨
      (0 < i ∧ l.aPrime.evals[i - 1]? = l.aPrime.evals[i]?))
    (ha : LookupAgg d ext u idx l beta gamma o) {qBlind : F[X]}
    (hq : ∀ i < d.size, qBlind.eval (d.omega ^ i) = blinding u i) {i : Nat} (hi : i < d.size) :
    ∀ x ∈ (lookupPolys d u qBlind beta gamma
      (⟨toPoly l.a.poly, toPoly l.s.poly, toPoly l.aPrime.poly, toPoly l.sPrime.poly⟩, toPoly o.poly)).take
        (if full then 5 else 3), x.eval (d.omega ^ i) = 0 := by
  intro x hx
  have hx' := List.mem_map_of_mem (f := fun p : F[X] => p.eval (d.omega ^ i)) hx
  rw [List.map_take, eval_lookupPolys] at hx'
  have hou := ha.usable
  rw [rowPoly_eval hd hi hd.size_pos, rowPoly_eval hd hi (by omega)] at hx'
  have hho := (ha.honest hd).1.2
  have ga := hla.1.2
  have gs := hls.1.2
  have ga' := hla'.1.2
  have gs' := hls'.1.2
  have hfirst : (toPoly o.poly).eval (d.omega ^ 0) = 1 := by
    have h1 := hho 0 hd.size_pos
    rw [ha.first] at h1
    exact (Option.some.inj h1).symm
  have hlast : (toPoly o.poly).eval (d.omega ^ u) = 1 := by
    have h1 := hho u (by omega)
    rw [ha.last] at h1
    exact (Option.some.inj h1).symm
  have hcase : ∀ y : F, (i < u → y = 0) →
      (1 - ((if i = u then (1 : F) else 0) + qBlind.eval (d.omega ^ i))) * y = 0 := by
    intro y hy
    rcases Nat.lt_or_ge i u with h | h
    · rw [hy h, mul_zero]
    · rw [hq i hi, blinding]
      by_cases h0 : i = u
      · rw [if_pos h0, if_pos (by omega)]; ring
      · rw [if_neg h0, if_neg (by omega)]; ring
  have hthree : ∀ y, y ∈ [(if i = 0 then (1 : F) else 0) * (1 - (toPoly o.poly).eval (d.omega ^ i)),
      (1 - ((if i = u then (1 : F) else 0) + qBlind.eval (d.omega ^ i))) *
        ((toPoly o.poly).eval (d.omega * d.omega ^ i) * ((toPoly l.aPrime.poly).eval (d.omega ^ i) + beta)
            * ((toPoly l.sPrime.poly).eval (d.omega ^ i) + gamma)
          - (toPoly o.poly).eval (d.omega ^ i) * ((toPoly l.a.poly).eval (d.omega ^ i) + beta)
            * ((toPoly l.s.poly).eval (d.omega ^ i) + gamma)),
      (if i = u then (1 : F) else 0) * ((toPoly o.poly).eval (d.omega ^ i) * (toPoly o.poly).eval (d.omega ^ i)
        - (toPoly o.poly).eval (d.omega ^ i))] → y = 0 := by
    intro y hy
    simp only [List.mem_cons, List.not_mem_nil, or_false] at hy
    rcases hy with h | h | h
    · rw [h]
      by_cases h0 : i = 0
      · subst h0; rw [hfirst]; ring
      · rw [if_neg h0]; ring
    · rw [h]
      refine hcase _ (fun hlt => ?_)
      obtain ⟨a, s, a', s', z0, z1, e1, e2, e3, e4, e5, e6, e7⟩ := ha.step i hlt
      have e1' := (ga i hi).symm.trans e1
      have e2' := (gs i hi).symm.trans e2
      have e3' := (ga' i hi).symm.trans e3
      have e4' := (gs' i hi).symm.trans e4
      have e5' := (hho i hi).symm.trans e5
      have e6' := (hho (i + 1) (by omega)).symm.trans e6
      rw [← pow_succ']
      simp only [Option.some.inj e1', Option.some.inj e2', Option.some.inj e3', Option.some.inj e4', Option.some.inj e5',
        Option.some.inj e6', e7, sub_self]
    · rw [h]
      by_cases h0 : i = u
      · rw [h0, hlast]; ring
      · rw [if_neg h0]; ring
  cases full with
  | false => exact hthree _ hx'
  | true =>
    have hrows := hrows rfl
    simp only [lookupConstraints, if_true, List.take_succ_cons, List.take_zero, List.mem_cons, List.not_mem_nil, or_false] at hx'
    simp only [List.mem_cons, List.not_mem_nil, or_false] at hthree
    rcases hx' with h | h | h | h | h
    · exact hthree _ (Or.inl h)
    · exact hthree _ (Or.inr (Or.inl h))
    · exact hthree _ (Or.inr (Or.inr h))
    · rw [h]
      by_cases h0 : i = 0
      · subst h0
        rcases hrows 0 (hu0 rfl) with h1 | h1
        · rw [ga' 0 hi, gs' 0 hi] at h1
          simp only [Option.some.inj h1]; ring
        · omega
      · rw [if_neg h0]; ring
    · rw [h, mul_assoc]
      refine hcase _ (fun hlt => ?_)
      rcases hrows i hlt with h1 | ⟨h0, h1⟩
      · rw [ga' i hi, gs' i hi] at h1
        simp only [Option.some.inj h1]; ring
      · rw [ga' i hi, ga' (i - 1) (by omega)] at h1
        rw [inv_omega_row hd h0]
        simp only [Option.some.inj h1]; ring

omit [FftParams F] [LawfulFft F] in
/-- The verifier's evaluation of the subset equality is that of the first three constraints. -/
theorem seOpen_eq {C : Type} (l0 lu : F) (qBlind : VerifierOracle F C)
    (l : LookupOracles (VerifierOracle F C)) (zo : VerifierOracle F C) (beta gamma xi : F)
    (d : Domain F) (alphas : List F) (hal : alphas.length = 3) (v : LookupVals F) (qb : F)
    (ha : l.a.query xi = .ok v.a) (hs : l.s.query xi = .ok v.s) (ha' : l.aPrime.query xi = .ok v.aPrime)
    (hs' : l.sPrime.query xi = .ok v.sPrime) (hz : zo.query xi = .ok v.z)
    (hzN : zo.query (d.element 1 * xi) = .ok v.zNext) (hqb : qBlind.query xi = .ok qb) :
    seOpen l0 lu qBlind l zo beta gamma xi d alphas
      = .ok (weighted alphas ((lookupConstraints beta gamma l0 lu qb v).take 3)) := by
  match alphas, hal with
  | [a0, a1, a2], _ =>
    simp [seOpen, ha, hs, ha', hs', hz, hzN, hqb, Res.idx, weighted, lookupConstraints, List.zipWith]
    ring

omit [FftParams F] [LawfulFft F] in
/-- The prover's evaluation of the subset equality at a coset point. -/
theorem seInstantiate_eq (l0 qLast : List F) (qBlind : ProverOracle F)
    (l : LookupOracles (ProverOracle F)) (zo : ProverOracle F) (beta gamma : F) (i : Nat)
    (alphas : List F) (hal : alphas.length = 3) (v : LookupVals F) (qb l0i lui : F)
    (hl0 : l0[i]? = some l0i) (hlu : qLast[i]? = some lui)
    (ha : l.a.queryInCoset i .curr = .ok v.a) (hs : l.s.queryInCoset i .curr = .ok v.s)
    (ha' : l.aPrime.queryInCoset i .curr = .ok v.aPrime)
    (hs' : l.sPrime.queryInCoset i .curr = .ok v.sPrime) (hz : zo.queryInCoset i .curr = .ok v.z)
    (hzN : zo.queryInCoset i .next = .ok v.zNext) (hqb : qBlind.queryInCoset i .curr = .ok qb) :
    seInstantiate l0 qLast qBlind l zo beta gamma i alphas
      = .ok (weighted alphas ((lookupConstraints beta gamma l0i lui qb v).take 3)) := by
  match alphas, hal with
  | [a0, a1, a2], _ =>
    simp [seInstantiate, ha, hs, ha', hs', hz, hzN, hqb, Res.idx, weighted, lookupConstraints, List.zipWith, hl0, hlu]
    ring

/-- The polynomial division of `simple_lookup` leaves no remainder. -/
theorem divisionCheck_ok {ε : Type} {d ext : Domain F} (hd : d.Ok) (he : ext.Ok) {N : F[X]}
    (hdvd : (X ^ d.size - 1 : F[X]) ∣ N) (hdeg : N.natDegree < ext.size) :
    divisionCheck (ε := ε) d ext ((List.range ext.size).map (fun i => N.eval ((FftParams.gen : F) * ext.element i))) = .ok () := by
  have hnum : toPoly (ext.cosetIfft ((List.range ext.size).map (fun i => N.eval ((FftParams.gen : F) * ext.element i)))) = N := by
    refine he.toPoly_cosetIfft (q := N) (by simp) ?_ ?_
    · exact lt_of_le_of_lt degree_le_natDegree (by exact_mod_cast hdeg)
    · intro i hi
      simp
  have hv : toPoly d.vanishing = X ^ d.size - 1 := toPoly_vanishing d hd.size_pos
  have hm : (X ^ d.size - 1 : F[X]).Monic := monic_X_pow_sub_C 1 hd.size_pos.ne'
  unfold divisionCheck
  simp only
  cases hp : (pdiv (trim (ext.cosetIfft ((List.range ext.size).map (fun i => N.eval ((FftParams.gen : F) * ext.element i))))) d.vanishing
      : Res ε (List F)) with
  | ok q =>
    obtain ⟨r, h1, h2⟩ := pdiv_spec hp
    rw [toPoly_trim, hnum, hv] at h1
    rw [hv] at h2
    have hr : r = 0 := by
      have h3 : (X ^ d.size - 1 : F[X]) ∣ r := by
        rw [show r = N - toPoly q * (X ^ d.size - 1) by rw [h1]; ring]
        exact dvd_sub hdvd (dvd_mul_left _ _)
      by_contra h0
      exact absurd (degree_le_of_dvd h3 h0) (not_le.2 h2)
    rw [Res.bind_ok, decide_eq_true]
    · rfl
    · refine trim_eq_of_toPoly_eq ?_
      rw [hnum, toPoly_pmul, hv, h1, hr, add_zero]
  | err e =>
    unfold pdiv at hp
    split at hp <;> cases hp
  | panic =>
    unfold pdiv at hp
    split at hp
    · rename_i h0
      rw [List.getLast?_eq_none_iff] at h0
      exfalso
      have : toPoly d.vanishing = 0 := by rw [← toPoly_trim, h0]; simp
      rw [hv] at this
      exact hm.ne_zero this
    · cases hp

/-- The product over the usable rows of two columns. -/
theorem shiftedProduct_rows {u : Nat} {a s : List F} (ha : a.length = u) (hs : s.length = u) (x y : F) :
    ∏ i ∈ Finset.range u, (a.getD i 0 + x) * (s.getD i 0 + y) = shiftedProduct a s x y := by
  have : ∀ (l : List F) (w : F), l.length = u → ∏ i ∈ Finset.range u, (l.getD i 0 + w) = (l.map (· + w)).prod := by
    intro l w hl
    subst hl
    rw [← Fin.prod_univ_eq_prod_range (fun i => l.getD i 0 + w), ← List.prod_ofFn]
    congr 1
    apply List.ext_getElem (by simp)
    intro i h1 h2
    simp
  rw [Finset.prod_mul_distrib, this a x ha, this s y hs]
  rfl

/-- The four columns of a test, each usable part followed by its blinds. -/
def blindedColumns (c b : LookupOracles (List F)) : LookupOracles (List F) :=
  ⟨c.a ++ b.a, c.s ++ b.s, c.aPrime ++ b.aPrime, c.sPrime ++ b.sPrime⟩

set_option maxHeartbeats 1000000 in
/-- Outcome of the common part of the tests of the lookup argument. -/
theorem lookupChecks_outcome {Z : Type} (C : Type) (full : Bool) {u : Nat} {d ext : Domain F} (hd : d.Ok) (he : ext.Ok) (hn : 1 < d.size)
    (hu : u < d.size) (hu0 : full = true → 0 < u) (hext : 4 * d.size ≤ ext.size) {c b : LookupOracles (List F)}
    (ha : c.a.length = u) (hs : c.s.length = u) (ha' : c.aPrime.length = u) (hs' : c.sPrime.length = u)
    (hba : b.a.length = d.size - u) (hbs : b.s.length = d.size - u) (hba' : b.aPrime.length = d.size - u)
    (hbs' : b.sPrime.length = d.size - u)
    (hrows : full = true → ∀ i < u, c.sPrime[i]? = c.aPrime[i]? ∨ (0 < i ∧ c.aPrime[i - 1]? = c.aPrime[i]?))
    (next : Z → F × Z) (z : Z) :
    lookupChecks C full d.size u d ext (blindedColumns c b) next z =
      if shiftedProduct c.aPrime c.sPrime (next z).1 (next (next z).2).1 ≠ 0 ∧
        shiftedProduct c.a c.s (next z).1 (next (next z).2).1 = shiftedProduct c.aPrime c.sPrime (next z).1 (next (next z).2).1
      then .ok () else .panic := by
  obtain ⟨beta, hbeta⟩ : ∃ beta, beta = (next z).1 := ⟨_, rfl⟩
  obtain ⟨gamma, hgamma⟩ : ∃ gamma, gamma = (next (next z).2).1 := ⟨_, rfl⟩
  obtain ⟨z2, hz2⟩ : ∃ z2, z2 = (next (next z).2).2 := ⟨_, rfl⟩
  rw [← hbeta, ← hgamma]
  have hlt : d.size < ext.size := by omega
  set l : LookupOracles (ProverOracle F) :=
    ⟨testOracle d ext .witness false (bytes "a", c.a ++ b.a), testOracle d ext .witness false (bytes "s", c.s ++ b.s),
      testOracle d ext .witness false (bytes "a_prime", c.aPrime ++ b.aPrime),
      testOracle d ext .witness false (bytes "s_prime", c.sPrime ++ b.sPrime)⟩ with hl
  have hrow : ∀ (x y : List F), x.length = u → ∀ i < u, (x ++ y)[i]? = some (x.getD i 0) := by
    intro x y hx i hi
    rw [List.getElem?_append_left (by omega), List.getD_eq_getElem?_getD, List.getElem?_eq_getElem (by omega)]
    rfl
  have hla : Honest d ext l.a := testOracle_honest hd (by simp [ha, hba]; omega)
  have hls : Honest d ext l.s := testOracle_honest hd (by simp [hs, hbs]; omega)
  have hla' : Honest d ext l.aPrime := testOracle_honest hd (by simp [ha', hba']; omega)
  have hls' : Honest d ext l.sPrime := testOracle_honest hd (by simp [hs', hbs']; omega)
  have hout := seConstruct_outcome (ε := PiopErr) next l beta gamma 0 (ext := ext) hu z2
    (a := fun i => c.a.getD i 0) (s := fun i => c.s.getD i 0) (a' := fun i => c.aPrime.getD i 0) (s' := fun i => c.sPrime.getD i 0)
    (hrow _ _ ha) (hrow _ _ hs) (hrow _ _ ha') (hrow _ _ hs')
  rw [shiftedProduct_rows ha hs, shiftedProduct_rows ha' hs'] at hout
  rcases hout with ⟨hcond, ⟨o, z3⟩, hok⟩ | ⟨hcond, hpanic⟩
  swap
  · rw [if_neg hcond]
    unfold lookupChecks blindedColumns
    simp only [← hl, ← hbeta, ← hgamma, ← hz2, hpanic]
    rfl
  rw [if_pos hcond]
  have hagg : LookupAgg d ext u 0 l beta gamma o := seConstruct_inv hok
  have hoH : Honest d ext o := hagg.honest hd
  obtain ⟨l0, hl0, hl0l, hl0p⟩ := lagrangeRow_eq (ε := PiopErr) hd hd.size_pos
  obtain ⟨lu, hlu, hlul, hlup⟩ := lagrangeRow_eq (ε := PiopErr) hd (i := u) hu
  set qB := testOracle d ext .fixed false (bytes "q_blind", testBlinding (F := F) d.size u) with hqB
  have hqH : Honest d ext qB := testOracle_honest hd (by simp [testBlinding])
  obtain ⟨k, hk⟩ : ∃ k, k = if full = true then 5 else 3 := ⟨_, rfl⟩
  obtain ⟨as, has⟩ : ∃ as, as = powersFrom 1 (next z3).1 k := ⟨_, rfl⟩
  have hasl : as.length = k := by rw [has, powersFrom_eq]; simp
  obtain ⟨xi, hxi⟩ : ∃ xi, xi = (next (next z3).2).1 := ⟨_, rfl⟩
  set t : LookupPolys F × F[X] :=
    (⟨toPoly l.a.poly, toPoly l.s.poly, toPoly l.aPrime.poly, toPoly l.sPrime.poly⟩, toPoly o.poly) with ht
  set N : F[X] := weighted (as.map Polynomial.C) ((lookupPolys d u (toPoly qB.poly) beta gamma t).take k) with hN
  have hdvd : (X ^ d.size - 1 : F[X]) ∣ N := by
    refine hd.dvd_of_rows fun i hi => ?_
    rw [hN, weighted_map_eval]
    refine weighted_of_zero fun x hx => ?_
    obtain ⟨q, hq, rfl⟩ := List.mem_map.1 hx
    rw [hk] at hq
    refine lookupTest_rows (full := full) hd hu0 hla hls hla' hls' (fun hf j hj => ?_) hagg (fun i hi => testBlinding_eval hd u hi) hi q hq
    have h1 := hrows hf j hj
    show (c.sPrime ++ b.sPrime)[j]? = (c.aPrime ++ b.aPrime)[j]? ∨ (0 < j ∧ (c.aPrime ++ b.aPrime)[j - 1]? = (c.aPrime ++ b.aPrime)[j]?)
    rw [List.getElem?_append_left (by omega), List.getElem?_append_left (by omega), List.getElem?_append_left (by omega)]
    exact h1
  have hNdeg : N.natDegree ≤ 4 * (d.size - 1) := by
    refine weighted_natDegree fun q hq => ?_
    exact natDegree_lookupPolys hd hu le_rfl le_rfl (natDegree_toPoly_pred hqH.2.1)
      (t := t) ⟨natDegree_toPoly_pred hla.2.1, natDegree_toPoly_pred hls.2.1, natDegree_toPoly_pred hla'.2.1,
        natDegree_toPoly_pred hls'.2.1, natDegree_toPoly_pred hoH.2.1⟩ beta gamma q (List.mem_of_mem_take hq)
  have hNe : N.natDegree < ext.size := by omega
  have hev : ∀ x, N.eval x = weighted as ((lookupConstraints beta gamma ((rowPoly d 0).eval x) ((rowPoly d u).eval x)
      ((toPoly qB.poly).eval x) ⟨(toPoly l.a.poly).eval x, (toPoly l.s.poly).eval x, (toPoly l.aPrime.poly).eval x,
        (toPoly l.aPrime.poly).eval (d.omega⁻¹ * x), (toPoly l.sPrime.poly).eval x, (toPoly o.poly).eval x,
        (toPoly o.poly).eval (d.omega * x)⟩).take k) := by
    intro x
    rw [hN, weighted_map_eval, List.map_take, eval_lookupPolys]
  have hnums : Res.mapM (ε := PiopErr) (fun i =>
      (if full = true then lookupInstantiate (ext.cosetFft l0) (ext.cosetFft lu) qB l o beta gamma i as
        else seInstantiate (ext.cosetFft l0) (ext.cosetFft lu) qB l o beta gamma i as).expect) (List.range ext.size)
      = .ok ((List.range ext.size).map (fun i => N.eval ((FftParams.gen : F) * ext.element i))) := by
    refine Res.mapM_ok_map fun i hi => ?_
    replace hi := List.mem_range.1 hi
    obtain ⟨x, hx⟩ : ∃ x, x = (FftParams.gen : F) * ext.element i := ⟨_, rfl⟩
    have hcurr : ∀ o : ProverOracle F, Honest d ext o → o.queryInCoset i .curr = .ok ((toPoly o.poly).eval x) := by
      intro o ho
      rw [hx, ho.coset hd he hlt.le hi (by simpa [Rotation.curr] using hd.size_pos), shifted_curr _ _ _ rfl]
    have hnext : ∀ o : ProverOracle F, Honest d ext o →
        o.queryInCoset i .next = .ok ((toPoly o.poly).eval (d.omega * x)) := by
      intro o ho
      rw [hx, ho.coset hd he hlt.le hi (by simpa [Rotation.next] using hn), shifted_next_eval]
    have hprev : ∀ o : ProverOracle F, Honest d ext o →
        o.queryInCoset i .prev = .ok ((toPoly o.poly).eval (d.omega⁻¹ * x)) := by
      intro o ho
      rw [hx, ho.coset hd he hlt.le hi (by simpa [Rotation.prev] using hn), shifted_prev_eval]
    have hc0 : (ext.cosetFft l0)[i]? = some ((rowPoly d 0).eval x) := by
      rw [hx, Domain.cosetFft_get _ (hl0l.trans hlt.le) i hi, ← eval_toPoly, hl0p]
    have hcu : (ext.cosetFft lu)[i]? = some ((rowPoly d u).eval x) := by
      rw [hx, Domain.cosetFft_get _ (hlul.trans hlt.le) i hi, ← eval_toPoly, hlup]
    rw [hev, ← hx]
    cases full with
    | false =>
      rw [if_neg (by simp)] at hk ⊢
      rw [seInstantiate_eq _ _ qB l o beta gamma i as (hasl.trans hk)
        ⟨(toPoly l.a.poly).eval x, (toPoly l.s.poly).eval x, (toPoly l.aPrime.poly).eval x,
          (toPoly l.aPrime.poly).eval (d.omega⁻¹ * x), (toPoly l.sPrime.poly).eval x, (toPoly o.poly).eval x,
          (toPoly o.poly).eval (d.omega * x)⟩ _ _ _ hc0 hcu (hcurr _ hla) (hcurr _ hls) (hcurr _ hla') (hcurr _ hls') (hcurr _ hoH)
        (hnext _ hoH) (hcurr _ hqH), hk]
      rfl
    | true =>
      rw [if_pos rfl] at hk ⊢
      rw [lookupInstantiate_eq _ _ qB l o beta gamma i as (hasl.trans hk)
        ⟨(toPoly l.a.poly).eval x, (toPoly l.s.poly).eval x, (toPoly l.aPrime.poly).eval x,
          (toPoly l.aPrime.poly).eval (d.omega⁻¹ * x), (toPoly l.sPrime.poly).eval x, (toPoly o.poly).eval x,
          (toPoly o.poly).eval (d.omega * x)⟩ _ _ _ hc0 hcu (hcurr _ hla) (hcurr _ hls) (hcurr _ hla') (hprev _ hla') (hcurr _ hls')
        (hcurr _ hoH) (hnext _ hoH) (hcurr _ hqH), hk]
      rfl
  have hdiv := divisionCheck_ok (ε := PiopErr) hd he hdvd hNe
  obtain ⟨q, hq, hqv⟩ := testQuotient_ok (ε := PiopErr) hd he hlt hdvd (by omega)
  have hω : d.element 1 = d.omega := by simp [Domain.element]
  have hω0 : d.element 1 ≠ 0 := by rw [hω]; exact hd.omega_ne_zero
  have hcol : ∀ o : ProverOracle F, (testColumn (C := C) xi o).query xi = .ok ((toPoly o.poly).eval xi) := by
    intro o
    rw [eval_toPoly]
    exact testVerifierOracle_query _ _ _ _ _ _ (by simp)
  obtain ⟨zv, hzv⟩ : ∃ zv : VerifierOracle F C, zv = testVerifierOracle .witness (bytes "lookup_agg_poly")
      [Rotation.curr, Rotation.next] false o.poly [xi, xi * d.element 1] := ⟨_, rfl⟩
  have hz1 : zv.query xi = .ok ((toPoly o.poly).eval xi) := by
    rw [hzv, eval_toPoly]
    exact testVerifierOracle_query _ _ _ _ _ _ (by simp)
  have hz2' : zv.query (d.element 1 * xi) = .ok ((toPoly o.poly).eval (d.omega * xi)) := by
    rw [hzv, eval_toPoly, hω]
    exact testVerifierOracle_query _ _ _ _ _ _ (by simp [mul_comm])
  obtain ⟨av, hav⟩ : ∃ av : VerifierOracle F C, av = if full = true then
      testVerifierOracle .witness (bytes "a_prime") [Rotation.curr, Rotation.prev] false l.aPrime.poly [xi, xi * (d.element 1)⁻¹]
      else testColumn xi l.aPrime := ⟨_, rfl⟩
  have hav1 : av.query xi = .ok ((toPoly l.aPrime.poly).eval xi) := by
    rw [hav]
    split
    · rw [eval_toPoly]
      exact testVerifierOracle_query _ _ _ _ _ _ (by simp)
    · exact hcol _
  have hopen : (if full = true then
      lookupOpen (peval l0 xi) (peval lu xi) (testColumn xi qB) ⟨testColumn xi l.a, testColumn xi l.s, av, testColumn xi l.sPrime⟩ zv
        beta gamma xi d as
    else seOpen (peval l0 xi) (peval lu xi) (testColumn xi qB) ⟨testColumn xi l.a, testColumn xi l.s, av, testColumn xi l.sPrime⟩ zv
        beta gamma xi d as) = .ok (N.eval xi) := by
    rw [hev, ← eval_toPoly, ← eval_toPoly, hl0p, hlup]
    cases full with
    | false =>
      rw [if_neg (by simp)] at hk ⊢
      rw [seOpen_eq _ _ _ _ zv beta gamma xi d as (hasl.trans hk)
        ⟨(toPoly l.a.poly).eval xi, (toPoly l.s.poly).eval xi, (toPoly l.aPrime.poly).eval xi,
          (toPoly l.aPrime.poly).eval (d.omega⁻¹ * xi), (toPoly l.sPrime.poly).eval xi, (toPoly o.poly).eval xi,
          (toPoly o.poly).eval (d.omega * xi)⟩ _ (hcol _) (hcol _) hav1 (hcol _) hz1 hz2' (hcol _), hk]
    | true =>
      rw [if_pos rfl] at hk ⊢
      have hav2 : av.query ((d.element 1)⁻¹ * xi) = .ok ((toPoly l.aPrime.poly).eval (d.omega⁻¹ * xi)) := by
        rw [hav, if_pos rfl, eval_toPoly, hω]
        exact testVerifierOracle_query _ _ _ _ _ _ (by simp [mul_comm])
      rw [lookupOpen_eq _ _ _ _ zv beta gamma xi d as (hasl.trans hk) hω0
        ⟨(toPoly l.a.poly).eval xi, (toPoly l.s.poly).eval xi, (toPoly l.aPrime.poly).eval xi,
          (toPoly l.aPrime.poly).eval (d.omega⁻¹ * xi), (toPoly l.sPrime.poly).eval xi, (toPoly o.poly).eval xi,
          (toPoly o.poly).eval (d.omega * xi)⟩ _ (hcol _) (hcol _) hav1 hav2 (hcol _) hz1 hz2' (hcol _), hk]
      rfl
  unfold lookupChecks blindedColumns
  simp only [← hl, ← hbeta, ← hgamma, ← hz2, hok, Res.bind_ok, hl0, hlu, ← hqB, ← hk, ← has, hnums, ← hxi, ← hzv, ← hav, hopen, hq]
  have hend : (Res.expect (Res.ok (eval xi N) : Res PiopErr F) >>= fun opened => Res.assert (decide (opened = eval xi N)))
      = (.ok () : Res PiopErr Unit) := by
    show Res.assert (decide (eval xi N = eval xi N)) = _
    rw [decide_eq_true rfl]
    rfl
  rw [hav] at hopen
  have hfin := (congrArg (fun r : Res PiopErr F => r.expect >>= fun opened =>
    (Res.assert (decide (opened = eval xi N)) : Res PiopErr Unit)) hopen).trans hend
  cases full with
  | false =>
    rw [if_neg Bool.false_ne_true, if_neg Bool.false_ne_true]
    simp only [hqv]
    exact hfin
  | true =>
    rw [if_pos rfl, hdiv, Res.bind_ok, if_pos rfl, decide_eq_true hω0, Res.assert_true, Res.bind_ok]
    simp only [hqv]
    exact hfin

end
end ZK
