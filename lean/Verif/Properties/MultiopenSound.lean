import Verif.Properties.Forgery
import Verif.Lemmas.BadSets
/-! C38: soundness of the multi-point opening. -/
set_option autoImplicit false
set_option linter.unusedSectionVars false
namespace ZK
open Polynomial

section
variable {F : Type} [Field F] [LinearOrder F] [FftParams F] [LawfulFft F]
variable {S : Scheme F} {ck : S.CK} {vk : S.VK} {com : F[X] → S.Rand → S.Comm}

/-- The verifier's aggregated commitment is a commitment to the aggregated polynomial. -/
theorem verifierSet_commitment (hS : HomomorphicScheme S ck vk com) (poly : VerifierOracle F S.Comm → F[X])
    (rand : VerifierOracle F S.Comm → S.Rand) {x1 : F} {n : Nat} {vs : List (VerifierOracle F S.Comm)}
    (hc : ∀ v ∈ vs, v.commitment = some (com (poly v) (rand v))) {c : S.Comm}
    (h : Res.foldM (ε := PiopErr) (fun (acc : S.Comm) (o : VerifierOracle F S.Comm × Nat) => do
      let c ← o.1.getCommitment
      let x ← Res.idx (powersFrom 1 x1 n) o.2
      pure (S.add acc (S.scale c x))) S.zero vs.zipIdx = .ok c) :
    ∃ r, c = com (horner x1 (vs.map poly)) r := by
  have key : ∀ (vs : List (VerifierOracle F S.Comm)), (∀ v ∈ vs, v.commitment = some (com (poly v) (rand v))) →
      ∀ (k : Nat) (p : F[X]) (r : S.Rand), Res.foldM (ε := PiopErr) (fun (acc : S.Comm) (o : VerifierOracle F S.Comm × Nat) => do
      let c ← o.1.getCommitment
      let x ← Res.idx (powersFrom 1 x1 n) o.2
      pure (S.add acc (S.scale c x))) (com p r) (vs.zipIdx k) = .ok c →
      ∃ r', c = com (p + C (x1 ^ k) * horner x1 (vs.map poly)) r' := by
    intro vs
    induction vs with
    | nil =>
      intro _ k p r h
      simp only [List.zipIdx_nil, Res.foldM_nil, Res.ok.injEq] at h
      exact ⟨r, by rw [← h]; simp [horner]⟩
    | cons v vs ih =>
      intro hc k p r h
      rw [List.zipIdx_cons, Res.foldM_eq_ok_cons] at h
      obtain ⟨b, hb, h⟩ := h
      simp only [VerifierOracle.getCommitment, hc v (by simp), Res.bind_ok] at hb
      obtain ⟨y, hy, hb⟩ := Res.bind_eq_ok.1 hb
      have hy := Res.idx_eq_ok.1 hy
      rw [powersFrom_getElem?] at hy
      split at hy
      · have hyk : y = x1 ^ k := by rw [← Option.some.inj hy, one_mul]
        rw [← Res.ok.inj hb, hS.scale, hS.add] at h
        obtain ⟨r', h'⟩ := ih (fun v hv => hc v (by simp [hv])) _ _ _ h
        refine ⟨r', ?_⟩
        rw [h', hyk, List.map_cons, horner, pow_succ, C_mul]
        congr 1
        ring
      · simp at hy
  rw [hS.zero] at h
  obtain ⟨r, hr⟩ := key vs hc 0 0 _ h
  exact ⟨r, by simpa using hr⟩

/-- The verifier's final commitment is a commitment to the final polynomial. -/
theorem finalComm_commitment (hS : HomomorphicScheme S ck vk com) (x4 : F) (f : F[X]) (r : S.Rand)
    (ps : List F[X]) (cs : List S.Comm) (h : List.Forall₂ (fun c p => ∃ r, c = com p r) cs ps) :
    ∃ r', finalComm S (com f r) x4 cs = com (f + C x4 * horner x4 ps) r' := by
  unfold finalComm
  have key : ∀ (k : Nat) (f : F[X]) (r : S.Rand), ∃ r', (cs.zipIdx k).foldl (fun acc p => S.add acc (S.scale p.1 (x4 * x4 ^ p.2)))
      (com f r) = com (f + C (x4 * x4 ^ k) * horner x4 ps) r' := by
    induction h with
    | nil => intro k f r; exact ⟨r, by simp [horner]⟩
    | cons h _ ih =>
      intro k f r
      obtain ⟨r0, rfl⟩ := h
      rw [List.zipIdx_cons, List.foldl_cons, hS.scale, hS.add]
      obtain ⟨r', h'⟩ := ih (k + 1) (f + C (x4 * x4 ^ k) * _) (S.addRand r (S.scaleRand r0 (x4 * x4 ^ k)))
      refine ⟨r', ?_⟩
      rw [h', horner, pow_succ]
      simp only [C_mul]
      congr 1
      ring
  simpa using key 0 f r

/-- The claim of an oracle at a point. -/
def VerifierOracle.claim (v : VerifierOracle F S.Comm) (p : F) : F :=
  match v.query p with
  | .ok y => y
  | _ => 0

theorem forall2_claim {vs : List (VerifierOracle F S.Comm)} {p : F} {vals : List F}
    (h : List.Forall₂ (fun (v : VerifierOracle F S.Comm) y => v.query p = .ok y) vs vals) :
    vals = vs.map (fun v => v.claim p) ∧ ∀ v ∈ vs, v.query p = .ok (v.claim p) := by
  induction h with
  | nil => simp
  | cons h _ ih =>
    have : ∀ (v : VerifierOracle F S.Comm) y, v.query p = .ok y → v.claim p = y := by
      intro v y h
      unfold VerifierOracle.claim
      rw [h]
    rw [List.map_cons, this _ _ h, ← ih.1]
    refine ⟨rfl, ?_⟩
    intro v hv
    rcases List.mem_cons.1 hv with rfl | hv
    · rw [this _ _ h]; exact h
    · exact ih.2 v hv

/-- The interpolation of the aggregated claims of an opening set. -/
noncomputable def claimed (d : Domain F) (xi x1 : F) (s : List Rotation × List (VerifierOracle F S.Comm)) : F[X] :=
  Lagrange.interpolate (points d xi s.1).toFinset id (fun p => peval (s.2.map (fun v => v.claim p)) x1)

/-- The vanishing polynomial of the points of an opening set. -/
noncomputable def vanishingAt (d : Domain F) (xi : F) (s : List Rotation × List (VerifierOracle F S.Comm)) : F[X] :=
  ((setExtend [] (points d xi s.1)).map (fun x => X - C x)).prod

theorem setExtend_nodup (l : List F) : (setExtend [] l).Nodup :=
  (setExtend_sorted (s := []) (l := l) List.Pairwise.nil).imp (fun h => h.ne)

theorem setExtend_toFinset (l : List F) : (setExtend [] l).toFinset = l.toFinset := by
  ext x
  rw [List.mem_toFinset, List.mem_toFinset, mem_setExtend]
  simp

theorem degree_claimed (d : Domain F) (xi x1 : F) (s : List Rotation × List (VerifierOracle F S.Comm)) :
    (claimed d xi x1 s).degree < (setExtend [] (points d xi s.1)).length := by
  have := Lagrange.degree_interpolate_lt (s := (points d xi s.1).toFinset) (v := id)
    (fun p => peval (s.2.map (fun v => v.claim p)) x1) (fun _ _ _ _ h => h)
  rwa [← setExtend_toFinset, List.toFinset_card_of_nodup (setExtend_nodup _), setExtend_toFinset] at this

theorem eval_claimed (d : Domain F) (xi x1 : F) (s : List Rotation × List (VerifierOracle F S.Comm)) {p : F}
    (hp : p ∈ points d xi s.1) : (claimed d xi x1 s).eval p = peval (s.2.map (fun v => v.claim p)) x1 :=
  Lagrange.eval_interpolate_at_node (v := id) _ (fun _ _ _ _ h => h) (List.mem_toFinset.2 hp)

/-- What an accepting run of the verifier says about the claims of one opening set. -/
theorem verifierSet_claims {d : Domain F} (hd : d.Ok) {xi x1 x3 qe v : F} {n : Nat}
    {s : List Rotation × List (VerifierOracle F S.Comm)} {q : S.Comm × List (F × F)}
    (h : mpVerifierSet (S := S) (powersFrom 1 x1 n) xi d.elements s = .ok q)
    (hf : fEval (ε := PiopErr) x3 q.2 qe = .ok v) :
    (∀ p ∈ points d xi s.1, ∀ o ∈ s.2, o.query p = .ok (o.claim p)) ∧
    (vanishingAt d xi s).eval x3 ≠ 0 ∧
    v = (qe - (claimed d xi x1 s).eval x3) * ((vanishingAt d xi s).eval x3)⁻¹ := by
  unfold mpVerifierSet at h
  obtain ⟨c, hc1, h⟩ := Res.bind_eq_ok.1 h
  obtain ⟨es, hes, h⟩ := Res.bind_eq_ok.1 h
  have h := (Res.ok.inj h).symm
  subst h
  obtain ⟨_, _, g, hg, rfl⟩ := (evalSet_iff hd (by simp)).1 hes
  have hgv : ∀ p ∈ points d xi s.1, g p = peval (s.2.map (fun v => v.claim p)) x1 ∧ ∀ o ∈ s.2, o.query p = .ok (o.claim p) := by
    intro p hp
    obtain ⟨_, vals, hv, he⟩ := aggQuery_iff.1 (hg p hp)
    obtain ⟨h1, h2⟩ := forall2_claim hv
    exact ⟨by rw [he, h1], h2⟩
  have hmem : ∀ k, k ∈ setExtend [] (points d xi s.1) ↔ k ∈ points d xi s.1 := by
    intro k; rw [mem_setExtend]; simp
  obtain ⟨hx3, hv⟩ := (fEval_iff x3 _ (setExtend_nodup _) g qe v (claimed d xi x1 s) (degree_claimed d xi x1 s) (by
    intro k hk
    rw [eval_claimed d xi x1 s ((hmem k).1 hk), (hgv k ((hmem k).1 hk)).1])).1 hf
  refine ⟨fun p hp => (hgv p hp).2, ?_, ?_⟩
  · unfold vanishingAt
    rw [ne_eq, eval_prod_sub_eq_zero]
    exact hx3
  · rw [hv]
    unfold vanishingAt
    rw [eval_prod_sub]

/-- What an accepting run of the verifier says about one opening set. -/
theorem verifierSet_inv (hS : HomomorphicScheme S ck vk com) (poly : VerifierOracle F S.Comm → F[X])
    (rand : VerifierOracle F S.Comm → S.Rand) {d : Domain F} (hd : d.Ok) {xi x1 x3 qe v : F} {n : Nat}
    {s : List Rotation × List (VerifierOracle F S.Comm)}
    (hc : ∀ v ∈ s.2, v.commitment = some (com (poly v) (rand v))) {q : S.Comm × List (F × F)}
    (h : mpVerifierSet (S := S) (powersFrom 1 x1 n) xi d.elements s = .ok q)
    (hf : fEval (ε := PiopErr) x3 q.2 qe = .ok v) :
    (∃ r, q.1 = com (horner x1 (s.2.map poly)) r) ∧
    (∀ p ∈ points d xi s.1, ∀ o ∈ s.2, o.query p = .ok (o.claim p)) ∧
    (vanishingAt d xi s).eval x3 ≠ 0 ∧
    v = (qe - (claimed d xi x1 s).eval x3) * ((vanishingAt d xi s).eval x3)⁻¹ := by
  refine ⟨?_, verifierSet_claims hd h hf⟩
  unfold mpVerifierSet at h
  obtain ⟨c, hc1, h⟩ := Res.bind_eq_ok.1 h
  obtain ⟨es, hes, h⟩ := Res.bind_eq_ok.1 h
  rw [← Res.ok.inj h]
  exact verifierSet_commitment hS poly rand hc hc1

/-- The total number of points of the opening sets. -/
def totalPoints {O : Type} [ConcreteOracle O] (os : List O) : Nat :=
  ((openingSets (fun (o : O) => ConcreteOracle.rotations o) os).map (fun s => s.1.length)).sum

theorem forall2_get {α β : Type} {R : α → β → Prop} {l : List α} {m : List β} (h : List.Forall₂ R l m) (i : Nat)
    (hi : i < l.length) (hi' : i < m.length) : R l[i] m[i] := (List.forall₂_iff_get.1 h).2 i hi hi'

/-- C38 for exactly one `q` evaluation per opening set. -/
theorem soundness_exact (hS : HomomorphicScheme S ck vk com) (hB : Binding S vk com) {d : Domain F} (hd : d.Ok)
    (vs : List (VerifierOracle F S.Comm)) (poly : VerifierOracle F S.Comm → F[X])
    (rand : VerifierOracle F S.Comm → S.Rand) (hc : ∀ v ∈ vs, v.commitment = some (com (poly v) (rand v)))
    (D : Nat) (hD : ∀ v ∈ vs, (poly v).degree < D) (xi : F)
    (v0 : VerifierOracle F S.Comm) (hv0 : v0 ∈ vs) (r0 : Rotation) (hr0 : r0 ∈ v0.rotations)
    (hfalse : v0.query (xi * d.omega ^ r0.signed) ≠ .ok ((poly v0).eval (xi * d.omega ^ r0.signed))) :
    let K := (openingSets (fun (o : VerifierOracle F S.Comm) => o.rotations) vs).length
    ∃ B1 : Finset F, B1.card ≤ vs.length - 1 ∧ ∀ x1 ∉ B1,
    ∃ B2 : Finset F, B2.card ≤ K - 1 ∧ ∀ x2 ∉ B2, ∀ (f : F[X]) (r : S.Rand), f.degree < D →
    ∃ B3 : Finset F, B3.card ≤ D + totalPoints vs - 1 ∧ ∀ x3 ∉ B3, ∀ q : List F, q.length = K →
    ∃ B4 : Finset F, B4.card ≤ K ∧ ∀ x4 ∉ B4, ∀ pf : S.Proof,
      mpVerifyWith S vk ⟨q, com f r, pf⟩ vs xi d x1 x2 x3 x4 ≠ .ok () := by
  intro K
  set ss := openingSets (fun (o : VerifierOracle F S.Comm) => o.rotations) vs with hss
  have hpart := C39_partition (fun (o : VerifierOracle F S.Comm) => o.rotations) vs
  obtain ⟨s0, ⟨hs0, hvs0⟩, _⟩ := hpart.2.2.2 v0 hv0
  have hsub : ∀ s ∈ ss, ∀ v ∈ s.2, v ∈ vs := by
    intro s hs v hv
    rw [(hpart.2.1 s hs).1] at hv
    exact (List.mem_filter.1 hv).1
  have hrot0 : v0.rotations = s0.1 := by
    rw [(hpart.2.1 s0 hs0).1] at hvs0
    simpa using (List.mem_filter.1 hvs0).2
  set p0 := xi * d.omega ^ r0.signed with hp0
  have hp0m : p0 ∈ points d xi s0.1 := List.mem_map.2 ⟨r0, by rw [← hrot0]; exact hr0, rfl⟩
  obtain ⟨i0, hi0, rfl⟩ := List.getElem_of_mem hs0
  -- the facts an accepting run gives for each set
  have hrun : ∀ (x1 x2 x3 x4 : F) (f : F[X]) (r : S.Rand) (q : List F) (pf : S.Proof) (hq : q.length = K),
      mpVerifyWith S vk ⟨q, com f r, pf⟩ vs xi d x1 x2 x3 x4 = .ok () →
      (∀ i (hi : i < K), (∀ p ∈ points d xi ss[i].1, ∀ o ∈ ss[i].2, o.query p = .ok (o.claim p)) ∧
        (vanishingAt d xi ss[i]).eval x3 ≠ 0) ∧
      f.eval x3 + x4 * peval (ss.map (fun s => (horner x1 (s.2.map poly)).eval x3)) x4
        = peval (List.ofFn (fun i : Fin K => (q[i] - (claimed d xi x1 ss[i]).eval x3) * ((vanishingAt d xi ss[i]).eval x3)⁻¹)) x2
          + x4 * peval q x4 := by
    intro x1 x2 x3 x4 f r q pf hq h
    obtain ⟨_, qs, fs, h1, h2, h3⟩ := mpVerifyWith_iff.1 h
    simp only at h1 h2 h3
    rw [← hss, List.take_of_length_le (by rw [hq])] at h1
    have hql : qs.length = K := Res.mapM_length h1
    have hfl : fs.length = K := by rw [← h2.length_eq, List.length_zip, hql, hq, min_self]
    have hset : ∀ i (hi : i < K), (∃ r, (qs[i]'(by omega)).1 = com (horner x1 (ss[i].2.map poly)) r) ∧
        (∀ p ∈ points d xi ss[i].1, ∀ o ∈ ss[i].2, o.query p = .ok (o.claim p)) ∧
        (vanishingAt d xi ss[i]).eval x3 ≠ 0 ∧
        fs[i]'(by omega) = (q[i] - (claimed d xi x1 ss[i]).eval x3) * ((vanishingAt d xi ss[i]).eval x3)⁻¹ := by
      intro i hi
      have g1 := Res.mapM_getElem h1 i hi
      have g2 := forall2_get h2 i (by rw [List.length_zip]; omega) (by omega)
      rw [List.getElem_zip] at g2
      exact verifierSet_inv hS poly rand hd (fun v hv => hc v (hsub _ (List.getElem_mem _) v hv)) g1 g2
    refine ⟨fun i hi => ⟨(hset i hi).2.1, (hset i hi).2.2.1⟩, ?_⟩
    obtain ⟨r', hfc⟩ := finalComm_commitment hS x4 f r (ss.map (fun s => horner x1 (s.2.map poly))) (qs.map Prod.fst) (by
      rw [List.forall₂_iff_get]
      refine ⟨by rw [List.length_map, List.length_map, hql], ?_⟩
      intro i h1 h2
      simp only [List.get_eq_getElem, List.getElem_map]
      exact (hset i (by simpa [hql] using h1)).1)
    rw [hfc] at h3
    have h4 := hB _ _ _ _ _ h3
    rw [eval_add, eval_mul, eval_C, eval_horner, List.map_map] at h4
    have hfs : fs = List.ofFn (fun i : Fin K => (q[i] - (claimed d xi x1 ss[i]).eval x3) * ((vanishingAt d xi ss[i]).eval x3)⁻¹) := by
      apply List.ext_getElem (by simp [hfl])
      intro i h1 h2
      rw [List.getElem_ofFn]
      exact (hset i (by omega)).2.2.2
    rw [← hfs]
    rw [List.take_of_length_le (by rw [hql, hq])] at h4
    exact h4
  -- a missing evaluation
  by_cases hmiss : ∃ v ∈ ss[i0].2, v.query p0 ≠ .ok (v.claim p0)
  · refine ⟨∅, by simp, fun x1 _ => ⟨∅, by simp, fun x2 _ f r _ => ⟨∅, by simp, fun x3 _ q hq => ⟨∅, by simp, ?_⟩⟩⟩⟩
    intro x4 _ pf h
    obtain ⟨v, hv, hne⟩ := hmiss
    exact hne (((hrun x1 x2 x3 x4 f r q pf hq h).1 i0 hi0).1 p0 hp0m v hv)
  push Not at hmiss
  -- x1
  obtain ⟨B1, hB1, hB1'⟩ := bad_combination (ss[i0].2.map (fun v => (poly v).eval p0 - v.claim p0)) (by
    refine ⟨_, List.mem_map.2 ⟨v0, hvs0, rfl⟩, ?_⟩
    intro h
    apply hfalse
    rw [hmiss v0 hvs0, sub_eq_zero.1 h])
  refine ⟨B1, ?_, ?_⟩
  · refine hB1.trans ?_
    rw [List.length_map]
    have : ss[i0].2.length ≤ vs.length := by
      rw [(hpart.2.1 _ hs0).1]; exact List.length_filter_le _ _
    omega
  intro x1 hx1
  have hx1 := hB1' x1 hx1
  have hsplit : ∀ l : List (VerifierOracle F S.Comm), peval (l.map (fun v => (poly v).eval p0 - v.claim p0)) x1
      = peval (l.map (fun v => (poly v).eval p0)) x1 - peval (l.map (fun v => v.claim p0)) x1 := by
    intro l
    induction l with
    | nil => simp
    | cons a l ih => simp only [List.map_cons, peval_cons, ih]; ring
  -- x2
  set num : Fin K → F[X] := fun i => horner x1 (ss[i].2.map poly) - claimed d xi x1 ss[i] with hnum
  set Z : Fin K → F[X] := fun i => vanishingAt d xi ss[i] with hZdef
  have hZ : ∀ i, (Z i).Monic := fun i => prod_sub_monic _
  have hZd : ∀ i, (Z i).natDegree = (setExtend [] (points d xi ss[i].1)).length := by
    intro i
    have := degree_prod_sub (setExtend [] (points d xi ss[i].1))
    exact natDegree_eq_of_degree_eq_some this
  obtain ⟨B2, hB2, hB2'⟩ := bad_quotients num Z hZ ⟨i0, hi0⟩ (by
    intro hdvd
    apply hx1
    have h1 := eval_dvd (x := p0) hdvd
    have h2 : (Z ⟨i0, hi0⟩).eval p0 = 0 := (eval_prod_sub_eq_zero _ _).2 (by rw [mem_setExtend]; exact .inr hp0m)
    rw [h2, zero_dvd_iff] at h1
    simp only [hnum, eval_sub, eval_horner, List.map_map] at h1
    have h3 := eval_claimed d xi x1 ss[i0] hp0m
    rw [hsplit, ← h3]
    exact h1)
  refine ⟨B2, hB2, ?_⟩
  intro x2 hx2 f r hf
  -- x3
  have hhorner : ∀ l : List (VerifierOracle F S.Comm), (∀ v ∈ l, v ∈ vs) → (horner x1 (l.map poly)).degree < D := by
    intro l
    induction l with
    | nil => intro _; simp [horner]
    | cons v l ih =>
      intro h
      rw [List.map_cons, horner]
      refine lt_of_le_of_lt (degree_add_le _ _) (max_lt (hD v (h v (by simp))) ?_)
      exact lt_of_le_of_lt ((degree_mul_le _ _).trans ((add_le_add degree_C_le le_rfl).trans (zero_add _).le))
        (ih (fun v hv => h v (by simp [hv])))
  obtain ⟨B3, hB3, hB3'⟩ := bad_points num Z hZ x2 D f hf (by
    intro i
    refine lt_of_le_of_lt (degree_sub_le _ _) (max_lt ?_ ?_)
    · exact lt_of_lt_of_le (hhorner _ (hsub _ (List.getElem_mem _))) (by exact_mod_cast Nat.le_add_right _ _)
    · rw [hZd]
      exact lt_of_lt_of_le (degree_claimed d xi x1 _) (by exact_mod_cast Nat.le_add_left _ _)) (hB2' x2 hx2)
  refine ⟨B3, ?_, ?_⟩
  · have : ∑ i, (Z i).natDegree ≤ totalPoints vs := by
      unfold totalPoints
      show _ ≤ (ss.map (fun s => s.1.length)).sum
      have h1 : (ss.map (fun s => s.1.length)).sum = ∑ i : Fin K, ss[i].1.length := by
        rw [← List.sum_ofFn]
        congr 1
        apply List.ext_getElem (by rw [List.length_map, List.length_ofFn])
        intro i h1 h2
        simp
      rw [h1]
      apply Finset.sum_le_sum
      intro i _
      rw [hZd]
      have := setExtend_length_le [] (points d xi ss[i].1)
      simpa [points] using this
    omega
  intro x3 hx3 q hq
  -- x4
  by_cases hz : ∀ i, (Z i).eval x3 ≠ 0
  swap
  · refine ⟨∅, by simp, ?_⟩
    intro x4 _ pf h
    push Not at hz
    obtain ⟨i, hi⟩ := hz
    exact ((hrun x1 x2 x3 x4 f r q pf hq h).1 i i.2).2 hi
  have hx3 := hB3' x3 hx3 hz
  set e0 := peval (List.ofFn (fun i : Fin K => (q[i] - (claimed d xi x1 ss[i]).eval x3) * ((vanishingAt d xi ss[i]).eval x3)⁻¹)) x2
    with he0
  set diffs := List.ofFn (fun i : Fin K => (horner x1 (ss[i].2.map poly)).eval x3 - q[i]) with hdiffs
  have hne : ∃ c ∈ (f.eval x3 - e0) :: diffs, c ≠ 0 := by
    by_contra hcon
    push Not at hcon
    apply hx3
    have h1 : f.eval x3 = e0 := sub_eq_zero.1 (hcon _ (by simp))
    rw [h1, he0, peval_ofFn]
    apply Finset.sum_congr rfl
    intro i _
    have h2 : (horner x1 (ss[i].2.map poly)).eval x3 - q[i] = 0 := hcon _ (by
      rw [List.mem_cons]
      exact .inr (List.mem_ofFn.2 ⟨i, rfl⟩))
    rw [← sub_eq_zero.1 h2, mul_comm]
    simp only [hnum, hZdef, eval_sub]
  obtain ⟨B4, hB4, hB4'⟩ := bad_combination _ hne
  refine ⟨B4, ?_, ?_⟩
  · simpa [hdiffs] using hB4
  intro x4 hx4 pf h
  apply hB4' x4 hx4
  have h1 := (hrun x1 x2 x3 x4 f r q pf hq h).2
  rw [peval_cons]
  have h2 : peval diffs x4 = peval (ss.map (fun s => (horner x1 (s.2.map poly)).eval x3)) x4 - peval q x4 := by
    have e1 : ss.map (fun s => (horner x1 (s.2.map poly)).eval x3)
        = List.ofFn (fun i : Fin K => (horner x1 (ss[i].2.map poly)).eval x3) := by
      apply List.ext_getElem (by rw [List.length_map, List.length_ofFn])
      intro i h1 h2
      simp
    have e2 : q = List.ofFn (fun i : Fin K => q[i]) := by
      apply List.ext_getElem (by simp [hq])
      intro i h1 h2
      simp
    have e3 : peval q x4 = _ := congrArg (peval · x4) e2
    rw [e1, e3]
    rw [peval_ofFn, peval_ofFn, peval_ofFn, ← Finset.sum_sub_distrib]
    apply Finset.sum_congr rfl
    intro i _
    simp only [Fin.getElem_fin]
    ring
  rw [h2]
  linear_combination h1

/-- **C38** (partial) Soundness of the multi-point opening for a binding homomorphic scheme. The verifier oracles hold commitments
to polynomials with less than `D` coefficients, and one claimed evaluation is wrong. Then for all but `N - 1` values of `x1` (`N` the
number of oracles), for all but `K - 1` values of `x2` (`K` the number of opening sets), for every `f` with less than `D`
coefficients, for all but `D + M - 1` values of `x3` (`M` the number of opening points), for every list `q` of at least `K` values, for
all but `K` values of `x4`, every opening proof is rejected. What is missing: the code does not check that there are `K` values `q`,
and with fewer the statement is false, see `C38_false`. -/
theorem C38_soundness_partial (hS : HomomorphicScheme S ck vk com) (hB : Binding S vk com) {d : Domain F} (hd : d.Ok)
    (vs : List (VerifierOracle F S.Comm)) (poly : VerifierOracle F S.Comm → F[X])
    (rand : VerifierOracle F S.Comm → S.Rand) (hc : ∀ v ∈ vs, v.commitment = some (com (poly v) (rand v)))
    (D : Nat) (hD : ∀ v ∈ vs, (poly v).degree < D) (xi : F)
    (v0 : VerifierOracle F S.Comm) (hv0 : v0 ∈ vs) (r0 : Rotation) (hr0 : r0 ∈ v0.rotations)
    (hfalse : v0.query (xi * d.omega ^ r0.signed) ≠ .ok ((poly v0).eval (xi * d.omega ^ r0.signed))) :
    ∃ B1 : Finset F, B1.card ≤ vs.length - 1 ∧ ∀ x1 ∉ B1,
    ∃ B2 : Finset F, B2.card ≤ distinctRotations vs - 1 ∧ ∀ x2 ∉ B2, ∀ (f : F[X]) (r : S.Rand), f.degree < D →
    ∃ B3 : Finset F, B3.card ≤ D + totalPoints vs - 1 ∧ ∀ x3 ∉ B3, ∀ q : List F, distinctRotations vs ≤ q.length →
    ∃ B4 : Finset F, B4.card ≤ distinctRotations vs ∧ ∀ x4 ∉ B4, ∀ pf : S.Proof,
      mpVerifyWith S vk ⟨q, com f r, pf⟩ vs xi d x1 x2 x3 x4 ≠ .ok () := by
  obtain ⟨B1, h1, hB1⟩ := soundness_exact hS hB hd vs poly rand hc D hD xi v0 hv0 r0 hr0 hfalse
  have hK : (openingSets (fun (o : VerifierOracle F S.Comm) => o.rotations) vs).length = distinctRotations vs :=
    openingSets_length vs
  simp only [hK] at hB1
  refine ⟨B1, h1, fun x1 hx1 => ?_⟩
  obtain ⟨B2, h2, hB2⟩ := hB1 x1 hx1
  refine ⟨B2, h2, fun x2 hx2 f r hf => ?_⟩
  obtain ⟨B3, h3, hB3⟩ := hB2 x2 hx2 f r hf
  refine ⟨B3, h3, fun x3 hx3 q hq => ?_⟩
  obtain ⟨B4, h4, hB4⟩ := hB3 x3 hx3 (q.take (distinctRotations vs)) (by rw [List.length_take]; omega)
  refine ⟨B4, h4, fun x4 hx4 pf h => hB4 x4 hx4 pf ?_⟩
  rw [← C36_extra_evaluations_ignored vk d (q.take (distinctRotations vs)) (q.drop (distinctRotations vs)) (com f r) pf vs xi x1 x2
    x3 x4 (by rw [List.length_take, hK]; omega), List.take_append_drop]
  exact h

end

/-! A concrete case: the claim for the first polynomial at the next row is off by one. -/
namespace Toy

def wrong1 : VerifierOracle F97 (List F97) :=
  ⟨.witness, [1], [.curr, .next], [(openXi, peval open1.poly openXi), (openXi * dom.omega, peval open1.poly (openXi * dom.omega) + 1)],
    some (trim open1.poly), false⟩

/-- The hypotheses of C38 hold for a false claim. -/
theorem wrong_example : ∃ B1 : Finset F97, B1.card ≤ 1 ∧ ∀ x1 ∉ B1,
    ∃ B2 : Finset F97, B2.card ≤ 1 ∧ ∀ x2 ∉ B2, ∀ (f : F97[X]), f.degree < (4 : Nat) →
    ∃ B3 : Finset F97, B3.card ≤ 6 ∧ ∀ x3 ∉ B3, ∀ q : List F97, 2 ≤ q.length →
    ∃ B4 : Finset F97, B4.card ≤ 2 ∧ ∀ x4 ∉ B4,
      mpVerifyWith S () ⟨q, coeffs f, ()⟩ [wrong1, openV open2] openXi dom x1 x2 x3 x4 ≠ .ok () := by
  have hd : Domain.new (F := F97) 4 = some dom := by decide +kernel
  have hcom : ∀ v ∈ [wrong1, openV open2], v.commitment = some (coeffs (toPoly (v.commitment.getD []))) := by
    intro v hv
    simp only [List.mem_cons, List.not_mem_nil, or_false] at hv
    rcases hv with rfl | rfl
    · show _ = some (coeffs (toPoly (trim open1.poly)))
      rw [coeffs_toPoly]; decide
    · show _ = some (coeffs (toPoly (trim open2.poly)))
      rw [coeffs_toPoly]; decide
  have hmem : wrong1 ∈ [wrong1, openV open2] := by simp
  have hw : wrong1.query (openXi * dom.omega ^ Rotation.next.signed)
      ≠ .ok ((toPoly (wrong1.commitment.getD [])).eval (openXi * dom.omega ^ Rotation.next.signed)) := by
    rw [← peval_eq_eval]
    have : dom.omega ^ Rotation.next.signed = dom.omega := by simp [Rotation.signed, Rotation.next]
    rw [this]
    decide +kernel
  obtain ⟨B1, h1, hB1⟩ := C38_soundness_partial (S := S) (ck := ()) (vk := ()) (com := fun p _ => coeffs p)
    (ideal_homomorphic _ _) (ideal_binding _ _) (Domain.new_ok hd) [wrong1, openV open2] (fun v => toPoly (v.commitment.getD []))
    (fun _ => ()) hcom 4 (by
      intro v hv
      refine lt_of_lt_of_le (degree_toPoly_lt _) ?_
      have : ∀ v ∈ [wrong1, openV open2], (v.commitment.getD []).length ≤ 4 := by decide
      exact_mod_cast this v hv) openXi wrong1 hmem .next (by decide) hw
  refine ⟨B1, h1, fun x1 hx1 => ?_⟩
  obtain ⟨B2, h2, hB2⟩ := hB1 x1 hx1
  refine ⟨B2, le_trans h2 (by decide +kernel), fun x2 hx2 f hf => ?_⟩
  obtain ⟨B3, h3, hB3⟩ := hB2 x2 hx2 f () hf
  refine ⟨B3, le_trans h3 (by decide +kernel), fun x3 hx3 q hq => ?_⟩
  obtain ⟨B4, h4, hB4⟩ := hB3 x3 hx3 q (le_trans (by decide +kernel) hq)
  exact ⟨B4, le_trans h4 (by decide +kernel), fun x4 hx4 => hB4 x4 hx4 ()⟩

/-- **C38** is false for the code as it is: with the same false claim, a proof without `q` evaluations is accepted for all
challenges. -/
theorem C38_false : ∀ x1 x2 x3 x4 : F97,
    mpVerifyWith S () ⟨[], [], ()⟩ [wrong1, openV open2] openXi dom x1 x2 x3 x4 = .ok () := by
  intro x1 x2 x3 x4
  have hd : Domain.new (F := F97) 4 = some dom := by decide +kernel
  have hpt : ∀ r : Rotation, r = .curr ∨ r = .next →
      openXi * dom.omega ^ r.signed = if r = .next then openXi * dom.omega else openXi := by
    rintro r (rfl | rfl) <;> simp [Rotation.signed, Rotation.curr, Rotation.next]
  refine (C36_empty_proof_accepted (S := S) (vk := ()) (Domain.new_ok hd) [wrong1, openV open2] openXi x1 x2 x3 x4 (by decide) ?_
    [] ()).2 ?_
  swap
  · show (Res.ok (decide (peval [] x3 = 0)) : Res Unit Bool) = .ok true
    simp
  · intro v hv
    have h1 : ∀ v ∈ [wrong1, openV open2], ∀ r ∈ v.rotations, r = .curr ∨ r = .next := by decide
    rw [List.map_congr_left (fun r hr => hpt r (h1 v hv r hr))]
    revert v
    decide +kernel

end Toy
end ZK
