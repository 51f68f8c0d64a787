import Verif.Properties.MultiopenSound
import Verif.Lemmas.OpeningCongr
/-! C37: the claimed evaluations are bound only through the combinations with powers of `x1`. -/
set_option autoImplicit false
set_option linter.unusedSectionVars false
namespace ZK
open Polynomial

section
variable {F : Type} [Field F] [LinearOrder F] [FftParams F] [LawfulFft F]
variable {S : Scheme F} {vk : S.VK}

theorem openingSets_map {α β : Type} (rotP : α → List Rotation) (rotV : β → List Rotation) (f : α → β) (l : List α)
    (h : ∀ a ∈ l, rotV (f a) = rotP a) :
    openingSets rotV (l.map f) = (openingSets rotP l).map (fun s => (s.1, s.2.map f)) := by
  have h1 : List.Forall₂ (fun a b => a ∈ l ∧ b = f a) l (l.map f) := by
    rw [List.forall₂_map_right_iff, List.forall₂_same]
    exact fun a ha => ⟨ha, rfl⟩
  have h2 := C39_agree rotP rotV (fun a b => a ∈ l ∧ b = f a) (fun a b h' => by rw [h'.2]; exact h a h'.1) l (l.map f) h1
  refine (List.forall₂_eq_eq_eq ▸ (?_ : List.Forall₂ (· = ·) (openingSets rotV (l.map f)) _))
  rw [List.forall₂_map_right_iff]
  refine h2.flip.imp ?_
  rintro t s ⟨e1, e2⟩
  refine Prod.ext e1 ?_
  show t.2 = s.2.map f
  refine (List.forall₂_eq_eq_eq ▸ (?_ : List.Forall₂ (· = ·) t.2 _))
  rw [List.forall₂_map_right_iff]
  exact e2.flip.imp (fun _ _ h => h.2)

theorem verifierSet_fst {x1s : List F} {xi : F} {om : List F} {s t : List Rotation × List (VerifierOracle F S.Comm)}
    (h : List.Forall₂ (fun v w => w.getCommitment = v.getCommitment) s.2 t.2) {q r : S.Comm × List (F × F)}
    (hs : mpVerifierSet (S := S) x1s xi om s = .ok q) (ht : mpVerifierSet (S := S) x1s xi om t = .ok r) : r.1 = q.1 := by
  unfold mpVerifierSet at hs ht
  obtain ⟨c, hc, hs⟩ := Res.bind_eq_ok.1 hs
  obtain ⟨es, hes, hs⟩ := Res.bind_eq_ok.1 hs
  obtain ⟨c', hc', ht⟩ := Res.bind_eq_ok.1 ht
  obtain ⟨es', hes', ht⟩ := Res.bind_eq_ok.1 ht
  rw [← Res.ok.inj hs, ← Res.ok.inj ht]
  show c' = c
  rw [commFold_congr h 0, hc] at hc'
  exact (Res.ok.inj hc').symm

/-- An accepted opening with one `q` evaluation for each set. -/
theorem accepted_inv {d : Domain F} (hd : d.Ok) {vs : List (VerifierOracle F S.Comm)} {xi x1 x2 x3 x4 : F} {q : List F}
    {fc : S.Comm} {pf : S.Proof} (ss : List (List Rotation × List (VerifierOracle F S.Comm)))
    (hss : openingSets (fun (o : VerifierOracle F S.Comm) => o.rotations) vs = ss) (hq : q.length = ss.length)
    (h : mpVerifyWith S vk ⟨q, fc, pf⟩ vs xi d x1 x2 x3 x4 = .ok ()) :
    ∃ qs, Res.mapM (mpVerifierSet (S := S) (powersFrom 1 x1 vs.length) xi d.elements) ss = .ok qs ∧
      (∀ i (hi : i < ss.length), (∀ p ∈ points d xi ss[i].1, ∀ o ∈ ss[i].2, o.query p = .ok (o.claim p)) ∧
        (vanishingAt d xi ss[i]).eval x3 ≠ 0) ∧
      S.check vk (finalComm S fc x4 (qs.map Prod.fst)) x3 (peval (List.ofFn (fun i : Fin ss.length =>
        (q[i] - (claimed d xi x1 ss[i]).eval x3) * ((vanishingAt d xi ss[i]).eval x3)⁻¹)) x2 + x4 * peval q x4) pf = .ok true := by
  obtain ⟨_, qs, fs, h1, h2, h3⟩ := mpVerifyWith_iff.1 h
  simp only at h1 h2 h3
  rw [hss, List.take_of_length_le (by rw [hq])] at h1
  have hql : qs.length = ss.length := Res.mapM_length h1
  have hfl : fs.length = ss.length := by rw [← h2.length_eq, List.length_zip, hql, hq, min_self]
  have hset : ∀ i (hi : i < ss.length),
      (∀ p ∈ points d xi ss[i].1, ∀ o ∈ ss[i].2, o.query p = .ok (o.claim p)) ∧
      (vanishingAt d xi ss[i]).eval x3 ≠ 0 ∧
      fs[i]'(by omega) = (q[i] - (claimed d xi x1 ss[i]).eval x3) * ((vanishingAt d xi ss[i]).eval x3)⁻¹ := by
    intro i hi
    have g1 := Res.mapM_getElem h1 i hi
    have g2 := forall2_get h2 i (by rw [List.length_zip]; omega) (by omega)
    rw [List.getElem_zip] at g2
    exact verifierSet_claims hd g1 g2
  refine ⟨qs, h1, fun i hi => ⟨(hset i hi).1, (hset i hi).2.1⟩, ?_⟩
  have hfs : fs = List.ofFn (fun i : Fin ss.length =>
      (q[i] - (claimed d xi x1 ss[i]).eval x3) * ((vanishingAt d xi ss[i]).eval x3)⁻¹) := by
    apply List.ext_getElem (by rw [List.length_ofFn, hfl])
    intro i h1 h2
    rw [List.getElem_ofFn]
    exact (hset i (by omega)).2.2
  rw [← hfs]
  rw [List.take_of_length_le (by rw [hql, hq])] at h3
  exact h3

theorem peval_map_sub {α : Type} (f g : α → F) (x : F) (l : List α) :
    peval (l.map (fun a => f a - g a)) x = peval (l.map f) x - peval (l.map g) x := by
  induction l with
  | nil => simp
  | cons a l ih => simp only [List.map_cons, peval_cons, ih]; ring

/-- An opening proof shows at most one value. -/
def UniqueOpening (S : Scheme F) (vk : S.VK) : Prop :=
  ∀ c x v v' pf, S.check vk c x v pf = .ok true → S.check vk c x v' pf = .ok true → v = v'

theorem bound_exact (hU : UniqueOpening S vk) {d : Domain F} (hd : d.Ok)
    (ps : List (VerifierOracle F S.Comm × VerifierOracle F S.Comm))
    (hr : ∀ p ∈ ps, p.2.rotations = p.1.rotations) (hc : ∀ p ∈ ps, p.2.getCommitment = p.1.getCommitment) (xi : F)
    (p0 : VerifierOracle F S.Comm × VerifierOracle F S.Comm) (hp0 : p0 ∈ ps) (r0 : Rotation) (hr0 : r0 ∈ p0.1.rotations)
    (hne : p0.1.query (xi * d.omega ^ r0.signed) ≠ p0.2.query (xi * d.omega ^ r0.signed)) :
    let K := (openingSets (fun (p : VerifierOracle F S.Comm × VerifierOracle F S.Comm) => p.1.rotations) ps).length
    ∃ B1 : Finset F, B1.card ≤ ps.length - 1 ∧ ∀ x1 ∉ B1, ∃ B2 : Finset F, B2.card ≤ K - 1 ∧ ∀ x2 ∉ B2,
    ∃ B3 : Finset F, B3.card ≤ totalPoints (ps.map Prod.fst) - 1 ∧ ∀ x3 ∉ B3, ∀ x4 q fc pf, q.length = K →
      ¬ (mpVerifyWith S vk ⟨q, fc, pf⟩ (ps.map Prod.fst) xi d x1 x2 x3 x4 = .ok () ∧
         mpVerifyWith S vk ⟨q, fc, pf⟩ (ps.map Prod.snd) xi d x1 x2 x3 x4 = .ok ()) := by
  intro K
  have hpart := C39_partition (fun (p : VerifierOracle F S.Comm × VerifierOracle F S.Comm) => p.1.rotations) ps
  have hfst := openingSets_map (fun (p : VerifierOracle F S.Comm × VerifierOracle F S.Comm) => p.1.rotations)
    (fun (o : VerifierOracle F S.Comm) => o.rotations) Prod.fst ps (fun _ _ => rfl)
  have hsnd := openingSets_map (fun (p : VerifierOracle F S.Comm × VerifierOracle F S.Comm) => p.1.rotations)
    (fun (o : VerifierOracle F S.Comm) => o.rotations) Prod.snd ps hr
  have hKd : K = (openingSets (fun (p : VerifierOracle F S.Comm × VerifierOracle F S.Comm) => p.1.rotations) ps).length := rfl
  clear_value K
  have htp : totalPoints (ps.map Prod.fst)
      = ((openingSets (fun (p : VerifierOracle F S.Comm × VerifierOracle F S.Comm) => p.1.rotations) ps).map
        (fun s => s.1.length)).sum := by
    unfold totalPoints
    have : openingSets (fun (o : VerifierOracle F S.Comm) => ConcreteOracle.rotations o) (ps.map Prod.fst) = _ := hfst
    rw [this, List.map_map]
    rfl
  generalize hrs : openingSets (fun (p : VerifierOracle F S.Comm × VerifierOracle F S.Comm) => p.1.rotations) ps = rs at *
  subst hKd
  obtain ⟨s0, ⟨hs0, hps0⟩, _⟩ := hpart.2.2.2 p0 hp0
  have hsub : ∀ s ∈ rs, ∀ v ∈ s.2, v ∈ ps := by
    intro s hs v hv
    rw [(hpart.2.1 s hs).1] at hv
    exact (List.mem_filter.1 hv).1
  have hrot0 : p0.1.rotations = s0.1 := by
    rw [(hpart.2.1 s0 hs0).1] at hps0
    simpa using (List.mem_filter.1 hps0).2
  obtain ⟨i0, hi0, rfl⟩ := List.getElem_of_mem hs0
  set pt := xi * d.omega ^ r0.signed with hpt
  have hptm : pt ∈ points d xi rs[i0].1 := List.mem_map.2 ⟨r0, by rw [← hrot0]; exact hr0, rfl⟩
  -- both runs
  set L : Fin rs.length → List Rotation × List (VerifierOracle F S.Comm) := fun i => (rs[i].1, rs[i].2.map Prod.fst) with hL
  set R : Fin rs.length → List Rotation × List (VerifierOracle F S.Comm) := fun i => (rs[i].1, rs[i].2.map Prod.snd) with hR
  have hrun : ∀ x1 x2 x3 x4 q fc pf, q.length = rs.length →
      mpVerifyWith S vk ⟨q, fc, pf⟩ (ps.map Prod.fst) xi d x1 x2 x3 x4 = .ok () →
      mpVerifyWith S vk ⟨q, fc, pf⟩ (ps.map Prod.snd) xi d x1 x2 x3 x4 = .ok () →
      (∀ i, (∀ p ∈ points d xi rs[i].1, ∀ o ∈ rs[i].2, o.1.query p = .ok (o.1.claim p) ∧ o.2.query p = .ok (o.2.claim p)) ∧
        (vanishingAt d xi (L i)).eval x3 ≠ 0) ∧
      ∑ i : Fin rs.length, x2 ^ (i : Nat) *
        ((claimed d xi x1 (L i) - claimed d xi x1 (R i)).eval x3 * ((vanishingAt d xi (L i)).eval x3)⁻¹) = 0 := by
    intro x1 x2 x3 x4 q fc pf hq h1 h2
    obtain ⟨qs, g1, g2, g3⟩ := accepted_inv hd _ hfst (by simpa using hq) h1
    obtain ⟨qs', g1', g2', g3'⟩ := accepted_inv hd _ hsnd (by simpa using hq) h2
    rw [List.length_map] at g1 g1'
    have hqq : qs'.map Prod.fst = qs.map Prod.fst := by
      apply List.ext_getElem (by rw [List.length_map, List.length_map, Res.mapM_length g1, Res.mapM_length g1']; simp)
      intro i k1 k2
      rw [List.getElem_map, List.getElem_map]
      have hi : i < rs.length := by
        rw [List.length_map, Res.mapM_length g1] at k2
        simpa using k2
      have e1 := Res.mapM_getElem g1 i (by simpa using hi)
      have e2 := Res.mapM_getElem g1' i (by simpa using hi)
      rw [List.getElem_map] at e1 e2
      refine verifierSet_fst ?_ e1 e2
      simp only
      rw [List.forall₂_map_right_iff, List.forall₂_map_left_iff, List.forall₂_same]
      exact fun v hv => hc v (hsub _ (List.getElem_mem _) v hv)
    rw [hqq] at g3'
    have he := hU _ _ _ _ _ g3 g3'
    constructor
    · intro i
      have k1 := g2 i (by simp)
      have k2 := g2' i (by simp)
      simp only [List.getElem_map] at k1 k2
      refine ⟨fun p hp o ho => ⟨k1.1 p hp o.1 (List.mem_map_of_mem ho), k2.1 p hp o.2 (List.mem_map_of_mem ho)⟩, k1.2⟩
    · have he := add_right_cancel he
      have conv : ∀ (f : List Rotation × List (VerifierOracle F S.Comm × VerifierOracle F S.Comm) → List Rotation × List (VerifierOracle F S.Comm))
          (G : List Rotation × List (VerifierOracle F S.Comm) → F),
          peval (List.ofFn (fun i : Fin (rs.map f).length => (q[i]'(by have := i.2; simp at this; omega) - G ((rs.map f)[i])) *
            ((vanishingAt d xi ((rs.map f)[i])).eval x3)⁻¹)) x2
          = ∑ i : Fin rs.length, ((q[i]'(by omega) - G (f rs[i])) * ((vanishingAt d xi (f rs[i])).eval x3)⁻¹) * x2 ^ (i : Nat) := by
        intro f G
        rw [← peval_ofFn]
        congr 1
        apply List.ext_getElem (by simp)
        intro i k1 k2
        simp
      have c1 := conv (fun s => (s.1, s.2.map Prod.fst)) (fun s => (claimed d xi x1 s).eval x3)
      have c2 := conv (fun s => (s.1, s.2.map Prod.snd)) (fun s => (claimed d xi x1 s).eval x3)
      rw [c1, c2] at he
      have hv : ∀ i : Fin rs.length, vanishingAt d xi (R i) = vanishingAt d xi (L i) := fun i => rfl
      have := sub_eq_zero.2 he.symm
      rw [← Finset.sum_sub_distrib] at this
      rw [← this]
      apply Finset.sum_congr rfl
      intro i _
      show _ = (q[i] - (claimed d xi x1 (R i)).eval x3) * ((vanishingAt d xi (R i)).eval x3)⁻¹ * x2 ^ (i : Nat)
        - (q[i] - (claimed d xi x1 (L i)).eval x3) * ((vanishingAt d xi (L i)).eval x3)⁻¹ * x2 ^ (i : Nat)
      rw [hv, eval_sub]
      ring
  by_cases hmiss : ∃ p ∈ rs[i0].2, p.1.query pt ≠ .ok (p.1.claim pt) ∨ p.2.query pt ≠ .ok (p.2.claim pt)
  · refine ⟨∅, by simp, fun x1 _ => ⟨∅, by simp, fun x2 _ => ⟨∅, by simp, ?_⟩⟩⟩
    rintro x3 _ x4 q fc pf hq ⟨h1, h2⟩
    obtain ⟨v, hv, hv'⟩ := hmiss
    have := ((hrun x1 x2 x3 x4 q fc pf hq h1 h2).1 ⟨i0, hi0⟩).1 pt hptm v hv
    rcases hv' with h | h
    · exact h this.1
    · exact h this.2
  push Not at hmiss
  obtain ⟨B1, hB1, hB1'⟩ := bad_combination (rs[i0].2.map (fun v => v.1.claim pt - v.2.claim pt)) (by
    refine ⟨_, List.mem_map.2 ⟨p0, hps0, rfl⟩, ?_⟩
    intro h
    apply hne
    rw [(hmiss p0 hps0).1, (hmiss p0 hps0).2, sub_eq_zero.1 h])
  refine ⟨B1, ?_, ?_⟩
  · refine hB1.trans ?_
    rw [List.length_map]
    have : rs[i0].2.length ≤ ps.length := by
      rw [(hpart.2.1 _ hs0).1]; exact List.length_filter_le _ _
    omega
  intro x1 hx1
  have hx1 := hB1' x1 hx1
  rw [peval_map_sub] at hx1
  set num : Fin rs.length → F[X] := fun i => claimed d xi x1 (L i) - claimed d xi x1 (R i) with hnum
  set Z : Fin rs.length → F[X] := fun i => vanishingAt d xi (L i) with hZdef
  have hZ : ∀ i, (Z i).Monic := fun i => prod_sub_monic _
  have hZd : ∀ i, (Z i).natDegree = (setExtend [] (points d xi rs[i].1)).length := by
    intro i
    have := degree_prod_sub (setExtend [] (points d xi rs[i].1))
    exact natDegree_eq_of_degree_eq_some this
  obtain ⟨B2, hB2, hB2'⟩ := bad_quotients num Z hZ ⟨i0, hi0⟩ (by
    intro hdvd
    apply hx1
    have h1 := eval_dvd (x := pt) hdvd
    have h2 : (Z ⟨i0, hi0⟩).eval pt = 0 := (eval_prod_sub_eq_zero _ _).2 (by rw [mem_setExtend]; exact .inr hptm)
    rw [h2, zero_dvd_iff] at h1
    simp only [hnum, eval_sub] at h1
    rw [eval_claimed d xi x1 (L ⟨i0, hi0⟩) hptm, eval_claimed d xi x1 (R ⟨i0, hi0⟩) hptm] at h1
    simp only [hL, hR, List.map_map] at h1
    exact h1)
  refine ⟨B2, hB2, ?_⟩
  intro x2 hx2
  obtain ⟨B3, hB3, hB3'⟩ := bad_points num Z hZ x2 0 0 (by simp) (by
    intro i
    rw [hZd, zero_add]
    refine lt_of_le_of_lt (degree_sub_le _ _) (max_lt ?_ ?_)
    · exact degree_claimed d xi x1 (L i)
    · exact degree_claimed d xi x1 (R i)) (hB2' x2 hx2)
  refine ⟨B3, ?_, ?_⟩
  · have : ∑ i, (Z i).natDegree ≤ totalPoints (ps.map Prod.fst) := by
      rw [htp]
      have h1 : (rs.map (fun s => s.1.length)).sum = ∑ i : Fin rs.length, rs[i].1.length := by
        rw [← List.sum_ofFn]
        congr 1
        apply List.ext_getElem (by rw [List.length_map, List.length_ofFn])
        intro i h1 h2
        simp
      rw [h1]
      apply Finset.sum_le_sum
      intro i _
      rw [hZd]
      have := setExtend_length_le [] (points d xi rs[i].1)
      simpa [points] using this
    omega
  rintro x3 hx3 x4 q fc pf hq ⟨h1, h2⟩
  obtain ⟨g1, g2⟩ := hrun x1 x2 x3 x4 q fc pf hq h1 h2
  refine hB3' x3 hx3 (fun i => (g1 i).2) ?_
  rw [eval_zero]
  exact g2.symm

/-- **C37** (partial) Two lists of verifier oracles with the same rotations and commitments, but different claims for some oracle
at some of its points, are not both accepted with the same opening proof, apart from few challenges: at most `N - 1` values of `x1`
(`N` the number of oracles), at most `K - 1` values of `x2` (`K` the number of opening sets) and at most `M - 1` values of `x3` (`M`
the number of opening points). The values are fixed by the two lists. What is missing: the claims do not enter the transcript,
so they can be chosen after `x1`, see `C37_malleable` and `C37_false`. -/
theorem C37_bound_partial (hU : UniqueOpening S vk) {d : Domain F} (hd : d.Ok)
    (ps : List (VerifierOracle F S.Comm × VerifierOracle F S.Comm))
    (hr : ∀ p ∈ ps, p.2.rotations = p.1.rotations) (hc : ∀ p ∈ ps, p.2.getCommitment = p.1.getCommitment) (xi : F)
    (p0 : VerifierOracle F S.Comm × VerifierOracle F S.Comm) (hp0 : p0 ∈ ps) (r0 : Rotation) (hr0 : r0 ∈ p0.1.rotations)
    (hne : p0.1.query (xi * d.omega ^ r0.signed) ≠ p0.2.query (xi * d.omega ^ r0.signed)) :
    ∃ B1 : Finset F, B1.card ≤ ps.length - 1 ∧ ∀ x1 ∉ B1,
    ∃ B2 : Finset F, B2.card ≤ distinctRotations (ps.map Prod.fst) - 1 ∧ ∀ x2 ∉ B2,
    ∃ B3 : Finset F, B3.card ≤ totalPoints (ps.map Prod.fst) - 1 ∧ ∀ x3 ∉ B3,
    ∀ x4 (proof : MpProof S), distinctRotations (ps.map Prod.fst) ≤ proof.qEvals.length →
      ¬ (mpVerifyWith S vk proof (ps.map Prod.fst) xi d x1 x2 x3 x4 = .ok () ∧
         mpVerifyWith S vk proof (ps.map Prod.snd) xi d x1 x2 x3 x4 = .ok ()) := by
  have hfst := openingSets_map (fun (p : VerifierOracle F S.Comm × VerifierOracle F S.Comm) => p.1.rotations)
    (fun (o : VerifierOracle F S.Comm) => o.rotations) Prod.fst ps (fun _ _ => rfl)
  have hsnd := openingSets_map (fun (p : VerifierOracle F S.Comm × VerifierOracle F S.Comm) => p.1.rotations)
    (fun (o : VerifierOracle F S.Comm) => o.rotations) Prod.snd ps hr
  have hK := openingSets_length (ps.map Prod.fst)
  have hK1 := congrArg List.length hfst
  have hK2 := congrArg List.length hsnd
  rw [List.length_map] at hK1 hK2
  obtain ⟨B1, h1, hB1⟩ := bound_exact hU hd ps hr hc xi p0 hp0 r0 hr0 hne
  simp only [← hK1, hK] at hB1
  refine ⟨B1, h1, fun x1 hx1 => ?_⟩
  obtain ⟨B2, h2, hB2⟩ := hB1 x1 hx1
  refine ⟨B2, h2, fun x2 hx2 => ?_⟩
  obtain ⟨B3, h3, hB3⟩ := hB2 x2 hx2
  refine ⟨B3, h3, ?_⟩
  rintro x3 hx3 x4 ⟨q, fc, pf⟩ hq ⟨g1, g2⟩
  simp only at hq
  refine hB3 x3 hx3 x4 (q.take (distinctRotations (ps.map Prod.fst))) fc pf (by rw [List.length_take]; omega) ⟨?_, ?_⟩
  · rw [← C36_extra_evaluations_ignored vk d _ (q.drop (distinctRotations (ps.map Prod.fst))) fc pf _ xi x1 x2
      x3 x4 (by rw [List.length_take, hK]; omega), List.take_append_drop]
    exact g1
  · rw [← C36_extra_evaluations_ignored vk d _ (q.drop (distinctRotations (ps.map Prod.fst))) fc pf _ xi x1 x2
      x3 x4 (by rw [List.length_take, hK2, ← hK1, hK]; omega), List.take_append_drop]
    exact g2

/-- **C37** is false: only the combinations of the claims with powers of `x1` are bound, and the claims can be chosen when `x1` is
known. If the two lists answer at every point and the combinations over the oracles with the same rotations agree, then both
are accepted or both are rejected, with every proof. -/
theorem C37_malleable {d : Domain F} (hd : d.Ok) (ps : List (VerifierOracle F S.Comm × VerifierOracle F S.Comm))
    (hr : ∀ p ∈ ps, p.2.rotations = p.1.rotations) (hc : ∀ p ∈ ps, p.2.getCommitment = p.1.getCommitment) (xi x1 : F)
    (e e' : VerifierOracle F S.Comm × VerifierOracle F S.Comm → F → F)
    (he : ∀ p ∈ ps, ∀ r ∈ p.1.rotations, p.1.query (xi * d.omega ^ r.signed) = .ok (e p (xi * d.omega ^ r.signed)) ∧
      p.2.query (xi * d.omega ^ r.signed) = .ok (e' p (xi * d.omega ^ r.signed)))
    (hagg : ∀ rots : List Rotation, ∀ r ∈ rots,
      peval ((ps.filter (fun p => decide (p.1.rotations = rots))).map (fun p => e p (xi * d.omega ^ r.signed))) x1
      = peval ((ps.filter (fun p => decide (p.1.rotations = rots))).map (fun p => e' p (xi * d.omega ^ r.signed))) x1)
    (proof : MpProof S) (x2 x3 x4 : F) :
    mpVerifyWith S vk proof (ps.map Prod.snd) xi d x1 x2 x3 x4 = mpVerifyWith S vk proof (ps.map Prod.fst) xi d x1 x2 x3 x4 := by
  have hpart := C39_partition (fun (p : VerifierOracle F S.Comm × VerifierOracle F S.Comm) => p.1.rotations) ps
  have hfst := openingSets_map (fun (p : VerifierOracle F S.Comm × VerifierOracle F S.Comm) => p.1.rotations)
    (fun (o : VerifierOracle F S.Comm) => o.rotations) Prod.fst ps (fun _ _ => rfl)
  have hsnd := openingSets_map (fun (p : VerifierOracle F S.Comm × VerifierOracle F S.Comm) => p.1.rotations)
    (fun (o : VerifierOracle F S.Comm) => o.rotations) Prod.snd ps hr
  refine mpVerifyWith_congr hd (fun v w => (v, w) ∈ ps) (fun v w h => ⟨hr _ h, hc _ h⟩) ?_ ?_ proof x2 x3 x4
  · rw [List.forall₂_map_right_iff, List.forall₂_map_left_iff, List.forall₂_same]
    exact fun p hp => hp
  intro s t hs ht hst _ p hp
  rw [hfst] at hs
  rw [hsnd] at ht
  obtain ⟨s', hs', rfl⟩ := List.mem_map.1 hs
  obtain ⟨t', ht', rfl⟩ := List.mem_map.1 ht
  have hs2 := (hpart.2.1 s' hs').1
  have ht2 := (hpart.2.1 t' ht').1
  simp only at hst hp ⊢
  have ht2' : t'.2 = s'.2 := by rw [ht2, hs2, hst]
  rw [ht2']
  obtain ⟨r, hr', rfl⟩ := List.mem_map.1 hp
  have hagg := hagg s'.1 r hr'
  rw [← hs2] at hagg
  have hin : ∀ q ∈ s'.2, q ∈ ps ∧ q.1.rotations = s'.1 := by
    intro q hq
    rw [hs2] at hq
    obtain ⟨h1, h2⟩ := List.mem_filter.1 hq
    exact ⟨h1, by simpa using h2⟩
  have hlen : s'.2.length ≤ ps.length := by rw [hs2]; exact List.length_filter_le _ _
  rw [List.length_map]
  have ok : ∀ (f : VerifierOracle F S.Comm × VerifierOracle F S.Comm → VerifierOracle F S.Comm)
      (g : VerifierOracle F S.Comm × VerifierOracle F S.Comm → F),
      (∀ q ∈ s'.2, (f q).query (xi * d.omega ^ r.signed) = .ok (g q)) →
      aggQuery (fun (o : VerifierOracle F S.Comm) p => o.query p) (powersFrom 1 x1 ps.length) (s'.2.map f)
        (xi * d.omega ^ r.signed) = .ok (peval (s'.2.map g) x1) := by
    intro f g h
    refine aggQuery_iff.2 ⟨by rw [List.length_map]; exact hlen, _, ?_, rfl⟩
    rw [List.forall₂_map_right_iff, List.forall₂_map_left_iff, List.forall₂_same]
    exact h
  rw [ok Prod.fst (fun q => e q (xi * d.omega ^ r.signed)) (fun q hq => (he q (hin q hq).1 r (by rw [(hin q hq).2]; exact hr')).1),
    ok Prod.snd (fun q => e' q (xi * d.omega ^ r.signed)) (fun q hq => (he q (hin q hq).1 r (by rw [(hin q hq).2]; exact hr')).2),
    hagg]

end

/-! Concrete cases. -/
namespace Toy

theorem ideal_unique : UniqueOpening S () := by
  intro c x v v' pf h h'
  have h : (Res.ok (decide (peval c x = v)) : Res Unit Bool) = .ok true := h
  have h' : (Res.ok (decide (peval c x = v')) : Res Unit Bool) = .ok true := h'
  simp only [Res.ok.injEq, decide_eq_true_eq] at h h'
  rw [← h, ← h']

/-- The hypotheses of `C37_bound_partial` hold: a true and a false claim for the same polynomial. -/
theorem bound_example : ∃ B1 : Finset F97, B1.card ≤ 1 ∧ ∀ x1 ∉ B1, ∃ B2 : Finset F97, B2.card ≤ 1 ∧ ∀ x2 ∉ B2,
    ∃ B3 : Finset F97, B3.card ≤ 2 ∧ ∀ x3 ∉ B3, ∀ x4 (proof : MpProof S), 2 ≤ proof.qEvals.length →
      ¬ (mpVerifyWith S () proof [openV open1, openV open2] openXi dom x1 x2 x3 x4 = .ok () ∧
         mpVerifyWith S () proof [wrong1, openV open2] openXi dom x1 x2 x3 x4 = .ok ()) := by
  have hd : Domain.new (F := F97) 4 = some dom := by decide +kernel
  have hw : (openV open1).query (openXi * dom.omega ^ Rotation.next.signed)
      ≠ wrong1.query (openXi * dom.omega ^ Rotation.next.signed) := by
    have : dom.omega ^ Rotation.next.signed = dom.omega := by simp [Rotation.signed, Rotation.next]
    rw [this]
    decide +kernel
  have hcm : ∀ p ∈ [(openV open1, wrong1), (openV open2, openV open2)], p.2.getCommitment = p.1.getCommitment := by
    intro p hp
    have : ∀ p ∈ [(openV open1, wrong1), (openV open2, openV open2)], p.2.commitment = p.1.commitment ∧ p.2.kind = p.1.kind ∧
      p.2.label = p.1.label := by decide +kernel
    obtain ⟨a, b, c⟩ := this p hp
    simp only [VerifierOracle.getCommitment, a, b, c]
  obtain ⟨B1, h1, hB1⟩ := C37_bound_partial (S := S) (vk := ()) ideal_unique (Domain.new_ok hd)
    [(openV open1, wrong1), (openV open2, openV open2)] (by decide +kernel) hcm openXi (openV open1, wrong1)
    (List.mem_cons_self) .next (by decide) hw
  refine ⟨B1, h1, fun x1 hx1 => ?_⟩
  obtain ⟨B2, h2, hB2⟩ := hB1 x1 hx1
  refine ⟨B2, le_trans h2 (by decide +kernel), fun x2 hx2 => ?_⟩
  obtain ⟨B3, h3, hB3⟩ := hB2 x2 hx2
  refine ⟨B3, le_trans h3 (by decide +kernel), fun x3 hx3 x4 proof hq => ?_⟩
  exact hB3 x3 hx3 x4 proof (le_trans (by decide +kernel) hq)

/-- The first three quotient evaluations changed by `xi^n * x1`, `- (xi^n + x1)` and `1`. -/
def shiftEvals (xn x1 : F97) : List F97 → List F97
  | a :: b :: c :: l => (a + xn * x1) :: (b - (xn + x1)) :: (c + 1) :: l
  | l => l

/-- The same proof with other claimed evaluations of the quotient. -/
def shiftProof (p : TPProof S) : TPProof S :=
  let (ch, t) := verifierChallenges S p
  let (x1, _, _, _) := mpChallenges S p.multiopen t
  { p with quotientEvals := shiftEvals (ch.xi ^ 4) x1 p.quotientEvals }

/-- **C37** is false: the honest proof of the toy circuit and the same proof with three other claimed evaluations, everything
else unchanged, are both accepted. -/
theorem C37_false : ∃ k p e, key = .ok k ∧ proveWith k witness = .ok p ∧ verifyWith k vinst p = .ok () ∧
    e ≠ p.quotientEvals ∧ verifyWith k vinst { p with quotientEvals := e } = .ok () := by
  obtain ⟨k, p, h1, h2, h3⟩ := of_holds (ws := witness)
    (P := fun k p => decide (verifyWith k vinst p = .ok () ∧ (shiftProof p).quotientEvals ≠ p.quotientEvals ∧
      verifyWith k vinst { p with quotientEvals := (shiftProof p).quotientEvals } = .ok ())) (by decide +kernel)
  have h3 := of_decide_eq_true h3
  exact ⟨k, p, _, h1, h2, h3.1, h3.2.1, h3.2.2⟩

end Toy
end ZK
