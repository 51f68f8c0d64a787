import Verif.Lemmas.RerunProof
/-! Counting the draws that give a proof. -/
set_option autoImplicit false
set_option linter.unusedSectionVars false
namespace ZK
open Polynomial

theorem mem_triples {o k a : Nat} : a ∈ triples o k ↔ ∃ i < k, a = o + 3 * i := by
  simp [triples, eq_comm]

theorem triples_pairwise (o k : Nat) : (triples o k).Pairwise (fun a b => a + 3 ≤ b) := by
  unfold triples
  rw [List.pairwise_map]
  exact List.pairwise_lt_range.imp (fun h => by omega)

namespace Layout

theorem offsets (y : Layout) : y.o2 = 3 * y.w + y.r1 ∧ y.o3 = y.o2 + 3 * (2 * y.l) + y.r2 ∧ y.o4 = y.o3 + 3 * y.p + y.r3 ∧
    y.o5 = y.o4 + 3 * y.l ∧ y.o6 = y.o5 + 3 * y.q := ⟨rfl, rfl, rfl, rfl, rfl⟩

theorem mem_positions {y : Layout} {a : Nat} : a ∈ y.positions ↔ (∃ i < y.w, a = 3 * i) ∨ (∃ i < 2 * y.l, a = y.o2 + 3 * i) ∨
    (∃ i < y.p, a = y.o3 + 3 * i) ∨ (∃ i < y.l, a = y.o4 + 3 * i) ∨ (∃ i < y.q, a = y.o5 + 3 * i) ∨ a = y.o6 := by
  simp only [positions, List.mem_append, mem_triples, List.mem_singleton, Nat.zero_add, or_assoc]

theorem positions_pairwise (y : Layout) : y.positions.Pairwise (fun a b => a + 3 ≤ b) := by
  obtain ⟨h2, h3, h4, h5, h6⟩ := y.offsets
  unfold positions
  simp only [List.pairwise_append, triples_pairwise, List.pairwise_singleton, true_and, List.mem_append, mem_triples, List.mem_singleton]
  refine ⟨⟨⟨⟨?_, ?_⟩, ?_⟩, ?_⟩, ?_⟩
  · rintro a ⟨i, hi, rfl⟩ b ⟨j, hj, rfl⟩; omega
  · rintro a (⟨i, hi, rfl⟩ | ⟨i, hi, rfl⟩) b ⟨j, hj, rfl⟩ <;> omega
  · rintro a ((⟨i, hi, rfl⟩ | ⟨i, hi, rfl⟩) | ⟨i, hi, rfl⟩) b ⟨j, hj, rfl⟩ <;> omega
  · rintro a (((⟨i, hi, rfl⟩ | ⟨i, hi, rfl⟩) | ⟨i, hi, rfl⟩) | ⟨i, hi, rfl⟩) b ⟨j, hj, rfl⟩ <;> omega
  · rintro a ((((⟨i, hi, rfl⟩ | ⟨i, hi, rfl⟩) | ⟨i, hi, rfl⟩) | ⟨i, hi, rfl⟩) | ⟨i, hi, rfl⟩) b rfl <;> omega

theorem not_isRow {y : Layout} {a : Nat} (h : a ∈ y.positions) : ¬ y.IsRow a := by
  obtain ⟨h2, h3, h4, h5, h6⟩ := y.offsets
  unfold IsRow
  rcases mem_positions.1 h with ⟨i, hi, rfl⟩ | ⟨i, hi, rfl⟩ | ⟨i, hi, rfl⟩ | ⟨i, hi, rfl⟩ | ⟨i, hi, rfl⟩ | rfl <;> omega

theorem isRow_lt {y : Layout} {i : Nat} (h : y.IsRow i) : i < y.o6 := by
  obtain ⟨h2, h3, h4, h5, h6⟩ := y.offsets
  unfold IsRow at h
  omega

theorem mem_positions_le {y : Layout} {a : Nat} (h : a ∈ y.positions) : a = y.o6 ∨ a + 3 ≤ y.o6 := by
  obtain ⟨h2, h3, h4, h5, h6⟩ := y.offsets
  rcases mem_positions.1 h with ⟨i, hi, rfl⟩ | ⟨i, hi, rfl⟩ | ⟨i, hi, rfl⟩ | ⟨i, hi, rfl⟩ | ⟨i, hi, rfl⟩ | rfl <;> omega

theorem positions_gap {y : Layout} {a b : Nat} (ha : a ∈ y.positions) (hb : b ∈ y.positions) : a = b ∨ a + 3 ≤ b ∨ b + 3 ≤ a := by
  have := y.positions_pairwise
  obtain ⟨i, hi, rfl⟩ := List.getElem_of_mem ha
  obtain ⟨j, hj, rfl⟩ := List.getElem_of_mem hb
  rw [List.pairwise_iff_getElem] at this
  rcases Nat.lt_trichotomy i j with h | h | h
  · exact Or.inr (Or.inl (this _ _ hi hj h))
  · subst h; exact Or.inl rfl
  · exact Or.inr (Or.inr (this _ _ hj hi h))

theorem positions_nodup (y : Layout) : y.positions.Nodup :=
  y.positions_pairwise.imp (fun h => by omega)

/-- Constants to add to the first coefficients of the blinding polynomials. -/
theorem exists_shift {F G : Type} [Field F] [AddCommGroup G] [Module F G] (y : Layout) {gamma : G}
    (hg : Function.Surjective (fun k : F => k • gamma)) {gs gs' : List G} (h : gs.length = y.positions.length)
    (h' : gs'.length = y.positions.length) :
    ∃ k : Nat → F, (∀ c (hc : c < y.positions.length), k (y.positions[c]) • gamma = gs'[c] - gs[c]) ∧ ∀ i, i ∉ y.positions → k i = 0 := by
  choose K hK using hg
  refine ⟨fun i => if i ∈ y.positions then K (gs'.getD (y.positions.idxOf i) 0 - gs.getD (y.positions.idxOf i) 0) else 0, ?_, ?_⟩
  · intro c hc
    simp only
    rw [if_pos (List.getElem_mem hc), y.positions_nodup.idxOf_getElem c hc]
    refine (hK _).trans ?_
    rw [List.getD_eq_getElem _ _ (by omega), List.getD_eq_getElem _ _ (by omega)]
  · intro i hi
    exact if_neg hi

end Layout

section
variable {F : Type} [Field F] [LinearOrder F] [FftParams F] {G : Type} [AddCommGroup G] [Module F G]
variable {G2 GT : Type} [AddCommGroup G2] [Module F G2] [AddCommGroup GT] [Module F GT] [DecidableEq GT]

theorem comAt_sub {Z : Type} (beta : F) (vk : KzgVk G G2) (next : Z → F × Z) (y z : Z) (o : Nat) (p : List F) :
    comAt beta vk next y o p = comAt beta vk next z o p + ((draw next y o - draw next z o) +
      (draw next y (o + 1) - draw next z (o + 1)) * beta + (draw next y (o + 2) - draw next z (o + 2)) * beta ^ 2) • vk.gammaG := by
  unfold comAt
  rw [add_assoc ((toPoly p).eval beta • vk.g), ← add_smul]
  congr 2
  ring

/-- The draws that give a proof with given values, commitments and blinding value of the opening. -/
def fiber (e : G →ₗ[F] G2 →ₗ[F] GT) (env : KzgEnv F G) (pk : ProverKey (kzgScheme e env)) (pre : ProverPreprocessed (kzgScheme e env))
    (ws is : List (ProverOracle F)) (vos : List (GenericVO F)) (domainSize : Nat) {N : Nat} (seed : (Fin N → F) → env.Z)
    (v : List (List F)) (gs : List G) (rv : F) : Set (Fin N → F) :=
  {r | ∃ π, prove (kzgScheme e env) pk pre ws is vos domainSize (seed r) = .ok π ∧ π.values = v ∧ TPProof.commitments π = gs ∧
    KzgProof.randomV (G := G) π.multiopen.opening = rv}

theorem fiber_le [LawfulFft F] [Finite F] (e : G →ₗ[F] G2 →ₗ[F] GT) (env : KzgEnv F G) (habs : ∀ t b, env.fsAbsorb t b = t)
    {pk : ProverKey (kzgScheme e env)} {beta : F} {vk : KzgVk G G2} (hs : KzgSetup beta pk.ck vk)
    (h3 : 3 ≤ (KzgKey.gammaPowers (G := G) pk.ck).length) (hg : Function.Surjective (fun k : F => k • vk.gammaG))
    {pre : ProverPreprocessed (kzgScheme e env)} {ws is : List (ProverOracle F)}
    {vos : List (GenericVO F)} {domainSize : Nat} {d : Domain F} (hd : Domain.new domainSize = some d) (hok : d.Ok) {lay : Layout}
    (hlay : lay = layout pk.vk.index d ws.length (ws.filter (·.shouldPermute)).length) {x3 : F}
    (hx3 : x3 = draw env.fsRand (env.fsInit (bytes "TurboPlonk-0.0.1")) 7) (hx : x3 ≠ beta)
    {N : Nat} (hN : lay.o6 + 3 ≤ N) {seed : (Fin N → F) → env.Z} (hseed : ∀ r i (h : i < N), draw env.next (seed r) i = r ⟨i, h⟩)
    (v : List (List F)) {gs gs' : List G} (rv rv' : F) (hgs : gs.length = lay.positions.length) (hgs' : gs'.length = lay.positions.length) :
    (fiber e env pk pre ws is vos domainSize seed v gs rv).ncard ≤ (fiber e env pk pre ws is vos domainSize seed v gs' rv').ncard := by
  classical
  obtain ⟨k, hk, hk0⟩ := lay.exists_shift hg hgs hgs'
  have ho6 : lay.o6 ∈ lay.positions := Layout.mem_positions.2 (by simp)
  -- the shifted head
  let A : (Fin N → F) → Fin N → F := fun r i => r i + if i.1 < lay.o6 then k i else 0
  have hrow : ∀ r i, lay.IsRow i → draw env.next (seed (A r)) i = draw env.next (seed r) i := by
    intro r i hi
    have := Layout.isRow_lt hi
    rw [hseed _ _ (by omega), hseed _ _ (by omega)]
    simp only [A]
    rw [if_pos this, hk0 i (fun hm => Layout.not_isRow hm hi), add_zero]
  let rv1 : (Fin N → F) → F := fun r => match prove (kzgScheme e env) pk pre ws is vos domainSize (seed (A r)) with
    | .ok π => KzgProof.randomV (G := G) π.multiopen.opening
    | _ => 0
  have hst : ∀ a b : F, ∃ s : F × F, s.1 + s.2 * beta = a ∧ s.1 + s.2 * x3 = b := by
    intro a b
    have hne : x3 - beta ≠ 0 := sub_ne_zero.2 hx
    refine ⟨(a - (b - a) / (x3 - beta) * beta, (b - a) / (x3 - beta)), by simp, ?_⟩
    have : a - (b - a) / (x3 - beta) * beta + (b - a) / (x3 - beta) * x3 = a + (b - a) / (x3 - beta) * (x3 - beta) := by ring
    rw [this, div_mul_cancel₀ _ hne]
    ring
  choose st hst1 hst2 using hst
  let B : (Fin N → F) → Fin N → F := fun r i => A r i + if i.1 = lay.o6 then (st (k lay.o6) (rv' - rv1 r)).1 else
    if i.1 = lay.o6 + 1 then (st (k lay.o6) (rv' - rv1 r)).2 else 0
  have hBA : ∀ r i, i < lay.o6 → draw env.next (seed (B r)) i = draw env.next (seed (A r)) i := by
    intro r i hi
    rw [hseed _ _ (by omega), hseed _ _ (by omega)]
    simp only [B]
    rw [if_neg (by omega), if_neg (by omega), add_zero]
  have hAr : ∀ r i (hi : i < N), draw env.next (seed (A r)) i = draw env.next (seed r) i + if i < lay.o6 then k i else 0 := by
    intro r i hi
    rw [hseed _ _ hi, hseed _ _ hi]
  have hBr : ∀ r i (hi : i < N), draw env.next (seed (B r)) i = draw env.next (seed (A r)) i +
      if i = lay.o6 then (st (k lay.o6) (rv' - rv1 r)).1 else if i = lay.o6 + 1 then (st (k lay.o6) (rv' - rv1 r)).2 else 0 := by
    intro r i hi
    rw [hseed _ _ hi, hseed _ _ hi]
  have hlastA : ∀ r, lastDraws env.next x3 lay.o6 (seed (A r)) = lastDraws env.next x3 lay.o6 (seed r) := by
    intro r
    unfold lastDraws
    rw [hAr _ _ (by omega), hAr _ _ (by omega), hAr _ _ (by omega), if_neg (by omega), if_neg (by omega), if_neg (by omega)]
    ring
  have hlastB : ∀ r, lastDraws env.next x3 lay.o6 (seed (B r)) = lastDraws env.next x3 lay.o6 (seed (A r)) + (rv' - rv1 r) := by
    intro r
    unfold lastDraws
    rw [hBr _ _ (by omega), hBr _ _ (by omega), hBr _ _ (by omega), if_pos rfl, if_neg (by omega), if_pos rfl, if_neg (by omega),
      if_neg (by omega)]
    linear_combination hst2 (k lay.o6) (rv' - rv1 r)
  refine Set.ncard_le_ncard_of_injOn B ?_ ?_
  · rintro r ⟨π, h1, h2, h4, h5⟩
    obtain ⟨polys, p1, p2, p3⟩ := prove_rerun e env habs hs h3 hd hok hlay hx3 h1
    obtain ⟨π', q1, q2, q3, -⟩ := p3 (seed (B r)) (fun i hi => (hBA r i (Layout.isRow_lt hi)).trans (hrow r i hi))
    refine ⟨π', q1, q2.trans h2, ?_, ?_⟩
    · have p2' : gs = List.zipWith (comAt beta vk env.next (seed r)) lay.positions polys := h4.symm.trans p2
      refine q3.trans ?_
      apply List.ext_getElem
      · rw [List.length_zipWith, p1, min_self, hgs']
      · intro c hc hc'
        have hcp : c < lay.positions.length := by omega
        have hm := List.getElem_mem hcp
        have e1 : gs[c] = comAt beta vk env.next (seed r) lay.positions[c] polys[c] := by
          simp only [p2', List.getElem_zipWith]
        rw [List.getElem_zipWith, comAt_sub beta vk env.next (seed (B r)) (seed r), ← e1]
        have hkc := hk c hcp
        have e2 : gs'[c] = gs[c] + k lay.positions[c] • vk.gammaG := by
          rw [hkc]
          abel
        rw [e2]
        congr 2
        rcases Layout.mem_positions_le hm with h | h
        · rw [h, hBr _ _ (by omega), hBr _ _ (by omega), hBr _ _ (by omega), hAr _ _ (by omega), hAr _ _ (by omega), hAr _ _ (by omega),
            if_pos rfl, if_neg (by omega), if_pos rfl, if_neg (by omega), if_neg (by omega), if_neg (by omega), if_neg (by omega),
            if_neg (by omega)]
          linear_combination hst1 (k lay.o6) (rv' - rv1 r)
        · have hk1 : k (lay.positions[c] + 1) = 0 := hk0 _ (fun hm' => by
            have := Layout.positions_gap hm hm'
            omega)
          have hk2 : k (lay.positions[c] + 2) = 0 := hk0 _ (fun hm' => by
            have := Layout.positions_gap hm hm'
            omega)
          have hlow : ∀ i < lay.o6, draw env.next (seed (B r)) i = draw env.next (seed r) i + k i := by
            intro i hi
            rw [hBA r i hi, hAr _ _ (by omega), if_pos hi]
          rw [hlow _ (by omega), hlow _ (by omega), hlow _ (by omega), hk1, hk2]
          ring
    · obtain ⟨π1, a1, -, -, -⟩ := p3 (seed (A r)) (hrow r)
      obtain ⟨_, -, -, b3⟩ := prove_rerun e env habs hs h3 hd hok hlay hx3 a1
      obtain ⟨π2, c1, -, -, c4⟩ := b3 (seed (B r)) (fun i hi => hBA r i (Layout.isRow_lt hi))
      obtain rfl := Res.ok.inj (q1.symm.trans c1)
      have c4 := c4 (fun i hi => hBA r i hi)
      have hrv : rv1 r = KzgProof.randomV (G := G) π1.multiopen.opening := by
        simp only [rv1]
        rw [a1]
      rw [hlastB, hrv] at c4
      linear_combination c4
  · rintro r ⟨π, h1, -, -, h5⟩ r' ⟨π', h1', -, -, h5'⟩ hB
    have hA : ∀ i : Fin N, i.1 ≠ lay.o6 → i.1 ≠ lay.o6 + 1 → r i = r' i := by
      intro i hi hi'
      have := congrFun hB i
      simp only [B, A, if_neg hi, if_neg hi', add_zero] at this
      exact add_right_cancel this
    have hlow : ∀ i < lay.o6, draw env.next (seed r') i = draw env.next (seed r) i := by
      intro i hi
      rw [hseed _ _ (by omega), hseed _ _ (by omega)]
      exact (hA ⟨i, by omega⟩ (by simp only; omega) (by simp only; omega)).symm
    obtain ⟨_, -, -, p3⟩ := prove_rerun e env habs hs h3 hd hok hlay hx3 h1
    obtain ⟨π2, c1, -, -, c4⟩ := p3 (seed r') (fun i hi => hlow i (Layout.isRow_lt hi))
    obtain rfl := Res.ok.inj (h1'.symm.trans c1)
    have c4 := c4 hlow
    rw [h5, h5'] at c4
    have hlow' : ∀ i < lay.o6, draw env.next (seed (A r')) i = draw env.next (seed (A r)) i := by
      intro i hi
      rw [hAr _ _ (by omega), hAr _ _ (by omega), hlow i hi]
    obtain ⟨π1, a1, -, -, -⟩ := p3 (seed (A r)) (hrow r)
    obtain ⟨_, -, -, b3⟩ := prove_rerun e env habs hs h3 hd hok hlay hx3 a1
    obtain ⟨π1', a1', -, -, b4⟩ := b3 (seed (A r')) (fun i hi => hlow' i (Layout.isRow_lt hi))
    have b4 := b4 hlow'
    rw [hlastA, hlastA] at b4
    have hrv : rv1 r = rv1 r' := by
      simp only [rv1]
      rw [a1, a1']
      simp only
      linear_combination c4 - b4
    funext i
    have := congrFun hB i
    simp only [B, A, hrv] at this
    exact add_right_cancel (add_right_cancel this)

end
end ZK
