import Verif.Lemmas.RerunOpening
import Verif.Spec.HonestVerifier
/-! The prover run again with other randomness. -/
set_option autoImplicit false
set_option linter.unusedSectionVars false
namespace ZK
open Polynomial

/-- Positions of `k` blinding polynomials from `o` on. -/
def triples (o k : Nat) : List Nat := (List.range k).map (fun i => o + 3 * i)

/-- Positions of the blinding polynomials of the commitments, in the order of `TPProof.commitments`. -/
def Layout.positions (y : Layout) : List Nat :=
  triples 0 y.w ++ triples y.o2 (2 * y.l) ++ triples y.o3 y.p ++ triples y.o4 y.l ++ triples y.o5 y.q ++ [y.o6]

theorem triples_length (o k : Nat) : (triples o k).length = k := by simp [triples]

section
variable {F : Type} [Field F] [LinearOrder F] [FftParams F] {G : Type} [AddCommGroup G] [Module F G]
variable {G2 GT : Type} [AddCommGroup G2] [Module F G2] [AddCommGroup GT] [Module F GT] [DecidableEq GT]

theorem comsAt_zip {Z : Type} (beta : F) (vk : KzgVk G G2) (next : Z → F × Z) (z : Z) (o k : Nat) (ps : List (List F)) (h : ps.length = k) :
    comsAt beta vk next z o ps = List.zipWith (comAt beta vk next z) (triples o k) ps := by
  subst h
  apply List.ext_getElem
  · simp [comsAt, triples]
  · intro i h h'
    simp [comsAt, triples]

theorem randsAt_congr {Z : Type} {next : Z → F × Z} {y z : Z} {o m b : Nat} (hb : o + 3 * m ≤ b)
    (h : ∀ i < b, draw next y i = draw next z i) : randsAt next y o m = randsAt next z o m := by
  unfold randsAt
  congr 1
  funext c
  have := c.2
  rw [h _ (by omega), h _ (by omega), h _ (by omega)]

theorem randsAt_length {Z : Type} (next : Z → F × Z) (z : Z) (o m : Nat) : (randsAt next z o m).length = m := by simp [randsAt]

/-- The part of the blinding value of the opening that comes from the last three elements drawn. -/
def lastDraws {Z : Type} (next : Z → F × Z) (x : F) (o : Nat) (z : Z) : F :=
  draw next z o + draw next z (o + 1) * x + draw next z (o + 2) * x ^ 2

/-- The randomness given to the multi-opening. -/
def traceRands (e : G →ₗ[F] G2 →ₗ[F] GT) (env : KzgEnv F G) (pre : ProverPreprocessed (kzgScheme e env))
    (tr : ProverTrace (kzgScheme e env)) : List {r : List F // r.length ≤ 3} :=
  tr.wc.map Prod.snd ++ tr.lc.map Prod.snd ++ tr.lzc.map Prod.snd ++ tr.qc.map Prod.snd ++ tr.zc.map Prod.snd ++ pre.emptyRands

/-- The randomness of the preprocessed polynomials. -/
def emptyOf (e : G →ₗ[F] G2 →ₗ[F] GT) (env : KzgEnv F G) (pre : ProverPreprocessed (kzgScheme e env)) :
    List {r : List F // r.length ≤ 3} := pre.emptyRands

theorem AtLayout.rands_eq {e : G →ₗ[F] G2 →ₗ[F] GT} {env : KzgEnv F G} {beta : F} {vk : KzgVk G G2} {lay : Layout} {z : env.Z}
    {tr : ProverTrace (kzgScheme e env)} (h : AtLayout e env beta vk lay z tr) (pre : ProverPreprocessed (kzgScheme e env)) :
    traceRands e env pre tr = randsAt env.next z 0 lay.w ++ randsAt env.next z lay.o2 (2 * lay.l) ++ randsAt env.next z lay.o4 lay.l ++
      randsAt env.next z lay.o5 lay.q ++ randsAt env.next z lay.o3 lay.p ++ emptyOf e env pre := by
  have := h.witness.2
  have := h.lookups.2
  have := h.products.2
  have := h.lookupProducts.2
  have := h.quotient.2
  unfold traceRands
  simp only [*]
  rfl

theorem AtLayout.rands_length {e : G →ₗ[F] G2 →ₗ[F] GT} {env : KzgEnv F G} {beta : F} {vk : KzgVk G G2} {lay : Layout} {z y : env.Z}
    {tr tr' : ProverTrace (kzgScheme e env)} (h : AtLayout e env beta vk lay z tr) (h' : AtLayout e env beta vk lay y tr')
    (pre : ProverPreprocessed (kzgScheme e env)) : (traceRands e env pre tr').length = (traceRands e env pre tr).length := by
  rw [h.rands_eq, h'.rands_eq]
  simp only [List.length_append, randsAt_length]

theorem AtLayout.rands_congr {e : G →ₗ[F] G2 →ₗ[F] GT} {env : KzgEnv F G} {beta : F} {vk : KzgVk G G2} {lay : Layout} {z y : env.Z}
    {tr tr' : ProverTrace (kzgScheme e env)} (h : AtLayout e env beta vk lay z tr) (h' : AtLayout e env beta vk lay y tr')
    (pre : ProverPreprocessed (kzgScheme e env)) (hy : ∀ i < lay.o6, draw env.next y i = draw env.next z i) :
    traceRands e env pre tr' = traceRands e env pre tr := by
  rw [h.rands_eq, h'.rands_eq]
  have h5 : lay.o6 = lay.o5 + 3 * lay.q := rfl
  have h4 : lay.o5 = lay.o4 + 3 * lay.l := rfl
  have h3 : lay.o4 = lay.o3 + 3 * lay.p + lay.r3 := rfl
  have h2 : lay.o3 = lay.o2 + 3 * (2 * lay.l) + lay.r2 := rfl
  have h1 : lay.o2 = 3 * lay.w + lay.r1 := rfl
  rw [randsAt_congr (o := 0) (by omega) hy, randsAt_congr (o := lay.o2) (by omega) hy, randsAt_congr (o := lay.o3) (by omega) hy,
    randsAt_congr (o := lay.o4) (by omega) hy, randsAt_congr (o := lay.o5) (by omega) hy]

theorem comAt_after {Z : Type} (beta : F) (vk : KzgVk G G2) (next : Z → F × Z) (z : Z) (o : Nat) (p : List F) :
    comAt beta vk next (after next o z) 0 p = comAt beta vk next z o p := by
  simp only [comAt, draw_after, Nat.zero_add, Nat.add_zero]

/-- The commitments of the prover, in order. -/
def traceComs (e : G →ₗ[F] G2 →ₗ[F] GT) (env : KzgEnv F G) (tr : ProverTrace (kzgScheme e env)) : List G :=
  tr.wc.map Prod.fst ++ tr.lc.map Prod.fst ++ tr.zc.map Prod.fst ++ tr.lzc.map Prod.fst ++ tr.qc.map Prod.fst

theorem AtLayout.commitments {e : G →ₗ[F] G2 →ₗ[F] GT} {env : KzgEnv F G} {beta : F} {vk : KzgVk G G2} {lay : Layout} {z : env.Z}
    {tr : ProverTrace (kzgScheme e env)} (h : AtLayout e env beta vk lay z tr) (f : List F) :
    traceComs e env tr ++ [comAt beta vk env.next z lay.o6 f] = List.zipWith (comAt beta vk env.next z) lay.positions
      (tr.view.witness.map (·.poly) ++ (primes tr.rounds.lookups).map (·.poly) ++ tr.rounds.zs.map (·.poly) ++
        tr.rounds.lookupZs.map (·.poly) ++ tr.quotient.map (·.poly) ++ [f]) := by
  obtain ⟨l1, l2, l3, l4, l5⟩ := h.lengths
  have h1 := h.witness.1
  have h2 := h.lookups.1
  have h3 := h.products.1
  have h4 := h.lookupProducts.1
  have h5 := h.quotient.1
  unfold traceComs
  rw [h1, h2, h3, h4, h5]
  rw [comsAt_zip _ _ _ _ _ lay.w _ (by simpa using l1), comsAt_zip _ _ _ _ _ (2 * lay.l) _ (by simpa using l2),
    comsAt_zip _ _ _ _ _ lay.p _ (by simpa using l3), comsAt_zip _ _ _ _ _ lay.l _ (by simpa using l4),
    comsAt_zip _ _ _ _ _ lay.q _ (by simpa using l5)]
  unfold Layout.positions
  rw [List.zipWith_append, List.zipWith_append, List.zipWith_append, List.zipWith_append, List.zipWith_append]
  · rfl
  all_goals simp [triples_length, l1, l2, l3, l4, l5]

theorem prove_rerun [LawfulFft F] (e : G →ₗ[F] G2 →ₗ[F] GT) (env : KzgEnv F G) (habs : ∀ t b, env.fsAbsorb t b = t)
    {pk : ProverKey (kzgScheme e env)} {beta : F} {vk : KzgVk G G2} (hs : KzgSetup beta pk.ck vk)
    (h3 : 3 ≤ (KzgKey.gammaPowers (G := G) pk.ck).length) {pre : ProverPreprocessed (kzgScheme e env)} {ws is : List (ProverOracle F)}
    {vos : List (GenericVO F)} {domainSize : Nat} {d : Domain F} (hd : Domain.new domainSize = some d) (hok : d.Ok) {lay : Layout}
    (hlay : lay = layout pk.vk.index d ws.length (ws.filter (·.shouldPermute)).length) {x3 : F}
    (hx3 : x3 = draw env.fsRand (env.fsInit (bytes "TurboPlonk-0.0.1")) 7) {z : env.Z}
    {π : TPProof (kzgScheme e env)} (h : prove (kzgScheme e env) pk pre ws is vos domainSize z = .ok π) :
    ∃ polys : List (List F), polys.length = lay.positions.length ∧
      TPProof.commitments π = List.zipWith (comAt beta vk env.next z) lay.positions polys ∧
      ∀ y : env.Z, (∀ i, lay.IsRow i → draw env.next y i = draw env.next z i) →
        ∃ π', prove (kzgScheme e env) pk pre ws is vos domainSize y = .ok π' ∧ π'.values = π.values ∧
          TPProof.commitments π' = List.zipWith (comAt beta vk env.next y) lay.positions polys ∧
          ((∀ i < lay.o6, draw env.next y i = draw env.next z i) →
            KzgProof.randomV (G := G) π'.multiopen.opening - lastDraws env.next x3 lay.o6 y
              = KzgProof.randomV (G := G) π.multiopen.opening - lastDraws env.next x3 lay.o6 z) := by
  unfold prove at h ⊢
  simp only [Res.bind_eq_ok, Res.mapErr_eq_ok, Res.unwrap_eq_ok, Res.assert_eq_ok] at h ⊢
  obtain ⟨tr, h1, d', h2, wq, k1, we, k2, fq, k3, fe, k4, tq, k5, te, k6, _, k7, zq, k8, ze, k9, _, k10, mp, k11, k12⟩ := h
  obtain ⟨⟨c1, c2, c4, c5, c6, c7, c8, c9⟩, h5⟩ := proveRounds_rerun e env habs hs h3 hd hok h1
  rw [← hlay] at h5
  have hat := (proveRounds_rerun e env habs hs h3 hd hok h1).1
  rw [← hlay] at hat
  have hn : (openingOrder tr.view.witness (primes tr.rounds.lookups) tr.rounds.lookupZs tr.quotient
    tr.rounds.zs pre.fixed pre.table pre.perm pre.qBlind).length = (traceRands e env pre tr).length := of_decide_eq_true k10
  obtain ⟨f, hmp⟩ := mpProve_rerun e env habs hs h3 hn.symm k11
  obtain ⟨κ, hκ⟩ := hmp _ hn.symm
  have hx : x3 = (env.fsRand (env.fsRand (env.fsRand tr.t).2).2).1 := by
    rw [hx3, c9]
    rfl
  rw [← hx] at hκ
  have hmz := hκ tr.z
  obtain ⟨mp0, q1, -, q2, q3⟩ := hmz
  obtain rfl := Res.ok.inj (k11.symm.trans q1)
  cases k12
  refine ⟨tr.view.witness.map (·.poly) ++ (primes tr.rounds.lookups).map (·.poly) ++ tr.rounds.zs.map (·.poly) ++
    tr.rounds.lookupZs.map (·.poly) ++ tr.quotient.map (·.poly) ++ [f], ?_, ?_, ?_⟩
  · obtain ⟨l1, l2, l3, l4, l5⟩ := c8
    rw [← hlay] at l1 l2 l3 l4 l5
    simp [Layout.positions, triples_length, l1, l2, l3, l4, l5]
  · refine Eq.trans ?_ (hat.commitments f)
    have q2' : (show G from mp.fCommit) = comAt beta vk env.next z lay.o6 f := q2.trans ((congrArg (fun z => comAt beta vk env.next z 0 f) hat.state).trans (comAt_after ..))
    exact congrArg (fun c : G => traceComs e env tr ++ [c]) q2'
  · intro y hy
    obtain ⟨tr', e1, e2, e3, e4, e5, e6⟩ := h5 y hy
    have hat' := (proveRounds_rerun e env habs hs h3 hd hok e1).1
    rw [← hlay] at hat'
    have hl' := hat.rands_length (pre := pre) hat'
    obtain ⟨κ', hκ'⟩ := hmp (traceRands e env pre tr') (hl'.trans hn.symm)
    rw [← hx] at hκ'
    obtain ⟨mp', p1, p2, p3, p4⟩ := hκ' tr'.z
    refine ⟨_, ⟨tr', e1, d', h2, wq, by rw [e2, e5]; exact k1, we, by rw [e2]; exact k2, fq, by rw [e5]; exact k3, fe, k4, tq,
      by rw [e5]; exact k5, te, k6, (), k7, zq, by rw [e3, e5]; exact k8, ze, by rw [e3]; exact k9, (), ?_, mp', ?_, rfl⟩, ?_, ?_, ?_⟩
    · rw [e2, e3, e4]
      exact decide_eq_true (hn.trans hl'.symm)
    · rw [e2, e3, e4, e5, e6]
      exact p1
    · show [_, _, _, _, _, _, _, _, _, _] = [_, _, _, _, _, _, _, _, _, _]
      rw [e3, e4, e5, p2]
    · have p3' : (show G from mp'.fCommit) = comAt beta vk env.next y lay.o6 f := p3.trans ((congrArg (fun z => comAt beta vk env.next z 0 f) hat'.state).trans (comAt_after ..))
      have := hat'.commitments f
      rw [e2, e3, e4] at this
      exact (congrArg (fun c : G => traceComs e env tr' ++ [c]) p3').trans this
    · intro hy'
      have hr := hat.rands_congr hat' pre hy'
      obtain ⟨mp2, s1, -, -, s4⟩ := hκ tr'.z
      rw [hr] at p1
      obtain rfl := Res.ok.inj (p1.symm.trans s1)
      have hz := hat.state
      have hz' := hat'.state
      show KzgProof.randomV (G := G) mp'.opening - _ = KzgProof.randomV (G := G) mp.opening - _
      rw [s4, q3, hz, hz']
      have hda : ∀ (z : env.Z) k, draw env.next (after env.next lay.o6 z) k = draw env.next z (lay.o6 + k) := fun z k => draw_after ..
      simp only [lastDraws, hda, Nat.add_zero]
      ring

end
end ZK
