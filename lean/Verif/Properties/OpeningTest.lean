import Verif.Lemmas.OpeningTest
import Verif.Properties.RealTest
/-! C87: the outcome of the crate's test of the multi-point opening. -/
set_option autoImplicit false
set_option linter.unusedSectionVars false
namespace ZK
open Polynomial MeasureTheory

section
variable {F : Type} [Field F] [FftParams F] [LawfulFft F] [LinearOrder F] {S : Scheme F} {d : Domain F}

/-- **C87** The test program of the multi-point opening, for any polynomials within the supported degree, any rotations leading to different
points and any homomorphic commitment scheme. It passes if the third challenge, drawn after the commitment to the aggregated quotient, is none of
the opened points, and panics otherwise. -/
theorem C87_outcome {ck : S.CK} {vk : S.VK} {com : F[X] → S.Rand → S.Comm} (hS : HomomorphicScheme S ck vk com)
    (hd : d.Ok) {n : Nat} (hn : SupportsDegree S ck n) {t : OpeningTest F} (ht : t.Wellformed d n) (hsep : t.Separated d) (z : S.Z) :
    ∃ cs z1 f r, S.commit ck ((t.columns.map (·.oracle d)).map (·.toLabeled)) z = .ok (cs, z1) ∧
      ((S.fsRand (S.absorbComms (S.fsRand (S.fsRand (t.start S (cs.map Prod.fst))).2).2 [com f r])).1 ∉ t.opened d →
        openingTest S ck vk t z = .ok ()) ∧
      ((S.fsRand (S.absorbComms (S.fsRand (S.fsRand (t.start S (cs.map Prod.fst))).2).2 [com f r])).1 ∈ t.opened d →
        openingTest S ck vk t z = .panic) := by
  obtain ⟨cs, z1, vs, h1, -, -, -⟩ := openingTest_committed hS hn ht z
  obtain ⟨f, c, r, ⟨qs, z2, -, h2⟩, h3, h4⟩ := openingTest_outcome (vk := vk) hS hd hn ht hsep h1
  have hc := hS.commit _ _ _ _ h2
  cases hc with
  | cons hc _ =>
    have hc : c = com (toPoly f) r := hc
    rw [hc] at h3 h4
    exact ⟨cs, z1, toPoly f, r, h1, h3, h4⟩

/-- **C87** If two rotations of a polynomial lead to the same point, as they do for `xi = 0`, the test panics whatever the challenges are. -/
theorem C87_repeated {ck : S.CK} {vk : S.VK} {com : F[X] → S.Rand → S.Comm} (hS : HomomorphicScheme S ck vk com)
    (hd : d.Ok) {n : Nat} (hn : SupportsDegree S ck n) {t : OpeningTest F} (ht : t.Wellformed d n) (hrep : ¬ t.Separated d) (z : S.Z) :
    openingTest S ck vk t z = .panic := by
  obtain ⟨cs, z1, vs, h1, hlen, h2, -⟩ := openingTest_committed hS hn ht z
  rw [openingTest_run hd ht.size h1 h2]
  unfold OpeningTest.Separated at hrep
  push Not at hrep
  obtain ⟨c, hc, r, hr, r', hr', he, hne⟩ := hrep
  obtain ⟨e, hp⟩ := mpProve_err (S := S) (ck := ck) hd (os := t.columns.map (·.oracle d)) (rands := cs.map Prod.snd) (by simp [hlen])
    (xi := t.xi) (by
      intro o ho r hr
      obtain ⟨c, hc, rfl⟩ := List.mem_map.1 ho
      exact ht.rotations c hc r (mem_oracle_rotations.1 hr))
    ⟨c.oracle d, List.mem_map_of_mem hc, fun hnd => hne (List.inj_on_of_nodup_map hnd (mem_oracle_rotations.2 hr)
      (mem_oracle_rotations.2 hr') he)⟩ (t.start S (cs.map Prod.fst)) z1
  rw [hp]
  rfl

end

section
variable {F : Type} [Field F] [FftParams F] [LawfulFft F] [LinearOrder F] [Fintype F] [MeasurableSpace F] [DiscreteMeasurableSpace F]
variable {S : Scheme F} {d : Domain F}

/-- **C87** With an ideal hash function the probability that the test does not pass is exactly the number of opened points divided by the size
of the field. -/
theorem C87_probability {ck : S.CK} {vk : S.VK} {com : F[X] → S.Rand → S.Comm} (hS : HomomorphicScheme S ck vk com)
    (hd : d.Ok) {n : Nat} (hn : SupportsDegree S ck n) {t : OpeningTest F} (ht : t.Wellformed d n) (hsep : t.Separated d) (z : S.Z) :
    randomOracle F {H | openingTest (S.hashing H) ck vk t z ≠ .ok ()}
      = ((t.opened d).ncard : ENNReal) / (Fintype.card F : ENNReal) := by
  classical
  obtain ⟨cs, z1, vs, h1, -, -, -⟩ := openingTest_committed hS hn ht z
  obtain ⟨m, hm⟩ : ∃ m, m = (cs.map Prod.fst).flatMap S.encComm ++ t.evals.flatMap S.encF ++ S.encF t.xi := ⟨_, rfl⟩
  have hout : ∀ H : History → F, ∃ f c r, t.FirstRound S ck d cs z1 (H (m, [], 0)) (H (m, [], 1)) f c r ∧
      (H (m, [[c].flatMap S.encComm], 0) ∉ t.opened d → openingTest (S.hashing H) ck vk t z = .ok ()) ∧
      (H (m, [[c].flatMap S.encComm], 0) ∈ t.opened d → openingTest (S.hashing H) ck vk t z = .panic) := by
    intro H
    rw [hm]
    exact openingTest_outcome (S := S.hashing H) (vk := vk) (com := com) ⟨hS.commit, hS.zero, hS.add, hS.scale, hS.opens⟩ hd
      ⟨hn.commit, hn.commitPlain, hn.open_⟩ ht hsep h1
  have key : ∀ (E : Set (History → F)) (A : Set F), (∀ H ∈ E, ∀ c, (∃ f r, t.FirstRound S ck d cs z1 (H (m, [], 0)) (H (m, [], 1)) f c r) →
      (H (m, [[c].flatMap S.encComm], 0) ∉ t.opened d → openingTest (S.hashing H) ck vk t z = .ok ()) →
      (H (m, [[c].flatMap S.encComm], 0) ∈ t.opened d → openingTest (S.hashing H) ck vk t z = .panic) →
      H (m, [[c].flatMap S.encComm], 0) ∈ A) → randomOracle F E ≤ (A.ncard : ENNReal) / (Fintype.card F : ENNReal) := by
    intro E A hE
    have hcard : (Fintype.card F : ENNReal) ≠ 0 := by exact_mod_cast Fintype.card_ne_zero
    refine (randomOracle_le E {c : Fin 3 → F | c 2 ∈ A} (fun x q => ∃ f c r, t.FirstRound S ck d cs z1 (x 0) (x 1) f c r ∧
      q = ![(m, [], 0), (m, [], 1), (m, [[c].flatMap S.encComm], 0)]) ?_ ?_).trans ?_
    · rintro x q q' ⟨f, c, r, ⟨qs, z2, a1, a2⟩, rfl⟩ ⟨f', c', r', ⟨qs', z2', b1, b2⟩, rfl⟩
      obtain ⟨rfl, rfl⟩ := Prod.mk.inj (Res.ok.inj (a1.symm.trans b1))
      have hc : [(c, r)] = [(c', r')] := (Prod.mk.inj (Res.ok.inj (a2.symm.trans b2))).1
      obtain ⟨rfl, -⟩ := Prod.mk.inj (List.cons.inj hc).1
      rfl
    · intro H hH
      obtain ⟨f, c, r, g1, g2, g3⟩ := hout H
      refine ⟨![H (m, [], 0), H (m, [], 1), H (m, [[c].flatMap S.encComm], 0)], hE H hH c ⟨f, r, g1⟩ g2 g3, _, ⟨f, c, r, g1, rfl⟩, ?_, ?_⟩
      · intro i j hij
        have := congrArg (fun h : History => (h.2.1.length, h.2.2)) hij
        fin_cases i <;> fin_cases j <;> first | rfl | (simp at this)
      · intro k
        fin_cases k <;> rfl
    · have hB : {c : Fin 3 → F | c 2 ∈ A}.ncard ≤ A.ncard * Fintype.card F ^ 2 := by
        refine ncard_last (fun c => Set.ncard_le_ncard (fun x hx => ?_) (Set.toFinite _))
        have hx : (Fin.snoc c x : Fin 3 → F) (Fin.last 2) ∈ A := hx
        rwa [Fin.snoc_last] at hx
      refine (ENNReal.div_le_div_right (b := ((A.ncard * Fintype.card F ^ 2 : Nat) : ENNReal)) (by exact_mod_cast hB) _).trans (le_of_eq ?_)
      rw [Nat.cast_mul, Nat.cast_pow, pow_succ' _ 2, ENNReal.mul_div_mul_right _ _ (pow_ne_zero _ hcard)
        (ENNReal.pow_ne_top (ENNReal.natCast_ne_top _))]
  have hfail := key {H | openingTest (S.hashing H) ck vk t z ≠ .ok ()} (t.opened d) (by
    intro H hH c _ h _
    by_contra hx
    exact hH (h hx))
  have hpass := key {H | openingTest (S.hashing H) ck vk t z = .ok ()} (t.opened d)ᶜ (by
    intro H hH c _ _ h hx
    have hH : openingTest (S.hashing H) ck vk t z = .ok () := hH
    rw [h hx] at hH
    cases hH)
  have hsum : (1 : ENNReal) ≤ randomOracle F {H | openingTest (S.hashing H) ck vk t z ≠ .ok ()}
      + randomOracle F {H | openingTest (S.hashing H) ck vk t z = .ok ()} := by
    rw [← randomOracle_univ (F := F)]
    refine le_trans (measure_mono ?_) (measure_union_le _ _)
    intro H _
    by_cases h : openingTest (S.hashing H) ck vk t z = .ok ()
    · exact Or.inr h
    · exact Or.inl h
  refine le_antisymm hfail ?_
  have hcard : (Fintype.card F : ENNReal) ≠ 0 := by exact_mod_cast Fintype.card_ne_zero
  have htot : ((t.opened d).ncard : ENNReal) / (Fintype.card F : ENNReal) + (((t.opened d)ᶜ).ncard : ENNReal) / (Fintype.card F : ENNReal) = 1 := by
    rw [ENNReal.div_add_div_same, ← Nat.cast_add, Set.ncard_add_ncard_compl, Nat.card_eq_fintype_card]
    exact ENNReal.div_self hcard (ENNReal.natCast_ne_top _)
  have hfin : (((t.opened d)ᶜ).ncard : ENNReal) / (Fintype.card F : ENNReal) ≠ ⊤ :=
    ENNReal.div_ne_top (ENNReal.natCast_ne_top _) hcard
  have := (htot.le.trans hsum).trans (add_le_add le_rfl hpass)
  exact (ENNReal.add_le_add_iff_right hfin).1 this

end

section
variable {F : Type} [Field F] [FftParams F] [LawfulFft F] [LinearOrder F] {d : Domain F}

theorem halo2Book_wellformed (h16 : d.size = 16) (xi : F) {a b c e : List F} (ha : a.length ≤ 16) (hb : b.length ≤ 16)
    (hc : c.length ≤ 16) (he : e.length ≤ 16) : (halo2Book d xi a b c e).Wellformed d 16 where
  size := h16.symm
  coefficients := by
    intro x hx
    simp only [halo2Book, List.mem_cons, List.not_mem_nil, or_false] at hx
    rcases hx with rfl | rfl | rfl | rfl <;> assumption
  rotations := by
    intro x hx r hr
    rw [h16]
    simp only [halo2Book, List.mem_cons, List.not_mem_nil, or_false] at hx
    rcases hx with rfl | rfl | rfl | rfl <;> simp only [List.mem_cons, List.not_mem_nil, or_false] at hr <;>
      (first | (rcases hr with rfl | rfl) | (subst hr)) <;> decide
  points := by
    intro x hx r hr
    simp only [halo2Book, List.mem_cons, List.not_mem_nil, or_false] at hx
    rcases hx with rfl | rfl | rfl | rfl <;> simp only [List.mem_cons, List.not_mem_nil, or_false] at hr <;>
      (first | (rcases hr with rfl | rfl) | (subst hr)) <;>
      simp [halo2Book, Rotation.signed, Rotation.curr, Rotation.next, Domain.element, mul_comm]

theorem halo2Book_opened (xi : F) (a b c e : List F) : (halo2Book d xi a b c e).opened d = {xi, xi * d.omega} := by
  ext p
  simp [OpeningTest.opened, halo2Book, Rotation.signed, Rotation.curr, Rotation.next]

theorem halo2Book_separated {xi : F} (hxi : xi ≠ 0) (hω : d.omega ≠ 1) (a b c e : List F) : (halo2Book d xi a b c e).Separated d := by
  have key : xi ≠ xi * d.omega := by
    intro h
    exact hω (mul_left_cancel₀ hxi (by rw [mul_one]; exact h.symm))
  intro x hx r hr r' hr' h
  have h : xi * d.omega ^ r.signed = xi * d.omega ^ r'.signed := h
  simp only [halo2Book, List.mem_cons, List.not_mem_nil, or_false] at hx
  rcases hx with rfl | rfl | rfl | rfl <;> simp only [List.mem_cons, List.not_mem_nil, or_false] at hr hr' <;>
    (first | (rcases hr with rfl | rfl) | (subst hr)) <;> (first | (rcases hr' with rfl | rfl) | (subst hr')) <;> first
      | rfl
      | (exfalso; simp only [Rotation.signed, Rotation.curr, Rotation.next, Nat.cast_zero, Nat.cast_one, zpow_zero, zpow_one, mul_one] at h
         first | exact key h | exact key h.symm)

end

section
variable {G G2 GT : Type} [AddCommGroup G] [Module Fr G] [AddCommGroup G2] [Module Fr G2] [AddCommGroup GT] [Module Fr GT] [DecidableEq GT]

/-- **C87** `test_halo2_book_example` as it stands in the source, over the scalar field of BLS12-381 with KZG keys for the degree 30, for
whatever polynomials of degree at most 15. With an ideal hash function it fails with probability exactly `2 / r`. -/
theorem C87_halo2_book (e : G →ₗ[Fr] G2 →ₗ[Fr] GT) (env : KzgEnv Fr G) {secret : Fr} {g gammaG : G} {h : G2}
    {srs : KzgSrs G G2} {ck : KzgKey G} {vk : KzgVk G G2} (hsrs : universalSetup 30 secret g gammaG h = .ok srs)
    (hkeys : prepareKeys srs = .ok (ck, vk)) {pa pb pc pd : List Fr} (ha : pa.length ≤ 16) (hb : pb.length ≤ 16) (hc : pc.length ≤ 16)
    (hd : pd.length ≤ 16) (z : env.Z) :
    randomOracle Fr {H | openingTest ((kzgScheme e env).hashing H) ck vk (halo2Book (Fr381.dom 4) 13131 pa pb pc pd) z ≠ .ok ()}
      = 2 / (Fr381.r : ENNReal) := by
  have hf := fromSetup_of_keys hsrs hkeys
  have h3 : 3 ≤ ck.gammaPowers.length := by rw [hf.gammaPowers]; exact le_rfl
  have hok : (Fr381.dom 4).Ok := Fr381.dom_ok (by norm_num)
  have h16 : (Fr381.dom 4).size = 16 := rfl
  have hxi : (13131 : Fr) ≠ 0 := by
    intro h
    have h : ((13131 : Nat) : ZMod Fr381.r) = 0 := h
    have := Nat.le_of_dvd (by norm_num) ((ZMod.natCast_eq_zero_iff _ _).1 h)
    norm_num [Fr381.r] at this
  have hω : (Fr381.dom 4).omega ≠ 1 := hok.prim.ne_one (by rw [h16]; norm_num)
  have key := C87_probability (S := kzgScheme e env) (C44_homomorphic e env hf.kzgSetup h3) hok
    (C52_kzg_supports e env (n := 16) (by norm_num) (by rw [hf.powers]; simp) h3) (halo2Book_wellformed h16 13131 ha hb hc hd)
    (halo2Book_separated hxi hω pa pb pc pd) z
  rw [key, halo2Book_opened, Fr381.card_fr, Set.ncard_pair]
  · rw [Nat.cast_ofNat]
  · intro h
    exact hω (mul_left_cancel₀ hxi (by rw [mul_one]; exact h.symm))

end
end ZK
