import Verif.Properties.GateForgery
/-! Soundness of the crate's tests of single gates (C95). -/
set_option autoImplicit false
set_option linter.unusedSectionVars false
open Polynomial
namespace ZK

section
variable {F : Type} [Field F] [LinearOrder F] [FftParams F] [LawfulFft F] {d : Domain F} {t : TestColumns F}
  {gate : VExpr F × List VirtualQuery} {m : Nat}

/-- A bound on the degree of the constraints of a test of a single gate of degree `m` with `n` rows. -/
def gateDegreeBound (n m : Nat) : Nat := max (max m 4) (2 ^ Nat.clog 2 (m * (n - 1) - n) / n + 1) * (n - 1)

open Classical in
/-- **C95** Soundness of a test of a single gate. If the gate is not zero on some row of the test's columns, then no strategy that commits to
the witness columns and gives an evaluation for every opening set makes the test's verifier accept, except for few challenges. -/
theorem C95_gate {S : Scheme F} {ck : S.CK} {vk : S.VK} {com : F[X] → S.Rand → S.Comm} (hS : HomomorphicScheme S ck vk com)
    (hplain : ∀ p cs, S.commitPlain ck p = .ok cs → cs = [com (toPoly p.poly) S.emptyRand])
    (hB : Binding S vk com) (hinj : ∀ p q r s, com p r = com q s → p = q)
    (hd : d.Ok) (hn : SupportsDegree S ck d.size) (ht : t.Wellformed d.size)
    (hfits : GateFits d.size (FftParams.adicity F) m (fun ty => (t.ofType ty).length) gate)
    {i : Nat} (hi : i < d.size) (hfalse : gate.1.denote id (t.cell d.size i) ≠ 0) :
    ∃ vo s key, (GenericVO.init gate).configure (t.verifier S com d) = .ok (vo, s) ∧
      indexer (fun o => o.shouldPermute) vk [vo] [] s.witness s.inst s.fixed d d.vanishing PermutationInfo.empty 0 (S := S) = .ok key ∧
      ∀ (Q : Nat) (P : Strategy S), P.Legal com d.size Q key (.newWoBlind S s.fixed [] []) s.witness s.inst d.size
          (t.witness.map (fun c => toPoly (d.ifft c.2))) →
        ∀ T : Finset F, ((Fintype.piFinset fun _ : Fin 9 => T).filter (fun x =>
          runVerifier (S.answering (List.ofFn x)) ck vk d t gate ((P.proof com x).answering _) = .ok ())).card
        ≤ soundnessError 0 0 0 1 0 0 Q (gateDegreeBound d.size m) d.size d.size d.size (t.witness.length + Q + (t.fixed.length + 1))
            (rotationSets (s.witness ++ s.fixed ++ [VerifierOracle.newFixed (bytes "q_blind") (some S.zero)]) 0).card
            (∑ r ∈ rotationSets (s.witness ++ s.fixed ++ [VerifierOracle.newFixed (bytes "q_blind") (some S.zero)]) 0, r.length)
          * T.card ^ 8 := by
  obtain ⟨hgood, hrange, hdeg⟩ := hfits.goodCircuit hd ht
  have hpos := hd.size_pos
  have hz : toPoly d.vanishing = X ^ d.size - 1 := toPoly_vanishing d hpos
  have hzd : (toPoly d.vanishing).natDegree = d.size := by rw [hz]; exact natDegree_X_pow_sub_C (r := (1 : F))
  have hv : FreshVerifier S com (t.prover d) [] (t.verifier S com d) [] := by
    refine ⟨?_, ?_, ?_, .nil⟩
    · exact List.forall₂_map_left_iff.2 (List.forall₂_map_right_iff.2 (List.forall₂_same.2 fun c _ => ⟨rfl, rfl, rfl⟩))
    · exact List.forall₂_map_left_iff.2 (List.forall₂_map_right_iff.2 (List.forall₂_same.2 fun c _ => ⟨rfl, rfl, rfl⟩))
    · exact List.forall₂_map_left_iff.2 (List.forall₂_map_right_iff.2 (List.forall₂_same.2 fun c _ => ⟨⟨rfl, rfl, rfl⟩, rfl⟩))
  have hnil : (t.prover d).witness.filter (·.shouldPermute) = [] := by
    rw [List.filter_eq_nil_iff]
    intro o ho h
    obtain ⟨c, -, rfl⟩ := List.mem_map.1 ho
    cases h
  have hnocopy : ¬ ∃ o ∈ (t.prover d).witness, o.shouldPermute = true := by
    rintro ⟨o, ho, h⟩
    obtain ⟨c, -, rfl⟩ := List.mem_map.1 ho
    cases h
  have hnolook : ∀ es qs ts, Call.lookup es qs ts ∉ [Call.gate gate.1 gate.2] := fun es qs ts h => by cases List.mem_singleton.1 h
  have hempty : ∀ x : Fin ((t.prover d).witness.filter (·.shouldPermute)).length × Fin (PermutationInfo.empty (F := F)).u, False :=
    fun x => x.2.elim0
  obtain ⟨c, c', key, hc, hc', hvos, hkey, hkey', hvk, -⟩ := C76_both_sides vk hd hgood hrange hdeg hv
  obtain ⟨key0, hkey0, -, hqd, -⟩ := C76_key (S := S) hd hgood hdeg hc vk
  obtain rfl := Res.ok.inj (hkey.symm.trans hkey0)
  subst hvk
  have hC := configureAll_ok hc
  have hcopied : (c.oracles.witness.filter (·.shouldPermute)).length = 0 := by
    rw [← (configured_copied hC).length_eq, hnil]
    rfl
  have hl : c.lookups.length = 0 := hC.lookups.length_eq.symm
  have hscale : key.index.perm.maxCols + 2 ≤ 2 ^ Nat.clog 2 (m * (d.size - 1) - d.size) / d.size + 1 := by
    obtain ⟨-, -, h, -⟩ := indexer_sizes (copied := 0) (lookups := 0) (by obtain ⟨j, -, h⟩ := hd; exact ⟨j, congrArg Domain.size h⟩)
      hdeg.two hdeg.rows hdeg.field
    have := Nat.div_pos h hpos
    rw [indexer_cols hd hkey, hqd, hcopied, hl]
    show max _ (max 0 0) - 1 + 2 ≤ _
    omega
  have hmain := fun Q P hP T => C75_soundness (S := S) (com := com) (ck := ck) (N := d.size) (B := gateDegreeBound d.size m) (K := 0)
    (Z := 0) (Q := Q) (key := key) (tau := Equiv.refl _) hS hB hinj hd hdeg.rows.one_lt hgood
    (fun ⟨es, qs, ts, h⟩ => absurd h (hnolook es qs ts)) ⟨fun x => (hempty x).elim, fun x => (hempty x).elim⟩ hv hc'
    (perm := []) (vBlind := VerifierOracle.newFixed (bytes "q_blind") (some S.zero)) .nil ⟨⟨rfl, rfl, rfl⟩, congrArg some hS.zero⟩
    (fun h => absurd h hnocopy) hkey'
    (fun h => by
      rcases h with h | ⟨es, qs, ts, h⟩
      · exact absurd h hnocopy
      · exact absurd h (hnolook es qs ts))
    le_rfl le_rfl
    (fun e qs h => (Nat.mul_le_mul_right _ (hdeg.bound e qs h)).trans
      (Nat.mul_le_mul_right _ ((le_max_left m 4).trans (le_max_left _ _))))
    (fun es qs ts h => absurd h (hnolook es qs ts))
    (Nat.mul_le_mul_right _ (hscale.trans (le_max_right _ _)))
    (Nat.mul_le_mul_right _ ((le_max_right m 4).trans (le_max_left _ _)))
    (by
      rw [hnil]
      unfold PermutationArgument.numberOfZPolys
      rw [if_pos (show ([] : List (ProverOracle F)).length = 0 from rfl)])
    (fun ⟨g1, _, _⟩ => hfalse (g1 gate.1 gate.2 (List.mem_singleton.2 rfl) i hi (by
      rw [hz]
      simp only [eval_sub, eval_pow, eval_X, eval_one]
      rw [← pow_mul, mul_comm, pow_mul, hd.prim.pow_eq_one, one_pow, sub_self]) _ (fun q hq => hfits.vreads ht hpos hq i)))
    P hP T
  obtain ⟨vo, s, g1, rfl⟩ := configureAll_single hc'
  have hC' := configureAll_ok hc'
  refine ⟨vo, s, key, g1, hkey', fun Q P hP T => ?_⟩
  have hwit : t.witness.map (fun c => toPoly (d.ifft c.2)) = (t.prover d).witness.map (fun o => toPoly o.poly) := by
    show _ = (t.witness.map _).map _
    rw [List.map_map]
    refine List.map_congr_left fun c _ => ?_
    exact (toPoly_trim _).symm
  rw [hwit] at hP
  have hmain := hmain Q P hP T
  have e3 : s.witness.length = t.witness.length := hC'.oracles.1.erased.length_eq.symm.trans (List.length_map ..)
  have e4 : s.fixed.length = t.fixed.length := hC'.oracles.2.2.erased.length_eq.symm.trans (List.length_map ..)
  simp only [hnil, List.length_nil, List.length_singleton, Nat.mul_zero, Nat.add_zero, e3, e4, hzd, List.append_nil] at hmain
  refine le_trans (Finset.card_le_card fun x hx => ?_) hmain
  rw [Finset.mem_filter] at hx ⊢
  refine ⟨hx.1, ?_⟩
  have h2 := hx.2
  have hk := indexer_answering hkey' (List.ofFn x)
  have f1 := test_fixed (S := S.answering (List.ofFn x)) (ck := ck) (d := d) (com := com) ⟨hn.commit, hn.commitPlain, hn.open_⟩ hplain t.fixed
  obtain ⟨fixed, h1, h2⟩ := Res.bind_eq_ok.1 h2
  obtain rfl := Res.ok.inj (f1.symm.trans h1)
  obtain ⟨⟨vo', s'⟩, h3, h2⟩ := Res.bind_eq_ok.1 h2
  have f2 : ((GenericVO.init gate).configure (t.verifier S com d)).orPanic = (.ok (vo, s) : Res (Err S.E) _) := by rw [g1]; rfl
  obtain ⟨rfl, rfl⟩ := Prod.mk.inj (Res.ok.inj (f2.symm.trans h3))
  obtain ⟨key', h4, h2⟩ := Res.bind_eq_ok.1 h2
  obtain rfl := Res.ok.inj ((congrArg (Res.orPanic (ε' := Err S.E)) hk).symm.trans h4)
  exact h2

/-- The rotations at which the verifier of the test of `PrecompiledMul` opens. -/
theorem mul_rotationSets {S : Scheme F} {com : F[X] → S.Rand → S.Comm} {la lb lc : Label} {a b c : List F} {vo : GenericVO F}
    {s : Oracles (VerifierOracle F S.Comm) (InstanceVerifierOracle F) (VerifierOracle F S.Comm)}
    (h : (GenericVO.init Gates.mul).configure (TestColumns.verifier S com d ⟨[(la, a), (lb, b)], [(lc, c)], []⟩) = .ok (vo, s)) :
    rotationSets (s.witness ++ s.fixed ++ [VerifierOracle.newFixed (bytes "q_blind") (some S.zero)]) 0
      = ([[Rotation.curr], [Rotation.curr], [], setExtend [] [Rotation.curr], setExtend [] [Rotation.curr, Rotation.prev],
          setExtend [] [Rotation.curr, Rotation.next],
          setInsert (⟨0, .plus⟩ : Rotation) (setExtend [] [Rotation.curr, Rotation.next])] : List (List Rotation)).toFinset := by
  cases h
  rfl

/-- The columns of the test of `PrecompiledMul` have the lengths and the labels they need, and the gate fits them. -/
theorem mul_fits (h8 : 8 ≤ d.size) (h4 : 4 * d.size ≤ 2 ^ FftParams.adicity F) {la lb lc : Label} (hl : la ≠ lb) {a b c : List F}
    (ha : a.length = d.size) (hb : b.length = d.size) (hc : c.length = d.size) :
    TestColumns.Wellformed ⟨[(la, a), (lb, b)], [(lc, c)], []⟩ d.size ∧ GateFits d.size (FftParams.adicity F) 2
      (fun ty => (TestColumns.ofType ⟨[(la, a), (lb, b)], [(lc, c)], []⟩ ty).length) (Gates.mul (F := F)) := by
  refine ⟨?_, (C77_precompiled h8 _).1 ?_ h4⟩
  · intro ty
    cases ty
    · simp [TestColumns.ofType, ha, hb, hl]
    · simp only [TestColumns.ofType, List.mem_singleton, forall_eq, hc, List.map_cons, List.map_nil, List.nodup_singleton, and_self]
    · simp [TestColumns.ofType]
  · intro ty
    cases ty <;> simp [TestColumns.ofType, needs]

open Classical in
/-- **C95** Soundness of `test_simple_mul`, for any number of rows. If in some row the public column is not the product of the two others, then a
prover with a quotient of at most `Q` parts makes the verifier of the test accept for at most the fraction
`(n + Q + 14 + max (4 (n - 1)) (n (Q - 1) + 2 n - 1)) / |T|` of the challenges from a set `T`. For the sixteen rows of the test and one part it
is `91 / |T|`. -/
theorem C95_mul {S : Scheme F} {ck : S.CK} {vk : S.VK} {com : F[X] → S.Rand → S.Comm} (hS : HomomorphicScheme S ck vk com)
    (hplain : ∀ p cs, S.commitPlain ck p = .ok cs → cs = [com (toPoly p.poly) S.emptyRand])
    (hB : Binding S vk com) (hinj : ∀ p q r s, com p r = com q s → p = q)
    (hd : d.Ok) (hn : SupportsDegree S ck d.size) (h8 : 8 ≤ d.size) (h4 : 4 * d.size ≤ 2 ^ FftParams.adicity F)
    {la lb lc : Label} (hl : la ≠ lb) {a b c : List F} (ha : a.length = d.size) (hb : b.length = d.size) (hc : c.length = d.size)
    {i : Nat} (hi : i < d.size) (hfalse : a.getD i 0 * b.getD i 0 ≠ c.getD i 0) :
    ∃ vo s key, (GenericVO.init Gates.mul).configure (TestColumns.verifier S com d ⟨[(la, a), (lb, b)], [(lc, c)], []⟩) = .ok (vo, s) ∧
      indexer (fun o => o.shouldPermute) vk [vo] [] s.witness s.inst s.fixed d d.vanishing PermutationInfo.empty 0 (S := S) = .ok key ∧
      ∀ (Q : Nat) (P : Strategy S), P.Legal com d.size Q key (.newWoBlind S s.fixed [] []) s.witness s.inst d.size
          ([a, b].map (fun c => toPoly (d.ifft c))) →
        ∀ T : Finset F, ((Fintype.piFinset fun _ : Fin 9 => T).filter (fun x =>
          runVerifier (S.answering (List.ofFn x)) ck vk d ⟨[(la, a), (lb, b)], [(lc, c)], []⟩ Gates.mul ((P.proof com x).answering _)
            = .ok ())).card
        ≤ (d.size + Q + 14 + max (4 * (d.size - 1)) (d.size * (Q - 1) + 2 * d.size - 1)) * T.card ^ 8 := by
  obtain ⟨ht, hneed⟩ := mul_fits (F := F) (lc := lc) h8 h4 hl ha hb hc
  have hrow : (Gates.mul (F := F)).1.denote id (TestColumns.cell ⟨[(la, a), (lb, b)], [(lc, c)], []⟩ d.size i) ≠ 0 := by
    have h3 : (((i : ℤ) + (0 : ℤ)) % d.size).toNat = i := by
      rw [add_zero, Int.emod_eq_of_lt (by omega) (by omega), Int.toNat_natCast]
    have e1 : (Gates.mul (F := F)).1.denote id (TestColumns.cell ⟨[(la, a), (lb, b)], [(lc, c)], []⟩ d.size i)
      = a.getD (((i : ℤ) + (0 : ℤ)) % d.size).toNat 0 * b.getD (((i : ℤ) + (0 : ℤ)) % d.size).toNat 0
        - c.getD (((i : ℤ) + (0 : ℤ)) % d.size).toNat 0 := by
      rw [sub_eq_add_neg]
      rfl
    rw [e1, h3]
    exact sub_ne_zero.2 hfalse
  obtain ⟨vo, s, key, h1, h2, hmain⟩ := C95_gate hS hplain hB hinj hd hn ht hneed hi hrow
  refine ⟨vo, s, key, h1, h2, fun Q P hP T => (hmain Q P hP T).trans (Nat.mul_le_mul_right _ ?_)⟩
  have hsets := mul_rotationSets h1
  rw [hsets]
  have e4 : ([[Rotation.curr], [Rotation.curr], [], setExtend [] [Rotation.curr], setExtend [] [Rotation.curr, Rotation.prev],
      setExtend [] [Rotation.curr, Rotation.next],
      setInsert (⟨0, .plus⟩ : Rotation) (setExtend [] [Rotation.curr, Rotation.next])] : List (List Rotation)).toFinset.card
      = 4 := by decide +kernel
  have e5 : ∑ r ∈ ([[Rotation.curr], [Rotation.curr], [], setExtend [] [Rotation.curr], setExtend [] [Rotation.curr, Rotation.prev],
      setExtend [] [Rotation.curr, Rotation.next],
      setInsert (⟨0, .plus⟩ : Rotation) (setExtend [] [Rotation.curr, Rotation.next])] : List (List Rotation)).toFinset,
      r.length = 5 := by decide +kernel
  have e6 : gateDegreeBound d.size 2 = 4 * (d.size - 1) := by
    have h : 2 ^ Nat.clog 2 (2 * (d.size - 1) - d.size) ≤ d.size := by
      obtain ⟨j, -, h⟩ := hd
      have hj : d.size = 2 ^ j := congrArg Domain.size h
      rw [hj]
      refine Nat.pow_le_pow_right (by norm_num) (Nat.clog_le_of_le_pow ?_)
      omega
    have := Nat.div_le_of_le_mul (h.trans (Nat.mul_one _).ge)
    unfold gateDegreeBound
    congr 1
    omega
  rw [e4, e5, e6]
  unfold soundnessError
  show _ + (max _ _ + (_ + (_ + ((2 + Q + (0 + 1) - 1) + _)))) ≤ _
  have e7 : d.size * (Q - 1) + (d.size - 1) + d.size = d.size * (Q - 1) + 2 * d.size - 1 := by omega
  rw [e7]
  simp only [Nat.zero_mul, Nat.mul_zero, max_self]
  omega

end
end ZK
