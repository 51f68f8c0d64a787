import Verif.Properties.NoRows
/-! C80 for test programs of whole circuits, in particular the crate's own lookup test. -/
set_option autoImplicit false
set_option linter.unusedSectionVars false
namespace ZK
open Polynomial

section
variable {F : Type} [Field F] [LinearOrder F] [FftParams F] [LawfulFft F]
variable {d : Domain F} {t : CircuitTest F}

/-- **C80** A test program whose permutation argument has no usable rows and whose selector is zero in the first row and one in the last,
if anything is looked up. If the gates vanish on the columns, then the program's own prover, with zeros for blinding and no usable rows,
makes a proof that the program's verifier accepts, whatever is to be copied or looked up. -/
theorem C80_circuit {S : Scheme F} {ck : S.CK} {vk : S.VK} {com : F[X] → S.Rand → S.Comm} (hS : HomomorphicScheme S ck vk com)
    (hplain : ∀ p cs, S.commitPlain ck p = .ok cs → cs = [com (toPoly p.poly) S.emptyRand])
    (hd : d.Ok) (hn : SupportsDegree S ck d.size) (ht : t.Wellformed d.size) (hfit : t.Fits d.size)
    {m : Nat} (hdeg : GateDegrees d.size (FftParams.adicity F) m t.calls) (hu : t.info.u = 0)
    (hfirst : (∃ es qs ts, Call.lookup es qs ts ∈ t.calls) → t.selector.getD 0 0 = 0)
    (hgates : ∀ e qs, Call.gate e qs ∈ t.calls → ∀ i < d.size, e.denote id (t.columns.cell d.size i) = 0) (z : S.Z) :
    ∃ tr, runCircuitRounds S.unblinded ck vk d { t with rows := 0 } z = .ok tr ∧
      (tr.chal.xi ≠ 0 → ∃ proof, runCircuitProver S.unblinded ck vk d { t with rows := 0 } z = .ok proof ∧
        (verifierChallenges S proof.ofUnblinded).1 = tr.chal ∧
        ((∀ k : ℤ, (mpChallenges S proof.ofUnblinded.multiopen (verifierChallenges S proof.ofUnblinded).2).2.2.1
            ≠ tr.chal.xi * d.omega ^ k) →
          runCircuitVerifier S ck vk d t proof.ofUnblinded = .ok ())) := by
  have hpos : 0 < d.size := hd.size_pos
  have h1 : 1 < d.size := hdeg.rows.one_lt
  have hgate : ∃ e qs, Call.gate e qs ∈ t.calls := by
    obtain ⟨e, qs, h, -⟩ := hdeg.reached
    exact ⟨e, qs, h⟩
  have hgood := CircuitTest.goodCircuit hd ht hfit hgate
  have hrange : InRange (t.prover d).count (t.proverTables d).length t.calls := by
    intro call hcall
    obtain ⟨h1, h2, h3⟩ := hfit.range call hcall
    exact ⟨fun q hq => by rw [CircuitTest.count]; exact h1 q hq, fun e he q hq => by rw [CircuitTest.count]; exact h2 e he q hq,
      fun q hq => ⟨(h3 q hq).1, by rw [show (t.proverTables d).length = t.tables.length from List.length_map ..]; exact (h3 q hq).2⟩⟩
  let handle : Label × List F → VerifierOracle F S.Comm :=
    fun c => VerifierOracle.newFixed c.1 (some (com (toPoly (trim (d.ifft c.2))) S.emptyRand))
  have hsame : ∀ (l : List (Label × List F)), List.Forall₂ (fun (o : ProverOracle F) (p : VerifierOracle F S.Comm) =>
      SameConfig o p ∧ p.commitment = some (com (toPoly o.poly) S.emptyRand))
      (l.map (fun c => ProverOracle.newFixed c.1 (trim (d.ifft c.2)) c.2)) (l.map handle) := fun l =>
    List.forall₂_map_left_iff.2 (List.forall₂_map_right_iff.2 (List.forall₂_same.2 fun c _ => ⟨⟨rfl, rfl, rfl⟩, rfl⟩))
  have hv : FreshVerifier S com (t.prover d) (t.proverTables d)
      ⟨t.columns.witness.map (fun c => VerifierOracle.newWitness c.1 t.copied),
        t.columns.inst.map (fun c => (⟨c.1, trim (d.ifft c.2), []⟩ : InstanceVerifierOracle F)), t.columns.fixed.map handle⟩
      (t.tables.map handle) := by
    refine ⟨?_, ?_, hsame _, hsame _⟩
    · exact List.forall₂_map_left_iff.2 (List.forall₂_map_right_iff.2 (List.forall₂_same.2 fun c _ => ⟨rfl, rfl, rfl⟩))
    · exact List.forall₂_map_left_iff.2 (List.forall₂_map_right_iff.2 (List.forall₂_same.2 fun c _ => ⟨rfl, rfl, rfl⟩))
  obtain ⟨c, c', key, hc, hc', hvos, hkey, hkey', rfl, hq⟩ := C76_both_sides vk hd hgood hrange hdeg hv
  have hC := configureAll_ok hc
  have hsu := ((C74_set_up hgood.fresh hv t.calls).2 c c' hc hc').2.2 (t.proverSigmas d) (t.proverSelector d)
    ((t.sigmas.map handle).map (fun o => { o with rotations := [.curr] }))
    { handle (bytes "q_blind", t.selector) with rotations := [.curr] }
    (by
      rw [List.map_map]
      exact List.forall₂_map_left_iff.2 (List.forall₂_map_right_iff.2 (List.forall₂_same.2 fun c _ => ⟨⟨rfl, rfl, rfl⟩, rfl⟩)))
    ⟨⟨rfl, rfl, rfl⟩, rfl⟩
  obtain ⟨-, -, -, -, -, hle, -, hmax, -, hiu, hdl, hlk, hur, -⟩ := indexer_ok hd hkey
  obtain ⟨hs, hp⟩ := C74_supported hc hgood hlk hiu hur hdl hle (fun ⟨o, ho, hf⟩ => by
    obtain ⟨o', ho', he⟩ := mem_forall₂' hC.oracles.1.erased ho
    have := hmax (List.length_pos_of_mem (List.mem_filter.2 ⟨ho', (erase_copied he).trans hf⟩))
    omega)
  have hz : toPoly d.vanishing = X ^ d.size - 1 := toPoly_vanishing d hpos
  have hzd : (toPoly d.vanishing).natDegree = d.size := by rw [hz]; exact natDegree_X_pow_sub_C (r := (1 : F))
  have hrow : ∀ i < d.size, (t.proverSelector d).evals[i]? = some (t.selector.getD i 0) := by
    intro i hi
    have hi' : i < t.selector.length := by rw [ht.2.2.2]; exact hi
    show t.selector[i]? = _
    rw [List.getElem?_eq_getElem hi', List.getD_eq_getElem _ _ hi']
  obtain ⟨tr, h3, h4⟩ := C80_only_gates (S := S) (pk := ⟨key, ck⟩) hS hd h1 hn hkey (trim_vanishing d).symm (by rw [hz]) (Or.inl hz) hq
    (hiu.trans hu) (fun _ => by rw [hzd]; omega) hs.toSupportedShape hp (by
      intro hne
      obtain ⟨l, hl⟩ := List.exists_mem_of_ne_nil _ hne
      obtain ⟨⟨es, qs, ts⟩, hcall, -⟩ := mem_forall₂ hC.lookups hl
      have hex : ∃ es qs ts, Call.lookup es qs ts ∈ t.calls := ⟨es, qs, ts, mem_lookups.1 hcall⟩
      obtain ⟨g1, g2, -, g4⟩ := hfit.lookups hex
      refine ⟨(interpolated_isColumn (o := t.proverSelector d) hd ht.2.2.2 rfl rfl).1, ?_, ?_⟩
      · rw [hrow 0 hpos, hfirst hex]
      · rw [hrow _ (by omega), g4 _ (by omega) (by omega), if_neg (by omega)])
    hsu (((C74_meaning hc hgood.fresh hgood.good).1 _).2 (by
      intro e qs hcall i hi _ y hy
      rw [VExpr.denote_congr id _ fun q hq => CircuitTest.reads (hy q hq)]
      exact hgates e qs hcall i hi)) z
  have hprover : circuitProver S.unblinded (show S.unblinded.VK from key.vk) d { t with rows := 0 }
      = .ok ⟨(ProverKey.withoutRows (S := S) ⟨key, ck⟩).vk, c⟩ := by
    refine Res.bind_eq_ok.2 ⟨c, ?_, Res.bind_eq_ok.2 ⟨_, ?_, rfl⟩⟩
    · show (configureAll t.calls (t.prover d) (t.proverTables d)).orPanic = _
      rw [hc]; rfl
    · have := indexer_withoutRows (pk := (⟨key, ck⟩ : ProverKey S)) hkey
      show (indexer _ _ _ _ _ _ _ _ _ t.info 0).orPanic = _
      rw [this]; rfl
  refine ⟨tr, Res.bind_eq_ok.2 ⟨_, hprover, h3⟩, fun hxi => ?_⟩
  obtain ⟨proof, h5, h6, h7⟩ := h4 hxi
  refine ⟨proof, Res.bind_eq_ok.2 ⟨_, hprover, ?_⟩, h6, fun hx3 => ?_⟩
  · exact (congrArg Res.orPanic h5).trans rfl
  · have hb := test_fixed (S := S) (d := d) hn hplain [(bytes "q_blind", t.selector)]
    have hb : fixedHandle S ck d (bytes "q_blind", t.selector) = .ok (handle (bytes "q_blind", t.selector)) := by
      simp only [Res.mapM, List.map_cons, List.map_nil] at hb
      cases hx : fixedHandle S ck d (bytes "q_blind", t.selector) with
      | ok x => rw [hx] at hb; exact congrArg Res.ok (List.cons.inj (Res.ok.inj hb)).1
      | err x => rw [hx] at hb; cases hb
      | panic => rw [hx] at hb; cases hb
    have h7 := h7 hx3
    rw [← hvos] at h7
    refine Res.bind_eq_ok.2 ⟨_, test_fixed hn hplain t.columns.fixed, Res.bind_eq_ok.2 ⟨_, test_fixed hn hplain t.tables,
      Res.bind_eq_ok.2 ⟨_, test_fixed hn hplain t.sigmas, Res.bind_eq_ok.2 ⟨_, hb, Res.bind_eq_ok.2 ⟨c', ?_,
      Res.bind_eq_ok.2 ⟨{ key with index := { key.index with usableRows := t.rows' } }, ?_, h7⟩⟩⟩⟩⟩⟩
    · show (configureAll _ _ _).orPanic = _
      rw [hc']
      rfl
    · show (indexer _ _ _ _ _ _ _ _ _ _ _).orPanic = _
      rw [indexer_rows _ _ _ _ _ _ _ _ _ _ _ t.rows' hkey']
      rfl

end

section
variable {F : Type} [Field F] [LinearOrder F] [FftParams F] [LawfulFft F] {G : Type} [AddCommGroup G] [Module F G]
variable {G2 GT : Type} [AddCommGroup G2] [Module F G2] [AddCommGroup GT] [Module F GT] [DecidableEq GT]

/-- **C80** The lookup test of the crate (src/tests/with_lookup.rs), whose permutation argument is `PermutationInfo::dummy()`, with KZG keys.
The looked-up column `a` and the table are arbitrary: if `q * (a * b - c)` is zero on all rows, then there is a prover, namely the test's own
with zeros for blinding and no usable rows, whose proof the test's verifier accepts, unless the evaluation challenge is zero or `x3`
meets an opening point. -/
theorem C80_lookup_test (e : G →ₗ[F] G2 →ₗ[F] GT) (env : KzgEnv F G) {maxDegree : Nat} {secret : F} {g gammaG : G} {h : G2}
    {srs : KzgSrs G G2} {ck : KzgKey G} {vk : KzgVk G G2} (hsrs : universalSetup maxDegree secret g gammaG h = .ok srs)
    (hkeys : prepareKeys srs = .ok (ck, vk))
    {d : Domain F} (hd : d.Ok) (h8 : 8 ≤ d.size) (h4 : 4 * d.size ≤ 2 ^ FftParams.adicity F) (hn : d.size ≤ maxDegree + 1)
    {a b c q table selector : List F} (hlen : ∀ l ∈ [a, b, c, q, table, selector], l.length = d.size)
    {rows : Nat} (hrows : 0 < rows ∧ rows < d.size) (hsel : ∀ i < d.size, selector.getD i 0 = if i < rows then 0 else 1)
    (hgate : ∀ i < d.size, q.getD i 0 * (a.getD i 0 * b.getD i 0 - c.getD i 0) = 0) (z : env.Z) :
    let S := kzgScheme e env
    ∃ tr, runCircuitRounds S.unblinded ck vk d (lookupTest a b c q table selector 0) z = .ok tr ∧
      (tr.chal.xi ≠ 0 → ∃ proof, runCircuitProver S.unblinded ck vk d (lookupTest a b c q table selector 0) z = .ok proof ∧
        (verifierChallenges S proof.ofUnblinded).1 = tr.chal ∧
        ((∀ k : ℤ, (mpChallenges S proof.ofUnblinded.multiopen (verifierChallenges S proof.ofUnblinded).2).2.2.1
            ≠ tr.chal.xi * d.omega ^ k) →
          runCircuitVerifier S ck vk d (lookupTest a b c q table selector rows) proof.ofUnblinded = .ok ())) := by
  intro S
  have hf := fromSetup_of_keys hsrs hkeys
  have h3 : 3 ≤ ck.gammaPowers.length := by rw [hf.gammaPowers]; exact le_rfl
  have hpos := hd.size_pos
  refine C80_circuit (t := lookupTest a b c q table selector rows) (C44_homomorphic e env hf.kzgSetup h3) ?_ hd
    (C52_kzg_supports e env hpos (by rw [hf.powers]; simpa using hn) h3)
    (lookupTest_wellformed (hlen _ (by simp)) (hlen _ (by simp)) (hlen _ (by simp)) (hlen _ (by simp)) (hlen _ (by simp)) (hlen _ (by simp)))
    (lookupTest_fits hrows fun i hi hr => by rw [hsel i hi, if_neg (by omega)]) (lookupTest_degrees h8 h4) rfl
    (fun _ => (hsel 0 hpos).trans (if_pos hrows.1)) ?_ z
  · intro p cs hcs
    obtain ⟨c, hc, hcs⟩ := Res.bind_eq_ok.1 hcs
    obtain ⟨-, -, rfl⟩ := (kzgCommitWith_iff ..).1 hc
    exact (Res.ok.inj hcs).symm
  · intro e qs h i hi
    simp only [lookupTest, List.mem_cons, List.not_mem_nil, or_false, reduceCtorEq] at h
    injection h with h1 h2
    subst h1
    have := hgate i hi
    show TestColumns.cell _ d.size i ⟨0, .curr, .fixed⟩ * (TestColumns.cell _ d.size i ⟨0, .curr, .witness⟩ *
      TestColumns.cell _ d.size i ⟨1, .curr, .witness⟩ + -TestColumns.cell _ d.size i ⟨2, .curr, .witness⟩) = 0
    rw [TestColumns.cell_curr _ hi ⟨0, .curr, .fixed⟩ rfl rfl, TestColumns.cell_curr _ hi ⟨0, .curr, .witness⟩ rfl rfl,
      TestColumns.cell_curr _ hi ⟨1, .curr, .witness⟩ rfl rfl, TestColumns.cell_curr _ hi ⟨2, .curr, .witness⟩ rfl rfl, ← sub_eq_add_neg]
    exact this

end
end ZK
