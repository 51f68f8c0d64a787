import Verif.Lemmas.SoundPolys
import Verif.Properties.Separation
import Verif.Properties.Mock
/-!
If the statement is false, some constraint on the committed polynomials fails on a row, for most challenges.
-/
set_option autoImplicit false
set_option linter.unusedSectionVars false
namespace ZK
open Polynomial

section
variable {F : Type} [Field F] [LinearOrder F] [FftParams F] [LawfulFft F]
variable {d : Domain F} {v : ProverView F} {index : Index F} {sigmas : List (ProverOracle F)} {qBlind : ProverOracle F}
  {vos : List (GenericVO F)} {D : Nat} {zh : F[X]}

omit [LinearOrder F] [FftParams F] [LawfulFft F] in
theorem ReadsCell.unique {n : Nat} {v : ProverView F} {i : Nat} {q : OracleQuery} {y y' : F} (h : ReadsCell n v i q y)
    (h' : ReadsCell n v i q y') : y = y' := by
  obtain ⟨-, o, h1, j, h2, h3⟩ := h
  obtain ⟨-, o', h1', j', h2', h3'⟩ := h'
  obtain rfl := Option.some.inj ((findOracle_eq_some.2 h1).symm.trans (findOracle_eq_some.2 h1'))
  have : (j : ℤ) = j' := h2.trans h2'.symm
  obtain rfl : j = j' := by exact_mod_cast this
  exact Option.some.inj (h3.symm.trans h3')

omit [LinearOrder F] in
/-- What a query reads on a row is the value of its polynomial. -/
theorem Enforced.reads (hd : d.Ok) (hs : Enforced d D index v sigmas qBlind vos zh) {q : OracleQuery}
    (hq : Answerable d.size v q) (i : Nat) : ReadsCell d.size v i q ((v.polyOf d q).eval (d.omega ^ i)) := by
  obtain ⟨h3, o, h4, -⟩ := hq
  refine ⟨h3, o, h4, ?_⟩
  have hmem : o ∈ v.witness ++ v.inst ++ v.fixed ++ v.table ++ sigmas := by
    have := h4.mem
    cases hty : q.oracleType <;> rw [hty] at this <;> simp only [ProverView.oracles] at this <;> simp [this]
  obtain ⟨j, hj, he⟩ := (hs.columns o hmem).1.eval_zpow hd ((i : ℤ) + q.rotation.signed)
  refine ⟨j, hj, ?_⟩
  rw [he, ProverView.polyOf, findOracle_eq_some.2 h4]
  simp only [eval_shifted, eval_toPoly]
  rw [zpow_add₀ hd.omega_ne_zero, zpow_natCast, mul_comm]

omit [LinearOrder F] [FftParams F] [LawfulFft F] in
theorem cell_eq_cellOf {os : List (ProverOracle F)} (h : ∀ o ∈ os, Interpolates d o) {u : Nat} (hu : u ≤ d.size)
    (c : Fin os.length × Fin u) : cell os c = cellOf d (os.map (fun o => toPoly o.poly)) c := by
  obtain ⟨⟨k, hk⟩, ⟨r, hr⟩⟩ := c
  have h1 := (h os[k] (List.getElem_mem hk)).2 r (by omega)
  simp only [cell, colVal, cellOf, List.getD_eq_getElem?_getD, List.getElem?_map, List.getElem?_eq_getElem hk, Option.map_some,
    Option.getD_some, h1]

/-- If the gates fail, a gate polynomial is nonzero on a required row. -/
theorem gates_row (hd : d.Ok) (hs : Enforced d D index v sigmas qBlind vos zh) (h : ¬ GatesHold d v vos zh) :
    ∃ k < d.size, zh.eval (d.omega ^ k) = 0 ∧ ∃ g ∈ vos.map (gatePoly d v), g.eval (d.omega ^ k) ≠ 0 := by
  unfold GatesHold at h
  push Not at h
  obtain ⟨vo, hvo, e, he, i, hi, hz, y, hy, hne⟩ := h
  refine ⟨i, hi, hz, gatePoly d v vo, List.mem_map.2 ⟨vo, hvo, rfl⟩, ?_⟩
  rw [gatePoly_eq he, Expr.eval_denote]
  obtain ⟨e', he', hans⟩ := hs.gates vo hvo
  obtain ⟨⟩ := Res.ok.inj (he.symm.trans he')
  rwa [Expr.denote_congr id e (fun q hq => (hs.reads hd (hans q hq) i).unique (hy q hq))]

/-- If a lookup fails, for most `theta` a compressed input is not among the compressed table rows. -/
theorem lookups_row (hd : d.Ok) (hs : Enforced d D index v sigmas qBlind vos zh) {K : Nat}
    (hK : ∀ l ∈ index.lookups, ∀ es, l.getExpressions = .ok es → es.length ≤ K)
    (h : ¬ LookupsHold d.size index.perm.usableRows v index.lookups) :
    ∃ Bt : Finset F, Bt.card ≤ index.perm.usableRows * (K - 1) ∧ ∃ l ∈ index.lookups, ∃ i < index.perm.usableRows,
      ∀ theta ∉ Bt, ∀ j < index.perm.usableRows,
        (lookupInput d v theta l).eval (d.omega ^ i) ≠ (lookupTable v theta l).eval (d.omega ^ j) := by
  unfold LookupsHold at h
  push Not at h
  obtain ⟨l, hl, es, ts, hes, hts, i, hi, hno⟩ := h
  obtain ⟨es', ts', h1, h2, hlen, hans, htab⟩ := hs.lookups l hl
  obtain ⟨⟩ := Res.ok.inj (hes.symm.trans h1)
  obtain ⟨⟩ := Res.ok.inj (hts.symm.trans h2)
  obtain ⟨t, ht⟩ : ∃ t : List F, t = es.map (fun e => e.denote id (fun q => (v.polyOf d q).eval (d.omega ^ i))) := ⟨_, rfl⟩
  obtain ⟨T, hT⟩ : ∃ T : Nat → List F, T = fun j => ts.map (fun q => (v.tablePolyOf q).eval (d.omega ^ j)) := ⟨_, rfl⟩
  have hne : ∀ j < index.perm.usableRows, t ≠ T j := by
    intro j hj he
    refine hno j hj ?_
    refine forall₂_of_getElem? hlen ?_
    intro k e q hke hkq
    refine ⟨fun q => (v.polyOf d q).eval (d.omega ^ i), ?_, ?_⟩
    · intro q hq
      exact hs.reads hd (hans e (List.mem_of_getElem? hke) q hq).1 i
    · obtain ⟨-, o, ho, -⟩ := htab q (List.mem_of_getElem? hkq)
      refine ⟨o, ho, ?_⟩
      have hk := congrArg (fun l => l[k]?) he
      simp only [ht, hT, List.getElem?_map, hke, hkq, Option.map_some, Option.some.injEq] at hk
      rw [hk, (hs.columns o (by simp [ho.mem])).1.2 j (by have := hs.usable; omega), ProverView.tablePolyOf,
        findOracle_eq_some.2 ho]
  have hp : ∀ j < index.perm.usableRows, toPoly t - toPoly (T j) ≠ 0 := by
    intro j hj h0
    exact hne j hj (list_eq_of_toPoly (sub_eq_zero.1 h0) (by simp [ht, hT, hlen]))
  refine ⟨(Finset.range index.perm.usableRows).biUnion (fun j => (toPoly t - toPoly (T j)).roots.toFinset), ?_, l, hl, i, hi, ?_⟩
  · refine (Finset.card_biUnion_le_card_mul _ _ (K - 1) ?_).trans (by rw [Finset.card_range])
    intro j hj
    refine ((Multiset.toFinset_card_le _).trans (card_roots' _)).trans ?_
    refine (natDegree_sub_le _ _).trans (max_le ?_ ?_)
    · refine (natDegree_toPoly_le _).trans ?_
      have := hK l hl es hes
      simp only [ht, List.length_map]
      omega
    · refine (natDegree_toPoly_le _).trans ?_
      have := hK l hl es hes
      simp only [hT, List.length_map]
      omega
  · intro theta hth j hj heq
    apply hth
    refine Finset.mem_biUnion.2 ⟨j, Finset.mem_range.2 hj, Multiset.mem_toFinset.2 ((mem_roots (hp j hj)).2 ?_)⟩
    have e1 : (lookupInput d v theta l).eval (d.omega ^ i) = (toPoly t).eval theta := by
      unfold lookupInput
      rw [hes]
      simp only
      rw [eval_compress, ← compress_eq_eval, ht, List.map_map]
      congr 1
      refine List.map_congr_left (fun e _ => ?_)
      exact Expr.eval_denote e _ _
    have e2 : (lookupTable v theta l).eval (d.omega ^ j) = (toPoly (T j)).eval theta := by
      unfold lookupTable
      rw [hts]
      simp only
      rw [eval_compress, ← compress_eq_eval, hT, List.map_map]
      rfl
    rw [IsRoot.def, eval_sub, ← e1, ← e2, heq, sub_self]

/-- The statement is false, so for most challenges a constraint on the committed polynomials fails on a row where the
polynomial of the key vanishes. -/
theorem failing_row (hd : d.Ok) (hs : Enforced d D index v sigmas qBlind vos zh) {K : Nat}
    (hK : ∀ l ∈ index.lookups, ∀ es, l.getExpressions = .ok es → es.length ≤ K)
    (tau : Equiv.Perm (Fin (v.witness.filter (·.shouldPermute)).length × Fin index.perm.usableRows))
    (hte : Encodes d index.perm.deltas sigmas tau)
    (hfalse : ¬ (GatesHold d v vos zh ∧ CopiesHold v tau ∧ LookupsHold d.size index.perm.usableRows v index.lookups)) :
    ∃ Bt : Finset F, Bt.card ≤ index.perm.usableRows * (K - 1) ∧ ∀ theta ∉ Bt, ∀ ls : List F[X],
    ∃ Bp : Set (F × F), FewPairs (max (2 * ((v.witness.filter (·.shouldPermute)).length * index.perm.usableRows))
        (4 * index.perm.usableRows)) Bp ∧ ∀ beta gamma, (beta, gamma) ∉ Bp → ∀ zs lzs : List F[X],
      (chunks 2 ls).length = index.lookups.length → lzs.length = index.lookups.length →
      (v.witness.filter (·.shouldPermute) ≠ [] → 0 < index.perm.maxCols) →
      ∃ k < d.size, zh.eval (d.omega ^ k) = 0 ∧
        ¬ (sentPolys d v vos sigmas qBlind index.lookups theta ls zs lzs).RowHolds d index.perm beta gamma k := by
  have hu := hs.usable
  by_cases hg : GatesHold d v vos zh
  swap
  · obtain ⟨k, hk, hz, g, hgm, hgne⟩ := gates_row hd hs hg
    refine ⟨∅, by simp, fun theta _ ls => ⟨∅, FewPairs.empty _, fun beta gamma _ zs lzs _ _ _ => ⟨k, hk, hz, ?_⟩⟩⟩
    intro hr
    exact hgne (hr.1 g hgm)
  by_cases hc : CopiesHold v tau
  swap
  · unfold CopiesHold at hc
    push Not at hc
    obtain ⟨bad, hbad⟩ := hc
    have hm : 0 < (v.witness.filter (·.shouldPermute)).length := lt_of_le_of_lt (Nat.zero_le _) bad.1.2
    have hne : v.witness.filter (·.shouldPermute) ≠ [] := List.length_pos_iff.1 hm
    have hex : ∃ o ∈ v.witness, o.shouldPermute = true := by
      obtain ⟨o, ho⟩ := List.exists_mem_of_ne_nil _ hne
      exact ⟨o, (List.mem_filter.1 ho).1, by simpa using (List.mem_filter.1 ho).2⟩
    obtain ⟨hsl, hdl⟩ := hs.shape hex
    obtain ⟨⟨hqb, -⟩, hb1, hb2⟩ := hs.blinding (.inl hex)
    have hcw : ∀ o ∈ v.witness.filter (·.shouldPermute), Interpolates d o := fun o ho =>
      (hs.columns o (by simp [(List.mem_filter.1 ho).1])).1
    have hcs : ∀ o ∈ sigmas, Interpolates d o := fun o ho => (hs.columns o (by simp [ho])).1
    by_cases hmc : 0 < index.perm.maxCols
    swap
    · exact ⟨∅, by simp, fun theta _ ls => ⟨∅, FewPairs.empty _, fun beta gamma _ zs lzs _ _ h0 => absurd (h0 hne) hmc⟩⟩
    obtain ⟨Bp, hB1, hB2⟩ := permutation_pairs (p := index.perm) hd hmc hm
      (ws := (v.witness.filter (·.shouldPermute)).map (fun o => toPoly o.poly)) (sigmas := sigmas.map (fun o => toPoly o.poly))
      (by simp) (by simp [hsl]) hdl hu (toPoly qBlind.poly) (by
        intro i hi
        have h1 := hqb.2 i (by omega)
        rw [hb1 i (by omega)] at h1
        rw [← Option.some.inj h1]
        simp [blinding, hi]) tau (by
        intro c
        rw [← hte.1 c]
        obtain ⟨⟨k, hk⟩, r⟩ := c
        exact (cell_eq_cellOf hcs (by omega) (⟨k, by omega⟩, r)).symm) hte.2 bad (by
        rw [← cell_eq_cellOf hcw (by omega), ← cell_eq_cellOf hcw (by omega)]
        exact hbad)
    refine ⟨∅, by simp, fun theta _ ls => ⟨Bp, hB1.mono (le_max_left _ _), fun beta gamma hbg zs lzs _ _ _ => ?_⟩⟩
    obtain ⟨i, hi, q, hq, hqne⟩ := hB2 beta gamma hbg
      (sentPolys d v vos sigmas qBlind index.lookups theta ls zs lzs) rfl rfl rfl
    exact ⟨i, by omega, hb2 i hi, fun hr => hqne (hr.2.1 q hq)⟩
  have hl : ¬ LookupsHold d.size index.perm.usableRows v index.lookups := fun h => hfalse ⟨hg, hc, h⟩
  obtain ⟨Bt, hBt, l, hl, bad, hbu, hbad⟩ := lookups_row hd hs hK hl
  obtain ⟨⟨hqb, -⟩, hb1, hb2⟩ := hs.blinding (.inr (List.ne_nil_of_mem hl))
  obtain ⟨i0, hi0⟩ := List.getElem?_of_mem hl
  refine ⟨Bt, hBt, fun theta hth ls => ?_⟩
  obtain ⟨Bp, hB1, hB2⟩ := lookup_pairs hd hu (sentLookup d v theta l ((chunks 2 ls).getD i0 [])) (toPoly qBlind.poly) (by
    intro i hi
    have h1 := hqb.2 i hi
    rw [hb1 i hi] at h1
    exact (Option.some.inj h1).symm) bad hbu (fun j hj => hbad theta hth j hj)
  refine ⟨Bp, hB1.mono (le_max_right _ _), fun beta gamma hbg zs lzs hcl hzl _ => ?_⟩
  have hil := getElem?_some_lt hi0
  obtain ⟨i, hi, q, hq, hqne⟩ := hB2 beta gamma hbg (lzs.getD i0 0)
  refine ⟨i, by omega, hb2 i hi, fun hr => hqne (hr.2.2 _ ?_ q hq)⟩
  refine List.mem_of_getElem? (i := i0) ?_
  show (List.zip _ _)[i0]? = _
  rw [List.getElem?_zip_eq_some]
  refine ⟨List.getElem?_zipWith_eq_some.2 ⟨l, (chunks 2 ls).getD i0 [], hi0, ?_, rfl⟩, ?_⟩
  · rw [List.getD_eq_getElem _ _ (by omega)]
    exact List.getElem?_eq_getElem _
  · simp only
    rw [List.getD_eq_getElem _ _ (by omega)]
    exact List.getElem?_eq_getElem _

end
end ZK
