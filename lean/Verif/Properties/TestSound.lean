import Verif.Properties.ClientError
import Verif.Properties.ConfigureSound
import Verif.Properties.CompletenessError
import Verif.Spec.TestSound
/-! What acceptance means for a test of a whole circuit (C83). -/
set_option autoImplicit false
set_option linter.unusedSectionVars false
open Polynomial
namespace ZK

theorem gateCount_eq {F : Type} (calls : List (Call F)) : gateCount calls = (calls.filterMap Call.isGate?).length := by
  induction calls with
  | nil => rfl
  | cons call calls ih =>
    cases call with
    | gate e qs => exact congrArg Nat.succ ih
    | lookup es qs ts => exact ih

section
variable {F : Type} [Field F] [LinearOrder F] [FftParams F] [LawfulFft F]

/-- How many columns a grand product covers. -/
theorem indexer_cols {W I X : Type} [ConcreteOracle W] [ConcreteOracle I] [ConcreteOracle X] {S : Scheme F} {copyFlag : W → Bool} {vk : S.VK}
    {vos : List (GenericVO F)} {lookups : List (GenericLookupVO F)} {ws : List W} {is : List I} {fs : List X} {d : Domain F} (hd : d.Ok)
    {zh : List F} {info : PermutationInfo F} {usableRows : Nat} {key : VerifierKey S}
    (h : indexer copyFlag vk vos lookups ws is fs d zh info usableRows (S := S) = .ok key) :
    key.index.perm.maxCols = scalingFactor d.size key.index.quotientDegree (ws.filter copyFlag).length lookups.length - 1 := by
  obtain ⟨h1, h2, h3, h4, h5, h6, -⟩ := C19_indexer_outcome (S := S) copyFlag vk vos lookups ws is fs d hd zh info usableRows
  cases hw : vos.findSome? (gateError (E := S.E) (Labels.of ws is fs)) with
  | some er => rw [h1 er hw] at h; cases h
  | none =>
    rcases lt_or_ge (maxGateDegree d.size vos) (toPoly zh).natDegree with hM | hM
    · rw [h2 hw hM] at h; cases h
    rcases lt_or_ge (2 ^ FftParams.adicity F) (maxGateDegree d.size vos - (toPoly zh).natDegree) with hk | hk
    · rw [h3 hw hM hk] at h; cases h
    rcases lt_or_ge (2 ^ Nat.clog 2 (maxGateDegree d.size vos - (toPoly zh).natDegree)) d.size with hle | hle
    · rw [h4 hw hM hk hle] at h; cases h
    rcases lt_or_ge (2 ^ FftParams.adicity F) (scalingFactor d.size (maxGateDegree d.size vos - (toPoly zh).natDegree)
      (ws.filter copyFlag).length lookups.length * d.size) with hf | hf
    · rw [h5 hw hM hk hle hf] at h; cases h
    obtain ⟨key', g1, g2, g3, g4, g5, g6, -⟩ := h6 hw hM hk hle hf
    obtain rfl := Res.ok.inj (h.symm.trans g1)
    rw [g6, g3]

variable {d : Domain F} {t : CircuitTest F}

theorem CircuitTest.copiedCount_eq : ((t.prover d).witness.filter (·.shouldPermute)).length = t.copiedCount := by
  unfold CircuitTest.copiedCount
  by_cases hcp : t.copied = true
  · rw [CircuitTest.filter_copied hcp, if_pos hcp]
    exact List.length_map ..
  · rw [CircuitTest.filter_plain (by simpa using hcp), if_neg hcp]
    rfl

theorem ceil_div {n c : Nat} (hc : 0 < c) : (n + c - 1) / c = n / c + if n % c ≠ 0 then 1 else 0 := by
  have h := Nat.div_add_mod n c
  have hr := Nat.mod_lt n hc
  generalize n / c = q at h ⊢
  generalize n % c = r at h hr ⊢
  subst h
  rw [show c * q + r + c - 1 = c * q + (r + c - 1) by omega, Nat.mul_add_div hc]
  congr 1
  split
  · exact Nat.div_eq_of_lt_le (by omega) (by omega)
  · exact Nat.div_eq_of_lt (by omega)

theorem products_eq {E : Type} {p : PermutationArgument F} {n m : Nat} (h : p.maxCols = t.scale n m - 1) (h0 : 0 < t.copiedCount → 0 < p.maxCols) :
    p.numberOfZPolys t.copiedCount = (.ok (t.products n m) : Res E Nat) := by
  unfold PermutationArgument.numberOfZPolys CircuitTest.products
  rw [← h]
  by_cases hz : t.copiedCount = 0
  · rw [if_pos hz, hz, Nat.zero_add]
    congr 1
    rcases Nat.eq_zero_or_pos p.maxCols with hp | hp
    · rw [hp]
    · exact (Nat.div_eq_of_lt (by omega)).symm
  · have hp := h0 (Nat.pos_of_ne_zero hz)
    rw [if_neg hz, if_neg hp.ne', ceil_div hp]

/-- If the columns satisfy the circuit in the terms of C75, then the values of the test hold. -/
theorem CircuitTest.holds_of_calls (hd : d.Ok) (ht : t.Wellformed d.size) (hfit : t.Fits d.size)
    (hg : GateCallsHold d (t.prover d) t.calls (X ^ d.size - 1)) (hl : LookupCallsHold d.size t.rows (t.prover d) (t.proverTables d) t.calls)
    {tau : Equiv.Perm (Fin t.columns.witness.length × Fin t.info.u)}
    (hs : t.copied = true → ∀ c, valueAt t.sigmas c.1 c.2 = t.info.deltas.getD (tau c).1 0 * d.omega ^ ((tau c).2 : Nat))
    (hc : t.copied = true → ∀ c, valueAt t.columns.witness (tau c).1 (tau c).2 = valueAt t.columns.witness c.1 c.2) : t.Holds d tau := by
  refine ⟨?_, ?_, hs, hc⟩
  · intro e qs hcall i hi
    refine hg e qs hcall i hi ?_ _ fun q hq => CircuitTest.reads_cell hd.size_pos ht ((hfit.range _ hcall).2.1 e (by simp [Call.exprs]) q hq)
    simp only [eval_sub, eval_pow, eval_X, eval_one]
    rw [← pow_mul, mul_comm, pow_mul, hd.prim.pow_eq_one, one_pow, sub_self]
  · intro es qs ts hcall i hi
    obtain ⟨j, hj, h⟩ := hl es qs ts hcall i hi
    refine ⟨j, hj, ?_⟩
    clear hcall
    induction h with
    | nil => rfl
    | cons h _ ih =>
      obtain ⟨y, h1, o, h2, h3⟩ := h
      rw [List.map_cons, List.map_cons, ih]
      congr 1
      unfold CircuitTest.proverTables at h2
      rw [List.getElem?_map, Option.map_eq_some_iff] at h2
      obtain ⟨col, h4, rfl⟩ := h2
      rw [valueAt_eq h4 h3]
      exact VExpr.denote_congr id _ fun q hq => (CircuitTest.reads (h1 q hq)).symm

open Classical in
/-- **C83** Soundness of a test of a whole circuit. A test checks what its columns say: if a gate, a lookup or a copy fails for the values
in its witness columns, then no strategy that commits to these columns makes the test's verifier accept, except for few challenges. The
hypotheses are about the circuit and the commitment scheme. The verifier's program does not read the values of the witness columns. -/
theorem C83_circuit {S : Scheme F} {ck : S.CK} {vk : S.VK} {com : F[X] → S.Rand → S.Comm} (hS : HomomorphicScheme S ck vk com)
    (hplain : ∀ p cs, S.commitPlain ck p = .ok cs → cs = [com (toPoly p.poly) S.emptyRand])
    (hB : Binding S vk com) (hinj : ∀ p q r s, com p r = com q s → p = q)
    (hd : d.Ok) (hn : SupportsDegree S ck d.size) (ht : t.Wellformed d.size) (hfit : t.Fits d.size)
    {m : Nat} (hdeg : GateDegrees d.size (FftParams.adicity F) m t.calls)
    (hlook : (∃ es qs ts, Call.lookup es qs ts ∈ t.calls) → t.info.u = t.rows ∧ ∀ i < d.size, t.selector.getD i 0 = if i ≤ t.info.u then 0 else 1)
    {K : Nat} (hK : ∀ es qs ts, Call.lookup es qs ts ∈ t.calls → es.length ≤ K)
    {tau : Equiv.Perm (Fin t.columns.witness.length × Fin t.info.u)} (henc : t.EncodesCopies d tau) (hfalse : ¬ t.Holds d tau) :
    ∃ c' key, configureAll t.calls (t.verifier S com d) (t.tables.map (CircuitTest.handle S com d)) = .ok c' ∧
      indexer (fun o => o.shouldPermute) vk c'.vos c'.lookups c'.oracles.witness c'.oracles.inst c'.oracles.fixed d d.vanishing t.info t.rows
        (S := S) = .ok key ∧
      ∀ (Q : Nat) (P : Strategy S), P.Legal com d.size Q key ⟨c'.oracles.fixed, c'.tables, t.sigmas.map (CircuitTest.handleCurr S com d),
          CircuitTest.handleCurr S com d (bytes "q_blind", t.selector)⟩ c'.oracles.witness c'.oracles.inst d.size
          (t.columns.witness.map (fun c => toPoly (d.ifft c.2))) →
        ∀ T : Finset F, ((Fintype.piFinset fun _ : Fin 9 => T).filter (fun x =>
          runCircuitVerifier (S.answering (List.ofFn x)) ck vk d t ((P.proof com x).answering _) = .ok ())).card
        ≤ soundnessError t.info.u K t.copiedCount (gateCount t.calls) (lookupCount t.calls) (t.products d.size m) Q (t.degreeBound d.size m)
            d.size d.size d.size
            (t.columns.witness.length + 3 * lookupCount t.calls + Q + t.products d.size m +
              (t.columns.fixed.length + t.tables.length + t.sigmas.length + 1))
            (rotationSets (c'.oracles.witness ++ c'.oracles.fixed ++ c'.tables ++ t.sigmas.map (CircuitTest.handleCurr S com d) ++
              [CircuitTest.handleCurr S com d (bytes "q_blind", t.selector)]) t.info.u).card
            (∑ r ∈ rotationSets (c'.oracles.witness ++ c'.oracles.fixed ++ c'.tables ++ t.sigmas.map (CircuitTest.handleCurr S com d) ++
              [CircuitTest.handleCurr S com d (bytes "q_blind", t.selector)]) t.info.u, r.length)
          * T.card ^ 8 := by
  have hgate : ∃ e qs, Call.gate e qs ∈ t.calls := by
    obtain ⟨e, qs, h, -⟩ := hdeg.reached
    exact ⟨e, qs, h⟩
  have hpos := hd.size_pos
  have hz : toPoly d.vanishing = X ^ d.size - 1 := toPoly_vanishing d hpos
  have hzd : (toPoly d.vanishing).natDegree = d.size := by rw [hz]; exact natDegree_X_pow_sub_C (r := (1 : F))
  obtain ⟨hgood, hrange, hv, hperm, hblind⟩ := CircuitTest.circuit S com hd ht hfit hgate
  obtain ⟨c, c', key, hc, hc', hvos, hkey, hkey', hvk, -⟩ := C76_both_sides vk hd hgood hrange hdeg hv
  obtain ⟨key0, hkey0, -, hqd, -⟩ := C76_key (S := S) hd hgood hdeg hc vk
  obtain rfl := Res.ok.inj (hkey.symm.trans hkey0)
  subst hvk
  have hC := configureAll_ok hc
  have hC' := configureAll_ok hc'
  have hcopied : (c.oracles.witness.filter (·.shouldPermute)).length = t.copiedCount := by
    rw [← (configured_copied hC).length_eq, CircuitTest.copiedCount_eq]
  have hscale : key.index.perm.maxCols = t.scale d.size m - 1 := by
    rw [indexer_cols hd hkey, hqd, hcopied, ← hC.lookups.length_eq, ← lookupCount_eq]
    rfl
  have hsc2 : 0 < t.copiedCount → 0 < key.index.perm.maxCols := by
    intro h
    have := (indexer_ok hd hkey).2.2.2.2.2.2.2.1 (by rw [hcopied]; exact h)
    omega
  obtain ⟨-, -, hsu⟩ := (C74_set_up hgood.fresh hv t.calls).2 c c' hc hc'
  have hsu := hsu (t.proverSigmas d) (t.proverSelector d) _ _ hperm hblind
  obtain ⟨tau', henc', hcop'⟩ : ∃ tau' : Equiv.Perm (Fin ((t.prover d).witness.filter (·.shouldPermute)).length × Fin t.info.u),
      Encodes d t.info.deltas (t.proverSigmas d) tau' ∧
      ((∀ x, cell ((t.prover d).witness.filter (·.shouldPermute)) (tau' x) = cell ((t.prover d).witness.filter (·.shouldPermute)) x) →
        t.copied = true → ∀ x, valueAt t.columns.witness (tau x).1 (tau x).2 = valueAt t.columns.witness x.1 x.2) := by
    by_cases hcp : t.copied = true
    · obtain ⟨e1, e2⟩ := henc hcp
      rw [CircuitTest.filter_copied hcp]
      have hlen : t.columns.witness.length = (t.prover d).witness.length := (List.length_map ..).symm
      have key : ∀ (k : Nat) (hk : t.columns.witness.length = k), ∃ tau' : Equiv.Perm (Fin k × Fin t.info.u),
          Encodes d t.info.deltas (t.proverSigmas d) tau' ∧
          ((∀ x, cell (t.prover d).witness (tau' x) = cell (t.prover d).witness x) →
            ∀ x, valueAt t.columns.witness (tau x).1 (tau x).2 = valueAt t.columns.witness x.1 x.2) := by
        rintro k rfl
        refine ⟨tau, ⟨fun x => ?_, e2⟩, fun h x => ?_⟩
        · show colVal (t.proverSigmas d) x.1 x.2 = _
          rw [CircuitTest.colVal_sigmas]
          exact e1 x
        · have h : colVal (t.prover d).witness (tau x).1 (tau x).2 = colVal (t.prover d).witness x.1 x.2 := h x
          rw [CircuitTest.colVal_witness, CircuitTest.colVal_witness] at h
          exact h
      obtain ⟨tau', h1, h2⟩ := key _ hlen
      exact ⟨tau', h1, fun h _ => h2 h⟩
    · rw [CircuitTest.filter_plain (by simpa using hcp)]
      exact ⟨Equiv.refl _, ⟨fun x => x.1.elim0, fun x => x.1.elim0⟩, fun _ h => absurd h hcp⟩
  have hB1 : m * (d.size - 1) ≤ t.degreeBound d.size m :=
    Nat.mul_le_mul_right _ ((le_max_left m 4).trans (le_max_left _ _))
  have hB2 : 4 * (d.size - 1) ≤ t.degreeBound d.size m :=
    Nat.mul_le_mul_right _ ((le_max_right m 4).trans (le_max_left _ _))
  have hB3 : (key.index.perm.maxCols + 2) * (d.size - 1) ≤ t.degreeBound d.size m := by
    refine Nat.mul_le_mul_right _ ?_
    rw [hscale]
    omega
  refine ⟨c', key, hc', hkey', fun Q P hP T => ?_⟩
  have hwit : t.columns.witness.map (fun c => toPoly (d.ifft c.2)) = (t.prover d).witness.map (fun o => toPoly o.poly) := by
    show _ = (t.columns.witness.map _).map _
    rw [List.map_map]
    refine List.map_congr_left fun c _ => ?_
    exact (toPoly_trim _).symm
  rw [hwit] at hP
  have h1 : 2 ≤ d.size := hdeg.rows.one_lt
  have hrow : ∀ i < d.size, (t.proverSelector d).evals[i]? = some (t.selector.getD i 0) := by
    intro i hi
    have hi' : i < t.selector.length := by rw [ht.2.2.2]; exact hi
    show t.selector[i]? = _
    rw [List.getElem?_eq_getElem hi', List.getD_eq_getElem _ _ hi']
  have hmain := C75_soundness (S := S) (com := com) (ck := ck) (N := d.size) (B := t.degreeBound d.size m) (K := K)
    (Z := t.products d.size m) (Q := Q) (key := key) hS hB hinj hd h1 hgood
    (fun h => ⟨⟨(interpolated_isColumn (o := t.proverSelector d) hd ht.2.2.2 rfl rfl).1, rfl⟩, fun i hi => by
      rw [hrow i hi, (hlook h).2 i hi]; rfl⟩)
    henc' hv hc' hperm hblind
    (fun ⟨o, ho, h⟩ => by
      obtain ⟨o', ho', he⟩ := mem_forall₂' hC.oracles.1.erased ho
      obtain ⟨p, hp, he'⟩ := mem_forall₂' hsu.witness ho'
      exact ⟨p, hp, he'.2.2.trans ((erase_copied he).trans h)⟩) hkey'
    (fun _ i _ => by
      rw [hz]
      simp only [eval_sub, eval_pow, eval_X, eval_one]
      rw [← pow_mul, mul_comm, pow_mul, hd.prim.pow_eq_one, one_pow, sub_self])
    le_rfl le_rfl (fun e qs h => (Nat.mul_le_mul_right _ (hdeg.bound e qs h)).trans hB1) hK hB3 hB2
    (by
      rw [CircuitTest.copiedCount_eq]
      exact products_eq hscale hsc2)
    (fun ⟨g1, g2, g3⟩ => hfalse (CircuitTest.holds_of_calls hd ht hfit (by rw [← hz]; exact g1)
      (fun es qs ts h => by rw [← (hlook ⟨es, qs, ts, h⟩).1]; exact g2 es qs ts h)
      (fun h => (henc h).1) (hcop' g3))) P hP T
  have e1 : c'.vos.length = gateCount t.calls := by rw [gateCount_eq]; exact hC'.vos.length_eq.symm
  have e2 : c'.lookups.length = lookupCount t.calls := by rw [lookupCount_eq]; exact hC'.lookups.length_eq.symm
  have e3 : c'.oracles.witness.length = t.columns.witness.length :=
    hC'.oracles.1.erased.length_eq.symm.trans (List.length_map ..)
  have e4 : c'.oracles.fixed.length = t.columns.fixed.length :=
    hC'.oracles.2.2.erased.length_eq.symm.trans (List.length_map ..)
  have e5 : c'.tables.length = t.tables.length := hC'.tables.erased.length_eq.symm.trans (List.length_map ..)
  have e6 : (t.sigmas.map (CircuitTest.handleCurr S com d)).length = t.sigmas.length := List.length_map ..
  rw [CircuitTest.copiedCount_eq, e1, e2, e3, e4, e5, e6, hzd] at hmain
  refine le_trans (Finset.card_le_card fun x hx => ?_) hmain
  rw [Finset.mem_filter] at hx ⊢
  refine ⟨hx.1, ?_⟩
  have h2 := hx.2
  rw [runCircuitVerifier_eq (S := S.answering (List.ofFn x)) (com := com) hplain ⟨hn.commit, hn.commitPlain, hn.open_⟩ hc'
    (indexer_answering hkey' _)] at h2
  exact h2

end
end ZK
