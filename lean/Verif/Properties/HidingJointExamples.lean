import Verif.Properties.HidingJoint
import Verif.Properties.HidingExamples
import Verif.Properties.SuccessExamples
/-! C60: the rounds of the prover succeed for witnesses that satisfy the circuit, and the toy circuit as an instance. -/
set_option autoImplicit false
set_option linter.unusedSectionVars false
namespace ZK
open Polynomial

section
variable {F : Type} [Field F] [FftParams F] [LawfulFft F] [LinearOrder F]

/-- The hypothesis of `C60_evaluations_uniform_partial` about the rounds is met by witnesses that satisfy the circuit and
challenges for which no denominator vanishes. -/
theorem C60_rounds_succeed {S : Scheme F} {d : Domain F} {index : Index F} {v : ProverView F} {sigmas : List (ProverOracle F)}
    {qBlind : ProverOracle F} {vos : List (GenericVO F)} {theta beta gamma : F} (hd : d.Ok) (he : index.ext.Ok)
    (hle : d.size ≤ index.ext.size) (hs : Supported d index v sigmas qBlind vos) (hp : Provable d index v sigmas qBlind vos)
    (hl : LookupsHold d.size index.usableRows v index.lookups)
    {tau : Equiv.Perm (Fin (v.witness.filter (·.shouldPermute)).length × Fin index.perm.usableRows)}
    (henc : MadeFrom d index.perm.deltas sigmas tau) (hcop : CopiesHold v tau)
    (hgood : GoodDraw d index v sigmas theta beta gamma) (z z' z'' : S.Z) :
    ∃ (y y' y'' : S.Z) (ls : List (LookupOracles (ProverOracle F))) (ps ss : List (ProverOracle F)),
      lookupRound (S := S) (v.extend index.ext) index d theta z = .ok (ls, y) ∧
      permutationRound (S := S) index ((v.extend index.ext).witness.filter (·.shouldPermute))
        (sigmas.map (·.computeExtended index.ext)) d beta gamma z' = (.ok (ps, y') : Res PiopErr _) ∧
      subsetEqualityRound (S := S) index ls d beta gamma z'' = (.ok (ss, y'') : Res PiopErr _) ∧
      ps.length = (chunks index.perm.maxCols (v.witness.filter (·.shouldPermute))).length := by
  have hH := hs.allHonest index.ext
  have hs' := hs.extend index.ext
  have hp' := hp.extend index.ext
  have hl' := hl.extend index.ext
  have hfw : (v.extend index.ext).witness.filter (·.shouldPermute)
      = (v.witness.filter (·.shouldPermute)).map (·.computeExtended index.ext) := filter_extend index.ext v.witness
  obtain ⟨ls, y, r1, hls⟩ := lookupRound_succeeds (S := S) hd he hle hH hs' hp' hl' theta z
  obtain ⟨ps, y', r2⟩ := permutationRound_succeeds (S := S) (ε := PiopErr) (beta := beta) (gamma := gamma) hs' hp'
    (m := (v.witness.filter (·.shouldPermute)).length) (tau := tau)
    (by rw [hfw, List.length_map])
    (by
      intro c
      rw [← henc c]
      exact colVal_extend index.ext sigmas c.1 c.2)
    (by
      intro c
      have := hcop c
      unfold cell at this ⊢
      rw [hfw, colVal_extend, colVal_extend]
      exact this)
    (by
      intro c
      have := hgood.1 c
      unfold cell at this ⊢
      rw [hfw, colVal_extend, colVal_extend]
      exact this) z'
  obtain ⟨ss, y'', r3⟩ := subsetEqualityRound_succeeds (S := S) (ε := PiopErr) (beta := beta) (gamma := gamma) hd hH hs' hp' hls
    (fun l hlm es ts h2 h3 i hi vals => ⟨fun h => (hgood.2 l hlm es ts h2 h3 i hi vals).1 h.of_extend,
      fun h => (hgood.2 l hlm es ts h2 h3 i hi vals).2 h.of_extend⟩) z''
  refine ⟨y, y', y'', ls, ps, ss, r1, r2, r3, ?_⟩
  by_cases hne : (v.extend index.ext).witness.filter (·.shouldPermute) = []
  · have h0 : v.witness.filter (·.shouldPermute) = [] := by
      rw [hfw] at hne
      exact List.map_eq_nil_iff.1 hne
    unfold permutationRound at r2
    rw [if_pos (by rw [hne]; rfl)] at r2
    obtain ⟨rfl, -⟩ := Prod.mk.inj (Res.ok.inj r2)
    rw [h0]
    simp [chunks, chunksAux]
  · unfold permutationRound at r2
    rw [if_neg (by simpa using hne)] at r2
    obtain ⟨h1, h2, h3, -, -, h4, -⟩ := constructAggPolys_inv hne
      (fun o ho => (hH.witness o (List.mem_filter.1 ho).1).1.1) (fun o ho => (hH.sigmas o ho).1.1) r2
    rw [h4.len]
    refine chunks_length_congr h1 ?_
    rw [hfw, List.length_map] at h2 h3
    simp only [List.length_zip, hfw, List.length_map] at h2 ⊢
    omega

end

namespace Toy

/-- The fixed rows of the witness columns of the toy circuit. -/
def prefixes : Fin 3 → List F97 := ![[7, 3], [8, 7], [56, 26]]

/-- The toy circuit with random last rows. -/
def viewRandom (r : Fin 3 → Fin 2 → F97) : ProverView F97 :=
  viewOf (prefixes 0 ++ List.ofFn (r 0)) (prefixes 1 ++ List.ofFn (r 1)) (prefixes 2 ++ List.ofFn (r 2))

theorem prefixes_length (r : Fin 2 → F97) (c : Fin 3) : (prefixes c ++ List.ofFn r).length = 4 := by
  rw [List.length_append, List.length_ofFn]
  fin_cases c <;> rfl

theorem ofFn_two (r : Fin 2 → F97) : List.ofFn r = [r 0, r 1] := rfl

theorem copiedOf (a b c : List F97) : (viewOf a b c).witness.filter (·.shouldPermute)
    = [column .witness [1] a [.curr] true, column .witness [2] b [.curr, .next] true] := by
  have h : ∀ (k : OracleType) (l : Label) (e : List F97) (rots : List Rotation) (x : Bool),
      (column k l e rots x).shouldPermute = x := fun _ _ _ _ _ => rfl
  simp only [viewOf, wit, List.filter_cons, h, if_true, Bool.false_eq_true, if_false, List.filter_nil]

theorem colVal_copiedOf (a b c : List F97) (k i : Nat) :
    colVal ((viewOf a b c).witness.filter (·.shouldPermute)) k i = (([a, b].getD k []).getD i 0) := by
  rw [copiedOf]
  have h : ∀ (k : OracleType) (l : Label) (e : List F97) (rots : List Rotation) (x : Bool),
      (column k l e rots x).evals = e := fun _ _ _ _ _ => rfl
  simp only [colVal, List.map_cons, List.map_nil, h]

theorem lengthRandom (r : Fin 3 → Fin 2 → F97) :
    ((viewRandom r).witness.filter (·.shouldPermute)).length = (view.witness.filter (·.shouldPermute)).length := by
  unfold viewRandom view
  rw [copiedOf, copiedOf]
  simp only [List.length_cons, List.length_nil]

theorem provableRandom {k : VerifierKey S} (hk : key = .ok k) (r : Fin 3 → Fin 2 → F97) :
    Provable dom k.index (viewRandom r) sigma qBlind vos := by
  have h := provable hk
  have hf := lengthRandom r
  refine ⟨h.gates, h.usable, fun _ => ?_, h.lookups, ?_⟩
  · rw [hf]
    exact h.shape ⟨column .witness [1] [7, 3, 11, 4] [.curr] true, List.mem_cons_self, by simp only [column]⟩
  · rw [dom_size]
    intro o ho
    simp only [viewRandom, viewOf, wit, inst, fixed, table, sigma, qBlind, List.cons_append, List.nil_append, List.mem_cons,
      List.not_mem_nil, or_false] at ho
    rcases ho with rfl | rfl | rfl | rfl | rfl | rfl | rfl | rfl | rfl <;> simp only [column] <;> decide +kernel

/-- What is read on the first two rows does not depend on the random rows. -/
theorem cellRandom (r : Fin 3 → Fin 2 → F97) (c i : Nat) (hi : i < 2) :
    colVal ((viewRandom r).witness.filter (·.shouldPermute)) c i = colVal (view.witness.filter (·.shouldPermute)) c i := by
  unfold viewRandom view
  rw [colVal_copiedOf, colVal_copiedOf]
  interval_cases i
  all_goals
    rcases c with _ | _ | c
    all_goals rfl

theorem readsRandom (r : Fin 3 → Fin 2 → F97) : ∀ i < 2, ∀ q ∈ (Expr.oracle qC : Expr F97).queries,
    ReadsCell dom.size (viewRandom r) i q (if i = 0 then 56 else 26) := by
  rw [dom_size]
  intro i hi q hq
  obtain rfl := List.mem_singleton.1 hq
  refine ⟨by decide, column .witness [3] (prefixes 2 ++ List.ofFn (r 2)) [.curr] false, findOracle_eq_some.1 rfl, i, ?_, ?_⟩
  · interval_cases i <;> rfl
  · interval_cases i <;> rfl

theorem lookedUpRandom {k : VerifierKey S} (hk : key = .ok k) (r : Fin 3 → Fin 2 → F97) :
    LookupsHold dom.size k.index.usableRows (viewRandom r) k.index.lookups := by
  obtain ⟨-, -, -, -, -, -, -, -, -, hu, hdl, hl, hu', -⟩ := indexer_ok dom_Ok hk
  intro l hll es ts he ht i hi
  rw [hl] at hll
  obtain rfl := List.mem_singleton.1 hll
  obtain ⟨⟩ := Res.ok.inj he
  obtain ⟨⟩ := Res.ok.inj ht
  rw [hu'] at hi ⊢
  refine ⟨1 - i, by omega, List.Forall₂.cons ⟨fun _ => if i = 0 then 56 else 26, readsRandom r i hi,
    column .fixed [6] [26, 56, 0, 0] [.curr] false, findOracle_eq_some.1 rfl, ?_⟩ .nil⟩
  interval_cases i <;> rfl

theorem goodRandom {k : VerifierKey S} (hk : key = .ok k) (r : Fin 3 → Fin 2 → F97) :
    GoodDraw dom k.index (viewRandom r) sigma 5 3 9 := by
  obtain ⟨-, -, -, -, -, -, -, -, -, hu, hdl, hl, hu', -⟩ := indexer_ok dom_Ok hk
  constructor
  · rintro ⟨c, i⟩
    have hc : c.1 < 2 := lt_of_lt_of_eq c.2 (by unfold viewRandom; rw [copiedOf]; simp only [List.length_cons, List.length_nil])
    have hi : i.1 < 2 := lt_of_lt_of_eq i.2 hu
    unfold cell
    rw [cellRandom r c.1 i.1 hi]
    show colVal _ c.1 i.1 + 3 * colVal sigma c.1 i.1 + 9 ≠ 0
    generalize c.1 = c at hc
    generalize i.1 = i at hi
    revert i
    revert c
    decide +kernel
  · intro l hll es ts he ht i hi vals
    rw [hl] at hll
    obtain rfl := List.mem_singleton.1 hll
    obtain ⟨⟩ := Res.ok.inj he
    obtain ⟨⟩ := Res.ok.inj ht
    rw [hu'] at hi
    have hi : i < 2 := hi
    constructor
    · intro h
      have h' : InputRow dom.size (viewRandom r) [(Expr.oracle qC : Expr F97)] i [if i = 0 then 56 else 26] :=
        List.Forall₂.cons ⟨fun _ => if i = 0 then 56 else 26, readsRandom r i hi, rfl⟩ .nil
      obtain rfl := h.unique h'
      interval_cases i <;> decide +kernel
    · rintro h
      obtain _ | ⟨⟨o, h1, h2⟩, h3⟩ := h
      obtain ⟨⟩ := h3
      have h4 := findOracle_eq_some.2 h1
      obtain rfl : column .fixed [6] [26, 56, 0, 0] [.curr] false = o :=
        Option.some.inj (Eq.trans (show _ = findOracle (viewRandom r).table _ from rfl) h4)
      interval_cases i
      · obtain rfl : (26 : F97) = _ := Option.some.inj h2
        decide +kernel
      · obtain rfl : (56 : F97) = _ := Option.some.inj h2
        decide +kernel

theorem copiedRandom (r : Fin 3 → Fin 2 → F97) (u : Nat) (hu : u = 2) :
    ∃ tau : Equiv.Perm (Fin ((viewRandom r).witness.filter (·.shouldPermute)).length × Fin u),
      MadeFrom dom info.deltas sigma tau ∧ CopiesHold (viewRandom r) tau := by
  obtain ⟨tau, henc, hcop⟩ := copiedOk u hu
  have hc : ∀ c, cell ((viewRandom r).witness.filter (·.shouldPermute)) (tau c)
      = cell ((viewRandom r).witness.filter (·.shouldPermute)) c := by
    intro c
    have h := hcop c
    unfold cell at h ⊢
    rw [cellRandom r _ _ (lt_of_lt_of_eq (tau c).2.2 hu), cellRandom r _ _ (lt_of_lt_of_eq c.2.2 hu)]
    exact h
  have hf := lengthRandom r
  replace henc := henc.1
  clear hcop
  unfold CopiesHold
  revert tau hc henc
  generalize (view.witness.filter (·.shouldPermute)).length = n at hf
  subst hf
  intro tau hc henc
  exact ⟨tau, henc, hc⟩

theorem polysRandom (ext : Domain F97) (r : Fin 3 → Fin 2 → F97) : ((viewRandom r).extend ext).witness.map (·.poly)
    = List.ofFn (fun c => trim (dom.ifft (prefixes c ++ List.ofFn (r c)))) := by
  have h : ∀ (k : OracleType) (l : Label) (e : List F97) (rots : List Rotation) (x : Bool),
      ((column k l e rots x).computeExtended ext).poly = trim (dom.ifft e) := by
    intros
    simp only [column, ProverOracle.computeExtended]
  simp only [ProverView.extend, viewRandom, viewOf, wit, List.map_cons, List.map_nil, h, List.ofFn_succ, List.ofFn_zero]
  rfl

/-- The hypotheses of C60 are met by the toy circuit with two random rows in each witness column: two points per witness
column and per permuted column, one per grand product. -/
theorem jointly_uniform : ∃ k, key = .ok k ∧
    (∀ c, (prefixes c).length + 2 = dom.size) ∧
    (∀ r, ((viewRandom r).extend k.index.ext).witness.map (·.poly)
      = List.ofFn (fun c => trim (dom.ifft (prefixes c ++ List.ofFn (r c))))) ∧
    (∀ r, ∃ (z z' z'' y y' y'' : S.Z) (ls : List (LookupOracles (ProverOracle F97))) (ps ss : List (ProverOracle F97)),
      lookupRound (S := S) ((viewRandom r).extend k.index.ext) k.index dom 5 z = .ok (ls, y) ∧
      permutationRound (S := S) k.index (((viewRandom r).extend k.index.ext).witness.filter (·.shouldPermute))
        (sigma.map (·.computeExtended k.index.ext)) dom 3 9 z' = (.ok (ps, y') : Res PiopErr _) ∧
      subsetEqualityRound (S := S) k.index ls dom 3 9 z'' = (.ok (ss, y'') : Res PiopErr _) ∧ ps.length = 1) ∧
    k.index.lookups.length = 1 ∧ 2 ≤ dom.size - k.index.usableRows ∧ 1 ≤ dom.size - 1 - k.index.perm.usableRows ∧
    1 ≤ dom.size - 1 - k.index.usableRows ∧
    Function.Injective (![3, 5] : Fin 2 → F97) ∧ ∀ i, (![3, 5] : Fin 2 → F97) i ^ dom.size ≠ 1 := by
  obtain ⟨k, -, hk, -⟩ := honest
  obtain ⟨-, -, -, -, hext, hle, -, -, -, hu, hdl, hl, hu', -⟩ := indexer_ok dom_Ok hk
  refine ⟨k, hk, ?_, polysRandom k.index.ext, ?_, by rw [hl]; rfl, ?_, ?_, ?_, by decide, ?_⟩
  · rw [dom_size]
    intro c
    fin_cases c <;> rfl
  · intro r
    obtain ⟨tau, henc, hcop⟩ := copiedRandom r k.index.perm.usableRows hu
    obtain ⟨y, y', y'', ls, ps, ss, h1, h2, h3, h4⟩ := C60_rounds_succeed (S := S) (v := viewRandom r) (tau := tau) dom_Ok hext hle
      (supportedOf hk (prefixes_length _ 0) (prefixes_length _ 1) (prefixes_length _ 2)) (provableRandom hk r)
      (lookedUpRandom hk r) (by rw [hdl]; exact henc) hcop (goodRandom hk r) () () ()
    refine ⟨(), (), (), y, y', y'', ls, ps, ss, h1, h2, h3, ?_⟩
    rw [h4, maxCols hk, chunks_length (by norm_num)]
    unfold viewRandom
    rw [copiedOf]
    simp only [List.length_cons, List.length_nil]
  · rw [hu', dom_size]
  · rw [hu, dom_size]; decide
  · rw [hu', dom_size]
  · rw [dom_size]; decide

end Toy
end ZK
