import Verif.Properties.Leak
import Verif.Properties.ProofSize
import Verif.Properties.CompletenessExamples
/-! C60 is false: a circuit whose proofs reveal the whole witness column, blinding rows or not. -/
set_option autoImplicit false
set_option linter.unusedSectionVars false
namespace ZK
open Polynomial
namespace Leak
open Toy (dom column dom_Ok dom_size column_isColumn)

/-- One gate `s^4 t w` with a selector `s` of row 0 and a selector `t` of row 1. It holds whatever `w` is. -/
def qs : Expr F97 := .oracle ⟨[5], .curr, .fixed⟩
def qt : Expr F97 := .oracle ⟨[7], .curr, .fixed⟩
def qw : Expr F97 := .oracle ⟨[1], .curr, .witness⟩
def gate : Expr F97 := .prod (.prod qs (.prod qs (.prod qs qs))) (.prod qt qw)
def vos : List (GenericVO F97) := [Toy.vo gate]
def wit (w : List F97) : List (ProverOracle F97) := [column .witness [1] w [.curr] false]
def fixed : List (ProverOracle F97) :=
  [column .fixed [5] [1, 0, 0, 0] [.curr] false, column .fixed [7] [0, 1, 0, 0] [.curr] false]
def qBlind : ProverOracle F97 := column .fixed (bytes "q_blind") [0, 0, 0, 1] [.curr] false
def view (w : List F97) : ProverView F97 := ⟨wit w, [], fixed, []⟩

/-- The key for the circuit. -/
def key (S : Scheme F97) (vk : S.VK) : Res (Err S.E) (VerifierKey S) :=
  indexer (S := S) (fun (o : ProverOracle F97) => o.shouldPermute) vk vos [] (wit [0, 0, 0, 0]) ([] : List (ProverOracle F97))
    fixed dom dom.vanishing ⟨2, []⟩ 2

/-- The proof for a column. -/
def proveFor (S : Scheme F97) (pk : ProverKey S) (w : List F97) (z : S.Z) : Res (Err S.E) (TPProof S) :=
  prove S pk (.new S fixed [] [] qBlind pk.vk.index) (wit w) [] vos 4 z

/-- `s^4 t` divided by `X^4 - 1`. -/
def cofactor : List F97 := [88, 65, 32, 86, 60, 66, 92, 41, 80, 0, 7, 4]

/-- The inverse of the matrix which maps the coefficients of a column to its value and those of the last three parts. -/
def inverse : List (List (List F97)) :=
  [[[1, 46, 8, 8, 46, 92, 0, 42, 24], [0, 91], [0, 50, 0, 0, 0, 91], [0, 77, 0, 0, 0, 50, 0, 0, 0, 91]],
   [[51, 35, 29, 88, 48, 86, 55, 49, 14], [6, 45], [47, 13, 0, 0, 6, 45], [20, 39, 0, 0, 47, 13, 0, 0, 6, 45]],
   [[54, 55, 74, 49, 46, 64, 24, 11, 42], [52, 38], [84, 14, 0, 0, 52, 38], [58, 58, 0, 0, 84, 14, 0, 0, 52, 38]],
   [[5, 83, 5, 62, 33, 0, 72, 55], [59], [83, 0, 0, 0, 59], [39, 0, 0, 0, 83, 0, 0, 0, 59]]]

/-- The column, computed from the evaluation challenge, the value of the column there and the values of the parts of the
quotient. -/
def recover (xi : F97) (witnessEvals quotientEvals : List F97) : List F97 :=
  dom.fft (inverse.map (fun row => (List.zipWith (fun n v => peval n xi * v) row (witnessEvals.take 1 ++ (quotientEvals.drop 1).take 3)).sum))

theorem supported {index : Index F97} (hl : index.lookups = []) {w : List F97} (hw : w.length = 4) :
    Supported dom index (view w) [] qBlind vos := by
  have hs := dom_size
  apply Supported.of_columns
  · intro o ho
    simp only [view, wit, fixed, qBlind, List.append_nil, List.cons_append, List.nil_append, List.mem_cons,
      List.not_mem_nil, or_false] at ho
    rcases ho with rfl | rfl | rfl | rfl
    · exact column_isColumn _ _ hw _ _
    all_goals exact column_isColumn _ _ rfl _ _
  · exact ⟨by simp [view, wit, column], by simp [view, fixed, column], by simp [view]⟩
  · rw [hs]
    intro o ho
    simp only [view, wit, fixed, List.append_nil, List.cons_append, List.nil_append, List.mem_cons, List.not_mem_nil,
      or_false] at ho
    rcases ho with rfl | rfl | rfl <;> simp only [column] <;> decide +kernel
  · decide +kernel
  · intro vo hvo
    rw [hs]
    obtain rfl := List.mem_singleton.1 hvo
    exact ⟨gate, rfl, fun q hq => answerable_of (by
      simp only [gate, qs, qt, qw, Expr.queries, List.cons_append, List.nil_append, List.mem_cons, List.not_mem_nil, or_false] at hq
      rcases hq with rfl | rfl | rfl | rfl | rfl | rfl <;> rfl)⟩
  · intro o ho hc
    obtain rfl := List.mem_singleton.1 ho
    simp [column] at hc
  · rw [hl]; simp
  · rintro (⟨o, ho, hc⟩ | h)
    · obtain rfl := List.mem_singleton.1 ho
      simp [column] at hc
    · exact absurd hl h
  · intro h; exact absurd hl h
  · intro h; exact absurd hl h

theorem polyOf_eq {v : ProverView F97} {l : Label} {ty : OracleType} {o : ProverOracle F97} (i : Nat)
    (hi : (v.oracles ty)[i]? = some o) (hl : o.label = l)
    (hj : ∀ (j : Nat) (o' : ProverOracle F97), i < j → (v.oracles ty)[j]? = some o' → o'.label ≠ l) :
    v.polyOf dom ⟨l, .curr, ty⟩ = toPoly o.poly := by
  unfold ProverView.polyOf
  rw [show findOracle (v.oracles ty) l = some o from findOracle_eq_some.2 ⟨i, hi, hl, hj⟩]
  show shifted dom _ .curr = _
  unfold shifted
  simp [Rotation.signed, Rotation.curr]

theorem gatePoly_abs {w s t : ProverOracle F97} (hw : w.label = [1]) (hs : s.label = [5]) (ht : t.label = [7]) :
    gatePoly dom (⟨[w], [], [s, t], []⟩ : ProverView F97) (Toy.vo gate)
      = toPoly s.poly * (toPoly s.poly * (toPoly s.poly * toPoly s.poly)) * (toPoly t.poly * toPoly w.poly) := by
  have h1 : (⟨[w], [], [s, t], []⟩ : ProverView F97).polyOf dom ⟨[5], .curr, .fixed⟩ = toPoly s.poly := by
    refine polyOf_eq (o := s) 0 rfl hs ?_
    intro j o' hj h
    obtain rfl | hj : j = 1 ∨ 2 ≤ j := by omega
    · obtain rfl := Option.some.inj h
      show t.label ≠ _
      rw [ht]
      decide
    · rw [List.getElem?_eq_none (by exact hj)] at h; cases h
  have h2 : (⟨[w], [], [s, t], []⟩ : ProverView F97).polyOf dom ⟨[7], .curr, .fixed⟩ = toPoly t.poly := by
    refine polyOf_eq (o := t) 1 rfl ht ?_
    intro j o' hj h
    rw [List.getElem?_eq_none (by exact hj)] at h; cases h
  have h3 : (⟨[w], [], [s, t], []⟩ : ProverView F97).polyOf dom ⟨[1], .curr, .witness⟩ = toPoly w.poly := by
    refine polyOf_eq (o := w) 0 rfl hw ?_
    intro j o' hj h
    rw [List.getElem?_eq_none (by exact hj)] at h; cases h
  unfold gatePoly
  simp only [Toy.vo, GenericVO.getExpression, gate, qs, qt, qw, Expr.denote, h1, h2, h3]

/-- The gate is a multiple of the vanishing polynomial. -/
theorem gatePoly_multiple {w s t : ProverOracle F97} {a : List F97} (hw : w.label = [1]) (hs : s.label = [5]) (ht : t.label = [7])
    (hwp : w.poly = trim (dom.ifft a)) (hsp : s.poly = trim (dom.ifft [1, 0, 0, 0])) (htp : t.poly = trim (dom.ifft [0, 1, 0, 0])) :
    gatePoly dom (⟨[w], [], [s, t], []⟩ : ProverView F97) (Toy.vo gate)
    = toPoly cofactor * toPoly (dom.ifft a) * toPoly dom.vanishing := by
  have hf : trim (pmul (pmul [73, 73, 73, 73] (pmul [73, 73, 73, 73] (pmul [73, 73, 73, 73] [73, 73, 73, 73]))) [73, 43, 24, 54])
    = trim (pmul cofactor dom.vanishing) := by decide +kernel
  have hf' := congrArg toPoly hf
  simp only [toPoly_trim, toPoly_pmul] at hf'
  have e1 : trim (dom.ifft [1, 0, 0, 0]) = ([73, 73, 73, 73] : List F97) := by decide +kernel
  have e2 : trim (dom.ifft [0, 1, 0, 0]) = ([73, 43, 24, 54] : List F97) := by decide +kernel
  rw [gatePoly_abs hw hs ht, hwp, hsp, htp, e1, e2, toPoly_trim, ← mul_assoc _ (toPoly [73, 43, 24, 54]), hf']
  ring

theorem gatesHold {w : List F97} (hw : w.length = 4) : GatesHold dom (view w) vos (toPoly dom.vanishing) := by
  intro vo hvo e he i hi h0 y hy
  obtain ⟨e', cell, h1, h2, h3⟩ := gatePoly_cells dom_Ok (supported (index := ⟨0, dom, ⟨0, 0, []⟩, [], 0⟩) rfl hw).toSupportedShape hvo i
  obtain rfl := Option.some.inj ((getExpression_eq_ok.1 he).symm.trans h1)
  rw [Expr.denote_congr id e (fun q hq => (hy q hq).unique (h2 q hq)), h3]
  obtain rfl := List.mem_singleton.1 hvo
  unfold view wit fixed
  rw [gatePoly_multiple (a := w) (by simp only [column]) (by simp only [column]) (by simp only [column]) (by simp only [column])
    (by simp only [column]) (by simp only [column]), eval_mul, h0, mul_zero]

/-- The value sent for a single column that is opened at the challenge. -/
theorem single_eval {ε : Type} {o : ProverOracle F97} (ho : o.rotations = [.curr]) {x : F97} {l : List F97}
    (h : ∃ qs, getQuerySet (ε := ε) [o] xiLabel x dom.elements = .ok qs ∧ evaluateQuerySet (ε := ε) [o] qs = .ok l) :
    l = [peval o.poly x] := by
  obtain ⟨qs, h1, h2⟩ := h
  have h3 : getQuerySet (ε := ε) [o] xiLabel x dom.elements = .ok [toLex (o.label, toLex (xiLabel, x))] := by
    have : querySetOf (ε := ε) o xiLabel x dom.elements = .ok [toLex (o.label, toLex (xiLabel, x))] := by
      unfold querySetOf
      rw [show ConcreteOracle.rotations o = [Rotation.curr] from ho]
      rfl
    unfold getQuerySet
    show (Res.map1 (setExtend []) (querySetOf (ε := ε) o xiLabel x dom.elements)).bind _ = _
    rw [this]
    rfl
  rw [h3] at h1
  obtain rfl := Res.ok.inj h1
  have hf : findOracle [o] o.label = some o := findOracle_eq_some.2 ⟨0, rfl, rfl, by
    intro j o' hj h
    rw [List.getElem?_eq_none (by exact hj)] at h; cases h⟩
  unfold evaluateQuerySet at h2
  simp only [Res.mapM, ofLex_toLex, hf] at h2
  exact (Res.ok.inj h2).symm

/-- The value of part `j` when the column is `X^k`. -/
def part (j k : Nat) (x : F97) : F97 := peval ((List.drop (4 * j) (List.replicate k 0 ++ cofactor)).take 4) x

def inv (i j : Nat) (x : F97) : F97 := peval ((inverse.getD i []).getD j []) x

/-- The values of the parts are linear in the coefficients of the column. -/
theorem partValue_linear (a0 a1 a2 a3 x : F97) (j : Nat) (hj : 1 ≤ j ∧ j < 4) :
    partValue 4 (toPoly cofactor * toPoly [a0, a1, a2, a3]) j x
      = part j 0 x * a0 + part j 1 x * a1 + part j 2 x * a2 + part j 3 x * a3 := by
  unfold partValue part
  rw [← toPoly_pmul]
  simp only [Finset.sum_range_succ, Finset.sum_range_zero, coeff_toPoly]
  obtain ⟨h1, h2⟩ := hj
  interval_cases j <;> simp [cofactor, pmul, padd, pscale, peval] <;> ring

/-- The matrix is inverted. -/
theorem inverse_spec : ∀ x : F97, ∀ i : Fin 4, ∀ k : Fin 4,
    inv i 0 x * x ^ (k : Nat) + inv i 1 x * part 1 k x + inv i 2 x * part 2 k x + inv i 3 x * part 3 k x
      = if i = k then 1 else 0 := by
  decide +kernel

theorem recover_eq (x v0 v1 v2 v3 : F97) : inverse.map (fun row => (List.zipWith (fun n v => peval n x * v) row
    (List.take 1 [v0] ++ [v1, v2, v3])).sum) = (List.range 4).map (fun i => inv i 0 x * v0 + inv i 1 x * v1 + inv i 2 x * v2
      + inv i 3 x * v3) := by
  have hr : ∀ i : Fin 4, inverse.getD i [] = [(inverse.getD i []).getD 0 [], (inverse.getD i []).getD 1 [],
    (inverse.getD i []).getD 2 [], (inverse.getD i []).getD 3 []] := by decide
  have main : ∀ i : Fin 4, (List.zipWith (fun n v => peval n x * v) (inverse.getD i []) [v0, v1, v2, v3]).sum
      = inv i 0 x * v0 + inv i 1 x * v1 + inv i 2 x * v2 + inv i 3 x * v3 := by
    intro i
    have := hr i
    unfold inv
    generalize inverse.getD i [] = row at this ⊢
    rw [this]
    simp only [List.zipWith_cons_cons, List.zipWith_nil_left, List.sum_cons, List.sum_nil, List.getD_cons_zero,
      List.getD_cons_succ]
    ring
  apply List.ext_getElem (by rfl)
  intro i h1 h2
  have hi : i < 4 := h1
  rw [List.getElem_map, List.getElem_map, List.getElem_range, ← main ⟨i, hi⟩, List.getD_eq_getElem inverse [] (show i < inverse.length from hi)]
  rfl

theorem recovered (x a0 a1 a2 a3 : F97) : inverse.map (fun row => (List.zipWith (fun n v => peval n x * v) row
    (List.take 1 [a0 + a1 * x + a2 * x ^ 2 + a3 * x ^ 3] ++
      [part 1 0 x * a0 + part 1 1 x * a1 + part 1 2 x * a2 + part 1 3 x * a3,
       part 2 0 x * a0 + part 2 1 x * a1 + part 2 2 x * a2 + part 2 3 x * a3,
       part 3 0 x * a0 + part 3 1 x * a1 + part 3 2 x * a2 + part 3 3 x * a3])).sum) = [a0, a1, a2, a3] := by
  rw [recover_eq]
  have key := inverse_spec x
  have main : ∀ i : Fin 4, inv i 0 x * (a0 + a1 * x + a2 * x ^ 2 + a3 * x ^ 3)
      + inv i 1 x * (part 1 0 x * a0 + part 1 1 x * a1 + part 1 2 x * a2 + part 1 3 x * a3)
      + inv i 2 x * (part 2 0 x * a0 + part 2 1 x * a1 + part 2 2 x * a2 + part 2 3 x * a3)
      + inv i 3 x * (part 3 0 x * a0 + part 3 1 x * a1 + part 3 2 x * a2 + part 3 3 x * a3)
      = (if i = 0 then 1 else 0) * a0 + (if i = 1 then 1 else 0) * a1 + (if i = 2 then 1 else 0) * a2
        + (if i = 3 then 1 else 0) * a3 := by
    intro i
    rw [← key i 0, ← key i 1, ← key i 2, ← key i 3]
    simp only [Fin.val_zero, Fin.val_one, Fin.val_two, show ((3 : Fin 4) : Nat) = 3 from rfl]
    ring
  have m0 := main 0
  have m1 := main 1
  have m2 := main 2
  have m3 := main 3
  simp at m0 m1 m2 m3
  simp only [List.range, List.range.loop, List.map_cons, List.map_nil, m0, m1, m2, m3]

/-- **C60 is false.** For the circuit above there is an algorithm which computes the whole witness column from the
evaluation challenge and the values in the proof. It works for every homomorphic commitment scheme (hiding or not), every
key, every choice of all four rows, every randomness of the prover and every transcript. -/
theorem C60_false {S : Scheme F97} {pk : ProverKey S} {com : F97[X] → S.Rand → S.Comm}
    (hS : HomomorphicScheme S pk.ck pk.vk.vk com) {vk : S.VK} (hkey : key S vk = .ok pk.vk) {w : List F97} (hw : w.length = 4)
    {z : S.Z} {proof : TPProof S} (hp : proveFor S pk w z = .ok proof) :
    recover (verifierChallenges S proof).1.xi proof.witnessEvals proof.quotientEvals = w := by
  have hs := dom_size
  have hz : toPoly dom.vanishing = X ^ dom.size - 1 := toPoly_vanishing dom dom_Ok.size_pos
  have hdeg : (X ^ dom.size - 1 : F97[X]).natDegree = dom.size := natDegree_X_pow_sub_C (r := (1 : F97))
  have hM : maxGateDegree dom.size vos = 18 := by rw [hs]; decide +kernel
  obtain ⟨-, -, hqd, hqe, hext, hle, hsz, -, -, -, -, hlks, -, -⟩ := indexer_ok dom_Ok hkey
  rw [hM, hz, hdeg, hs] at hqd
  rw [hs] at hsz
  have hsup := supported hlks hw
  have hp' : prove S pk (.new S fixed [] [] qBlind pk.vk.index) (wit w) [] vos dom.size z = .ok proof := by
    rw [hs]; exact hp
  -- the value of the column
  obtain ⟨r', quotient, wc, lc, zc, lzc, qc, hr⟩ := prove_run hS dom_Ok hext hle hsup.toSupportedShape hp'
  have hev := (hr.honest (quotientRound_length dom_Ok hr.round).2).evals.witness
  have e0 : proof.witnessEvals = [peval (trim (dom.ifft w)) (verifierChallenges S proof).1.xi] := by
    have := single_eval (o := (column .witness [1] w [.curr] false).computeExtended pk.vk.index.ext)
      (by simp only [ProverOracle.computeExtended, column]) hev
    simpa only [ProverOracle.computeExtended, column] using this
  -- the values of the parts
  obtain ⟨r, Q, hran, hQ, hq⟩ := C60_quotient_values hS dom_Ok (by rw [hs]; norm_num) hkey (by decide +kernel) (by rw [hz])
    (Or.inl hz) (by omega) (fun ⟨o, ho, hc⟩ => by
      obtain rfl := List.mem_singleton.1 ho
      simp [column] at hc) hsup (gatesHold hw) hp'
  have hl0 : r.lookups = [] := List.length_eq_zero_iff.1 (by rw [hran.lookup.1, hlks]; rfl)
  have hzs : r.zs = [] := hran.noAgg (by simp [ProverView.extend, wit, ProverOracle.computeExtended, column])
  have hnum : Q * toPoly dom.vanishing = toPoly cofactor * toPoly (dom.ifft w) * toPoly dom.vanishing := by
    rw [← hQ]
    have hg := gatePoly_multiple (a := w) (w := (column .witness [1] w [.curr] false).computeExtended pk.vk.index.ext)
      (s := (column .fixed [5] [1, 0, 0, 0] [.curr] false).computeExtended pk.vk.index.ext)
      (t := (column .fixed [7] [0, 1, 0, 0] [.curr] false).computeExtended pk.vk.index.ext)
      (by simp only [ProverOracle.computeExtended, column]) (by simp only [ProverOracle.computeExtended, column])
      (by simp only [ProverOracle.computeExtended, column]) (by simp only [ProverOracle.computeExtended, column])
      (by simp only [ProverOracle.computeExtended, column]) (by simp only [ProverOracle.computeExtended, column])
    rw [← hg]
    unfold CircuitPolys.numerator CircuitPolys.permutation runPolys
    rw [hl0, hzs, if_pos (by simp [ProverView.extend, wit, ProverOracle.computeExtended, column])]
    simp only [aggregate, vos, List.map_cons, List.map_nil, List.zipWith_nil_left, List.zipIdx_cons, List.zipIdx_nil,
      List.sum_cons, List.sum_nil, pow_zero, one_mul, add_zero]
    rfl
  have hz0 : toPoly dom.vanishing ≠ 0 := by
    rw [hz]
    intro h0
    rw [h0, natDegree_zero, hs] at hdeg
    omega
  have hQ' := mul_right_cancel₀ hz0 hnum
  obtain ⟨m, hm⟩ : ∃ m, pk.vk.index.perm.maxCols + 1 = 4 + m := ⟨pk.vk.index.perm.maxCols + 1 - 4, by omega⟩
  generalize (verifierChallenges S proof).1.xi = x at e0 hq ⊢
  have hi4 : (dom.ifft w).length = 4 := by rw [Domain.ifft_length, hs]
  obtain ⟨a0, a1, a2, a3, ha⟩ : ∃ a0 a1 a2 a3, dom.ifft w = [a0, a1, a2, a3] := by
    match h : dom.ifft w, hi4 with
    | [a0, a1, a2, a3], _ => exact ⟨a0, a1, a2, a3, rfl⟩
  have hback : dom.fft [a0, a1, a2, a3] = w := by
    rw [← ha]; exact dom_Ok.fft_ifft (by rw [hs]; exact hw)
  have e1 : (proof.quotientEvals.drop 1).take 3 = [partValue 4 Q 1 x, partValue 4 Q 2 x, partValue 4 Q 3 x] := by
    rw [hq, hm, hs, List.range_add]
    rfl
  have e2 : peval (trim (dom.ifft w)) x = a0 + a1 * x + a2 * x ^ 2 + a3 * x ^ 3 := by
    rw [← eval_toPoly, toPoly_trim, eval_toPoly, ha]
    simp only [peval, List.foldr_cons, List.foldr_nil]
    ring
  rw [ha] at hQ'
  unfold recover
  rw [e1, e0, hQ', partValue_linear _ _ _ _ _ 1 (by norm_num), partValue_linear _ _ _ _ _ 2 (by norm_num),
    partValue_linear _ _ _ _ _ 3 (by norm_num), e2]
  exact (congrArg dom.fft (recovered x a0 a1 a2 a3)).trans hback

/-- The answer of the verifier. -/
def outcome (k : VerifierKey Toy.S) (p : TPProof Toy.S) : Res (Err Unit) Unit :=
  verify Toy.S k ⟨fixed.map Toy.published, [], [], Toy.published qBlind⟩ p ((wit [0, 0, 0, 0]).map Toy.blank) [] vos 4
    dom.vanishing

/-- There are such proofs, and they are accepted. -/
theorem leaks : ∃ k p, key Toy.S () = .ok k ∧ proveFor Toy.S ⟨k, ()⟩ [11, 22, 33, 44] () = .ok p ∧
    outcome k p = .ok () ∧
    recover (verifierChallenges Toy.S p).1.xi p.witnessEvals p.quotientEvals = [11, 22, 33, 44] := by
  obtain ⟨k, p, hk, hp, h⟩ : ∃ k p, key Toy.S () = .ok k ∧ proveFor Toy.S ⟨k, ()⟩ [11, 22, 33, 44] () = .ok p ∧
      decide (outcome k p = .ok ()) = true := by
    have h : (match key Toy.S () with
      | .ok k => match proveFor Toy.S ⟨k, ()⟩ [11, 22, 33, 44] () with
        | .ok p => decide (outcome k p = .ok ())
        | _ => false
      | _ => false) = true := by decide +kernel
    split at h
    · rename_i k hk
      split at h
      · rename_i p hp
        exact ⟨k, p, hk, hp, h⟩
      · simp at h
    · simp at h
  exact ⟨k, p, hk, hp, of_decide_eq_true h, C60_false (ideal_homomorphic _ _) hk rfl hp⟩

end Leak
end ZK
