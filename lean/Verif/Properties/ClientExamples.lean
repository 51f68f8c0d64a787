import Verif.Properties.GateTest
import Verif.Properties.ConfigureExamples
import Verif.Properties.SetupExamples
/-! C76, C77: circuits of eight rows that meet the hypotheses. -/
set_option autoImplicit false
set_option linter.unusedSectionVars false
namespace ZK
open Polynomial
namespace Toy8

abbrev S := Toy.S

def dom : Domain F97 := F97.dom 3
theorem dom_Ok : dom.Ok := F97.dom_ok (by norm_num)
theorem dom_size : dom.size = 8 := by decide +kernel

def col (k : OracleType) (l : Label) (v : List F97) (rots : List Rotation) (copied : Bool) : ProverOracle F97 :=
  ⟨k, l, trim (dom.ifft v), v, none, rots, copied⟩

theorem col_isColumn (k : OracleType) (l : Label) {v : List F97} (h : v.length = 8) (rots : List Rotation) (b : Bool) :
    Interpolates dom (col k l v rots b) ∧ (col k l v rots b).poly.length ≤ dom.size := by
  have hd := dom_Ok
  have hs := h.trans dom_size.symm
  unfold col
  generalize dom = d at hd hs ⊢
  exact interpolated_isColumn hd hs rfl rfl

def va : VirtualQuery := ⟨0, .curr, .witness⟩
def vb : VirtualQuery := ⟨1, .curr, .witness⟩
def vc : VirtualQuery := ⟨2, .curr, .witness⟩
def vt : VirtualQuery := ⟨0, .curr, .fixed⟩

/-- `a * b - c`. -/
def gate : VExpr F97 := .sum (.prod (.oracle va) (.oracle vb)) (.neg (.oracle vc))

/-- The gate, and a lookup of `c`. -/
def calls : List (Call F97) := [.gate gate [va, vb, vc], .lookup [.oracle vc] [vc] [vt]]

/-- The columns; `a` and `b` are copied. -/
def start : Oracles (ProverOracle F97) (ProverOracle F97) (ProverOracle F97) :=
  ⟨[col .witness [1] [7, 3, 11, 4, 1, 2, 3, 4] [] true, col .witness [2] [8, 7, 2, 6, 1, 1, 1, 1] [] true,
    col .witness [3] [56, 21, 22, 24, 1, 2, 3, 4] [] false], [], []⟩
def table : List (ProverOracle F97) := [col .fixed [4] [21, 56, 24, 22, 0, 0, 0, 0] [] false]
def info : PermutationInfo F97 := ⟨4, [1, 5]⟩
def w : F97 := dom.omega

/-- `a[0]` and `b[1]` change places. -/
def sigma : List (ProverOracle F97) :=
  [col .fixed [5] [5 * w, w, w ^ 2, w ^ 3, 0, 0, 0, 0] [.curr] false, col .fixed [6] [5, 1, 5 * w ^ 2, 5 * w ^ 3, 0, 0, 0, 0] [.curr] false]
def qBlind : ProverOracle F97 := col .fixed [7] [0, 0, 0, 0, 0, 1, 1, 1] [.curr] false

def vstart : Oracles (VerifierOracle F97 (List F97)) (InstanceVerifierOracle F97) (VerifierOracle F97 (List F97)) :=
  ⟨start.witness.map Toy.blank, [], []⟩

theorem goodCalls : GoodCalls 8 calls := by
  constructor
  · decide +kernel
  · decide +kernel
  · decide +kernel
  · intro es qs ts h
    simp only [calls, List.mem_cons, List.not_mem_nil, or_false, reduceCtorEq, false_or, Call.lookup.injEq] at h
    obtain ⟨rfl, rfl, rfl⟩ := h
    decide +kernel

theorem goodCircuit : GoodCircuit dom dom.size start table calls sigma qBlind info 4 := by
  have hs := dom_size
  constructor
  · constructor
    · intro o ho
      simp only [start, table, List.cons_append, List.nil_append, List.append_nil, List.mem_cons, List.not_mem_nil, or_false] at ho
      rcases ho with rfl | rfl | rfl | rfl <;> exact ⟨col_isColumn _ _ rfl [] _, rfl⟩
    · unfold Oracles.DistinctLabels
      decide +kernel
  · rw [hs]; exact goodCalls
  · exact ⟨_, _, List.mem_cons_self⟩
  · intro i o ho hp
    match i, ho with
    | 0, ho => exact ⟨_, List.mem_cons_self, .curr, rfl, by decide⟩
    | 1, ho => exact ⟨_, List.mem_cons_self, .curr, rfl, by decide⟩
    | 2, ho =>
      obtain rfl := Option.some.inj ho
      cases hp
    | i + 3, ho => cases ho
  · intro o ho
    simp only [sigma, List.mem_cons, List.not_mem_nil, or_false] at ho
    rcases ho with rfl | rfl <;> exact ⟨col_isColumn _ _ rfl _ _, rfl⟩
  · exact ⟨(col_isColumn _ _ rfl _ _).2, .inr rfl⟩
  · intro _; decide +kernel
  · intro _
    refine ⟨⟨(col_isColumn _ _ rfl _ _).1, rfl⟩, ?_⟩
    rw [hs]
    decide +kernel
  · rw [hs]; decide
  · intro _
    refine lookupRows_of (col_isColumn _ _ rfl _ _).1 ?_ rfl (by decide) (by rw [hs]; decide)
    rw [hs]
    decide +kernel

theorem published_same : ∀ os : List (ProverOracle F97), (∀ o ∈ os, o.poly = trim o.poly) →
    List.Forall₂ (fun (o : ProverOracle F97) (p : VerifierOracle F97 (List F97)) => SameConfig o p ∧
      p.commitment = some (coeffs (toPoly o.poly))) os (os.map Toy.published) := by
  intro os h
  rw [List.forall₂_map_right_iff]
  refine List.forall₂_same.2 (fun o ho => ⟨⟨rfl, rfl, rfl⟩, ?_⟩)
  rw [coeffs_toPoly, ← h o ho]
  rfl

theorem freshVerifier : FreshVerifier S (fun p _ => coeffs p) start table vstart (table.map Toy.published) :=
  ⟨Toy.blank_same _, .nil, .nil, published_same _ (by decide +kernel)⟩

theorem gateDegrees : GateDegrees 8 (FftParams.adicity F97) 2 calls := by
  refine ⟨?_, ⟨gate, [va, vb, vc], List.mem_cons_self, rfl⟩, le_rfl, degreeFits_of_eight (by norm_num) (by norm_num) (by norm_num), by decide⟩
  intro e qs h
  simp only [calls, List.mem_cons, List.not_mem_nil, or_false, reduceCtorEq, Call.gate.injEq] at h
  obtain ⟨rfl, rfl⟩ := h
  exact le_rfl

def readCell (i : Nat) (q : VirtualQuery) : F97 :=
  match (start.ofType q.oracleType)[q.index]? with
  | some o => o.evals.getD (((i : ℤ) + q.rotation.signed) % 8).toNat 0
  | none => 0

theorem readCell_eq {i : Nat} {q : VirtualQuery} {y : F97} (h : VReads 8 start i q y) : y = readCell i q := by
  obtain ⟨o, ho, j, hj, hy⟩ := h
  unfold readCell
  rw [ho]
  have : (((i : ℤ) + q.rotation.signed) % 8).toNat = j := by
    have hj' : (j : ℤ) = ((i : ℤ) + q.rotation.signed) % 8 := hj
    rw [← hj', Int.toNat_natCast]
  simp only [this, List.getD_eq_getElem?_getD, hy, Option.getD_some]

theorem gateCallsHold (zh : F97[X]) : GateCallsHold dom start calls zh := by
  intro e qs h i hi _ y hy
  rw [dom_size] at hi hy
  have h1 : ∀ i < 8, gate.denote id (readCell i) = 0 := by decide +kernel
  rw [VExpr.denote_congr id e fun q hq => readCell_eq (hy q hq)]
  simp only [calls, List.mem_cons, List.not_mem_nil, or_false, reduceCtorEq, Call.gate.injEq] at h
  obtain ⟨rfl, -⟩ := h
  exact h1 i hi

theorem lookupCallsHold : LookupCallsHold dom.size 4 start table calls := by
  intro es qs ts h i hi
  rw [dom_size]
  simp only [calls, List.mem_cons, List.not_mem_nil, or_false, reduceCtorEq, false_or, Call.lookup.injEq] at h
  obtain ⟨rfl, rfl, rfl⟩ := h
  have key : ∀ i < 4, ∃ j < 4, ([21, 56, 24, 22, 0, 0, 0, 0] : List F97)[j]? = some (readCell i vc) ∧
      ([56, 21, 22, 24, 1, 2, 3, 4] : List F97)[i]? = some (readCell i vc) := by decide +kernel
  obtain ⟨j, hj, h1, h2⟩ := key i hi
  refine ⟨j, hj, .cons ⟨fun _ => readCell i vc, ?_, _, rfl, h1⟩ .nil⟩
  intro q hq
  obtain rfl := List.mem_singleton.1 hq
  exact ⟨_, rfl, i, by show (i : ℤ) = ((i : ℤ) + 0) % 8; omega, h2⟩

theorem copies : ∃ tau : Equiv.Perm (Fin (start.witness.filter (·.shouldPermute)).length × Fin info.u),
    MadeFrom dom info.deltas sigma tau ∧
      ∀ x, cell (start.witness.filter (·.shouldPermute)) (tau x) = cell (start.witness.filter (·.shouldPermute)) x := by
  refine ⟨Equiv.swap (⟨0, by decide +kernel⟩, ⟨0, by decide⟩) (⟨1, by decide +kernel⟩, ⟨1, by decide⟩), ?_⟩
  unfold MadeFrom
  decide +kernel

/-- A circuit with a gate, a lookup and a copy meets the hypotheses of C76. -/
theorem client : ∃ c c' key, configureAll calls start table = .ok c ∧ configureAll calls vstart (table.map Toy.published) = .ok c' ∧
    indexer (fun o => o.shouldPermute) () c.vos c.lookups c.oracles.witness c.oracles.inst c.oracles.fixed dom dom.vanishing info 4
      (S := S) = .ok key ∧
    indexer (fun o => o.shouldPermute) () c'.vos c'.lookups c'.oracles.witness c'.oracles.inst c'.oracles.fixed dom dom.vanishing info 4
      (S := S) = .ok key ∧
    ∃ theta beta gamma, FirstMessages S ⟨key, ()⟩ ⟨c.oracles.witness, c.oracles.inst, c.oracles.fixed, c.tables⟩ dom () theta beta gamma ∧
      (GoodDraw dom key.index ⟨c.oracles.witness, c.oracles.inst, c.oracles.fixed, c.tables⟩ sigma theta beta gamma →
        ∃ tr, proveRounds S ⟨key, ()⟩ (.new S c.oracles.fixed sigma c.tables qBlind key.index) c.oracles.witness c.oracles.inst c.vos
            dom.size () = .ok tr) := by
  obtain ⟨tau, henc, hcop⟩ := copies
  obtain ⟨c, c', key, h1, h2, -, h3, h4, h⟩ := C76_client (m := 2) (ideal_homomorphic _ _) dom_Ok (Toy.supports _) goodCircuit
    (by unfold InRange; decide +kernel) (by rw [dom_size]; exact gateDegrees) henc freshVerifier
    (perm := sigma.map Toy.published) (vBlind := Toy.published qBlind) (published_same _ (by decide +kernel))
    ⟨⟨rfl, rfl, rfl⟩, by rw [coeffs_toPoly, show trim qBlind.poly = qBlind.poly by decide +kernel]; rfl⟩ (gateCallsHold _) lookupCallsHold hcop
  obtain ⟨theta, beta, gamma, g1, g2⟩ := h ()
  refine ⟨c, c', key, h1, h2, h3, h4, theta, beta, gamma, g1, fun hg => ?_⟩
  obtain ⟨tr, g3, -⟩ := g2 hg
  exact ⟨tr, g3⟩

/-! ### C77 -/

/-- Two columns and their products. -/
def mulColumns : TestColumns F97 :=
  ⟨[(bytes "a", [7, 3, 11, 4, 1, 2, 3, 4]), (bytes "b", [8, 7, 2, 6, 1, 1, 1, 1])], [(bytes "c", [56, 21, 22, 24, 1, 2, 3, 4])], []⟩

/-- The test program runs to the end, and the verifier accepts. With a wrong product the verifier rejects. -/
theorem mul_runs :
    (match runProver S () () dom mulColumns Gates.mul () with
      | .ok p => match runVerifier S () () dom mulColumns Gates.mul p with
        | .ok () => true
        | _ => false
      | _ => false) = true ∧
    (match runProver S () () dom mulColumns Gates.mul () with
      | .ok p => match runVerifier S () () dom ⟨mulColumns.witness, [(bytes "c", [57, 21, 22, 24, 1, 2, 3, 4])], []⟩ Gates.mul p with
        | .ok () => false
        | .err _ => true
        | .panic => false
      | _ => false) = true := by
  constructor <;> decide +kernel

/-- The hypotheses of `C77_mul` are met with the group of 97 elements and a setup of degree 7. -/
example (env : KzgEnv F97 Toy.G97) (beta : F97) (g gammaG h : Toy.G97) (z : env.Z) : ∃ srs ck vk,
    universalSetup 7 beta g gammaG h = .ok srs ∧ prepareKeys srs = .ok (ck, vk) ∧
    ∃ tr, runRounds (kzgScheme Toy.pair97 env) ck vk dom mulColumns Gates.mul z = .ok tr := by
  obtain ⟨srs, ck, vk, h1, h2, -⟩ := (C59_keys 7 beta g gammaG h).2 (by decide)
  obtain ⟨tr, h3, -⟩ := C77_mul Toy.pair97 env h1 h2 dom_Ok (by rw [dom_size]) (by rw [dom_size]; decide) (by rw [dom_size])
    (la := bytes "a") (lb := bytes "b") (lc := bytes "c") (by decide) (a := [7, 3, 11, 4, 1, 2, 3, 4]) (b := [8, 7, 2, 6, 1, 1, 1, 1])
    dom_size.symm dom_size.symm z
  have : List.zipWith (· * ·) [7, 3, 11, 4, 1, 2, 3, 4] [8, 7, 2, 6, 1, 1, 1, 1] = ([56, 21, 22, 24, 1, 2, 3, 4] : List F97) := by decide +kernel
  rw [this] at h3
  exact ⟨srs, ck, vk, h1, h2, tr, h3⟩

end Toy8
end ZK
