import Verif.Lemmas.Configure
import Verif.Properties.Configure
import Verif.Properties.CircuitTest
import Verif.Spec.Algebraic
/-! The verifier's handles of a test with KZG commitments, and their representations. -/
set_option autoImplicit false
set_option linter.unusedSectionVars false
open Polynomial
namespace ZK

section
variable {F : Type} [Field F] [LinearOrder F] {G : Type} [AddCommGroup G] [Module F G]

/-- A registration does the same to representations and to group elements. -/
theorem registered_elements (key : KzgKey G) {ty : OracleType} {qs : List VirtualQuery} {os os' : List (VerifierOracle F (F[X] × F[X]))}
    {ps' : List (VerifierOracle F G)} (h : Registered ty qs os os') (h' : Registered ty qs (os.map (VerifierOracle.elements key)) ps')
    (s1 : ∀ o ∈ os', (ConcreteOracle.rotations o).Pairwise (· < ·)) (s2 : ∀ o ∈ ps', (ConcreteOracle.rotations o).Pairwise (· < ·)) :
    ps' = os'.map (VerifierOracle.elements key) := by
  have hR : List.Forall₂ (fun o (p : VerifierOracle F G) => p = VerifierOracle.elements key o) os (os.map (VerifierOracle.elements key)) :=
    List.forall₂_map_right_iff.2 (List.forall₂_same.2 fun _ _ => rfl)
  have hp := h.pair h' hR s1 s2
  clear h h' s1 s2 hR
  induction hp with
  | nil => rfl
  | @cons o' p' _ _ h _ ih =>
    obtain ⟨o, p, rfl, h1, h2, h3⟩ := h
    rw [List.map_cons, ih]
    congr 1
    refine OracleData.ext' _ _ ?_ ?_
    · refine h2.trans ?_
      exact congrArg (VerifierOracle.elements key) h1.symm
    · exact (h3 rfl).symm

theorem registered_self {O : Type} [OracleData O] {ty : OracleType} {qs : List VirtualQuery} {os os' ps' : List O}
    (h : Registered ty qs os os') (h' : Registered ty qs os ps')
    (s1 : ∀ o ∈ os', (ConcreteOracle.rotations o).Pairwise (· < ·)) (s2 : ∀ o ∈ ps', (ConcreteOracle.rotations o).Pairwise (· < ·)) :
    ps' = os' := by
  have hp := h.pair h' (R := Eq) (List.forall₂_same.2 fun _ _ => rfl) s1 s2
  clear h h' s1 s2
  induction hp with
  | nil => rfl
  | cons h _ ih =>
    obtain ⟨o, p, rfl, h1, h2, h3⟩ := h
    rw [ih]
    congr 1
    exact OracleData.ext' _ _ (h2.trans h1.symm) (h3 rfl).symm

/-- The calls of `configure` do the same to representations and to group elements. -/
theorem configureAll_elements (key : KzgKey G) {calls : List (Call F)}
    {s : Oracles (VerifierOracle F (F[X] × F[X])) (InstanceVerifierOracle F) (VerifierOracle F (F[X] × F[X]))} {ts : List (VerifierOracle F (F[X] × F[X]))}
    (hw : ∀ o ∈ s.witness, o.rotations = []) (hi : ∀ o ∈ s.inst, o.rotations = []) (hf : ∀ o ∈ s.fixed, o.rotations = [])
    (ht : ∀ o ∈ ts, o.rotations = []) {c : Configured F (VerifierOracle F (F[X] × F[X])) (InstanceVerifierOracle F) (VerifierOracle F (F[X] × F[X]))
      (VerifierOracle F (F[X] × F[X]))} (hc : configureAll calls s ts = .ok c) :
    configureAll calls (⟨s.witness.map (VerifierOracle.elements key), s.inst, s.fixed.map (VerifierOracle.elements key)⟩ :
        Oracles (VerifierOracle F G) (InstanceVerifierOracle F) (VerifierOracle F G)) (ts.map (VerifierOracle.elements key)) =
      .ok ⟨c.vos, c.lookups, ⟨c.oracles.witness.map (VerifierOracle.elements key), c.oracles.inst, c.oracles.fixed.map (VerifierOracle.elements key)⟩,
        c.tables.map (VerifierOracle.elements key)⟩ := by
  have hlab : ∀ os : List (VerifierOracle F (F[X] × F[X])), (os.map (VerifierOracle.elements key)).map ConcreteOracle.label =
      os.map ConcreteOracle.label := by
    intro os
    rw [List.map_map]
    rfl
  have hnil : ∀ {os : List (VerifierOracle F (F[X] × F[X]))}, (∀ o ∈ os, o.rotations = []) →
      ∀ o ∈ os, (ConcreteOracle.rotations o).Pairwise (· < ·) := by
    intro os h o ho
    show o.rotations.Pairwise _
    rw [h o ho]
    exact List.Pairwise.nil
  have hnil' : ∀ {os : List (VerifierOracle F (F[X] × F[X]))}, (∀ o ∈ os, o.rotations = []) →
      ∀ o ∈ os.map (VerifierOracle.elements key), (ConcreteOracle.rotations o).Pairwise (· < ·) := by
    intro os h o ho
    obtain ⟨o', ho', rfl⟩ := List.mem_map.1 ho
    show o'.rotations.Pairwise _
    rw [h o' ho']
    exact List.Pairwise.nil
  have hni : ∀ o ∈ s.inst, (ConcreteOracle.rotations o).Pairwise (· < ·) := by
    intro o ho
    show o.rotations.Pairwise _
    rw [hi o ho]
    exact List.Pairwise.nil
  obtain ⟨h1, h2⟩ := C74_same_gates (calls := calls) (s := s) (ts := ts)
    (s' := (⟨s.witness.map (VerifierOracle.elements key), s.inst, s.fixed.map (VerifierOracle.elements key)⟩ :
        Oracles (VerifierOracle F G) (InstanceVerifierOracle F) (VerifierOracle F G))) (ts' := ts.map (VerifierOracle.elements key))
    ⟨hlab _, rfl, hlab _⟩ (hlab _)
  obtain ⟨⟨vos, lks, ⟨w, i, f⟩, tb⟩, hc'⟩ := h1.1 ⟨c, hc⟩
  obtain ⟨e1, e2⟩ := h2 _ _ hc hc'
  have hC := configureAll_ok hc
  have hC' := configureAll_ok hc'
  have hS := hC.sorted ⟨hnil hw, hni, hnil hf⟩
  have hS' := hC'.sorted ⟨hnil' hw, hni, hnil' hf⟩
  have hT := hC.sortedTables (hnil ht)
  have hT' := hC'.sortedTables (hnil' ht)
  dsimp only at e1 e2
  rw [hc', e1, e2]
  obtain rfl : w = _ := registered_elements key hC.oracles.1 hC'.oracles.1 hS.1 hS'.1
  obtain rfl : i = _ := registered_self hC.oracles.2.1 hC'.oracles.2.1 hS.2.1 hS'.2.1
  obtain rfl : f = _ := registered_elements key hC.oracles.2.2 hC'.oracles.2.2 hS.2.2 hS'.2.2
  obtain rfl : tb = _ := registered_elements key hC.tables hC'.tables hT hT'
  rfl

variable {G2 GT : Type} [AddCommGroup G2] [Module F G2] [AddCommGroup GT] [Module F GT] [DecidableEq GT]
variable [FftParams F]

/-- The handle of a public column. -/
theorem handle_elements (e : G →ₗ[F] G2 →ₗ[F] GT) (env : KzgEnv F G) {ck key : KzgKey G} (hk : key.powers = ck.powers) (d : Domain F)
    (c : Label × List F) :
    CircuitTest.handle (kzgScheme e env) (fun p (r : {r : List F // r.length ≤ 3}) => (kzgCom ck p (toPoly r.1) : G)) d c =
      VerifierOracle.elements key (CircuitTest.handle (algScheme F) (fun (p r : F[X]) => ((p, r) : F[X] × F[X])) d c :
        VerifierOracle F (F[X] × F[X])) := by
  obtain ⟨ps, gs⟩ := ck
  obtain ⟨ps', gs'⟩ := key
  obtain rfl : ps' = ps := hk
  have : (kzgCom (⟨ps', gs⟩ : KzgKey G) (toPoly (trim (d.ifft c.2))) (toPoly []) : G) = element ⟨ps', gs'⟩ (toPoly (trim (d.ifft c.2)), 0) := by
    unfold element kzgCom
    simp [toPoly]
  unfold CircuitTest.handle VerifierOracle.newFixed VerifierOracle.elements
  exact congrArg (fun x => (⟨_, _, _, _, some x, _⟩ : VerifierOracle F G)) this

theorem handleCurr_elements (e : G →ₗ[F] G2 →ₗ[F] GT) (env : KzgEnv F G) {ck key : KzgKey G} (hk : key.powers = ck.powers) (d : Domain F)
    (c : Label × List F) :
    CircuitTest.handleCurr (kzgScheme e env) (fun p (r : {r : List F // r.length ≤ 3}) => (kzgCom ck p (toPoly r.1) : G)) d c =
      VerifierOracle.elements key (CircuitTest.handleCurr (algScheme F) (fun (p r : F[X]) => ((p, r) : F[X] × F[X])) d c :
        VerifierOracle F (F[X] × F[X])) := by
  have h := handle_elements e env hk d c
  unfold CircuitTest.handleCurr
  rw [h]
  rfl

end
end ZK
