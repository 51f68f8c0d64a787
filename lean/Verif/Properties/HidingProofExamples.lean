import Verif.Properties.HidingProof
import Verif.Properties.HidingJointExamples
import Verif.Properties.SetupExamples
/-! C63: the hypotheses are met by the toy circuit with two witnesses. -/
set_option autoImplicit false
set_option linter.unusedSectionVars false
namespace ZK
open Polynomial
namespace Toy

/-- Challenges of an honest verifier. -/
def challenges (i : Nat) : F97 := [5, 3, 9, 11, 2, 13, 17, 19, 23].getD i 0

/-- Random rows for which the gates hold. -/
def rowsA : Fin 3 → Fin 2 → F97 := ![![11, 4], ![2, 6], ![9, 2]]
def rowsB : Fin 3 → Fin 2 → F97 := ![![11, 4], ![2, 6], ![9, 5]]

theorem gatesRandom {r : Fin 3 → Fin 2 → F97} (h : mockProve (ε := Unit) (viewRandom r) vos 4 = .ok ()) (zh : F97[X]) :
    GatesHold dom (viewRandom r) vos zh := by
  refine gatesHold_of_mock (ε := Unit) dom_Ok ?_ ?_ zh
  · intro ty o ho
    have h : ∀ o ∈ (viewRandom r).witness ++ (viewRandom r).inst ++ (viewRandom r).fixed ++ (viewRandom r).table ++ sigma,
        IsColumn dom o := by
      obtain ⟨k, p, hk, -⟩ := honest
      exact (supportedOf hk (prefixes_length _ 0) (prefixes_length _ 1) (prefixes_length _ 2)).columns
    refine (h o ?_).1
    cases ty <;> simp only [ProverView.oracles] at ho <;> simp [ho]
  · rw [dom_size]
    exact h

theorem gatesA : mockProve (ε := Unit) (viewRandom rowsA) vos 4 = .ok () := by decide +kernel
theorem gatesB : mockProve (ε := Unit) (viewRandom rowsB) vos 4 = .ok () := by decide +kernel

/-- The environment of the honest verifier. -/
noncomputable abbrev henv : KzgEnv F97 G97 := honestEnv challenges

/-- Every run of the prover succeeds and is accepted. -/
theorem runRandom {beta : F97} {srs : KzgSrs G97 G97} {ck : KzgKey G97} {vk : KzgVk G97 G97} {g gammaG h : G97}
    (h1 : universalSetup 3 beta g gammaG h = .ok srs) (h2 : prepareKeys srs = .ok (ck, vk))
    {k0 : VerifierKey S} (hk0 : key = .ok k0) {k : VerifierKey (kzgScheme pair97 henv)}
    (hk : indexer (S := kzgScheme pair97 henv) (fun o => o.shouldPermute) vk vos [lookup] witness
      inst fixed dom dom.vanishing info 2 = .ok k) (hi : k.index = k0.index)
    (hqd : k0.index.quotientDegree ≠ k0.index.ext.size)
    {r : Fin 3 → Fin 2 → F97} (hr : mockProve (ε := Unit) (viewRandom r) vos 4 = .ok ()) (z : Nat → F97) :
    ∃ proof, prove (kzgScheme pair97 henv) ⟨k, ck⟩ (.new _ fixed sigma table qBlind k.index) (viewRandom r).witness inst vos dom.size z
        = .ok proof ∧
      verify (kzgScheme pair97 henv) k (vpreKzg henv ck) proof (witness.map blankKzg) vinst vos dom.size dom.vanishing = .ok () := by
  have hsz := dom_size
  have hz : toPoly dom.vanishing = X ^ dom.size - 1 := toPoly_vanishing dom dom_Ok.size_pos
  have hdeg : (X ^ dom.size - 1 : F97[X]).natDegree = dom.size := natDegree_X_pow_sub_C (r := (1 : F97))
  obtain ⟨-, -, -, -, -, -, -, -, -, hu, hdl, hl, hu', -⟩ := indexer_ok dom_Ok hk0
  obtain ⟨tau, henc, hcop⟩ := copiedRandom r k.index.perm.usableRows (by rw [hi]; exact hu)
  have hset : SetUp (kzgScheme pair97 henv)
    (fun (p : F97[X]) (r : {r : List F97 // r.length ≤ 3}) => (kzgCom ck p (toPoly r.1) : G97))
    (viewRandom r) sigma qBlind (witness.map blankKzg) vinst (vpreKzg henv ck) := by
    have h := setUpKzg henv ck
    exact ⟨.cons ⟨rfl, rfl, rfl⟩ (.cons ⟨rfl, rfl, rfl⟩ (.cons ⟨rfl, rfl, rfl⟩ .nil)), h.inst, h.fixed, h.table, h.perm, h.qBlind⟩
  have hmain := C59_end_to_end (pair97) henv h1 h2 dom_Ok (by rw [hsz]; norm_num) (by rw [hsz]) hk (by decide +kernel)
    (by rw [hz]) (Or.inl hz) (by rw [hi]; exact hqd) (fun _ => by rw [hz, hdeg]; omega)
    (by rw [hi]; exact supportedOf hk0 (prefixes_length _ 0) (prefixes_length _ 1) (prefixes_length _ 2))
    (by rw [hi]; exact provableRandom hk0 r)
    (by rw [show k.index.perm.deltas = info.deltas from (congrArg (fun i => i.perm.deltas) hi).trans hdl]; exact henc) hset
    (gatesRandom hr _) hcop (by rw [hi]; exact lookedUpRandom hk0 r) z
  obtain ⟨theta, beta', gamma, ⟨wc, z1, ls, z2, lc, z3, -, -, -, e1, e2, e3⟩, g2⟩ := hmain
  obtain rfl : theta = 5 := e1
  obtain rfl : beta' = 3 := e2
  obtain rfl : gamma = 9 := e3
  obtain ⟨tr, g3, -, -, -, g4⟩ := g2 (by rw [hi]; exact goodRandom hk0 r)
  have hchal : tr.chal.xi = 2 := by
    obtain ⟨-, -, h⟩ := proveRounds_inv (kzgScheme pair97 henv) g3
    have h := h ⟨tr.wc.map Prod.fst, [], [], [], [], 0, tr.lc.map Prod.fst, tr.lzc.map Prod.fst, [], [], tr.zc.map Prod.fst, [],
      tr.qc.map Prod.fst, [], ⟨[], (0 : G97), (⟨(0 : G97), 0⟩ : KzgProof F97 G97)⟩⟩ rfl rfl rfl rfl rfl
    exact (congrArg (fun c => c.1.xi) h).symm
  obtain ⟨proof, g5, -, g6⟩ := g4 (by rw [hchal]; decide)
  refine ⟨proof, g5, g6 ?_⟩
  intro n he
  rw [hchal] at he
  have he : (19 : F97) = 2 * dom.omega ^ n := he
  have h4 : dom.omega ^ 4 = 1 := by decide +kernel
  have h5 : (19 : F97) ^ 4 = 2 ^ 4 := by
    rw [he, mul_pow, ← zpow_natCast (dom.omega ^ n), ← zpow_mul, mul_comm n, zpow_mul, zpow_natCast]
    change _ * (dom.omega ^ 4) ^ n = _
    rw [h4, one_zpow, mul_one]
  revert h5
  decide +kernel

theorem smul_one97 (k : F97) : k • (show G97 from (1 : F97)) = (show G97 from k) := mul_one (M := F97) k

/-- The toy circuit, a setup with the secret 7, and two witnesses: the hypotheses of C63 are met, every run succeeds. -/
theorem group_elements_uniform : ∃ (ck : KzgKey G97) (k : VerifierKey (kzgScheme pair97 henv)),
    (∀ ws, ws = (viewRandom rowsA).witness ∨ ws = (viewRandom rowsB).witness → ∀ z : Nat → F97,
      ∃ π, prove (kzgScheme pair97 henv) ⟨k, ck⟩ (.new _ fixed sigma table qBlind k.index) ws inst vos dom.size z = .ok π ∧
        verify (kzgScheme pair97 henv) k (vpreKzg henv ck) π (witness.map blankKzg) vinst vos dom.size dom.vanishing = .ok ()) ∧
    (∃ draws M, ∀ N, draws ≤ N → ∀ (v : List (List F97)) (gs : List G97) (rv : F97), gs.length = M →
        {r : Fin N → F97 | ∃ π, prove (kzgScheme pair97 henv) ⟨k, ck⟩ (.new _ fixed sigma table qBlind k.index) (viewRandom rowsA).witness inst vos
            dom.size (sequence r) = .ok π ∧
          π.values = v ∧ TPProof.commitments π = gs ∧ KzgProof.randomV (G := G97) π.multiopen.opening = rv}.ncard
            * (Nat.card G97 ^ M * Nat.card F97)
        = {r : Fin N → F97 | ∃ π, prove (kzgScheme pair97 henv) ⟨k, ck⟩ (.new _ fixed sigma table qBlind k.index) (viewRandom rowsA).witness inst vos
            dom.size (sequence r) = .ok π ∧ π.values = v}.ncard) ∧
    (∃ draws, ∀ N, draws ≤ N →
      (∀ v, {r : Fin N → F97 | ∃ π, prove (kzgScheme pair97 henv) ⟨k, ck⟩ (.new _ fixed sigma table qBlind k.index) (viewRandom rowsA).witness
            inst vos dom.size (sequence r) = .ok π ∧ π.values = v}.ncard
        = {r : Fin N → F97 | ∃ π, prove (kzgScheme pair97 henv) ⟨k, ck⟩ (.new _ fixed sigma table qBlind k.index) (viewRandom rowsB).witness
            inst vos dom.size (sequence r) = .ok π ∧ π.values = v}.ncard) →
      ∀ π, {r : Fin N → F97 | prove (kzgScheme pair97 henv) ⟨k, ck⟩ (.new _ fixed sigma table qBlind k.index) (viewRandom rowsA).witness
            inst vos dom.size (sequence r) = .ok π}.ncard
        = {r : Fin N → F97 | prove (kzgScheme pair97 henv) ⟨k, ck⟩ (.new _ fixed sigma table qBlind k.index) (viewRandom rowsB).witness
            inst vos dom.size (sequence r) = .ok π}.ncard) := by
  obtain ⟨srs, ck, vk, h1, h2, -⟩ := (C59_keys (F := F97) 3 7 (show G97 from (1 : F97)) (show G97 from (1 : F97)) (show G97 from (1 : F97))).2
    (by decide)
  obtain ⟨k0, p, hk0, -, hqd⟩ := of_holds (ws := witness) (P := fun k p => decide
    (k.index.quotientDegree ≠ k.index.ext.size)) (by decide +kernel)
  have hqd := of_decide_eq_true hqd
  obtain ⟨k, hk, hi⟩ := keyKzg henv hk0 vk
  have hf := fromSetup_of_keys h1 h2
  have hvk : k.vk = vk := indexer_vk hk
  subst hvk
  have h3 : 3 ≤ ck.gammaPowers.length := by rw [hf.gammaPowers]; exact le_rfl
  have hA := fun z => runRandom h1 h2 hk0 hk hi hqd gatesA z
  have hB := fun z => runRandom h1 h2 hk0 hk hi hqd gatesB z
  have hg : Function.Surjective (fun c : F97 => c • KzgVk.gammaG (G := G97) (G2 := G97) k.vk) := by
    rw [hf.vk_eq]
    intro g
    exact ⟨(show F97 from g), smul_one97 _⟩
  have hnd : Function.Injective (fun g : G97 => pair97 g (KzgVk.h (G := G97) k.vk)) := by
    rw [hf.vk_eq]
    intro g g' h
    exact (mul_one (M := F97) g).symm.trans (Eq.trans h (mul_one (M := F97) g'))
  have hx : challenges 7 ≠ 7 := by decide
  refine ⟨ck, k, ?_, ?_, ?_⟩
  · rintro ws (rfl | rfl) z
    · exact hA z
    · exact hB z
  · obtain ⟨draws, M, -, h⟩ := C63_group_elements_uniform (pk := ⟨k, ck⟩) pair97 challenges hf.kzgSetup h3 hg
      (.new _ fixed sigma table qBlind k.index) (viewRandom rowsA).witness inst vos dom_Ok hx
    exact ⟨draws, M, h⟩
  · refine C63_same_distribution (pk := ⟨k, ck⟩) pair97 challenges hf.kzgSetup h3 hg hnd (.new _ fixed sigma table qBlind k.index)
      (by simp only [viewRandom, viewOf, wit, List.length_cons, List.length_nil]) ((lengthRandom rowsB).trans (lengthRandom rowsA).symm) vos dom_Ok hx (vpre := vpreKzg henv ck) (vws := witness.map blankKzg) (vis := vinst)
      (zh := dom.vanishing) ?_ ?_
    · intro z π hπ
      obtain ⟨π', e1, e2⟩ := hA z
      obtain rfl := Res.ok.inj (e1.symm.trans hπ)
      exact e2
    · intro z π hπ
      obtain ⟨π', e1, e2⟩ := hB z
      obtain rfl := Res.ok.inj (e1.symm.trans hπ)
      exact e2

end Toy
end ZK
