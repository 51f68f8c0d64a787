import Verif.Properties.Setup
/-! C59: the hypotheses are met by the toy circuit with commitments in the additive group of the field. -/
set_option autoImplicit false
set_option linter.unusedSectionVars false
namespace ZK
open Polynomial
namespace Toy

/-- A group of 97 elements. -/
def G97 : Type := F97
instance : DecidableEq G97 := inferInstanceAs (DecidableEq F97)
noncomputable instance : AddCommGroup G97 := Field.toDivisionRing.toRing.toAddCommGroup (R := F97)
noncomputable instance : Module F97 G97 := Semiring.toModule (R := F97)

def mul97 (a b : F97) : F97 := a * b

/-- The pairing is the product. -/
noncomputable def pair97 : G97 →ₗ[F97] G97 →ₗ[F97] G97 :=
  LinearMap.mk₂ F97 (show G97 → G97 → G97 from mul97) (fun a b c => add_mul (R := F97) a b c)
    (fun c a b => mul_assoc (G := F97) c a b) (fun a b c => mul_add (R := F97) a b c)
    (fun c a b => mul_left_comm (G := F97) a c b)

variable (env : KzgEnv F97 G97)

/-- The indexer makes the same index for another commitment scheme. -/
theorem keyKzg {k : VerifierKey S} (hk : key = .ok k) (vk : KzgVk G97 G97) :
    ∃ k' : VerifierKey (kzgScheme pair97 env), indexer (S := kzgScheme pair97 env) (fun o => o.shouldPermute) vk vos [lookup] witness
      inst fixed dom dom.vanishing info 2 = .ok k' ∧ k'.index = k.index := by
  have h1 := indexer_outcome (S := S) (fun (o : ProverOracle F97) => o.shouldPermute) () vos [lookup] witness inst fixed dom dom_Ok
    dom.vanishing info 2
  have h2 := indexer_outcome (S := kzgScheme pair97 env) (fun (o : ProverOracle F97) => o.shouldPermute) vk vos [lookup] witness inst
    fixed dom dom_Ok dom.vanishing info 2
  simp only at h1 h2
  obtain ⟨a1, a2, a3, a4, a5, a6, -⟩ := h1
  obtain ⟨-, -, -, -, -, b6, -⟩ := h2
  have hw : vos.findSome? (gateError (E := S.E) (Labels.of witness inst fixed)) = none := by
    rw [List.findSome?_eq_none_iff]
    intro vo hvo
    simp only [vos, List.mem_cons, List.not_mem_nil, or_false] at hvo
    rcases hvo with rfl | rfl <;> decide +kernel
  have hw' : vos.findSome? (gateError (E := KzgErr) (Labels.of witness inst fixed)) = none := by
    rw [List.findSome?_eq_none_iff]
    intro vo hvo
    simp only [vos, List.mem_cons, List.not_mem_nil, or_false] at hvo
    rcases hvo with rfl | rfl <;> decide +kernel
  change indexer (S := S) (fun o => o.shouldPermute) () vos [lookup] witness inst fixed dom dom.vanishing info 2 = _ at hk
  rcases lt_or_ge (maxGateDegree dom.size vos) (toPoly dom.vanishing).natDegree with hM | hM
  · rw [a2 hw hM] at hk; cases hk
  rcases lt_or_ge (2 ^ FftParams.adicity F97) (maxGateDegree dom.size vos - (toPoly dom.vanishing).natDegree) with hq | hq
  · rw [a3 hw hM hq] at hk; cases hk
  rcases lt_or_ge (2 ^ Nat.clog 2 (maxGateDegree dom.size vos - (toPoly dom.vanishing).natDegree)) dom.size with hle | hle
  · rw [a4 hw hM hq hle] at hk; cases hk
  generalize maxGateDegree dom.size vos - (toPoly dom.vanishing).natDegree = m at *
  generalize scalingFactor dom.size m (witness.filter (fun o => o.shouldPermute)).length [lookup].length = sf at *
  rcases lt_or_ge (2 ^ FftParams.adicity F97) (sf * dom.size) with hf | hf
  · rw [a5 hw hM hq hle hf] at hk; cases hk
  obtain ⟨k1, e1, -, q1, x1, s1, p1, l1, u1, -⟩ := a6 hw hM hq hle hf
  obtain ⟨k2, e2, -, q2, x2, s2, p2, l2, u2, -⟩ := b6 hw' hM hq hle hf
  rw [e1] at hk
  obtain rfl := Res.ok.inj hk
  refine ⟨k2, e2, ?_⟩
  have hx : k2.index.ext = k1.index.ext := by
    have h1 := x1.new_self
    have h2 := x2.new_self
    rw [s1] at h1
    rw [s2] at h2
    exact Option.some.inj (h2.symm.trans h1)
  generalize k2.index = i2 at *
  generalize k1.index = i1 at *
  cases i2; cases i1
  simp_all

/-- The commitments of the preprocessed columns. -/
noncomputable def publishedKzg (ck : KzgKey G97) (o : ProverOracle F97) : VerifierOracle F97 G97 :=
  ⟨o.kind, o.label, o.rotations, [], some (kzgCom ck (toPoly o.poly) (toPoly [])), o.shouldPermute⟩

/-- The verifier's oracle of a witness column. -/
def blankKzg (o : ProverOracle F97) : VerifierOracle F97 G97 := ⟨o.kind, o.label, o.rotations, [], none, o.shouldPermute⟩

noncomputable def vpreKzg (ck : KzgKey G97) : VerifierPreprocessed (kzgScheme pair97 env) :=
  ⟨fixed.map (publishedKzg ck), table.map (publishedKzg ck), sigma.map (publishedKzg ck), publishedKzg ck qBlind⟩

theorem setUpKzg (ck : KzgKey G97) : SetUp (kzgScheme pair97 env)
    (fun (p : F97[X]) (r : {r : List F97 // r.length ≤ 3}) => (kzgCom ck p (toPoly r.1) : G97))
    view sigma qBlind (witness.map blankKzg) vinst (vpreKzg env ck) := by
  have key : ∀ os : List (ProverOracle F97), List.Forall₂ (fun (o : ProverOracle F97) (p : VerifierOracle F97 G97) =>
      SameConfig o p ∧ p.commitment = some (kzgCom ck (toPoly o.poly) (toPoly ([] : List F97)))) os (os.map (publishedKzg ck)) := fun os =>
    List.forall₂_map_right_iff.2 (List.forall₂_same.2 fun o _ => ⟨⟨rfl, rfl, rfl⟩, rfl⟩)
  exact ⟨List.forall₂_map_right_iff.2 (List.forall₂_same.2 fun o _ => ⟨rfl, rfl, rfl⟩), setUp.inst, key _, key _, key _,
    ⟨⟨rfl, rfl, rfl⟩, rfl⟩⟩

/-- The toy circuit with a setup of degree 3 for its four rows. -/
theorem end_to_end (beta : F97) (g gammaG h : G97) (z : env.Z) : ∃ srs ck vk k, universalSetup 3 beta g gammaG h = .ok srs ∧
    prepareKeys srs = .ok (ck, vk) ∧ indexer (S := kzgScheme pair97 env) (fun o => o.shouldPermute) vk vos [lookup] witness
      inst fixed dom dom.vanishing info 2 = .ok k ∧
    ∃ theta beta gamma, FirstMessages (kzgScheme pair97 env) ⟨k, ck⟩ view dom z theta beta gamma ∧
      (GoodDraw dom k.index view sigma theta beta gamma →
        ∃ tr, proveRounds (kzgScheme pair97 env) ⟨k, ck⟩ (.new _ fixed sigma table qBlind k.index) witness inst vos dom.size z = .ok tr ∧
          (tr.chal.xi ≠ 0 →
            ∃ proof, prove (kzgScheme pair97 env) ⟨k, ck⟩ (.new _ fixed sigma table qBlind k.index) witness inst vos dom.size z = .ok proof ∧
              ((∀ n : ℤ, (mpChallenges _ proof.multiopen (verifierChallenges _ proof).2).2.2.1 ≠ tr.chal.xi * dom.omega ^ n) →
                verify (kzgScheme pair97 env) k (vpreKzg env ck) proof (witness.map blankKzg) vinst vos dom.size dom.vanishing = .ok ()))) := by
  obtain ⟨srs, ck, vk, h1, h2, -⟩ := (C59_keys 3 beta g gammaG h).2 (by decide)
  obtain ⟨k0, p, hk0, -, hqd⟩ := of_holds (ws := witness) (P := fun k p => decide
    (k.index.quotientDegree ≠ k.index.ext.size)) (by decide +kernel)
  obtain ⟨k, hk, hi⟩ := keyKzg env hk0 vk
  have hsz := dom_size
  have hz : toPoly dom.vanishing = X ^ dom.size - 1 := toPoly_vanishing dom dom_Ok.size_pos
  have hdeg : (X ^ dom.size - 1 : F97[X]).natDegree = dom.size := natDegree_X_pow_sub_C (r := (1 : F97))
  obtain ⟨-, -, -, -, -, -, -, -, -, hu, hdl, hl, hu', -⟩ := indexer_ok dom_Ok hk0
  obtain ⟨tau, henc, hcop⟩ := copiedOk k.index.perm.usableRows (by rw [hi]; exact hu)
  refine ⟨srs, ck, vk, k, h1, h2, hk, ?_⟩
  have hmain := C59_end_to_end (pair97) env h1 h2 dom_Ok (by rw [hsz]; norm_num) (by rw [hsz]) hk (by decide +kernel)
    (by rw [hz]) (Or.inl hz) (by rw [hi]; exact of_decide_eq_true hqd) (fun _ => by rw [hz, hdeg]; omega)
    (by rw [hi]; exact supported hk0) (by rw [hi]; exact provable hk0) (by rw [show k.index.perm.deltas = info.deltas from (congrArg (fun i => i.perm.deltas) hi).trans hdl]; exact henc.1) (setUpKzg env ck)
    (gatesHold _) hcop (by rw [hi]; exact lookedUp hk0) z
  obtain ⟨theta, beta', gamma, g1, g2⟩ := hmain
  refine ⟨theta, beta', gamma, g1, fun hg => ?_⟩
  obtain ⟨tr, g3, -, -, -, g4⟩ := g2 hg
  refine ⟨tr, g3, fun hxi => ?_⟩
  obtain ⟨proof, g5, -, g6⟩ := g4 hxi
  exact ⟨proof, g5, g6⟩

end Toy
end ZK
