import Verif.Properties.Success
import Verif.Properties.SoundnessExamples
/-! The hypotheses of C52 are met by SonicKZG10 and by the toy circuit. -/
set_option autoImplicit false
set_option linter.unusedSectionVars false
namespace ZK
open Polynomial

section
variable {F : Type} [Field F] [DecidableEq F] {G : Type} [AddCommGroup G] [Module F G]
variable {G2 GT : Type} [AddCommGroup G2] [Module F G2] [AddCommGroup GT] [Module F GT] [DecidableEq GT]

theorem kzgCommitWith_ok {key : KzgKey G} {p r : List F} {n : Nat} (hp : p.length ≤ n) (hn : n ≤ key.powers.length)
    (h0 : 0 < n) (hr : (trim r).length ≤ key.gammaPowers.length) : ∃ c, kzgCommitWith key p r = .ok c := by
  have h := trim_length_le p
  unfold kzgCommitWith
  rw [if_neg (by unfold pdegree; omega), if_neg (by omega)]
  exact ⟨_, rfl⟩

theorem pdiv_linear_ok {ε : Type} (p : List F) (x : F) : ∃ q, (pdiv p [-x, 1] : Res ε (List F)) = .ok q := by
  have e : (trim [-x, 1]).getLast? = some (1 : F) := by simp [trim]
  unfold pdiv
  rw [e]
  exact ⟨_, rfl⟩

/-- **C52** (commitments) SonicKZG10 as the crate uses it can commit to and open polynomials with at most `n` coefficients
when the key has `n` powers of the secret and three powers for blinding. Together with `C44_homomorphic` this meets the
hypotheses of `C52_honest_prover_succeeds` about the commitment scheme. -/
theorem C52_kzg_supports (e : G →ₗ[F] G2 →ₗ[F] GT) (env : KzgEnv F G) {key : KzgKey G} {n : Nat} (h0 : 0 < n)
    (hn : n ≤ key.powers.length) (h3 : 3 ≤ key.gammaPowers.length) : SupportsDegree (kzgScheme e env) key n where
  commit := by
    intro ps z hps
    have key' : ∀ (ps : List (LPoly F)) (z : env.Z), (∀ p ∈ ps, p.poly.length ≤ n) → ∃ out, kzgCommit env.next key ps z = .ok out := by
      intro ps
      induction ps with
      | nil => intro z _; exact ⟨_, rfl⟩
      | cons p ps ih =>
        intro z hps
        obtain ⟨c, hc⟩ := kzgCommitWith_ok (key := key) (r := (if p.hide then kzgBlinding env.next z else ([], z)).1)
          (hps p (by simp)) hn h0 (((trim_length_le _).trans (kzgBlinding_length env.next z p.hide)).trans h3)
        obtain ⟨rest, hr⟩ := ih (if p.hide then kzgBlinding env.next z else ([], z)).2 (fun q hq => hps q (by simp [hq]))
        exact ⟨_, Res.bind_eq_ok.2 ⟨c, hc, Res.bind_eq_ok.2 ⟨rest, hr, rfl⟩⟩⟩
    obtain ⟨out, ho⟩ := key' ps z hps
    exact ⟨_, Res.bind_eq_ok.2 ⟨out, ho, rfl⟩⟩
  commitPlain := by
    intro p hp
    obtain ⟨c, hc⟩ := kzgCommitWith_ok (key := key) (r := []) hp hn h0 (by simp [trim])
    exact ⟨_, Res.bind_eq_ok.2 ⟨c, hc, rfl⟩⟩
  open_ := by
    intro p cs x r hp _
    have h := trim_length_le p.poly
    obtain ⟨w, hw⟩ := pdiv_linear_ok (ε := KzgErr) p.poly x
    obtain ⟨w', hw'⟩ := pdiv_linear_ok (ε := KzgErr) (Subtype.val r : List F) x
    refine ⟨⟨kzgMulti key.powers w + kzgMulti key.gammaPowers w', peval r.1 x⟩, ?_⟩
    show kzgOpen key p.poly x r.1 = _
    unfold kzgOpen
    rw [if_neg (by unfold pdegree; omega)]
    exact Res.bind_eq_ok.2 ⟨w, hw, Res.bind_eq_ok.2 ⟨w', hw', rfl⟩⟩

omit [DecidableEq F] in
/-- Sets with few pairs miss a pair as soon as the field is large enough. -/
theorem FewPairs.exists_notMem {k : Nat} {A : Set (F × F)} (h : FewPairs k A) (T : Finset F) (hT : k < T.card) :
    ∃ p, p ∉ A := by
  classical
  by_contra hc
  push Not at hc
  have h1 := h T
  rw [Finset.filter_true_of_mem (fun p _ => hc p), Finset.card_product] at h1
  exact absurd (Nat.le_of_mul_le_mul_right h1 (by omega)) (by omega)

end

namespace Toy

theorem supports (n : Nat) : SupportsDegree S () n :=
  ⟨fun _ _ _ => ⟨_, rfl⟩, fun _ _ => ⟨_, rfl⟩, fun _ _ _ _ _ _ => ⟨_, rfl⟩⟩

theorem provable {k : VerifierKey S} (hk : key = .ok k) : Provable dom k.index view sigma qBlind vos := by
  have hs := dom_size
  obtain ⟨-, -, -, -, -, -, -, -, -, hu, hdl, hl, hu', -⟩ := indexer_ok dom_Ok hk
  constructor
  · simp [vos]
  · rw [hu, hs]; decide
  · intro _
    rw [hdl, maxCols hk]
    decide +kernel
  · intro l hll es ts he ht
    rw [hl] at hll
    obtain rfl := List.mem_singleton.1 hll
    obtain ⟨⟩ := Res.ok.inj he
    obtain ⟨⟩ := Res.ok.inj ht
    refine ⟨rfl, ?_⟩
    intro e hee
    obtain rfl := List.mem_singleton.1 hee
    exact ⟨1, le_rfl, rfl⟩
  · rw [hs]
    intro o ho
    simp only [view, viewOf, wit, inst, fixed, table, sigma, qBlind, List.cons_append, List.nil_append, List.mem_cons,
      List.not_mem_nil, or_false] at ho
    rcases ho with rfl | rfl | rfl | rfl | rfl | rfl | rfl | rfl | rfl <;> simp only [column] <;> decide +kernel

/-- The sigmas swap `a[0]` and `b[1]`, whose values agree. -/
theorem copiedOk (u : Nat) (hu : u = 2) : ∃ tau : Equiv.Perm (Fin (view.witness.filter (·.shouldPermute)).length × Fin u),
    Encodes dom info.deltas sigma tau ∧ CopiesHold view tau := by
  subst hu
  refine ⟨Equiv.swap (⟨0, by decide +kernel⟩, 0) (⟨1, by decide +kernel⟩, 1), ?_⟩
  unfold Encodes MadeFrom CopiesHold
  decide +kernel

theorem lookedUp {k : VerifierKey S} (hk : key = .ok k) : LookupsHold dom.size k.index.usableRows view k.index.lookups := by
  have hs := dom_size
  obtain ⟨-, -, -, -, -, -, -, -, -, hu, hdl, hl, hu', -⟩ := indexer_ok dom_Ok hk
  intro l hll es ts he ht i hi
  rw [hl] at hll
  obtain rfl := List.mem_singleton.1 hll
  obtain ⟨⟩ := Res.ok.inj he
  obtain ⟨⟩ := Res.ok.inj ht
  rw [hu'] at hi ⊢
  have hr : ∀ i < 2, ∀ q ∈ (Expr.oracle qC : Expr F97).queries,
      ReadsCell dom.size view i q (if i = 0 then 56 else 26) := by
    rw [dom_size]
    intro i hi q hq
    obtain rfl := List.mem_singleton.1 hq
    refine ⟨by decide, column .witness [3] [56, 26, 9, 2] [.curr] false, findOracle_eq_some.1 rfl, i, ?_, ?_⟩
    · interval_cases i <;> rfl
    · interval_cases i <;> rfl
  refine ⟨1 - i, by omega, List.Forall₂.cons ⟨fun _ => if i = 0 then 56 else 26, hr i hi, 
    column .fixed [6] [26, 56, 0, 0] [.curr] false, findOracle_eq_some.1 rfl, ?_⟩ .nil⟩
  interval_cases i <;> rfl

/-- The hypotheses of C52 are met by the toy circuit, and for every `theta` there are `beta` and `gamma` for which no
denominator vanishes. -/
theorem succeeds : ∃ k theta beta gamma, key = .ok k ∧ FirstMessages S ⟨k, ()⟩ view dom () theta beta gamma ∧
    (GoodDraw dom k.index view sigma theta beta gamma → ∃ tr, proveRounds S ⟨k, ()⟩ (pre k) witness inst vos dom.size () = .ok tr ∧
      (tr.chal.xi ≠ 0 → ∃ proof, prove S ⟨k, ()⟩ (pre k) witness inst vos dom.size () = .ok proof ∧
        ((∀ n : ℤ, (mpChallenges S proof.multiopen (verifierChallenges S proof).2).2.2.1 ≠ tr.chal.xi * dom.omega ^ n) →
          verify S k vpre proof (witness.map blank) vinst vos dom.size dom.vanishing = .ok ()))) ∧
    ∀ theta', ∃ beta' gamma', GoodDraw dom k.index view sigma theta' beta' gamma' := by
  obtain ⟨k, p, hk, -, h⟩ := of_holds (ws := witness) (P := fun k p => decide
    (k.index.quotientDegree ≠ k.index.ext.size)) (by decide +kernel)
  have hsz := dom_size
  have hz : toPoly dom.vanishing = X ^ dom.size - 1 := toPoly_vanishing dom dom_Ok.size_pos
  have hdeg : (X ^ dom.size - 1 : F97[X]).natDegree = dom.size := natDegree_X_pow_sub_C (r := (1 : F97))
  obtain ⟨-, -, -, -, -, -, -, -, -, hu, hdl, hl, hu', -⟩ := indexer_ok dom_Ok hk
  obtain ⟨tau, henc, hcop⟩ := copiedOk k.index.perm.usableRows hu
  obtain ⟨theta, beta, gamma, h1, h2⟩ := C52_honest_prover_succeeds (pk := ⟨k, ()⟩) (ideal_homomorphic _ _) dom_Ok (by rw [hsz]; norm_num)
    (supports _) hk (by decide +kernel) (by rw [hz]) (Or.inl hz) (of_decide_eq_true h) (fun _ => by rw [hz, hdeg]; omega)
    (supported hk) (provable hk) (by rw [hdl]; exact henc.1) setUp (gatesHold _) hcop (lookedUp hk) ()
  refine ⟨k, theta, beta, gamma, hk, h1, ?_, ?_⟩
  · intro hg
    obtain ⟨tr, h3, -, -, -, h4⟩ := h2 hg
    refine ⟨tr, h3, fun hxi => ?_⟩
    obtain ⟨proof, h5, -, h6⟩ := h4 hxi
    exact ⟨proof, h5, h6⟩
  · intro theta'
    obtain ⟨q, hq⟩ := (C52_few_bad_draws dom k.index view sigma theta').exists_notMem Finset.univ (by
      rw [hl, hu, hu', Finset.card_univ, show Fintype.card F97 = 97 from ZMod.card 97,
        show (view.witness.filter (·.shouldPermute)).length = 2 from by decide +kernel]
      decide)
    exact ⟨q.1, q.2, not_not.1 hq⟩

end Toy
end ZK
