import Verif.Properties.Commitment
import Verif.Lemmas.Hiding
/-! C54: commitments and openings of SonicKZG10, as the crate uses it, hide the polynomials. -/
set_option autoImplicit false
set_option linter.unusedSectionVars false
namespace ZK
open Polynomial

section
variable {F : Type} [Field F] {G : Type} [AddCommGroup G] [Module F G]
variable {G2 GT : Type} [AddCommGroup G2] [Module F G2] [AddCommGroup GT] [Module F GT] [DecidableEq GT]

theorem kzgBlinding_eq {Z : Type} (next : Z → F × Z) (z : Z) :
    kzgBlinding next z = ([draw next z 0, draw next z 1, draw next z 2], after next 3 z) := rfl

variable [DecidableEq F]

theorem kzgCommit_draws {Z : Type} (next : Z → F × Z) {beta : F} {key : KzgKey G} {vk : KzgVk G G2}
    (hs : KzgSetup beta key vk) {ps : List (LPoly F)} (hh : ∀ p ∈ ps, p.hide = true) {z z' : Z} {out : List (G × List F)}
    (h : kzgCommit next key ps z = .ok (out, z')) :
    z' = after next (3 * ps.length) z ∧
    out = List.ofFn (fun c : Fin ps.length => ((toPoly ps[c].poly).eval beta • vk.g + (draw next z (3 * c)
      + draw next z (3 * c + 1) * beta + draw next z (3 * c + 2) * beta ^ 2) • vk.gammaG,
      [draw next z (3 * c), draw next z (3 * c + 1), draw next z (3 * c + 2)])) := by
  induction ps generalizing z z' out with
  | nil =>
    have h := Res.ok.inj h
    simp only [Prod.mk.injEq] at h
    exact ⟨h.2.symm, h.1.symm⟩
  | cons p ps ih =>
    obtain ⟨c, hc, h⟩ := Res.bind_eq_ok.1 h
    obtain ⟨rest, hr, h⟩ := Res.bind_eq_ok.1 h
    have h := Res.ok.inj h
    simp only [Prod.mk.injEq] at h
    rw [if_pos (hh p (by simp)), kzgBlinding_eq] at hc hr h
    obtain ⟨h1, h2⟩ := ih (fun q hq => hh q (by simp [hq])) hr
    obtain ⟨h3, h4, h5⟩ := (kzgCommitWith_iff ..).1 hc
    rw [kzgCom_eval hs _ _ (lt_of_le_of_lt degree_le_natDegree (by exact_mod_cast h3)) h4] at h5
    refine ⟨?_, ?_⟩
    · rw [← h.2, h1, ← after_add, List.length_cons]
      congr 1
      ring
    · rw [← h.1, h2, List.ofFn_succ]
      refine congrArg₂ List.cons ?_ ?_
      · rw [h5]
        simp only [Fin.val_zero, mul_zero, zero_add, List.getElem_cons_zero, Fin.getElem_fin]
        congr 3
        simp only [toPoly_cons, toPoly_nil, eval_add, eval_mul, eval_C, eval_X, eval_zero]
        try ring
      · congr 1

/-- Distributing `3 * m` draws to `m` commitments. -/
theorem shifts_commitments (m : Nat) (a : Fin m → G) {gamma : G} (hg : Function.Surjective (fun k : F => k • gamma)) (beta : F) :
    Shifts (fun (r : Fin (3 * m) → F) (c : Fin m) => a c + (r ⟨3 * c, by omega⟩ + r ⟨3 * c + 1, by omega⟩ * beta
      + r ⟨3 * c + 2, by omega⟩ * beta ^ 2) • gamma) := by
  intro y y'
  choose k hk using fun c => hg (y' c - y c)
  refine ⟨fun r j => if j.1 % 3 = 0 then r j + k ⟨j / 3, by omega⟩ else r j, ?_, ?_⟩
  · intro r r' h
    funext j
    have := congrFun h j
    simp only at this
    split at this
    · exact add_right_cancel this
    · exact this
  · intro r hr
    funext c
    have h1 := congrFun hr c
    have h2 := hk c
    simp only at h1 h2 ⊢
    rw [if_pos (by omega), if_neg (by omega), if_neg (by omega)]
    rw [show (⟨3 * (c : ℕ) / 3, by omega⟩ : Fin m) = c from Fin.ext (by simp only; omega)]
    rw [show y' c = y c + k c • gamma from by rw [h2]; abel, ← h1]
    module

/-- **C54** (commitments) Let the key be generated correctly and the blinding generator generate the group. The commitments
to any list of polynomials with hiding bounds depend on the generator of random elements only through three elements per
polynomial, and as a function of these they are jointly uniformly distributed, whatever the polynomials are. -/
theorem C54_commitments_uniform [Fintype F] (e : G →ₗ[F] G2 →ₗ[F] GT) (env : KzgEnv F G) {beta : F} {key : KzgKey G}
    {vk : KzgVk G G2} (hs : KzgSetup beta key vk) (hg : Function.Surjective (fun k : F => k • vk.gammaG))
    {ps : List (LPoly F)} (hh : ∀ p ∈ ps, p.hide = true) :
    ∃ f : (Fin (3 * ps.length) → F) → Fin ps.length → G,
      (∀ (z : env.Z) (out : List (G × (kzgScheme e env).Rand)) (z' : env.Z), (kzgScheme e env).commit key ps z = .ok (out, z') →
        z' = after env.next (3 * ps.length) z ∧ out.map Prod.fst = List.ofFn (f (fun i => draw env.next z i))) ∧ Uniform f := by
  refine ⟨_, ?_, (shifts_commitments ps.length (fun c => (toPoly ps[c].poly).eval beta • vk.g) hg beta).uniform⟩
  intro z out z' h
  obtain ⟨o, h1, h2⟩ := Res.bind_eq_ok.1 h
  have h2 := Prod.ext_iff.1 (Res.ok.inj h2)
  obtain ⟨h3, h4⟩ := kzgCommit_draws env.next hs hh h1
  refine ⟨h2.2.symm.trans h3, ?_⟩
  have h5 : out = _ := h2.1.symm
  rw [h5, h4]
  simp only [List.map_map, List.map_ofFn]
  exact List.map_ofFn

/-- The randomness of the other polynomials adds a constant to the value of the blinding polynomial. -/
theorem mpThirdRound_rand (e : G →ₗ[F] G2 →ₗ[F] GT) (env : KzgEnv F G)
    (qs : List (List F × (kzgScheme e env).Rand)) (f : List F) (x4 x : F) :
    ∃ k, ∀ r out, mpThirdRound (S := kzgScheme e env) qs f r x4 = .ok out →
      peval out.2.1 x = peval r.1 x + k := by
  have key : ∀ (xs : List F) (l : List ((List F × (kzgScheme e env).Rand) × Nat)), ∃ k, ∀ acc out,
      Res.foldM (fun (acc : List F × (kzgScheme e env).Rand) (q : (List F × (kzgScheme e env).Rand) × Nat) => do
        let x ← Res.idx xs q.2
        pure (dadd acc.1 (dscale x q.1.1), (kzgScheme e env).addRand acc.2 ((kzgScheme e env).scaleRand q.1.2 x))) acc l
          = (.ok out : Res PiopErr _) → peval out.2.1 x = peval acc.2.1 x + k := by
    intro xs l
    induction l with
    | nil =>
      refine ⟨0, fun acc out h => ?_⟩
      obtain rfl := Res.ok.inj h
      rw [add_zero]
    | cons q l ih =>
      obtain ⟨k, hk⟩ := ih
      cases hx : xs[q.2]? with
      | none =>
        refine ⟨0, fun acc out h => ?_⟩
        obtain ⟨b, h1, -⟩ := Res.foldM_eq_ok_cons.1 h
        obtain ⟨y, h2, -⟩ := Res.bind_eq_ok.1 h1
        rw [Res.idx_eq_ok, hx] at h2
        cases h2
      | some y =>
        refine ⟨y * peval q.1.2.1 x + k, fun acc out h => ?_⟩
        obtain ⟨b, h1, h3⟩ := Res.foldM_eq_ok_cons.1 h
        obtain ⟨y', h2, h4⟩ := Res.bind_eq_ok.1 h1
        rw [Res.idx_eq_ok, hx] at h2
        obtain rfl := Option.some.inj h2
        obtain rfl := Res.ok.inj h4
        rw [hk _ _ h3]
        show peval (dadd acc.2.1 (dscale y q.1.2.1)) x + k = _
        rw [peval_eq_eval, toPoly_dadd, toPoly_dscale, eval_add, eval_mul, eval_C, eval_toPoly, eval_toPoly]
        ring
  obtain ⟨k, hk⟩ := key (powersFrom x4 x4 qs.length) qs.zipIdx
  exact ⟨k, fun r out h => hk _ _ h⟩

/-- **C54** (opening) In the multi-opening the prover commits to `f` with fresh randomness, combines it with the other
polynomials and opens the result at `x3`. Of what it sends then, the commitment to `f` and the value of the blinding
polynomial are jointly uniformly distributed, whatever the polynomials and their earlier randomness are, unless `x3` is the
secret of the key. -/
theorem C54_opening_uniform [Fintype F] (e : G →ₗ[F] G2 →ₗ[F] GT) (env : KzgEnv F G) {beta : F} {key : KzgKey G}
    {vk : KzgVk G G2} (hs : KzgSetup beta key vk) (hg : Function.Surjective (fun k : F => k • vk.gammaG))
    (label label' : Label) (f : List F) (qs : List (List F × (kzgScheme e env).Rand)) {x3 x4 : F} (hx : x3 ≠ beta) :
    ∃ g : (Fin 3 → F) → G × F,
      (∀ (z : env.Z) (c : G) r (z' : env.Z) fin finRand cs (pf : KzgProof F G), (kzgScheme e env).commit key [⟨label, f, true⟩] z = .ok ([(c, r)], z') →
        mpThirdRound (S := kzgScheme e env) qs f r x4 = .ok (fin, finRand) →
        (kzgScheme e env).open_ key ⟨label', fin, false⟩ cs x3 finRand = .ok pf →
        (c, pf.randomV) = g (fun i => draw env.next z i)) ∧ Uniform g := by
  obtain ⟨k, hk⟩ := mpThirdRound_rand e env qs f x4 x3
  refine ⟨fun r => ((toPoly f).eval beta • vk.g + (r 0 + r 1 * beta + r 2 * beta ^ 2) • vk.gammaG,
    r 0 + r 1 * x3 + r 2 * x3 ^ 2 + k), ?_, ?_⟩
  · intro z c r z' fin finRand cs pf h1 h2 h3
    obtain ⟨o, h4, h5⟩ := Res.bind_eq_ok.1 h1
    have h5 := Prod.ext_iff.1 (Res.ok.inj h5)
    obtain ⟨h6, h7⟩ := kzgCommit_draws env.next hs (by simp) h4
    have h8 : _ = [(c, r)] := h5.1
    rw [h7] at h8
    simp only [List.length_singleton, List.ofFn_succ, List.ofFn_zero] at h8
    have h8 := Prod.ext_iff.1 (List.cons.inj h8).1
    refine Prod.ext ?_ ?_
    · exact h8.1.symm
    · have h9 : KzgProof.randomV pf = peval finRand.1 x3 := by
        have h3 : kzgOpen key fin x3 finRand.1 = .ok pf := h3
        unfold kzgOpen at h3
        split at h3
        · cases h3
        · obtain ⟨w, -, h3⟩ := Res.bind_eq_ok.1 h3
          obtain ⟨w', -, h3⟩ := Res.bind_eq_ok.1 h3
          obtain rfl := Res.ok.inj h3
          rfl
      have h10 := hk _ _ h2
      simp only at h10 ⊢
      rw [h9, h10, show r = _ from h8.2.symm]
      simp only [peval_eq_eval, toPoly_cons, toPoly_nil, eval_add, eval_mul, eval_C, eval_X, eval_zero, List.take]
      show _ = draw env.next z 0 + draw env.next z 1 * x3 + draw env.next z 2 * x3 ^ 2 + k
      simp only [Fin.val_zero, mul_zero, zero_add]
      ring
  · refine Shifts.uniform ?_
    intro y y'
    obtain ⟨a, ha⟩ := hg (y'.1 - y.1)
    -- a line with value `a` at the secret and the required difference at `x3`
    obtain ⟨s, t, h1, h2⟩ : ∃ s t : F, s + t * beta = a ∧ s + t * x3 = y'.2 - y.2 := by
      have hne : x3 - beta ≠ 0 := sub_ne_zero.2 hx
      refine ⟨a - (y'.2 - y.2 - a) / (x3 - beta) * beta, (y'.2 - y.2 - a) / (x3 - beta), by ring, ?_⟩
      field_simp
      ring
    refine ⟨fun r => ![r 0 + s, r 1 + t, r 2], ?_, ?_⟩
    · intro r r' h
      have h3 := congrFun h 0
      have h4 := congrFun h 1
      have h5 := congrFun h 2
      simp only [Matrix.cons_val_zero, Matrix.cons_val_one, Matrix.cons_val] at h3 h4 h5
      funext i
      fin_cases i
      · exact add_right_cancel h3
      · exact add_right_cancel h4
      · exact h5
    · intro r hr
      have h3 := (Prod.ext_iff.1 hr).1
      have h4 := (Prod.ext_iff.1 hr).2
      simp only [Matrix.cons_val_zero, Matrix.cons_val_one, Matrix.cons_val] at h3 h4 ha ⊢
      refine Prod.ext ?_ ?_
      · simp only
        rw [show y'.1 = y.1 + a • vk.gammaG from by rw [ha]; abel, ← h3, ← h1]
        module
      · simp only
        rw [show y'.2 = y.2 + (s + t * x3) from by rw [h2]; ring, ← h4]
        ring

/-- **C54** (witness) The rest of an opening is determined by what the verifier knows anyway: two accepted openings of the
same value with the same value of the blinding polynomial have the same witness, unless `x` is the secret of the key. -/
theorem C54_witness_determined (e : G →ₗ[F] G2 →ₗ[F] GT) {beta : F} {key : KzgKey G} {vk : KzgVk G G2}
    (hs : KzgSetup beta key vk) (hnd : Function.Injective (fun g => e g vk.h)) {c : G} {x v : F} (hx : x ≠ beta)
    {pf pf' : KzgProof F G} (h : kzgCheck e vk c x v pf = true) (h' : kzgCheck e vk c x v pf' = true)
    (hr : pf.randomV = pf'.randomV) : pf = pf' := by
  have h1 := of_decide_eq_true h
  have h2 := of_decide_eq_true h'
  rw [hr, h2] at h1
  rw [hs.betaH, ← sub_smul, map_smul, map_smul] at h1
  have h3 : pf'.w = pf.w := hnd (smul_right_injective _ (sub_ne_zero.2 hx.symm) h1)
  cases pf; cases pf'
  simp only at hr h3
  rw [hr, h3]

end
end ZK
