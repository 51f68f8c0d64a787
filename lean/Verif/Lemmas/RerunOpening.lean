import Verif.Lemmas.Rerun
import Verif.Properties.Malleable
import Verif.Properties.SuccessExamples
/-! The multi-opening run again with other randomness. -/
set_option autoImplicit false
set_option linter.unusedSectionVars false
namespace ZK
open Polynomial

section
variable {F : Type} [Field F] [LinearOrder F] [FftParams F] {G : Type} [AddCommGroup G] [Module F G]
variable {G2 GT : Type} [AddCommGroup G2] [Module F G2] [AddCommGroup GT] [Module F GT] [DecidableEq GT]

theorem openingSets_erase {S : Scheme F} (oracles : List (ProverOracle F)) (rands : List S.Rand) (hl : rands.length = oracles.length) :
    (openingSets (fun (o : OracleRand S) => o.1.rotations) (List.zip oracles rands)).map (fun s => (s.1, s.2.map Prod.fst))
      = openingSets (fun (o : ProverOracle F) => o.rotations) oracles := by
  have := openingSets_map (fun (o : OracleRand S) => o.1.rotations) (fun (o : ProverOracle F) => o.rotations) Prod.fst
    (List.zip oracles rands) (fun _ _ => rfl)
  rw [← this, List.map_fst_zip hl.ge]

theorem mpFirstRound_rerun {S : Scheme F} {oracles : List (ProverOracle F)} {rands rands' : List S.Rand}
    (hl : rands.length = oracles.length) (hl' : rands'.length = oracles.length) {n : Nat} {d : Domain F} {xi x1 x2 : F} {qs f}
    (h : mpFirstRound (openingSets (fun (o : OracleRand S) => o.1.rotations) (List.zip oracles rands)) n d xi x1 x2 = .ok (qs, f)) :
    ∃ qs', mpFirstRound (openingSets (fun (o : OracleRand S) => o.1.rotations) (List.zip oracles rands')) n d xi x1 x2 = .ok (qs', f) ∧
      qs'.map Prod.fst = qs.map Prod.fst := by
  have h1 := mpFirstRound_erase (openingSets (fun (o : OracleRand S) => o.1.rotations) (List.zip oracles rands)) n d xi x1 x2
  have h2 := mpFirstRound_erase (openingSets (fun (o : OracleRand S) => o.1.rotations) (List.zip oracles rands')) n d xi x1 x2
  rw [openingSets_erase _ _ hl] at h1
  rw [openingSets_erase _ _ hl', ← h1, h] at h2
  obtain ⟨⟨qs', f'⟩, h3, h4⟩ := Res.map1_eq_ok.1 h2
  have h4 := Prod.ext_iff.1 h4
  obtain rfl : f' = f := h4.2
  exact ⟨qs', h3, h4.1⟩

theorem mpThirdRound_rerun {S : Scheme F} {qs qs' : List (List F × S.Rand)} {f : List F} {r r' : S.Rand} {x4 : F} {fin}
    (hq : qs'.map Prod.fst = qs.map Prod.fst) (h : mpThirdRound (S := S) qs f r x4 = .ok fin) :
    ∃ rand', mpThirdRound (S := S) qs' f r' x4 = .ok (fin.1, rand') := by
  have h1 := mpThirdRound_erase (S := S) qs f r x4
  have h2 := mpThirdRound_erase (S := S) qs' f r' x4
  rw [hq, ← h1, h] at h2
  obtain ⟨⟨fin', rand'⟩, h3, h4⟩ := Res.map1_eq_ok.1 h2
  obtain rfl : fin' = fin.1 := h4
  exact ⟨rand', h3⟩

theorem kzgOpen_rerun {key : KzgKey G} {p : List F} {x : F} {r : List F} {pf : KzgProof F G} (h : kzgOpen key p x r = .ok pf)
    (r' : List F) : ∃ pf', kzgOpen key p x r' = .ok pf' ∧ pf'.randomV = peval r' x := by
  unfold kzgOpen at h ⊢
  split at h
  · cases h
  · rename_i hd
    rw [if_neg hd]
    obtain ⟨w, hw, -⟩ := Res.bind_eq_ok.1 h
    obtain ⟨w', hw'⟩ := pdiv_linear_ok (ε := KzgErr) r' x
    exact ⟨_, Res.bind_eq_ok.2 ⟨w, hw, Res.bind_eq_ok.2 ⟨w', hw', rfl⟩⟩, rfl⟩

/-- With other randomness the multi-opening succeeds with the same values, and its group element and blinding value are linear in the three
elements drawn. -/
theorem mpProve_rerun (e : G →ₗ[F] G2 →ₗ[F] GT) (env : KzgEnv F G) (habs : ∀ t b, env.fsAbsorb t b = t)
    {beta : F} {ck : KzgKey G} {vk : KzgVk G G2} (hs : KzgSetup beta ck vk) (h3 : 3 ≤ ck.gammaPowers.length)
    {oracles : List (ProverOracle F)} {rands : List {r : List F // r.length ≤ 3}} (hl : rands.length = oracles.length) {xi : F}
    {domainSize : Nat} {t : env.T} {z : env.Z} {mp : MpProof (kzgScheme e env)}
    (h : mpProve (kzgScheme e env) ck oracles rands xi domainSize t z = .ok mp) :
    ∃ f, ∀ rands' : List {r : List F // r.length ≤ 3}, rands'.length = oracles.length → ∃ κ, ∀ y : env.Z, ∃ mp',
      mpProve (kzgScheme e env) ck oracles rands' xi domainSize t y = .ok mp' ∧ mp'.qEvals = mp.qEvals ∧
      mp'.fCommit = comAt beta vk env.next y 0 f ∧
      KzgProof.randomV (G := G) mp'.opening = draw env.next y 0 + draw env.next y 1 * (env.fsRand (env.fsRand (env.fsRand t).2).2).1 +
        draw env.next y 2 * (env.fsRand (env.fsRand (env.fsRand t).2).2).1 ^ 2 + κ := by
  have habs' : ∀ (t : (kzgScheme e env).T) cs, (kzgScheme e env).absorbComms t cs = t := fun t cs => habs _ _
  have habs'' : ∀ (t : (kzgScheme e env).T) cs, (kzgScheme e env).absorbFs t cs = t := fun t cs => habs _ _
  unfold mpProve at h ⊢
  simp only [Res.bind_eq_ok, Res.mapErr_eq_ok, Res.unwrap_eq_ok, habs', habs''] at h ⊢
  obtain ⟨d, h1, ⟨qs, f⟩, h2, ⟨fc, z'⟩, h4, ⟨f0, r0⟩, h5, ⟨fin, finRand⟩, h6, fc', h7, pr, h8, h9⟩ := h
  cases h9
  refine ⟨f, fun rands' hl' => ?_⟩
  obtain ⟨qs', e2, hq⟩ := mpFirstRound_rerun (S := kzgScheme e env) hl hl' h2
  obtain ⟨κ, hκ⟩ := mpThirdRound_rand e env qs' f
    (env.fsRand (env.fsRand (env.fsRand (env.fsRand t).2).2).2).1 (env.fsRand (env.fsRand (env.fsRand t).2).2).1
  refine ⟨κ, fun y => ?_⟩
  obtain ⟨⟨gc, y'⟩, e4⟩ := commit_rerun e env h3 h4 y
  obtain ⟨-, e5, e6⟩ := commit_reads (o := 0) (z0 := y) e env hs (by simp) rfl e4
  have e5' : gc.map Prod.fst = [comAt beta vk env.next y 0 f] := e5.trans (comsAt_singleton ..)
  have e6' : gc.map Prod.snd = [⟨[draw env.next y 0, draw env.next y 1, draw env.next y 2], by simp⟩] := e6.trans (randsAt_one ..)
  have el : gc.length = 1 := (List.length_map (as := gc) Prod.fst).symm.trans (congrArg List.length e5')
  obtain ⟨⟨c, r⟩, rfl⟩ := List.length_eq_one_iff.1 el
  have e7 : c = comAt beta vk env.next y 0 f := (List.cons.inj e5').1
  have e8 : r = ⟨[draw env.next y 0, draw env.next y 1, draw env.next y 2], by simp⟩ := (List.cons.inj e6').1
  obtain ⟨rand', e9⟩ := mpThirdRound_rerun (S := kzgScheme e env) (r' := r) hq h6
  obtain ⟨pf, e10, e11⟩ := kzgOpen_rerun (show kzgOpen ck fin _ finRand.1 = .ok pr from h8) rand'.1
  refine ⟨_, ⟨d, h1, _, e2, _, e4, (c, r), rfl, _, e9, _, h7, _, e10, rfl⟩, ?_, e7, ?_⟩
  · show qs'.map (fun q => peval q.1 _) = qs.map (fun q => peval q.1 _)
    have : ∀ (l : List (List F × (kzgScheme e env).Rand)) x, l.map (fun q => peval q.1 x) = (l.map Prod.fst).map (fun q => peval q x) := by
      intro l x
      rw [List.map_map]
      rfl
    rw [this, this, hq]
  · refine e11.trans ((hκ _ _ e9).trans ?_)
    rw [e8]
    simp only [peval_eq_eval, toPoly_cons, toPoly_nil, eval_add, eval_mul, eval_C, eval_X, eval_zero]
    ring

end
end ZK
