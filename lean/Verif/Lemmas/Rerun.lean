import Verif.Lemmas.Local
import Verif.Lemmas.Erase
import Verif.Properties.HidingKzg
import Verif.Properties.ProofSize
/-! Running the prover again with other randomness for the commitments changes nothing but the group elements. -/
set_option autoImplicit false
set_option linter.unusedSectionVars false
namespace ZK
open Polynomial

section
variable {F : Type} [Field F] {G : Type} [AddCommGroup G] [Module F G]
variable {G2 GT : Type} [AddCommGroup G2] [Module F G2] [AddCommGroup GT] [Module F GT] [DecidableEq GT]
variable {Z : Type}

/-- The commitment to `p` with the blinding polynomial whose coefficients are drawn at position `o`. -/
noncomputable def comAt (beta : F) (vk : KzgVk G G2) (next : Z → F × Z) (z : Z) (o : Nat) (p : List F) : G :=
  (toPoly p).eval beta • vk.g + (draw next z o + draw next z (o + 1) * beta + draw next z (o + 2) * beta ^ 2) • vk.gammaG

/-- The commitments to a list of polynomials, drawing from position `o` on. -/
noncomputable def comsAt (beta : F) (vk : KzgVk G G2) (next : Z → F × Z) (z : Z) (o : Nat) (ps : List (List F)) : List G :=
  List.ofFn (fun c : Fin ps.length => comAt beta vk next z (o + 3 * c) ps[c])

/-- Their randomness. -/
def randsAt (next : Z → F × Z) (z : Z) (o m : Nat) : List {r : List F // r.length ≤ 3} :=
  List.ofFn (fun c : Fin m => ⟨[draw next z (o + 3 * c), draw next z (o + 3 * c + 1), draw next z (o + 3 * c + 2)], by simp⟩)

theorem comsAt_singleton (beta : F) (vk : KzgVk G G2) (next : Z → F × Z) (z : Z) (o : Nat) (p : List F) :
    comsAt beta vk next z o [p] = [comAt beta vk next z o p] := by
  simp [comsAt]

theorem randsAt_one (next : Z → F × Z) (z : Z) :
    randsAt next z 0 1 = [⟨[draw next z 0, draw next z 1, draw next z 2], by simp⟩] := by
  simp [randsAt]

variable [DecidableEq F]

theorem commit_reads (e : G →ₗ[F] G2 →ₗ[F] GT) (env : KzgEnv F G) {beta : F} {key : KzgKey G} {vk : KzgVk G G2}
    (hs : KzgSetup beta key vk) {ps : List (LPoly F)} (hh : ∀ p ∈ ps, p.hide = true) {o : Nat} {z0 z z' : env.Z}
    (hz : z = after env.next o z0) {out : List (G × {r : List F // r.length ≤ 3})}
    (h : (kzgScheme e env).commit key ps z = .ok (out, z')) :
    z' = after env.next (o + 3 * ps.length) z0 ∧ out.map Prod.fst = comsAt beta vk env.next z0 o (ps.map (·.poly)) ∧
      out.map Prod.snd = randsAt env.next z0 o ps.length := by
  obtain ⟨o', h1, h2⟩ := Res.bind_eq_ok.1 h
  have h2 := Prod.ext_iff.1 (Res.ok.inj h2)
  obtain ⟨h3, h4⟩ := kzgCommit_draws env.next hs hh h1
  have h5 : out = _ := h2.1.symm
  have hd : ∀ k, draw env.next z k = draw env.next z0 (o + k) := fun k => by rw [hz, draw_after]
  refine ⟨h2.2.symm.trans (h3.trans (by rw [hz, after_add])), ?_, ?_⟩
  · rw [h5, h4, List.map_map, List.map_ofFn]
    unfold comsAt
    apply List.ext_getElem
    · simp
    · intro i h h'
      simp only [List.getElem_ofFn, Function.comp_apply, comAt, hd, List.getElem_map, Fin.getElem_fin, Nat.add_assoc]
  · rw [h5, h4, List.map_map, List.map_ofFn]
    unfold randsAt
    congr 1
    funext c
    simp only [Function.comp_apply, hd, Nat.add_assoc]
    rfl

theorem commit_rerun (e : G →ₗ[F] G2 →ₗ[F] GT) (env : KzgEnv F G) {key : KzgKey G} (h3 : 3 ≤ key.gammaPowers.length)
    {ps : List (LPoly F)} {z : env.Z} {out : List (G × {r : List F // r.length ≤ 3}) × env.Z}
    (h : (kzgScheme e env).commit key ps z = .ok out) (y : env.Z) : ∃ out', (kzgScheme e env).commit key ps y = .ok out' := by
  have key' : ∀ (ps : List (LPoly F)) (z : env.Z) out, kzgCommit env.next key ps z = .ok out → ∀ y, ∃ out',
      kzgCommit env.next key ps y = .ok out' := by
    intro ps
    induction ps with
    | nil => intro z out _ y; exact ⟨_, rfl⟩
    | cons p ps ih =>
      intro z out h y
      obtain ⟨c, h1, h⟩ := Res.bind_eq_ok.1 h
      obtain ⟨rest, h2, h⟩ := Res.bind_eq_ok.1 h
      obtain ⟨h4, -, -⟩ := (kzgCommitWith_iff ..).1 h1
      obtain ⟨rest', hr⟩ := ih _ _ h2 (if p.hide then kzgBlinding env.next y else ([], y)).2
      refine ⟨_, Res.bind_eq_ok.2 ⟨_, (kzgCommitWith_iff ..).2 ⟨h4, ?_, rfl⟩, Res.bind_eq_ok.2 ⟨rest', hr, rfl⟩⟩⟩
      refine lt_of_lt_of_le (degree_toPoly_lt _) ?_
      exact_mod_cast (kzgBlinding_length env.next y p.hide).trans h3
  obtain ⟨o, h1, -⟩ := Res.bind_eq_ok.1 h
  obtain ⟨o', h2⟩ := key' ps z o h1 y
  exact ⟨_, Res.bind_eq_ok.2 ⟨o', h2, rfl⟩⟩

end

/-- Where the prover draws what: `w` witness columns, `l` lookups, `p` grand products, `q` parts of the quotient; `r1`, `r2`, `r3` random
rows of the permuted columns, of the grand products and of the grand products of the lookups. -/
structure Layout where
  (w l p q r1 r2 r3 : Nat)

namespace Layout
/-- Position of the randomness of the commitments to the permuted columns. -/
def o2 (y : Layout) : Nat := 3 * y.w + y.r1
/-- To the grand products. -/
def o3 (y : Layout) : Nat := y.o2 + 3 * (2 * y.l) + y.r2
/-- To the grand products of the lookups. -/
def o4 (y : Layout) : Nat := y.o3 + 3 * y.p + y.r3
/-- To the parts of the quotient. -/
def o5 (y : Layout) : Nat := y.o4 + 3 * y.l
/-- To the polynomial `f` of the multi-opening. -/
def o6 (y : Layout) : Nat := y.o5 + 3 * y.q
/-- Positions of the random rows. -/
def IsRow (y : Layout) (i : Nat) : Prop :=
  (3 * y.w ≤ i ∧ i < y.o2) ∨ (y.o2 + 3 * (2 * y.l) ≤ i ∧ i < y.o3) ∨ (y.o3 + 3 * y.p ≤ i ∧ i < y.o4)
end Layout

section
variable {F : Type} [Field F] [LinearOrder F] [FftParams F] {G : Type} [AddCommGroup G] [Module F G]
variable {G2 GT : Type} [AddCommGroup G2] [Module F G2] [AddCommGroup GT] [Module F GT] [DecidableEq GT]

/-- The layout for `w` witness columns, `c` of them copied. -/
def layout (index : Index F) (d : Domain F) (w c : Nat) : Layout where
  w := w
  l := index.lookups.length
  p := numProducts index c
  q := (index.ext.size + d.size - 1) / d.size
  r1 := index.lookups.length * (2 * (d.size - index.usableRows))
  r2 := numProducts index c * (d.size - 1 - index.perm.usableRows)
  r3 := index.lookups.length * (d.size - 1 - index.usableRows)

/-- The commitments of a run in terms of the elements drawn. -/
structure AtLayout (e : G →ₗ[F] G2 →ₗ[F] GT) (env : KzgEnv F G) (beta : F) (vk : KzgVk G G2) (y : Layout) (z : env.Z)
    (tr : ProverTrace (kzgScheme e env)) : Prop where
  state : tr.z = after env.next y.o6 z
  witness : tr.wc.map Prod.fst = comsAt beta vk env.next z 0 (tr.view.witness.map (·.poly)) ∧ tr.wc.map Prod.snd = randsAt env.next z 0 y.w
  lookups : tr.lc.map Prod.fst = comsAt beta vk env.next z y.o2 ((primes tr.rounds.lookups).map (·.poly)) ∧
    tr.lc.map Prod.snd = randsAt env.next z y.o2 (2 * y.l)
  products : tr.zc.map Prod.fst = comsAt beta vk env.next z y.o3 (tr.rounds.zs.map (·.poly)) ∧
    tr.zc.map Prod.snd = randsAt env.next z y.o3 y.p
  lookupProducts : tr.lzc.map Prod.fst = comsAt beta vk env.next z y.o4 (tr.rounds.lookupZs.map (·.poly)) ∧
    tr.lzc.map Prod.snd = randsAt env.next z y.o4 y.l
  quotient : tr.qc.map Prod.fst = comsAt beta vk env.next z y.o5 (tr.quotient.map (·.poly)) ∧
    tr.qc.map Prod.snd = randsAt env.next z y.o5 y.q
  lengths : tr.view.witness.length = y.w ∧ (primes tr.rounds.lookups).length = 2 * y.l ∧ tr.rounds.zs.length = y.p ∧
    tr.rounds.lookupZs.length = y.l ∧ tr.quotient.length = y.q
  transcript : tr.t = after env.fsRand 5 (env.fsInit (bytes "TurboPlonk-0.0.1"))

theorem Reads.at {ε A Z : Type} {next : Z → F × Z} {k : Nat} {f : Z → Res ε (A × Z)} (h : Reads next k f) {o : Nat} {z0 z z' : Z} {a : A}
    (hz : z = after next o z0) (hf : f z = .ok (a, z')) :
    z' = after next (o + k) z0 ∧
    ∀ y, (∀ i, o ≤ i → i < o + k → draw next y i = draw next z0 i) → f (after next o y) = .ok (a, after next (o + k) y) := by
  subst hz
  obtain ⟨h1, h2⟩ := h _ _ _ hf
  refine ⟨by rw [h1, after_add], fun y hy => ?_⟩
  have := h2 (after next o y) (fun i hi => by
    rw [draw_after, draw_after]
    exact hy _ (by omega) (by omega))
  rw [after_add]
  exact this

omit [Field F] [LinearOrder F] [FftParams F] in
theorem primes_length {O : Type} (ls : List (LookupOracles O)) : (primes ls).length = 2 * ls.length := by
  simp [primes, List.length_flatMap, Nat.mul_comm]

theorem commit_at (e : G →ₗ[F] G2 →ₗ[F] GT) (env : KzgEnv F G) {beta : F} {key : KzgKey G} {vk : KzgVk G G2}
    (hs : KzgSetup beta key vk) (h3 : 3 ≤ key.gammaPowers.length) {os : List (ProverOracle F)} {o : Nat} {z0 z z' : env.Z}
    (hz : z = after env.next o z0) {out : List (G × {r : List F // r.length ≤ 3})}
    (h : (kzgScheme e env).commit key (os.map (·.toLabeled)) z = .ok (out, z')) :
    z' = after env.next (o + 3 * os.length) z0 ∧ (out.map Prod.fst = comsAt beta vk env.next z0 o (os.map (·.poly)) ∧
      out.map Prod.snd = randsAt env.next z0 o os.length) ∧
    ∀ y : env.Z, ∃ out', (kzgScheme e env).commit key (os.map (·.toLabeled)) (after env.next o y) =
      .ok (out', after env.next (o + 3 * os.length) y) := by
  have hh : ∀ p ∈ os.map (·.toLabeled), p.hide = true := by
    intro p hp
    obtain ⟨o, -, rfl⟩ := List.mem_map.1 hp
    rfl
  have hpoly : (os.map (·.toLabeled)).map (·.poly) = os.map (·.poly) := by
    rw [List.map_map]
    rfl
  obtain ⟨h1, h2, h4⟩ := commit_reads e env hs hh hz h
  rw [List.length_map] at h1 h4
  rw [hpoly] at h2
  refine ⟨h1, ⟨h2, h4⟩, fun y => ?_⟩
  obtain ⟨⟨out', y'⟩, h5⟩ := commit_rerun e env h3 h (after env.next o y)
  obtain ⟨h6, -, -⟩ := commit_reads e env hs hh (z0 := y) rfl h5
  rw [List.length_map] at h6
  subst h6
  exact ⟨out', h5⟩

theorem proveRounds_rerun [LawfulFft F] (e : G →ₗ[F] G2 →ₗ[F] GT) (env : KzgEnv F G) (habs : ∀ t b, env.fsAbsorb t b = t)
    {pk : ProverKey (kzgScheme e env)} {beta : F} {vk : KzgVk G G2} (hs : KzgSetup beta pk.ck vk)
    (h3 : 3 ≤ (KzgKey.gammaPowers (G := G) pk.ck).length) {pre : ProverPreprocessed (kzgScheme e env)} {ws is : List (ProverOracle F)}
    {vos : List (GenericVO F)} {domainSize : Nat} {d : Domain F} (hd : Domain.new domainSize = some d) (hok : d.Ok) {z : env.Z}
    {tr : ProverTrace (kzgScheme e env)} (h : proveRounds (kzgScheme e env) pk pre ws is vos domainSize z = .ok tr) :
    AtLayout e env beta vk (layout pk.vk.index d ws.length (ws.filter (·.shouldPermute)).length) z tr ∧
    ∀ y : env.Z, (∀ i, (layout pk.vk.index d ws.length (ws.filter (·.shouldPermute)).length).IsRow i → draw env.next y i = draw env.next z i) →
      ∃ tr', proveRounds (kzgScheme e env) pk pre ws is vos domainSize y = .ok tr' ∧ tr'.view = tr.view ∧ tr'.rounds = tr.rounds ∧
        tr'.quotient = tr.quotient ∧ tr'.chal = tr.chal ∧ tr'.t = tr.t := by
  have habs' : ∀ (t : (kzgScheme e env).T) cs, (kzgScheme e env).absorbComms t cs = t := fun t cs => habs _ _
  have hcopy : ∀ ext, ((ws.map (·.computeExtended ext)).filter (·.shouldPermute)).length = (ws.filter (·.shouldPermute)).length := by
    intro ext
    rw [List.filter_map, List.length_map]
    rfl
  unfold proveRounds at h ⊢
  simp only [Res.bind_eq_ok, Res.mapErr_eq_ok, Res.unwrap_eq_ok, habs'] at h ⊢
  obtain ⟨⟨wc, z1⟩, h1, domain, h2, ⟨lks, z2⟩, k3, ⟨lc, z3⟩, h4, ⟨zs, z4⟩, h5, ⟨zc, z5⟩, h6, ⟨lzs, z6⟩, h7,
    ⟨lzc, z7⟩, h8, quot, h9, ⟨qc, z8⟩, h10, h11⟩ := h
  rw [hd] at h2
  obtain rfl := Option.some.inj h2
  cases h11
  have e0 : z = after env.next 0 z := rfl
  obtain ⟨e1, a1, b1⟩ := commit_at e env hs h3 e0 h1
  rw [List.length_map, Nat.zero_add] at e1 b1
  rw [List.length_map] at a1
  obtain ⟨e2, b2⟩ := (lookupRound_reads _ _ _ _).at e1 k3
  have l2 := lookupRound_length k3
  obtain ⟨e3, a3, b3⟩ := commit_at e env hs h3 e2 h4
  have l3 := primes_length lks
  rw [l2] at l3
  rw [l3] at e3 b3 a3
  obtain ⟨e4, b4⟩ := (permutationRound_reads _ _ _ _ _ _).1.at e3 h5
  have l4 := (permutationRound_reads _ _ _ _ _ _).2 _ _ h5
  simp only [hcopy] at e4 b4 l4
  obtain ⟨e5, a5, b5⟩ := commit_at e env hs h3 e4 h6
  rw [l4] at e5 b5 a5
  obtain ⟨e6, b6⟩ := (subsetEqualityRound_reads _ _ _ _ _).at e5 h7
  have l6 := subsetEqualityRound_length h7
  simp only [l2] at l6 e6 b6
  obtain ⟨e7, a7, b7⟩ := commit_at e env hs h3 e6 h8
  rw [l6] at e7 b7 a7
  have l9 := (quotientRound_length hok h9).1
  obtain ⟨e10, a10, b10⟩ := commit_at e env hs h3 e7 h10
  rw [l9] at e10 b10 a10
  refine ⟨⟨e10, a1, a3, a5, a7, a10, ⟨by simp [layout], l3, l4, l6, l9⟩, rfl⟩, fun y hy => ?_⟩
  obtain ⟨o1, c1⟩ := b1 y
  have c2 := b2 y (fun i h h' => hy i (Or.inl ⟨h, h'⟩))
  obtain ⟨o3, c3⟩ := b3 y
  have c4 := b4 y (fun i h h' => hy i (Or.inr (Or.inl ⟨h, h'⟩)))
  obtain ⟨o5, c5⟩ := b5 y
  have c6 := b6 y (fun i h h' => hy i (Or.inr (Or.inr ⟨h, h'⟩)))
  obtain ⟨o7, c7⟩ := b7 y
  obtain ⟨o10, c10⟩ := b10 y
  exact ⟨_, ⟨_, c1, _, hd, _, c2, _, c3, _, c4, _, c5, _, c6, _, c7, _, h9, _, c10, rfl⟩, rfl, rfl, rfl, rfl, rfl⟩

end
end ZK
