import Verif.Lemmas.Registry
import Verif.Lemmas.Chunks
import Verif.Lemmas.Toy
/-! C34: every evaluation of the prover reaches the right oracle and point of the verifier. -/
set_option autoImplicit false
namespace ZK
open Polynomial

section
variable {F : Type} [Field F] [LinearOrder F] [FftParams F] [LawfulFft F]

/-- A verifier oracle configured like a prover oracle. -/
def Corresponds {C : Type} (o : ProverOracle F) (v : VerifierOracle F C) : Prop :=
  v.label = o.label ∧ v.rotations = o.rotations

/-- **C34** The prover's list of evaluations for a list of oracles with distinct labels, read back by the verifier
with the corresponding oracles: registration succeeds and changes nothing but the registered evaluations, and
afterwards each oracle answers at each of its rotated points with the value of its own polynomial; answers
at other points are as before. -/
theorem C34_evaluations {C : Type} (d : Domain F) (hd : d.Ok) (missing : Label → PiopErr)
    (os : List (ProverOracle F)) (vs : List (VerifierOracle F C)) (xi : F)
    (hc : List.Forall₂ Corresponds os vs) (hnd : (os.map (·.label)).Nodup)
    (hr : ∀ o ∈ os, ∀ r ∈ o.rotations, r.degree < d.size) :
    ∃ qs evals vs', getQuerySet (ε := PiopErr) os xiLabel xi d.elements = .ok qs ∧
      evaluateQuerySet (ε := PiopErr) os qs = .ok evals ∧
      registerAll missing vs xi d.elements evals = .ok vs' ∧ vs'.length = vs.length ∧
      ∀ (i : Nat) (o : ProverOracle F) (v v' : VerifierOracle F C), os[i]? = some o → vs[i]? = some v →
        vs'[i]? = some v' → { v' with evals := v.evals } = v ∧
        ∀ x, v'.query x = if x ∈ o.rotations.map (fun r => xi * d.omega ^ r.signed)
          then .ok ((toPoly o.poly).eval x) else v.query x := by
  have hlab : vs.map (·.label) = os.map (·.label) := by
    clear hnd hr
    induction hc with
    | nil => rfl
    | cons h _ ih => simp [h.1, ih]
  obtain ⟨qs, hq1, hq2, hq3⟩ := getQuerySet_ok (ε := PiopErr) hd os xiLabel xi hr
  have hr' : ∀ v ∈ vs, ∀ r ∈ v.rotations, r.degree < d.size := by
    intro v hv r hrv
    obtain ⟨i, hi, rfl⟩ := List.getElem_of_mem hv
    have hi' : i < os.length := hc.length_eq ▸ hi
    have := List.Forall₂.get hc hi' hi
    exact hr _ (List.getElem_mem hi') r (this.2 ▸ hrv)
  obtain ⟨qs', hv1, hv2, hv3⟩ := getQuerySet_ok (ε := PiopErr) hd vs xiLabel xi hr'
  have hqq : qs' = qs := by
    apply sorted_ext hv2 hq2
    intro q
    rw [hv3, hq3]
    constructor
    · rintro ⟨v, hv, r, hrv, rfl⟩
      obtain ⟨i, hi, rfl⟩ := List.getElem_of_mem hv
      have hi' : i < os.length := hc.length_eq ▸ hi
      have := List.Forall₂.get hc hi' hi
      exact ⟨_, List.getElem_mem hi', r, (congrArg (r ∈ ·) this.2).mp hrv, congrArg (fun l => queryOf d xiLabel xi l r) this.1⟩
    · rintro ⟨o, ho, r, hro, rfl⟩
      obtain ⟨i, hi, rfl⟩ := List.getElem_of_mem ho
      have hi' : i < vs.length := hc.length_eq ▸ hi
      have := List.Forall₂.get hc hi hi'
      exact ⟨_, List.getElem_mem hi', r, (congrArg (r ∈ ·) this.2).mpr hro, congrArg (fun l => queryOf d xiLabel xi l r) this.1.symm⟩
  subst hqq
  have hfind : ∀ o ∈ os, findOracle os o.label = some o := by
    intro o ho
    obtain ⟨i, hi, rfl⟩ := List.getElem_of_mem ho
    unfold findOracle
    have h1 : lastIndexOf (os.map ConcreteOracle.label) os[i].label = some i :=
      lastIndexOf_of_nodup hnd (by rw [List.getElem?_map, List.getElem?_eq_getElem hi]; rfl)
    rw [h1]
    exact List.getElem?_eq_getElem hi
  have hev := evaluateQuerySet_ok (ε := PiopErr) os qs' (by
    intro q hq
    obtain ⟨o, ho, r, _, rfl⟩ := (hq3 q).1 hq
    exact ⟨o, hfind o ho⟩)
  obtain ⟨hreg, hget⟩ := registerAll_ok hd missing vs xi (by rw [hlab]; exact hnd) hr' qs' hv1
    (fun l x => (findOracle os l).elim 0 (fun o => peval o.poly x))
  refine ⟨qs', _, _, hq1, hev, hreg, by simp, ?_⟩
  intro i o v v' ho hv hv'
  have hi := getElem?_some_lt hv
  rw [List.getElem?_map, hv] at hv'
  simp only [Option.map_some, Option.some.injEq] at hv'
  subst hv'
  refine ⟨rfl, fun x => ?_⟩
  have hi' := getElem?_some_lt ho
  have hcor : Corresponds o v := by
    have := List.Forall₂.get hc hi' hi
    rw [List.getElem?_eq_getElem hi'] at ho
    rw [List.getElem?_eq_getElem hi] at hv
    rw [← Option.some.inj ho, ← Option.some.inj hv]
    exact this
  unfold VerifierOracle.query
  simp only [hget v (List.mem_of_getElem? hv) x, hcor.2]
  by_cases hx : x ∈ o.rotations.map (fun r => xi * d.omega ^ r.signed)
  · simp only [hx, if_true, hcor.1, hfind o (List.mem_of_getElem? ho), Option.elim_some, eval_toPoly]
  · simp only [hx, if_false]

omit [LinearOrder F] [FftParams F] [LawfulFft F] in
/-- **C34**, the lookup lists: the verifier's blocks of three (two) evaluations are those of the successive lookups. -/
theorem C34_lookup_evaluations (ls : List (LookupOracles (ProverOracle F))) (zs : List (ProverOracle F))
    (xi omega omegaInv : F) :
    chunks 3 (lookupEvalsOf ls xi omegaInv) = ls.map (fun l => [(toPoly l.aPrime.poly).eval xi,
      (toPoly l.aPrime.poly).eval (xi * omegaInv), (toPoly l.sPrime.poly).eval xi]) ∧
    chunks 2 (lookupZEvalsOf zs xi omega) = zs.map (fun z => [(toPoly z.poly).eval xi,
      (toPoly z.poly).eval (xi * omega)]) := by
  simp only [lookupEvalsOf, lookupZEvalsOf, ProverOracle.query, eval_toPoly]
  exact ⟨chunks_flatMap (by norm_num) _ _ (fun _ _ => rfl), chunks_flatMap (by norm_num) _ _ (fun _ _ => rfl)⟩

end

/-- The hypotheses of C34 hold for the witness columns of the toy circuit. -/
example : ∃ qs evals vs', getQuerySet (ε := PiopErr) Toy.witness xiLabel 27 Toy.dom.elements = .ok qs ∧
    evaluateQuerySet (ε := PiopErr) Toy.witness qs = .ok evals ∧
    registerAll .missingWitnessOracle (Toy.witness.map Toy.blank) 27 Toy.dom.elements evals = .ok vs' ∧
    evals.length = 4 := by
  obtain ⟨qs, evals, vs', h1, h2, h3, _⟩ := C34_evaluations Toy.dom (F97.dom_ok (by norm_num)) .missingWitnessOracle
    Toy.witness (Toy.witness.map Toy.blank) 27 (by simp [Toy.witness, Toy.blank, Corresponds]) (by decide) (by decide)
  refine ⟨qs, evals, vs', h1, h2, h3, ?_⟩
  have hq : getQuerySet (ε := PiopErr) Toy.witness xiLabel 27 Toy.dom.elements = .ok qs → qs.length = 4 := by
    have : ∃ q, getQuerySet (ε := PiopErr) Toy.witness xiLabel 27 Toy.dom.elements = .ok q ∧ q.length = 4 := by
      have hk : (match getQuerySet (ε := PiopErr) Toy.witness xiLabel 27 Toy.dom.elements with
        | .ok q => q.length == 4
        | _ => false) = true := by decide +kernel
      split at hk
      · rename_i q hq
        exact ⟨q, hq, by simpa using hk⟩
      · simp at hk
    obtain ⟨q, hq, hl⟩ := this
    intro h
    rw [hq] at h
    cases h
    exact hl
  rw [Res.mapM_length h2]
  exact hq h1

end ZK
