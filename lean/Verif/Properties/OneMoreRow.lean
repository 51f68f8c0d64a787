import Verif.Properties.HidingJoint
import Verif.Properties.ProofSize
import Verif.Spec.HonestVerifier
/-! C66: the opening argument sends one more value of every column that is alone in its opening set. -/
set_option autoImplicit false
set_option linter.unusedSectionVars false
namespace ZK
open Polynomial

/-- Filtering a list where one position passes. -/
theorem filter_alone {α : Type} (p : α → Bool) {l : List α} {c : Nat} {a : α} (hc : l[c]? = some a) (ha : p a = true)
    (h : ∀ j b, l[j]? = some b → p b = true → j = c) : l.filter p = [a] := by
  induction l generalizing c with
  | nil => simp at hc
  | cons x l ih =>
    cases c with
    | zero =>
      obtain rfl : x = a := by simpa using hc
      rw [List.filter_cons_of_pos ha, List.filter_eq_nil_iff.2]
      intro b hb hp
      obtain ⟨j, hj⟩ := List.getElem?_of_mem hb
      have := h (j + 1) b (by simpa using hj) hp
      omega
    | succ c =>
      have hx : ¬ p x = true := fun hp => by have := h 0 x rfl hp; omega
      rw [List.filter_cons_of_neg hx]
      refine ih (by simpa using hc) ?_
      intro j b hj hp
      have := h (j + 1) b (by simpa using hj) hp
      omega

section
variable {F : Type} [Field F] [LinearOrder F] [FftParams F] [LawfulFft F] {S : Scheme F}

/-- The value sent for an opening set with one oracle is that of its polynomial. -/
theorem qEvals_alone {oracles : List (ProverOracle F)} {rands : List S.Rand} {d : Domain F} (hd : d.Ok) {xi x1 x2 : F}
    {qs : List (List F × S.Rand)} {f : List F}
    (h : mpFirstRound (S := S) (openingSets (fun (o : OracleRand S) => o.1.rotations) (List.zip oracles rands)) oracles.length d xi x1 x2
      = .ok (qs, f)) (hlen : oracles.length = rands.length) {c : Nat} {w : ProverOracle F} (hc : oracles[c]? = some w)
    (halone : ∀ j o, oracles[j]? = some o → o.rotations = w.rotations → j = c) {k : Nat}
    (hk : (setExtend [] (oracles.map (·.rotations)))[k]? = some w.rotations) (x : F) :
    (points d xi w.rotations).Nodup ∧ (qs.map (fun q => peval q.1 x))[k]? = some (peval w.poly x) := by
  unfold mpFirstRound at h
  simp only [Res.bind_eq_ok, Res.pure_eq, Res.ok.injEq, Prod.mk.injEq] at h
  obtain ⟨qes, h1, fs, -, f', -, rfl, -⟩ := h
  have hcl : c < oracles.length := (List.getElem?_eq_some_iff.1 hc).1
  have hset : (openingSets (fun (o : OracleRand S) => o.1.rotations) (List.zip oracles rands))[k]?
      = some (w.rotations, [(w, rands[c]'(hlen ▸ hcl))]) := by
    have hmap : (List.zip oracles rands).map (fun (o : OracleRand S) => o.1.rotations) = oracles.map (·.rotations) := by
      rw [show (fun (o : OracleRand S) => o.1.rotations) = (·.rotations) ∘ Prod.fst from rfl, ← List.map_map,
        List.map_fst_zip hlen.le]
    rw [openingSets_eq, hmap, List.getElem?_map, hk, Option.map_some]
    congr 2
    refine filter_alone _ (c := c) ?_ (by simp) ?_
    · rw [List.getElem?_zip_eq_some]
      exact ⟨hc, List.getElem?_eq_getElem _⟩
    · intro j b hj hb
      rw [List.getElem?_zip_eq_some] at hj
      exact halone j b.1 hj.1 (of_decide_eq_true hb)
  obtain ⟨q, hq1, hq2⟩ := Forall₂.left (Res.mapM_eq_ok.1 h1) hset
  unfold mpProverSet at hq2
  simp only [Res.bind_eq_ok] at hq2
  obtain ⟨q0, hq3, es, hes, hq4⟩ := hq2
  obtain rfl := Res.ok.inj hq4
  refine ⟨((evalSet_iff hd (by intro r m h; cases h)).1 hes).2.1, ?_⟩
  rw [List.map_map, List.getElem?_map, hq1]
  simp only [List.zipIdx_cons, List.zipIdx_nil, Res.foldM_cons, Res.foldM_nil, Res.bind_eq_ok] at hq3
  obtain ⟨q1, ⟨x', hx', hq5⟩, hq6⟩ := hq3
  obtain rfl := Res.ok.inj hq6
  obtain rfl := Res.ok.inj hq5
  rw [powersFrom_idx _ _ _ _ (by omega)] at hx'
  obtain rfl := Res.ok.inj hx'
  rw [Option.map_some, Function.comp_apply, peval_eq_eval]
  simp

/-- What a proof without lookups and copies says about a witness column that is alone in its opening set: its values at the rotated
evaluation challenges and, as part of the opening argument, its value at `x3`. The position of the latter depends on the
configuration only. -/
theorem prove_alone {pk : ProverKey S} {pre : ProverPreprocessed S} {ws is : List (ProverOracle F)} {vos : List (GenericVO F)}
    {d : Domain F} (hd : d.Ok)
    (hone : ∀ (p : LPoly F) (z z' : S.Z) cs, S.commit pk.ck [p] z = .ok (cs, z') → cs.length = 1)
    (hl : pk.vk.index.lookups = []) (hcopies : ∀ o ∈ ws, o.shouldPermute = false)
    {c : Nat} {w : ProverOracle F} (hw : ws[c]? = some w)
    (hwit : ∀ j o, ws[j]? = some o → o.rotations = w.rotations → j = c) (hcurr : w.rotations ≠ setExtend [] [Rotation.curr])
    (hpre : ∀ o ∈ pre.fixed ++ pre.table ++ pre.perm ++ [pre.qBlind], o.rotations ≠ w.rotations)
    {z : S.Z} {proof : TPProof S} (hp : prove S pk pre ws is vos d.size z = .ok proof) :
    (points d (verifierChallenges S proof).1.xi w.rotations).Nodup ∧
    (∃ qs : List (Query F), qs.Pairwise (· < ·) ∧
      (∀ q, q ∈ qs ↔ ∃ o ∈ ws, ∃ r ∈ o.rotations, q = queryOf d xiLabel (verifierChallenges S proof).1.xi o.label r) ∧
      proof.witnessEvals = qs.map (fun q => (findOracle (ws.map (·.computeExtended pk.vk.index.ext)) (ofLex q).1).elim 0 (fun o => peval o.poly (ofLex (ofLex q).2).2))) ∧
    ∀ k : Nat, (setExtend [] (ws.map (·.rotations) ++ List.replicate ((pk.vk.index.ext.size + d.size - 1) / d.size) (setExtend [] [Rotation.curr])
        ++ (pre.fixed ++ pre.table ++ pre.perm ++ [pre.qBlind]).map (·.rotations)))[k]? = some w.rotations →
      proof.multiopen.qEvals[k]? = some (peval w.poly (mpChallenges S proof.multiopen (verifierChallenges S proof).2).2.2.1) := by
  obtain ⟨d', view, rounds, quotient, wc, lc, zc, lzc, qc, R, -, -, -, -, -, ev, hlen, ho⟩ :=
    C40_same_challenges S pk _ ws is vos d.size z proof hone hp
  obtain rfl : d = d' := Option.some.inj (hd.new_self.symm.trans R.dom)
  generalize (verifierChallenges S proof).1 = ch at R ev ho ⊢
  generalize (mpChallenges S proof.multiopen (verifierChallenges S proof).2).1 = x1 at ho ⊢
  generalize (mpChallenges S proof.multiopen (verifierChallenges S proof).2).2.1 = x2 at ho ⊢
  generalize (mpChallenges S proof.multiopen (verifierChallenges S proof).2).2.2.1 = x3 at ho ⊢
  have hran : RoundsRan S d pk.vk.index view pre.perm ch.theta ch.beta ch.gamma rounds := by
    obtain ⟨a1, a2, a3, a4, a5⟩ := R.lookups
    obtain ⟨b1, b2, b3, b4, b5⟩ := R.permutation
    obtain ⟨c1, c2, c3, c4, c5⟩ := R.subsetEquality
    exact ⟨⟨a1, a2, a4⟩, ⟨b1, b2, b4⟩, ⟨c1, c2, c4⟩⟩
  have hvw : view.witness = ws.map (·.computeExtended pk.vk.index.ext) := by rw [R.view_eq]
  have hl0 : rounds.lookups = [] := List.length_eq_zero_iff.1 (by rw [hran.lookup.1, hl]; rfl)
  have hlz0 : rounds.lookupZs = [] := List.length_eq_zero_iff.1 (by rw [hran.lookupZ.1, hl0]; rfl)
  have hz0 : rounds.zs = [] := hran.noAgg (by
    rw [hvw, List.filter_eq_nil_iff]
    intro o ho
    obtain ⟨o', ho', rfl⟩ := List.mem_map.1 ho
    simp [ProverOracle.computeExtended, hcopies o' ho'])
  obtain ⟨hql, hqr⟩ := quotientRound_length hd R.quotient.1
  obtain ⟨qs, f, fc, z1, z1', fr, fin, h1, -, -, h4, -⟩ := ho.run
  have hord : openingOrder view.witness (primes rounds.lookups) rounds.lookupZs quotient rounds.zs pre.fixed pre.table pre.perm pre.qBlind
      = ws.map (·.computeExtended pk.vk.index.ext) ++ quotient ++ (pre.fixed ++ pre.table ++ pre.perm ++ [pre.qBlind]) := by
    rw [hl0, hlz0, hz0, hvw]
    simp [openingOrder, primes]
  rw [hord] at h1 hlen
  have hcl : c < ws.length := (List.getElem?_eq_some_iff.1 hw).1
  have hwo : (ws.map (·.computeExtended pk.vk.index.ext) ++ quotient ++ (pre.fixed ++ pre.table ++ pre.perm ++ [pre.qBlind]))[c]?
      = some (w.computeExtended pk.vk.index.ext) := by
    rw [List.append_assoc, List.getElem?_append_left (by simpa using hcl), List.getElem?_map, hw]
    rfl
  have halone : ∀ j o, (ws.map (·.computeExtended pk.vk.index.ext) ++ quotient ++ (pre.fixed ++ pre.table ++ pre.perm ++ [pre.qBlind]))[j]?
      = some o → o.rotations = (w.computeExtended pk.vk.index.ext).rotations → j = c := by
    intro j o hj hr
    have hr' : o.rotations = w.rotations := hr
    rcases lt_or_ge j ws.length with h | h
    · rw [List.append_assoc, List.getElem?_append_left (by simpa using h), List.getElem?_map] at hj
      obtain ⟨o', ho', rfl⟩ := Option.map_eq_some_iff.1 hj
      exact hwit j o' ho' hr
    · rw [List.append_assoc, List.getElem?_append_right (by simpa using h)] at hj
      exfalso
      rcases List.mem_append.1 (List.mem_of_getElem? hj) with h' | h'
      · exact hcurr (hr'.symm.trans (hqr o h'))
      · exact hpre o h' hr'
  have hmap : (ws.map (·.computeExtended pk.vk.index.ext) ++ quotient ++ (pre.fixed ++ pre.table ++ pre.perm ++ [pre.qBlind])).map
      (·.rotations) = ws.map (·.rotations) ++ List.replicate ((pk.vk.index.ext.size + d.size - 1) / d.size) (setExtend [] [Rotation.curr])
        ++ (pre.fixed ++ pre.table ++ pre.perm ++ [pre.qBlind]).map (·.rotations) := by
    rw [List.map_append, List.map_append, List.map_map]
    congr 2
    rw [← hql, ← List.map_const']
    exact List.map_congr_left hqr
  have hone' : ∃ k : Nat, (setExtend [] (ws.map (·.rotations) ++ List.replicate ((pk.vk.index.ext.size + d.size - 1) / d.size)
      (setExtend [] [Rotation.curr]) ++ (pre.fixed ++ pre.table ++ pre.perm ++ [pre.qBlind]).map (·.rotations)))[k]? = some w.rotations := by
    refine List.getElem?_of_mem (mem_setExtend.2 (Or.inr ?_))
    exact List.mem_append_left _ (List.mem_append_left _ (List.mem_map.2 ⟨w, List.mem_of_getElem? hw, rfl⟩))
  have key := fun (k : Nat) (hk : (setExtend [] _)[k]? = some w.rotations) =>
    qEvals_alone (w := w.computeExtended pk.vk.index.ext) hd h1
      (by rw [hlen]; simp only [List.length_append, List.length_map]) hwo halone (k := k) (by rw [hmap]; exact hk) x3
  obtain ⟨k, hk⟩ := hone'
  refine ⟨(key k hk).1, ?_, ?_⟩
  · obtain ⟨qs, e1, e2⟩ := ev.witness
    rw [hvw] at e1 e2
    obtain ⟨qs', f1, f2, f3⟩ := getQuerySet_ok (ε := Err S.E) hd (ws.map (·.computeExtended pk.vk.index.ext)) xiLabel ch.xi
      (getQuerySet_range hd e1)
    obtain rfl : qs = qs' := Res.ok.inj (e1.symm.trans f1)
    refine ⟨qs, f2, ?_, ?_⟩
    · intro q
      rw [f3]
      simp only [List.mem_map, exists_exists_and_eq_and]
      rfl
    · have hfind : ∀ q ∈ qs, ∃ o, findOracle (ws.map (·.computeExtended pk.vk.index.ext)) (ofLex q).1 = some o := by
        intro q hq
        obtain ⟨o, ho, r, hr, rfl⟩ := (f3 q).1 hq
        cases hf : findOracle (ws.map (·.computeExtended pk.vk.index.ext)) (ofLex (queryOf d xiLabel ch.xi (ConcreteOracle.label o) r)).1 with
        | some o' => exact ⟨o', rfl⟩
        | none => exact absurd rfl (findOracle_eq_none.1 hf o ho)
      rw [evaluateQuerySet_ok _ _ hfind] at e2
      exact (Res.ok.inj e2).symm
  · intro k hk
    rw [h4]
    exact (key k hk).2

/-- Two witness columns for the same circuit: label, rotations and copy flag agree. -/
def SameColumn (o o' : ProverOracle F) : Prop :=
  o'.label = o.label ∧ o'.rotations = o.rotations ∧ o'.shouldPermute = o.shouldPermute

/-- **C66** is false with as many random rows as opened points: the opening argument sends the value of the column at `x3` as well.
Take any commitment scheme and a circuit without lookups and copies, where the witness column `c` is the only one with its set of
rotations. Let two witnesses differ in row `i0` of this column and otherwise only in a set `K` of as many rows as there are
rotations. Then, whatever these rows contain, whatever the other columns are and whatever the prover draws, the proofs for the
first witness have other values than the proofs for the second one under the same challenges. -/
theorem C66_values_differ {pk : ProverKey S} {pre : ProverPreprocessed S} {ws ws' is is' : List (ProverOracle F)}
    {vos vos' : List (GenericVO F)} {d : Domain F} (hd : d.Ok)
    (hone : ∀ (p : LPoly F) (z z' : S.Z) cs, S.commit pk.ck [p] z = .ok (cs, z') → cs.length = 1)
    (hl : pk.vk.index.lookups = []) (hcopies : ∀ o ∈ ws, o.shouldPermute = false)
    (hsame : List.Forall₂ SameColumn ws ws') (hlabels : (ws.map (·.label)).Nodup)
    -- a column that is alone in its opening set
    {c : Nat} {w w' : ProverOracle F} (hw : ws[c]? = some w) (hw' : ws'[c]? = some w') (hcol : IsColumn d w) (hcol' : IsColumn d w')
    (hwit : ∀ j o, ws[j]? = some o → o.rotations = w.rotations → j = c) (hcurr : w.rotations ≠ setExtend [] [Rotation.curr])
    (hpre : ∀ o ∈ pre.fixed ++ pre.table ++ pre.perm ++ [pre.qBlind], o.rotations ≠ w.rotations)
    -- the rows
    {K : Finset Nat} (hK : K.card ≤ w.rotations.length) {i0 : Nat} (hi0 : i0 < d.size) (hiK : i0 ∉ K)
    (hrows : ∀ i < d.size, i ∉ K → i ≠ i0 → w.evals[i]? = w'.evals[i]?) (hdiff : w.evals[i0]? ≠ w'.evals[i0]?)
    -- two proofs
    {z z' : S.Z} {π π' : TPProof S} (hp : prove S pk pre ws is vos d.size z = .ok π)
    (hp' : prove S pk pre ws' is' vos' d.size z' = .ok π') {xi x3 : F}
    (hxi : (verifierChallenges S π).1.xi = xi) (hxi' : (verifierChallenges S π').1.xi = xi)
    (hx3 : (mpChallenges S π.multiopen (verifierChallenges S π).2).2.2.1 = x3)
    (hx3' : (mpChallenges S π'.multiopen (verifierChallenges S π').2).2.2.1 = x3)
    (hn : xi ^ d.size ≠ 1) (hn3 : x3 ^ d.size ≠ 1) (hx : ∀ r ∈ w.rotations, x3 ≠ xi * d.omega ^ r.signed) :
    π.values ≠ π'.values := by
  intro hv
  simp only [TPProof.values, List.cons.injEq, and_true] at hv
  obtain ⟨v1, -, -, -, -, -, -, -, -, v10⟩ := hv
  obtain ⟨hlab, hrot, -⟩ : SameColumn w w' := by
    obtain ⟨o, h1, h2⟩ := Forall₂.left hsame hw
    obtain rfl := Option.some.inj (h1.symm.trans hw')
    exact h2
  have hcopies' : ∀ o ∈ ws', o.shouldPermute = false := by
    intro o ho
    obtain ⟨j, hj⟩ := List.getElem?_of_mem ho
    obtain ⟨o', h1, h2⟩ := Forall₂.right hsame hj
    rw [h2.2.2]
    exact hcopies _ (List.mem_of_getElem? h1)
  have hrots : ws'.map (·.rotations) = ws.map (·.rotations) := by
    have : List.Forall₂ (fun (o o' : ProverOracle F) => o'.rotations = o.rotations) ws ws' := hsame.imp (fun _ _ h => h.2.1)
    clear hsame hw hw' hwit hlabels hcopies hcopies' hp hp'
    induction this with
    | nil => rfl
    | cons h _ ih => rw [List.map_cons, List.map_cons, ih, h]
  have hlabs : ws'.map (·.label) = ws.map (·.label) := by
    have : List.Forall₂ (fun (o o' : ProverOracle F) => o'.label = o.label) ws ws' := hsame.imp (fun _ _ h => h.1)
    clear hsame hw hw' hwit hlabels hcopies hcopies' hp hp' hrots
    induction this with
    | nil => rfl
    | cons h _ ih => rw [List.map_cons, List.map_cons, ih, h]
  have hwit' : ∀ j o, ws'[j]? = some o → o.rotations = w'.rotations → j = c := by
    intro j o hj ho
    obtain ⟨o', h1, h2⟩ := Forall₂.right hsame hj
    exact hwit j o' h1 (by rw [← h2.2.1, ho, hrot])
  obtain ⟨n1, ⟨qs, s1, m1, e1⟩, k1⟩ := prove_alone hd hone hl hcopies hw hwit hcurr hpre hp
  obtain ⟨-, ⟨qs', s2, m2, e2⟩, k2⟩ := prove_alone hd hone hl hcopies' hw' hwit' (by rw [hrot]; exact hcurr)
    (by rw [hrot]; exact hpre) hp'
  rw [hxi] at n1 m1
  rw [hxi'] at m2
  rw [hx3] at k1
  rw [hx3'] at k2
  -- the same queries
  obtain rfl : qs = qs' := by
    refine sorted_ext s1 s2 (fun q => ?_)
    rw [m1, m2]
    constructor
    · rintro ⟨o, ho, r, hr, rfl⟩
      obtain ⟨j, hj⟩ := List.getElem?_of_mem ho
      obtain ⟨o', h1, h2⟩ := Forall₂.left hsame hj
      exact ⟨o', List.mem_of_getElem? h1, r, by rw [h2.2.1]; exact hr, by rw [h2.1]⟩
    · rintro ⟨o, ho, r, hr, rfl⟩
      obtain ⟨j, hj⟩ := List.getElem?_of_mem ho
      obtain ⟨o', h1, h2⟩ := Forall₂.right hsame hj
      exact ⟨o', List.mem_of_getElem? h1, r, by rw [← h2.2.1]; exact hr, by rw [h2.1]⟩
  have hfind : ∀ (us : List (ProverOracle F)) (u : ProverOracle F), (us.map (·.label)).Nodup → us[c]? = some u →
      findOracle (us.map (·.computeExtended pk.vk.index.ext)) u.label = some (u.computeExtended pk.vk.index.ext) := by
    intro us u hnd hu
    refine findOracle_eq_some.2 ⟨c, by rw [List.getElem?_map, hu]; rfl, rfl, ?_⟩
    intro j o hj ho he
    rw [List.getElem?_map] at ho
    obtain ⟨o', ho', rfl⟩ := Option.map_eq_some_iff.1 ho
    have h1 : (us.map (·.label))[c]? = some u.label := by rw [List.getElem?_map, hu]; rfl
    have h2 : (us.map (·.label))[j]? = some u.label := by
      rw [List.getElem?_map, ho']
      exact congrArg some he
    have h3 := (List.nodup_iff_getElem?_ne_getElem?.1 hnd) c j hj (List.getElem?_eq_some_iff.1 h2).1
    exact h3 (h1.trans h2.symm)
  have hroots : ∀ p ∈ points d xi w.rotations, peval w.poly p = peval w'.poly p := by
    intro p hp
    obtain ⟨r, hr, rfl⟩ := List.mem_map.1 hp
    have hq := (m1 (queryOf d xiLabel xi w.label r)).2 ⟨w, List.mem_of_getElem? hw, r, hr, rfl⟩
    have he := List.map_eq_map_iff.1 (e1.symm.trans (v1.trans e2)) _ hq
    have f1 : findOracle (ws.map (·.computeExtended pk.vk.index.ext)) (ofLex (queryOf d xiLabel xi w.label r)).1
        = some (w.computeExtended pk.vk.index.ext) := hfind ws w hlabels hw
    have f2 : findOracle (ws'.map (·.computeExtended pk.vk.index.ext)) (ofLex (queryOf d xiLabel xi w.label r)).1
        = some (w'.computeExtended pk.vk.index.ext) := by
      have := hfind ws' w' (by rw [hlabs]; exact hlabels) hw'
      rw [hlab] at this
      exact this
    rw [f1, f2] at he
    exact he
  have hroot3 : peval w.poly x3 = peval w'.poly x3 := by
    obtain ⟨k, hk⟩ := List.getElem?_of_mem (mem_setExtend (s := []).2 (Or.inr (List.mem_append_left
      ((pre.fixed ++ pre.table ++ pre.perm ++ [pre.qBlind]).map (·.rotations)) (List.mem_append_left
      (List.replicate ((pk.vk.index.ext.size + d.size - 1) / d.size) (setExtend [] [Rotation.curr])) (List.mem_map.2
        ⟨w, List.mem_of_getElem? hw, rfl⟩)))))
    have h1 := k1 k hk
    have h2 := k2 k (by rw [hrots, hrot]; exact hk)
    rw [v10, h2] at h1
    exact (Option.some.inj h1).symm
  -- the difference has too many roots
  obtain ⟨⟨-, ev⟩, dg⟩ := hcol
  obtain ⟨⟨-, ev'⟩, dg'⟩ := hcol'
  have hpow : ∀ i : Nat, (d.omega ^ i) ^ d.size = 1 := by
    intro i
    rw [← pow_mul, Nat.mul_comm, pow_mul, hd.prim.pow_eq_one, one_pow]
  have hP : toPoly w.poly - toPoly w'.poly = 0 := by
    let A : Finset F := ((Finset.range d.size \ K).erase i0).image (fun i => d.omega ^ i)
    let B : Finset F := (points d xi w.rotations).toFinset
    have hA : d.size ≤ A.card + K.card + 1 := by
      have h1 : A.card = ((Finset.range d.size \ K).erase i0).card := by
        refine Finset.card_image_of_injOn ?_
        intro i hi j hj h
        have hi' := Finset.mem_range.1 (Finset.mem_sdiff.1 (Finset.mem_of_mem_erase hi)).1
        have hj' := Finset.mem_range.1 (Finset.mem_sdiff.1 (Finset.mem_of_mem_erase hj)).1
        exact hd.prim.pow_inj hi' hj' h
      have h2 := Finset.card_erase_of_mem (Finset.mem_sdiff.2 ⟨Finset.mem_range.2 hi0, hiK⟩)
      have h3 := Finset.le_card_sdiff K (Finset.range d.size)
      rw [Finset.card_range] at h3
      omega
    have hB : B.card = w.rotations.length := by
      rw [List.toFinset_card_of_nodup n1]
      simp [points]
    have hAn : ∀ x ∈ A, x ^ d.size = 1 := by
      intro x hx
      obtain ⟨i, -, rfl⟩ := Finset.mem_image.1 hx
      exact hpow i
    have hBn : ∀ x ∈ B, x ^ d.size ≠ 1 := by
      intro x hx
      obtain ⟨r, hr, rfl⟩ := List.mem_map.1 (List.mem_toFinset.1 hx)
      rw [mul_pow, ← zpow_natCast (d.omega ^ r.signed), ← zpow_mul, mul_comm r.signed, zpow_mul, zpow_natCast, hd.prim.pow_eq_one, one_zpow,
        mul_one]
      exact hn
    have hdisj : Disjoint A B := Finset.disjoint_left.2 (fun x h1 h2 => hBn x h2 (hAn x h1))
    have h3 : x3 ∉ A ∪ B := by
      rw [Finset.mem_union]
      rintro (h | h)
      · exact hn3 (hAn x3 h)
      · obtain ⟨r, hr, he⟩ := List.mem_map.1 (List.mem_toFinset.1 h)
        exact hx r hr he.symm
    refine eq_zero_of_degree_lt_of_eval_finset_eq_zero (insert x3 (A ∪ B)) ?_ ?_
    · rw [Finset.card_insert_of_notMem h3, Finset.card_union_of_disjoint hdisj]
      refine (degree_sub_le _ _).trans_lt (max_lt ?_ ?_)
      · exact (degree_toPoly_lt _).trans_le (by exact_mod_cast (by omega))
      · exact (degree_toPoly_lt _).trans_le (by exact_mod_cast (by omega))
    · intro x hx
      rw [eval_sub, eval_toPoly, eval_toPoly, sub_eq_zero]
      rcases Finset.mem_insert.1 hx with rfl | hx
      · exact hroot3
      · rcases Finset.mem_union.1 hx with h | h
        · obtain ⟨i, hi, rfl⟩ := Finset.mem_image.1 h
          have hi1 := Finset.mem_erase.1 hi
          have hi2 := Finset.mem_sdiff.1 hi1.2
          have hlt := Finset.mem_range.1 hi2.1
          have := hrows i hlt hi2.2 hi1.1
          rw [ev i hlt, ev' i hlt] at this
          simpa using this
        · exact hroots x (List.mem_toFinset.1 h)
  refine hdiff ?_
  rw [ev i0 hi0, ev' i0 hi0, sub_eq_zero.1 hP]

end

section
variable {F : Type} [Field F] [Fintype F] [FftParams F] [LawfulFft F] [LinearOrder F]

/-- **C66**, the part that holds: one more random row in one column of every opening set is enough for the witness columns. Let the
last `t c` rows of witness column `c` be drawn uniformly, after any rows `pre c`, let column `c` belong to the opening set `set c`
with coefficient `a c`, and let every opening set have a column `rep j` with a non-zero coefficient. If every column has at least as many
random rows as it is opened at points, and `rep j` one more, then the values of all columns at these points together with the combined
values at `x3` are jointly uniformly distributed, so they are distributed alike for any two witnesses. Missing: the values of the
quotient parts (`Leak.C60_false`). -/
theorem C66_one_more_row_partial {d : Domain F} (hd : d.Ok) {m s : Nat} {t : Fin m → Nat} {pre : Fin m → List F}
    (hpre : ∀ c, (pre c).length + t c = d.size)
    -- the opening sets
    {set : Fin m → Fin s} {a : Fin m → F} {rep : Fin s → Fin m} (hrep : ∀ j, set (rep j) = j) (ha : ∀ j, a (rep j) ≠ 0)
    -- the points
    {k : Fin m → Nat} {x : ∀ c, Fin (k c) → F} {x3 : F} (hx : ∀ c, Function.Injective (x c)) (hx3 : ∀ c i, x c i ≠ x3)
    (hout : ∀ c i, x c i ^ d.size ≠ 1) (hout3 : x3 ^ d.size ≠ 1)
    (hk : ∀ c, k c ≤ t c) (hk3 : ∀ j, k (rep j) + 1 ≤ t (rep j)) :
    Uniform (fun r : (∀ c, Fin (t c) → F) =>
      ((fun c i => peval (trim (d.ifft (pre c ++ List.ofFn (r c)))) (x c i),
        fun j => ∑ c ∈ Finset.univ.filter (fun c => set c = j), a c * peval (trim (d.ifft (pre c ++ List.ofFn (r c)))) x3) :
        (∀ c, Fin (k c) → F) × (Fin s → F))) := by
  have hpow : ∀ i : Nat, (d.omega ^ i) ^ d.size = 1 := by
    intro i
    rw [← pow_mul, Nat.mul_comm, pow_mul, hd.prim.pow_eq_one, one_pow]
  refine Shifts.uniform ?_
  intro y y'
  -- masks for the points
  have h0 : ∀ c, ∃ P : F[X], P.degree < d.size ∧ (∀ i < (pre c).length, P.eval (d.omega ^ i) = 0) ∧
      ∀ i, P.eval (x c i) = y'.1 c i - y.1 c i := by
    intro c
    obtain ⟨P, h1, h2, h3⟩ := exists_mask (d := d) (m := (pre c).length) (hx c)
      (fun i j _ he => hout c i (by rw [he]; exact hpow j)) (fun i => y'.1 c i - y.1 c i)
    have := hpre c
    have := hk c
    exact ⟨P, h1.trans_le (by exact_mod_cast (by omega)), h2, h3⟩
  choose P0 p1 p2 p3 using h0
  -- masks for the points and `x3`
  have h1 : ∀ j, ∃ P : F[X], P.degree < d.size ∧ (∀ i < (pre (rep j)).length, P.eval (d.omega ^ i) = 0) ∧
      (∀ i, P.eval (x (rep j) i) = y'.1 (rep j) i - y.1 (rep j) i) ∧
      P.eval x3 = (y'.2 j - y.2 j - ∑ c ∈ (Finset.univ.filter (fun c => set c = j)).erase (rep j), a c * (P0 c).eval x3) / a (rep j) := by
    intro j
    obtain ⟨P, h1, h2, h3⟩ := exists_mask (d := d) (m := (pre (rep j)).length) (x := (Fin.cons x3 (x (rep j)) : Fin (k (rep j) + 1) → F))
      (Fin.cons_injective_iff.2 ⟨by rintro ⟨i, hi⟩; exact hx3 _ _ hi, hx _⟩)
      (fun i => by
        refine Fin.cases ?_ (fun i => ?_) i
        · intro q _ he
          rw [Fin.cons_zero] at he
          exact hout3 (by rw [he]; exact hpow q)
        · intro q _ he
          rw [Fin.cons_succ] at he
          exact hout _ i (by rw [he]; exact hpow q))
      (Fin.cons ((y'.2 j - y.2 j - ∑ c ∈ (Finset.univ.filter (fun c => set c = j)).erase (rep j), a c * (P0 c).eval x3) / a (rep j))
        (fun i => y'.1 (rep j) i - y.1 (rep j) i))
    have e1 := hpre (rep j)
    have e2 := hk3 j
    refine ⟨P, h1.trans_le (by exact_mod_cast (by omega)), h2, fun i => ?_, ?_⟩
    · simpa using h3 i.succ
    · simpa using h3 0
  choose P1 q1 q2 q3 q4 using h1
  let Q : Fin m → F[X] := fun c => if rep (set c) = c then P1 (set c) else P0 c
  have hQr : ∀ j, Q (rep j) = P1 j := by
    intro j
    simp only [Q, hrep, if_true]
  have hQn : ∀ c, rep (set c) ≠ c → Q c = P0 c := fun c h => if_neg h
  have hQd : ∀ c, (Q c).degree < d.size ∧ (∀ i < (pre c).length, (Q c).eval (d.omega ^ i) = 0) ∧
      ∀ i, (Q c).eval (x c i) = y'.1 c i - y.1 c i := by
    intro c
    by_cases h : rep (set c) = c
    · obtain ⟨j, rfl⟩ : ∃ j, rep j = c := ⟨_, h⟩
      rw [hQr]
      exact ⟨q1 j, q2 j, q3 j⟩
    · rw [hQn c h]
      exact ⟨p1 c, p2 c, p3 c⟩
  have hQ3 : ∀ j, ∑ c ∈ Finset.univ.filter (fun c => set c = j), a c * (Q c).eval x3 = y'.2 j - y.2 j := by
    intro j
    rw [← Finset.add_sum_erase _ _ (Finset.mem_filter.2 ⟨Finset.mem_univ (rep j), hrep j⟩), hQr, q4, mul_div_cancel₀ _ (ha j),
      Finset.sum_congr rfl (f := fun c => a c * (Q c).eval x3) (g := fun c => a c * (P0 c).eval x3)]
    · ring
    · intro c hc
      obtain ⟨hc1, hc2⟩ := Finset.mem_erase.1 hc
      have hc3 := (Finset.mem_filter.1 hc2).2
      rw [hQn c (by rw [hc3]; exact fun h => hc1 h.symm)]
  refine ⟨fun r c i => r c i + (Q c).eval (d.omega ^ ((pre c).length + i)), ?_, ?_⟩
  · intro r r' h
    funext c i
    exact add_right_cancel (congrFun (congrFun h c) i)
  · intro r hr
    have hval : ∀ c p, peval (trim (d.ifft (pre c ++ List.ofFn (fun i => r c i + (Q c).eval (d.omega ^ ((pre c).length + i)))))) p
        = peval (trim (d.ifft (pre c ++ List.ofFn (r c)))) p + (Q c).eval p := by
      intro c p
      rw [peval_eq_eval, ifft_mask hd (hpre c) (hQd c).1 (hQd c).2.1, eval_add, ← peval_eq_eval]
    refine Prod.ext ?_ ?_
    · funext c i
      have h4 := congrFun (congrFun (congrArg Prod.fst hr) c) i
      simp only at h4 ⊢
      rw [hval, h4, (hQd c).2.2]
      ring
    · funext j
      have h4 := congrFun (congrArg Prod.snd hr) j
      simp only at h4 ⊢
      simp only [hval, mul_add, Finset.sum_add_distrib, h4, hQ3]
      ring

end
end ZK
