import Verif.Lemmas.Quotient
/-! The numerators computed by the prover on the coset and by the verifier at the challenge. -/
set_option autoImplicit false
set_option linter.unusedSectionVars false
namespace ZK
open Polynomial

theorem Forall₂.map_eq {α β γ : Type} {R : α → β → Prop} {f : α → γ} {g : β → γ} {l : List α} {m : List β}
    (h : List.Forall₂ R l m) (hR : ∀ a b, R a b → f a = g b) : l.map f = m.map g := by
  induction h with
  | nil => rfl
  | cons h1 _ ih => rw [List.map_cons, List.map_cons, hR _ _ h1, ih]

theorem Forall₂.getElem {α β : Type} {R : α → β → Prop} {l : List α} {m : List β}
    (h : List.Forall₂ R l m) (j : Nat) (h1 : j < l.length) (h2 : j < m.length) : R l[j] m[j] :=
  (List.forall₂_iff_get.1 h).2 j h1 h2

theorem Res.ite_bind {ε α β : Type} (c : Prop) [Decidable c] (x y : Res ε α) (k : α → Res ε β) :
    (if c then x >>= k else y >>= k) = (if c then x else y) >>= k := by split <;> rfl

section
variable {F : Type} [Field F] [DecidableEq F] [FftParams F] [LawfulFft F]

/-- The weights of a circuit. -/
def alphasOf (alpha : F) (G m L : Nat) : Alphas F :=
  ⟨(List.range G).map (fun i => alpha ^ i), (List.range (2 * m + 1)).map (fun i => alpha ^ (G + i)),
    (List.range L).map (fun k => (List.range 5).map (fun j => alpha ^ (G + 2 * m + (5 * k + j))))⟩

/-- Both sides add up the same things: gates, permutation constraints and lookups with the weights. -/
theorem aggregate_eq (c : CircuitPolys F) (d : Domain F) (p : PermutationArgument F) (alpha beta gamma x : F)
    (hF : c.Fits d p) :
    (c.numerator d p alpha beta gamma).eval x
      = ((List.range c.gates.length).map (fun i => alpha ^ i * (c.gates.getD i 0).eval x)).sum
        + (if c.ws = [] then 0 else weighted (alphasOf alpha c.gates.length c.zs.length c.lookups.length).perm
            ((c.permutation d p beta gamma).map (·.eval x)))
        + ((List.range c.lookups.length).map (fun k =>
            weighted (((alphasOf alpha c.gates.length c.zs.length c.lookups.length).lookups).getD k [])
              ((c.lookups[k]?.map (fun l =>
                (lookupPolys d p.usableRows c.qBlind beta gamma l).map (·.eval x))).getD []))).sum := by
  rw [CircuitPolys.eval_numerator]
  unfold aggregate
  rw [List.length_map]
  congr 1
  · congr 1
    · rw [zipIdx_sum _ _ (fun i => alpha ^ i * (c.gates.getD i 0).eval x), List.length_map]
      intro j hj
      rw [List.length_map] at hj
      simp [hj]
    · split
      · rename_i h
        unfold CircuitPolys.permutation
        rw [if_pos h]
        rfl
      · rename_i h
        unfold alphasOf
        rw [weighted_range]
        rw [CircuitPolys.eval_permutation c d p beta gamma x h]
        obtain ⟨hk, h1, h2, h3⟩ := hF.cols h
        rw [permConstraints_length]
        · rw [List.length_map, h3, chunks_length_congr hk (show (List.zip (List.zip c.ws c.sigmas) p.deltas).length
            = c.ws.length by simp [← h1, ← h2])]
        · rw [Ne, List.map_eq_nil_iff, chunks_eq_nil hk]
          intro h0
          have := congrArg List.length h0
          simp only [List.length_zip, ← h1, ← h2, min_self, List.length_nil] at this
          exact h (List.length_eq_zero_iff.1 this)
  · rw [zipIdx_sum, List.length_map]
    intro j hj
    rw [List.length_map] at hj
    unfold alphasOf
    rw [List.getD_eq_getElem _ _ (by simpa using hj), List.getElem?_eq_getElem hj]
    simp only [List.getElem_map, List.getElem_range, Option.map_some, Option.getD_some]
    rw [weighted_range]
    · simp only [add_assoc]
    · simp [lookupPolys, lookupConstraints]

/-- The prover's numerator at a point of the coset is the aggregated constraint polynomial there. -/
theorem numeratorAt_eq {d : Domain F} {v : ProverView F} {vos : List (GenericVO F)} {index : Index F}
    (hd : d.Ok) (he : index.ext.Ok) (hle : d.size ≤ index.ext.size)
    {sigmas : List (ProverOracle F)} {qBlind : ProverOracle F} {r : ProverRounds F} {c : CircuitPolys F}
    (hP : ProverPolys d index.ext v vos sigmas qBlind r c) (hF : c.Fits d index.perm)
    {l0 lu : List F} (hl0 : l0.length ≤ d.size) (hl0p : toPoly l0 = rowPoly d 0)
    (hlu : lu.length ≤ d.size) (hlup : toPoly lu = rowPoly d index.perm.usableRows)
    (alpha beta gamma : F) (h1 : 1 < d.size) {i : Nat} (hi : i < index.ext.size) :
    numeratorAt v vos index sigmas qBlind r (alphasOf alpha vos.length r.zs.length c.lookups.length)
      (index.ext.cosetFft l0) (index.ext.cosetFft lu) beta gamma i
      = .ok ((c.numerator d index.perm alpha beta gamma).eval ((FftParams.gen : F) * index.ext.element i)) := by
  have hlen := hP.gates.length_eq
  have hzlen := hP.zs.length_eq
  have hwlen := hP.ws.length_eq
  set x : F := (FftParams.gen : F) * index.ext.element i with hx
  have hc0 : (index.ext.cosetFft l0)[i]? = some ((rowPoly d 0).eval x) := by
    rw [Domain.cosetFft_get _ (hl0.trans hle) i hi, ← eval_toPoly, hl0p]
  have hcu : (index.ext.cosetFft lu)[i]? = some ((rowPoly d index.perm.usableRows).eval x) := by
    rw [Domain.cosetFft_get _ (hlu.trans hle) i hi, ← eval_toPoly, hlup]
  have hcurr : ∀ o : ProverOracle F, Honest d index.ext o → o.queryInCoset i .curr = .ok ((toPoly o.poly).eval x) := by
    intro o ho
    rw [ho.coset hd he hle hi (by simpa [Rotation.curr] using hd.size_pos), shifted_curr _ _ _ rfl]
  have hnext : ∀ o : ProverOracle F, Honest d index.ext o →
      o.queryInCoset i .next = .ok ((toPoly o.poly).eval (d.omega * x)) := by
    intro o ho
    rw [ho.coset hd he hle hi (by simpa [Rotation.next] using h1), shifted_next_eval]
  have hprev : ∀ o : ProverOracle F, Honest d index.ext o →
      o.queryInCoset i .prev = .ok ((toPoly o.poly).eval (d.omega⁻¹ * x)) := by
    intro o ho
    rw [ho.coset hd he hle hi (by simpa [Rotation.prev] using h1), shifted_prev_eval]
  have hplus : ∀ o : ProverOracle F, Honest d index.ext o →
      o.queryInCoset i ⟨index.perm.usableRows, .plus⟩
        = .ok ((toPoly o.poly).eval (d.omega ^ index.perm.usableRows * x)) := by
    intro o ho
    rw [ho.coset hd he hle hi (by simpa using hF.usable), shifted_plus_eval]
  have hzat : ∀ (j : Nat) (o : ProverOracle F), r.zs[j]? = some o →
      Honest d index.ext o ∧ c.zs.getD j 0 = toPoly o.poly := by
    intro j o hj
    obtain ⟨hlt, rfl⟩ := List.getElem?_eq_some_iff.1 hj
    have := Forall₂.getElem hP.zs j hlt (by omega)
    rw [List.getD_eq_getElem _ _ (by omega)]
    exact this
  rw [aggregate_eq c d index.perm alpha beta gamma x hF]
  unfold numeratorAt
  have g1 : Res.foldM (fun (acc : F) (p : GenericVO F × Nat) => do
      let ex ← (p.1.getExpression).mapErr PiopErr.vo
      let val := ex.evalR (v.atCoset i)
      let a ← Res.idx (alphasOf alpha vos.length r.zs.length c.lookups.length).gates p.2
      let val ← val
      pure (acc + a * val)) 0 vos.zipIdx
      = .ok (0 + ((List.range vos.zipIdx.length).map (fun i => alpha ^ i * (c.gates.getD i 0).eval x)).sum) := by
    apply Res.foldM_add_getElem
    intro b j hj
    rw [List.length_zipIdx] at hj
    rw [List.getElem_zipIdx]
    obtain ⟨e, P, h1, h2, h3⟩ := Forall₂.getElem hP.gates j hj (by omega)
    simp only [Nat.zero_add, h1, Res.mapErr_ok, Res.bind_ok]
    rw [Res.idx_of_lt (by simpa [alphasOf] using hj), Res.bind_ok,
      Expr.evalR_ok (ProverView.atCoset_ok hd he hle h2 hi), Res.bind_ok, List.getD_eq_getElem _ _ (by omega), h3,
      Expr.eval_denote]
    simp [alphasOf, hx]
  rw [g1, Res.bind_ok, List.length_zipIdx, zero_add]
  have g2 : (if (v.witness.filter (·.shouldPermute)).length ≠ 0 then
      index.perm.instantiate (index.ext.cosetFft l0) (index.ext.cosetFft lu) qBlind
        (v.witness.filter (·.shouldPermute)) sigmas r.zs i (index.ext.element i) beta gamma
        (alphasOf alpha vos.length r.zs.length c.lookups.length).perm
      else pure 0) = .ok (if c.ws = [] then 0 else
        weighted (alphasOf alpha c.gates.length c.zs.length c.lookups.length).perm
          ((c.permutation d index.perm beta gamma).map (·.eval x))) := by
    by_cases hw : c.ws = []
    · rw [if_pos hw, if_neg (by rw [hwlen, hw]; simp)]
      rfl
    · have hwl : (v.witness.filter (·.shouldPermute)).length ≠ 0 := by
        rw [hwlen]; exact fun h => hw (List.length_eq_zero_iff.1 h)
      rw [if_neg hw, if_pos hwl]
      obtain ⟨hk, e1, e2, e3⟩ := hF.cols hw
      have hzz := Forall₂.getElem hP.zs
      rw [PermutationArgument.instantiate_eq index.perm _ _ qBlind (v.witness.filter (·.shouldPermute)) sigmas r.zs
        i (index.ext.element i) beta gamma _ hk (by
          intro h; rw [h] at hwl; exact hwl rfl) (by rw [hwlen, e1, hP.sigmas.length_eq]) (by rw [hwlen, e2])
        (by rw [hzlen, e3]; exact chunks_length_congr hk hwlen.symm) (by simp [alphasOf])
        (fun o => (toPoly o.poly).eval x) (fun o => (toPoly o.poly).eval x)
        (fun j => (c.zs.getD j 0).eval x) (fun j => (c.zs.getD j 0).eval (d.omega * x))
        (fun j => (c.zs.getD j 0).eval (d.omega ^ index.perm.usableRows * x)) (c.qBlind.eval x) _ _ hc0 hcu]
      · rw [CircuitPolys.eval_permutation c d index.perm beta gamma x hw, hlen, hzlen,
          permCols_eq hk _ _ _ x (FftParams.gen * index.ext.element i)
            (Forall₂.map_eq hP.ws (fun a b h => by rw [h.2])) (Forall₂.map_eq hP.sigmas (fun a b h => by rw [h.2]))]
      · intro o ho
        obtain ⟨j, hj, rfl⟩ := List.getElem_of_mem ho
        exact hcurr _ (Forall₂.getElem hP.ws j hj (by omega)).1
      · intro o ho
        obtain ⟨j, hj, rfl⟩ := List.getElem_of_mem ho
        exact hcurr _ (Forall₂.getElem hP.sigmas j hj (by rw [← hP.sigmas.length_eq]; exact hj)).1
      · intro j o hj
        rw [hcurr _ (hzat j o hj).1, (hzat j o hj).2]
      · intro j o hj
        rw [hnext _ (hzat j o hj).1, (hzat j o hj).2]
      · intro j o _ hj
        rw [hplus _ (hzat j o hj).1, (hzat j o hj).2]
      · rw [hP.qBlind.1.curr hle hi, hP.qBlind.2]
  refine (Res.ite_bind _ _ _ _).trans ?_
  rw [g2, Res.bind_ok]
  beta_reduce
  have hll := hP.lookups.length_eq
  have hlz := hP.lookupZs.length_eq
  rw [Res.foldM_add_getElem (fun k =>
            weighted (((alphasOf alpha c.gates.length c.zs.length c.lookups.length).lookups).getD k [])
              ((c.lookups[k]?.map (fun l =>
                (lookupPolys d index.perm.usableRows c.qBlind beta gamma l).map (·.eval x))).getD []))]
  · rw [hlen]
    congr 3
    simp [hll, hlz, alphasOf]
  · intro b j hj
    simp only [List.length_zip, hll, hlz] at hj
    have hjl : j < c.lookups.length := by omega
    rw [List.getElem_zip, List.getElem_zip]
    obtain ⟨⟨a1, a2⟩, ⟨b1, b2⟩, ⟨c1, c2⟩, ⟨d1, d2⟩⟩ := Forall₂.getElem hP.lookups j (by omega) hjl
    obtain ⟨z1, z2⟩ := Forall₂.getElem hP.lookupZs j (by omega) hjl
    have hal : (((alphasOf alpha vos.length r.zs.length c.lookups.length).lookups)[j]'(by
        simpa [alphasOf] using hjl)).length = 5 := by simp [alphasOf]
    dsimp only
    rw [lookupInstantiate_eq _ _ qBlind _ _ beta gamma i _ hal
      ⟨(c.lookups[j]).1.a.eval x, (c.lookups[j]).1.s.eval x, (c.lookups[j]).1.aPrime.eval x,
        (c.lookups[j]).1.aPrime.eval (d.omega⁻¹ * x), (c.lookups[j]).1.sPrime.eval x,
        (c.lookups[j]).2.eval x, (c.lookups[j]).2.eval (d.omega * x)⟩ (c.qBlind.eval x) _ _ hc0 hcu
        (by rw [hcurr _ a1, a2]) (by rw [hcurr _ b1, b2]) (by rw [hcurr _ c1, c2]) (by rw [hprev _ c1, c2])
        (by rw [hcurr _ d1, d2]) (by rw [hcurr _ z1, z2]) (by rw [hnext _ z1, z2])
        (by rw [hP.qBlind.1.curr hle hi, hP.qBlind.2]), Res.bind_ok, List.getElem?_eq_getElem hjl,
        List.getD_eq_getElem _ _ (by simpa [alphasOf] using hjl)]
    simp only [Option.map_some, Option.getD_some, eval_lookupPolys, hlen, hzlen]
    rfl

end

section
variable {F : Type} [Field F] [LinearOrder F] [FftParams F] [LawfulFft F]

/-- The verifier's queries for gates. -/
theorem VerifierView.gateAt_ok {C : Type} {d : Domain F} (hd : d.Ok) {v : VerifierView F C} {xi : F}
    {qs : List OracleQuery} {P : OracleQuery → F[X]} (h : VerifierAnswers d v xi qs P) :
    ∀ q ∈ qs, v.gateAt xi d.elements q = .ok ((P q).eval xi) := by
  intro q hq
  obtain ⟨hr, h1, h2, h3⟩ := h q hq
  unfold VerifierView.gateAt
  rw [Rotation.point_ok hd q.rotation xi hr, Res.bind_ok]
  cases hty : q.oracleType with
  | witness =>
    obtain ⟨o, ho, hv⟩ := h1 hty
    simp only [withOracle_of ho, hv]
  | fixed =>
    obtain ⟨o, ho, hv⟩ := h2 hty
    simp only [withOracle_of ho, hv]
  | instance_ =>
    obtain ⟨o, ho, hv⟩ := h3 hty
    simp only [withOracle_of ho, hv, eval_shifted]
    rw [InstanceVerifierOracle.query, eval_toPoly, mul_comm]

/-- The value the verifier compares with zero. -/
theorem quotientCheckValue_eq {S : Scheme F} {vk : VerifierKey S} {st : VState S}
    {is : List (InstanceVerifierOracle F)} {vos : List (GenericVO F)} {d : Domain F} (hd : d.Ok)
    {ch : Challenges F} {c : CircuitPolys F} {qs : List F[X]}
    (hV : VerifierPolys d st is vos ch.xi vk.index.perm.usableRows c qs) (hF : c.Fits d vk.index.perm)
    (hL : vk.index.lookups.length = c.lookups.length) (vanishing : List F) :
    quotientCheckValue S vk st is vos d.size vanishing ch
      = .ok ((c.numerator d vk.index.perm ch.alpha ch.beta ch.gamma
          - recombine d.size qs * toPoly vanishing).eval ch.xi) := by
  have hlen := hV.gates.length_eq
  have hzlen := hV.zs.length_eq
  have hwlen := hV.ws.length_eq
  have hll := hV.lookups.length_eq
  have hlz := hV.lookupZs.length_eq
  have hql := hV.quotient.length_eq
  set x : F := ch.xi with hx
  obtain ⟨l0, hl0, hl0l, hl0p⟩ := lagrangeRow_eq (ε := Err S.E) hd hd.size_pos
  obtain ⟨lu, hlu, hlul, hlup⟩ := lagrangeRow_eq (ε := Err S.E) hd hF.usable
  have hg : 0 < vos.length := by rw [hlen]; exact List.length_pos_iff.2 hF.gates
  have hp0 : peval l0 x = (rowPoly d 0).eval x := by rw [← eval_toPoly, hl0p]
  have hpu : peval lu x = (rowPoly d vk.index.perm.usableRows).eval x := by rw [← eval_toPoly, hlup]
  have hω : d.element 1 = d.omega := by simp [Domain.element]
  have hzat : ∀ (j : Nat) (o : VerifierOracle F S.Comm), st.zs[j]? = some o →
      o.query x = .ok ((c.zs.getD j 0).eval x) ∧ o.query (d.omega * x) = .ok ((c.zs.getD j 0).eval (d.omega * x)) := by
    intro j o hj
    obtain ⟨hlt, rfl⟩ := List.getElem?_eq_some_iff.1 hj
    rw [List.getD_eq_getElem _ _ (by omega)]
    exact Forall₂.getElem hV.zs j hlt (by omega)
  rw [quotientCheckValue_iff]
  refine ⟨d, alphasOf ch.alpha vos.length st.zs.length vk.index.lookups.length, l0, lu, _,
    if c.ws = [] then 0 else
      weighted (alphasOf ch.alpha c.gates.length c.zs.length c.lookups.length).perm
        ((c.permutation d vk.index.perm ch.beta ch.gamma).map (·.eval x)), _, _, hd.new_self,
    mkAlphas_eq _ _ hg _ _, hl0, hlu, Res.foldM_add_getElem (fun i => ch.alpha ^ i * (c.gates.getD i 0).eval x) ?_ 0,
    ?_, Res.foldM_add_getElem (fun k =>
        weighted (((alphasOf ch.alpha c.gates.length c.zs.length c.lookups.length).lookups).getD k [])
          ((c.lookups[k]?.map (fun l =>
            (lookupPolys d vk.index.perm.usableRows c.qBlind ch.beta ch.gamma l).map (·.eval x))).getD [])) ?_ _,
    Res.foldM_add_getElem (fun i => x ^ (d.size * i) * (qs.getD i 0).eval x) ?_ 0, ?_⟩
  · intro b j hj
    rw [List.length_zipIdx] at hj
    rw [List.getElem_zipIdx]
    obtain ⟨e, P, h1, h2, h3⟩ := Forall₂.getElem hV.gates j hj (by omega)
    simp only [Nat.zero_add, h1, Res.mapErr_ok, Res.bind_ok]
    rw [Expr.evalR_ok (VerifierView.gateAt_ok hd h2), Res.mapErr_ok, Res.bind_ok,
      Res.idx_of_lt (by simpa [alphasOf] using hj), Res.bind_ok, List.getD_eq_getElem _ _ (by omega), h3,
      Expr.eval_denote]
    simp [alphasOf, hx]
  · by_cases hw : c.ws = []
    · rw [if_neg (by rw [hwlen, hw]; simp), if_pos hw]
    · have hwl : (st.witness.filter (·.shouldPermute)).length ≠ 0 := by
        rw [hwlen]; exact fun h => hw (List.length_eq_zero_iff.1 h)
      rw [if_neg hw, if_pos hwl]
      obtain ⟨hk, e1, e2, e3⟩ := hF.cols hw
      have hget : ∀ {y : Res PiopErr F} {z : F}, y = .ok z → (match y with | .ok a => a | _ => 0) = z := by
        rintro y z rfl; rfl
      rw [PermutationArgument.open_eq vk.index.perm _ _ st.pre.qBlind st.zs st.pre.perm
        (st.witness.filter (·.shouldPermute)) ch.beta ch.gamma d x _ hk (by
          intro h; rw [h] at hwl; exact hwl rfl) (by rw [hwlen, e1, hV.sigmas.length_eq]) (by rw [hwlen, e2])
        (by rw [hzlen, e3]; exact chunks_length_congr hk hwlen.symm) (by simp [alphasOf])
        (fun o => match o.query x with | .ok a => a | _ => 0) (fun o => match o.query x with | .ok a => a | _ => 0)
        (fun j => (c.zs.getD j 0).eval x) (fun j => (c.zs.getD j 0).eval (d.omega * x))
        (fun j => (c.zs.getD j 0).eval (d.omega ^ vk.index.perm.usableRows * x)) (c.qBlind.eval x)]
      · rw [CircuitPolys.eval_permutation c d vk.index.perm ch.beta ch.gamma x hw, hp0, hpu, hlen, hzlen, hL,
          permCols_eq hk _ _ _ x x (Forall₂.map_eq hV.ws (fun a b h => hget h))
            (Forall₂.map_eq hV.sigmas (fun a b h => hget h))]
      · intro o ho
        obtain ⟨j, hj, rfl⟩ := List.getElem_of_mem ho
        rw [Forall₂.getElem hV.ws j hj (by omega)]
      · intro o ho
        obtain ⟨j, hj, rfl⟩ := List.getElem_of_mem ho
        rw [Forall₂.getElem hV.sigmas j hj (by rw [← hV.sigmas.length_eq]; exact hj)]
      · exact fun j o hj => (hzat j o hj).1
      · intro j o hj
        rw [hω]; exact (hzat j o hj).2
      · intro j o hlt hj
        have hjc : j < c.zs.length := by omega
        rw [List.getD_eq_getElem _ _ hjc]
        exact hV.zsU j o _ (by omega) hj (List.getElem?_eq_getElem hjc)
      · exact hV.qBlind (.inl hw)
  · intro b j hj
    simp only [List.length_zip, hll, hlz] at hj
    have hjl : j < c.lookups.length := by omega
    rw [List.getElem_zip, List.getElem_zip]
    obtain ⟨a1, b1, c1, c2, d1⟩ := Forall₂.getElem hV.lookups j (by omega) hjl
    obtain ⟨z1, z2⟩ := Forall₂.getElem hV.lookupZs j (by omega) hjl
    have hal : (((alphasOf ch.alpha vos.length st.zs.length vk.index.lookups.length).lookups)[j]'(by
        rw [hL]; simpa [alphasOf] using hjl)).length = 5 := by simp [alphasOf]
    dsimp only
    rw [lookupOpen_eq _ _ st.pre.qBlind _ _ ch.beta ch.gamma x d _ hal (hd.element_ne_zero 1)
      ⟨(c.lookups[j]).1.a.eval x, (c.lookups[j]).1.s.eval x, (c.lookups[j]).1.aPrime.eval x,
        (c.lookups[j]).1.aPrime.eval (d.omega⁻¹ * x), (c.lookups[j]).1.sPrime.eval x,
        (c.lookups[j]).2.eval x, (c.lookups[j]).2.eval (d.omega * x)⟩ (c.qBlind.eval x)
        a1 b1 c1 (by rw [hω]; exact c2) d1 z1 (by rw [hω]; exact z2)
        (hV.qBlind (.inr (List.ne_nil_of_length_pos (by omega)))), Res.mapErr_ok, Res.bind_ok,
        List.getElem?_eq_getElem hjl, List.getD_eq_getElem _ _ (by simpa [alphasOf] using hjl)]
    rw [hx] at hp0 hpu
    simp only [Option.map_some, Option.getD_some, eval_lookupPolys, hlen, hzlen, hp0, hpu, hL]
    rfl
  · intro b j hj
    simp only [List.length_zip, powersFrom_length, min_self] at hj
    rw [List.getElem_zip]
    have h1 := Forall₂.getElem hV.quotient j hj (by omega)
    have h2 : (powersFrom 1 (x ^ d.size) st.quotient.length)[j]'(by rw [powersFrom_length]; exact hj)
        = x ^ (d.size * j) := by
      have := powersFrom_getElem? 1 (x ^ d.size) st.quotient.length j
      rw [if_pos hj, List.getElem?_eq_getElem (by rw [powersFrom_length]; exact hj)] at this
      rw [Option.some.inj this, one_mul, pow_mul]
    dsimp only
    rw [h1, Res.mapErr_ok, Res.bind_ok, List.getD_eq_getElem _ _ (by omega), h2]
    rfl
  · rw [eval_sub, eval_mul, aggregate_eq c d vk.index.perm ch.alpha ch.beta ch.gamma x hF, eval_toPoly]
    have e1 : (recombine d.size qs).eval x
        = ((List.range qs.length).map (fun i => x ^ (d.size * i) * (qs.getD i 0).eval x)).sum := by
      unfold recombine
      have := map_list_sum (evalRingHom x) (qs.zipIdx.map (fun q => X ^ (d.size * q.2) * q.1))
      rw [coe_evalRingHom] at this
      rw [this, List.map_map]
      apply zipIdx_sum
      intro j hj
      simp [hj]
    rw [e1]
    simp only [List.length_zip, List.length_zipIdx, hlen, hll, hlz, hql, powersFrom_length, min_self, zero_add]
    simp only [alphasOf, hL, List.length_map, List.length_range, min_self]
    rfl

end
end ZK
