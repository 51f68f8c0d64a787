import Verif.Spec.Interactive
import Verif.Lemmas.Tuples
import Verif.Properties.Soundness
/-! C57: the soundness error of the interactive argument. -/
set_option autoImplicit false
set_option linter.unusedSectionVars false
namespace ZK
open Polynomial

section
variable {F : Type} [Field F] [LinearOrder F] [FftParams F] [LawfulFft F]
variable {S : Scheme F} {vk : VerifierKey S} {pre : VerifierPreprocessed S} {proof : TPProof S}
  {ws : List (VerifierOracle F S.Comm)} {is : List (InstanceVerifierOracle F)} {domainSize : Nat} {ch : Challenges F}
  {d : Domain F} {st : VState S}

omit [LinearOrder F] [FftParams F] [LawfulFft F] in
theorem mem_rotations_of_config {C : Type} {os os' : List (VerifierOracle F C)} (h : os'.map (·.config) = os.map (·.config))
    {o : VerifierOracle F C} (ho : o ∈ os') : ∃ o' ∈ os, o.rotations = o'.rotations := by
  have hm : o.config ∈ os.map (·.config) := h ▸ List.mem_map_of_mem ho
  obtain ⟨o', ho', he⟩ := List.mem_map.1 hm
  exact ⟨o', ho', (congrArg VerifierOracle.rotations he).symm⟩

omit [LinearOrder F] [FftParams F] [LawfulFft F] in
theorem mem_rotations_of_commitments {C : Type} {os : List (VerifierOracle F C)} {cs : List C} {o : VerifierOracle F C}
    (ho : o ∈ registerCommitments os cs) : ∃ o' ∈ os, o.rotations = o'.rotations := by
  induction os generalizing cs with
  | nil => simp [registerCommitments] at ho
  | cons a os ih =>
    cases cs with
    | nil => exact ⟨o, ho, rfl⟩
    | cons c cs =>
      rcases List.mem_cons.1 ho with rfl | ho
      · exact ⟨a, by simp, rfl⟩
      · obtain ⟨o', h1, h2⟩ := ih ho
        exact ⟨o', by simp [h1], h2⟩

omit [LinearOrder F] [FftParams F] [LawfulFft F] in
theorem length_registerCommitments {C : Type} (os : List (VerifierOracle F C)) (cs : List C) :
    (registerCommitments os cs).length = os.length := by
  induction os generalizing cs with
  | nil => rfl
  | cons a os ih => cases cs <;> simp [registerCommitments, ih]

/-- The verifier opens columns at rotations that are known in advance. -/
theorem Registration.rotations (h : Registration S vk pre proof ws is domainSize ch d st) {o : VerifierOracle F S.Comm}
    (ho : o ∈ st.oracles) :
    o.rotations ∈ rotationSets (ws ++ pre.fixed ++ pre.table ++ pre.perm ++ [pre.qBlind]) vk.index.perm.usableRows := by
  have hd := Domain.new_ok h.dom
  have hin : ∀ o' ∈ ws ++ pre.fixed ++ pre.table ++ pre.perm ++ [pre.qBlind], o.rotations = o'.rotations →
      o.rotations ∈ rotationSets (ws ++ pre.fixed ++ pre.table ++ pre.perm ++ [pre.qBlind]) vk.index.perm.usableRows := by
    intro o' ho' he
    unfold rotationSets
    rw [List.mem_toFinset, List.mem_append]
    exact .inl (List.mem_map.2 ⟨o', ho', he.symm⟩)
  have hout : ∀ r ∈ [setExtend [] [Rotation.curr], setExtend [] [Rotation.curr, Rotation.prev],
      setExtend [] [Rotation.curr, Rotation.next],
      setInsert (⟨vk.index.perm.usableRows, .plus⟩ : Rotation) (setExtend [] [Rotation.curr, Rotation.next])], o.rotations = r →
      o.rotations ∈ rotationSets (ws ++ pre.fixed ++ pre.table ++ pre.perm ++ [pre.qBlind]) vk.index.perm.usableRows := by
    intro r hr he
    unfold rotationSets
    rw [List.mem_toFinset, List.mem_append, he]
    exact .inr hr
  unfold VState.oracles openingOrder at ho
  simp only [List.mem_append, List.mem_singleton] at ho
  rcases ho with ((((ho | ho) | ho) | ho) | ho) | ((ho | ho) | ho) | ho
  · obtain ⟨o1, h1, e1⟩ := mem_rotations_of_config (registerAll_inv hd h.witness).2 ho
    obtain ⟨o2, h2, e2⟩ := mem_rotations_of_commitments h1
    exact hin o2 (by simp [h2]) (e1.trans e2)
  · unfold primes at ho
    obtain ⟨l, hl, ho⟩ := List.mem_flatMap.1 ho
    obtain ⟨i, hi⟩ := List.mem_iff_getElem?.1 hl
    have hlt := getElem?_some_lt hi
    rw [h.lookups_length] at hlt
    obtain ⟨-, -, -, -, -, -, -, -, -, -, -, -, -, -, -, -, -, hr1, hr2⟩ := h.lookup_inv (List.getElem?_eq_getElem hlt) hi
    simp only [List.mem_cons, List.not_mem_nil, or_false] at ho
    rcases ho with rfl | rfl
    · exact hout _ (by simp) hr1
    · exact hout _ (by simp) hr2
  · obtain ⟨i, hi⟩ := List.mem_iff_getElem?.1 ho
    obtain ⟨-, -, -, hr⟩ := h.lookupZ_inv hi
    exact hout _ (by simp) hr
  · obtain ⟨i, hi⟩ := List.mem_iff_getElem?.1 ho
    obtain ⟨-, -, -, hr⟩ := h.quotient_inv hi
    exact hout _ (by simp) hr
  · obtain ⟨i, hi⟩ := List.mem_iff_getElem?.1 ho
    obtain ⟨c, -, -, hr⟩ := h.z_inv hi
    unfold verifierZ at hr
    simp only at hr
    split at hr
    · exact hout _ (by simp) hr
    · exact hout _ (by simp) hr
  · obtain ⟨o1, h1, e1⟩ := mem_rotations_of_config (registerAll_inv hd h.fixed).2 ho
    exact hin o1 (by simp [h1]) e1
  · obtain ⟨o1, h1, e1⟩ := mem_rotations_of_config (registerAll_inv hd h.table).2 ho
    exact hin o1 (by simp [h1]) e1
  · rw [h.perm] at ho
    obtain ⟨i, hi⟩ := List.mem_iff_getElem?.1 ho
    rw [List.getElem?_zipWith] at hi
    split at hi
    · rename_i a b ha hb
      obtain rfl := Option.some.inj hi
      exact hin a (by simp [List.mem_of_getElem? ha]) rfl
    · cases hi
  · exact hin pre.qBlind (by simp) (by rw [ho, h.qBlind]; rfl)

/-- The number of columns the verifier opens. -/
theorem Registration.oracles_length (h : Registration S vk pre proof ws is domainSize ch d st) :
    st.oracles.length = ws.length + 3 * vk.index.lookups.length + proof.quotientCommitments.length + proof.zCommitments.length
      + (pre.fixed.length + pre.table.length + pre.perm.length + 1) := by
  have hd := Domain.new_ok h.dom
  have h1 := congrArg List.length (registerAll_inv hd h.witness).2
  have h2 := congrArg List.length (registerAll_inv hd h.fixed).2
  have h3 := congrArg List.length (registerAll_inv hd h.table).2
  have h4 := congrArg List.length h.perm
  simp only [List.length_map, length_registerCommitments, List.length_zipWith, ← h.permLength, Nat.min_self] at h1 h2 h3 h4
  have h5 : (primes st.lookups).length = 2 * st.lookups.length := by
    unfold primes
    generalize st.lookups = l
    induction l with
    | nil => rfl
    | cons a l ih => rw [List.flatMap_cons, List.length_append, ih]; simp; omega
  unfold VState.oracles openingOrder
  simp only [List.length_append, List.length_singleton, h1, h2, h3, h4, h5, h.lookups_length, h.lookupZs_length, h.quotient_length,
    h.zs_length]
  omega

omit [LinearOrder F] [FftParams F] [LawfulFft F] in
theorem distinctRotations_le {C : Type} {os : List (VerifierOracle F C)} {R : Finset (List Rotation)}
    (h : ∀ o ∈ os, o.rotations ∈ R) : distinctRotations os ≤ R.card := by
  refine Finset.card_le_card (fun r hr => ?_)
  rw [List.mem_toFinset] at hr
  obtain ⟨o, ho, rfl⟩ := List.mem_map.1 hr
  exact h o ho

omit [LinearOrder F] [FftParams F] [LawfulFft F] in
theorem totalPoints_le {C : Type} {os : List (VerifierOracle F C)} {R : Finset (List Rotation)}
    (h : ∀ o ∈ os, o.rotations ∈ R) : totalPoints os ≤ ∑ r ∈ R, r.length := by
  unfold totalPoints
  rw [openingSets_eq, List.map_map]
  have hn : (setExtend [] (os.map ConcreteOracle.rotations)).Nodup :=
    (setExtend_sorted List.Pairwise.nil).imp (fun h => ne_of_lt h)
  show ((setExtend [] (os.map ConcreteOracle.rotations)).map List.length).sum ≤ _
  rw [← List.sum_toFinset _ hn]
  refine Finset.sum_le_sum_of_subset (fun r hr => ?_)
  rw [List.mem_toFinset, mem_setExtend] at hr
  rcases hr with hr | hr
  · cases hr
  · obtain ⟨o, ho, rfl⟩ := List.mem_map.1 hr
    exact h o ho

/-- The error of the interactive argument: the sum of the numbers of exceptional values of theta, (beta, gamma), alpha, xi, `x1`, `x2`,
`x3` and `x4`. Here `u` is the number of usable rows, `K` the number of components of a lookup, `m` the number of copied columns,
`gates` and `lookups` are the numbers of constraints, `Z` and `Q` the numbers of grand products and of parts of the quotient, `B` bounds the degree of
the constraints, `n` is the number of rows, `D` the number of coefficients a polynomial may have, `deg` the degree of the polynomial of the key,
`O` the number of opened columns, `R` the number of their sets of rotations and `P` the sum of the sizes of these sets. -/
def soundnessError (u K m gates lookups Z Q B n D deg O R P : Nat) : Nat :=
  u * (K - 1) + (max (2 * (m * u)) (4 * u) + ((gates + 2 * Z + 5 * lookups) + (max B (n * (Q - 1) + (D - 1) + deg) + ((O - 1) + ((R - 1) +
    ((D + P - 1) + R))))))

open Classical in
/-- **C57** The soundness error of the interactive argument. In the situation of C51 let a prover answer the challenges of the verifier in any way;
it may use all challenges received so far. The witness columns, which are fixed first, violate the circuit. Then for challenges from a finite set `T` the
verifier accepts for at most the fraction `soundnessError / |T|` of all tuples of nine challenges. The prover has to send at least one value `q` for every opening
set, which the code does not check (see C38), and the number of parts of the quotient, which the code does not check either, enters the bound. -/
theorem C57_soundness_error {d : Domain F} {D N B K Z Q : Nat} {v : ProverView F} {sigmas : List (ProverOracle F)} {qBlind : ProverOracle F}
    {vos : List (GenericVO F)} {S : Scheme F} {com : F[X] → S.Rand → S.Comm} {ck : S.CK} {vk : VerifierKey S}
    (hS : HomomorphicScheme S ck vk.vk com) (hB : Binding S vk.vk com) (hinj : ∀ p q r s, com p r = com q s → p = q)
    {pre : VerifierPreprocessed S} {ws : List (VerifierOracle F S.Comm)} {is : List (InstanceVerifierOracle F)}
    (hsu : SetUp S com v sigmas qBlind ws is pre) (hdom : Domain.new (F := F) d.size = some d) (hn : 2 ≤ d.size)
    {vanishing : List F} (hvos : vos ≠ []) (hs : Enforced d D vk.index v sigmas qBlind vos (toPoly vanishing))
    (hb : DegreeBounds d D N B K vk.index vos)
    (tau : Equiv.Perm (Fin (v.witness.filter (·.shouldPermute)).length × Fin vk.index.perm.usableRows))
    (hte : Encodes d vk.index.perm.deltas sigmas tau)
    (hfalse : ¬ (GatesHold d v vos (toPoly vanishing) ∧ CopiesHold v tau ∧
      LookupsHold d.size vk.index.perm.usableRows v vk.index.lookups))
    (hZ : vk.index.perm.numberOfZPolys (v.witness.filter (·.shouldPermute)).length = (.ok Z : Res (Err S.E) Nat))
    (P : Strategy S) (hP : P.Legal com D Q vk pre ws is d.size (v.witness.map (fun o => toPoly o.poly))) (T : Finset F) :
    ((Fintype.piFinset fun _ : Fin 9 => T).filter (fun c =>
      verifyAt S vk pre (P.proof com c) ws is vos d.size vanishing ⟨c 0, c 1, c 2, c 3, c 4⟩ (c 5) (c 6) (c 7) (c 8) = .ok ())).card
    ≤ soundnessError vk.index.perm.usableRows K (v.witness.filter (·.shouldPermute)).length vos.length vk.index.lookups.length Z Q B d.size D
        (toPoly vanishing).natDegree
        (ws.length + 3 * vk.index.lookups.length + Q + Z + (pre.fixed.length + pre.table.length + pre.perm.length + 1))
        (rotationSets (ws ++ pre.fixed ++ pre.table ++ pre.perm ++ [pre.qBlind]) vk.index.perm.usableRows).card
        (∑ r ∈ rotationSets (ws ++ pre.fixed ++ pre.table ++ pre.perm ++ [pre.qBlind]) vk.index.perm.usableRows, r.length)
      * T.card ^ 8 := by
  have hl : ∀ c : Fin 9 → F, List.ofFn c = [c 0, c 1, c 2, c 3, c 4, c 5, c 6, c 7, c 8] := by
    intro c; simp [List.ofFn_succ, Fin.succ]
  set acc : List F → Prop := fun cs => ∃ theta beta gamma alpha xi x1 x2 x3 x4, cs = [theta, beta, gamma, alpha, xi, x1, x2, x3, x4] ∧
    verifyAt S vk pre { P.claims [theta, beta, gamma, alpha, xi] with
      multiopen := ⟨P.q [theta, beta, gamma, alpha, xi, x1, x2, x3],
        com (P.f [theta, beta, gamma, alpha, xi, x1, x2]).1 (P.f [theta, beta, gamma, alpha, xi, x1, x2]).2,
        P.opening [theta, beta, gamma, alpha, xi, x1, x2, x3, x4]⟩ } ws is vos d.size vanishing
      ⟨theta, beta, gamma, alpha, xi⟩ x1 x2 x3 x4 = .ok () with hacc
  have hcount := count_eq_card T 9 acc
  rw [Finset.filter_congr (q := fun c => acc (List.ofFn c)) (by
    intro c _
    rw [hl c, hacc]
    constructor
    · intro h
      exact ⟨_, _, _, _, _, _, _, _, _, rfl, h⟩
    · rintro ⟨_, _, _, _, _, _, _, _, _, he, h⟩
      simp only [List.cons.injEq, and_true] at he
      obtain ⟨rfl, rfl, rfl, rfl, rfl, rfl, rfl, rfl, rfl⟩ := he
      exact h), hcount]
  refine ErrLe.card ?_
  unfold soundnessError
  obtain ⟨Bt, hBt, hmain⟩ := C51_soundness_partial hS hB hinj hsu hdom hn hvos hs hb tau hte hfalse
  refine ErrLe.step hBt (fun theta hth => ?_)
  obtain ⟨Bp, hBp, hmain⟩ := hmain theta hth (P.lookups [theta]) (hP.lookups _)
  refine ErrLe.step_pair hBp (fun beta gamma hbg => ?_)
  obtain ⟨Ba, hBa, hmain⟩ := hmain beta gamma hbg (P.products [theta, beta, gamma]) (P.lookupProducts [theta, beta, gamma])
    (hP.products _) (hP.lookupProducts _)
  -- a wrong number of grand products is never accepted
  by_cases hz : (P.products [theta, beta, gamma]).length = Z
  swap
  · refine ErrLe.of_not _ _ _ ?_
    rintro cs ⟨_, _, _, alpha, xi, _, _, _, _, he, h⟩
    simp only [List.cons.injEq] at he
    obtain ⟨rfl, rfl, rfl, -⟩ := he
    unfold verifyAt at h
    obtain ⟨st, hst, -⟩ := Res.bind_eq_ok.1 h
    obtain ⟨dd, hreg⟩ := verifyRegister_iff.1 hst
    have hm := hP.made theta beta gamma alpha xi
    have := (hreg.fits hsu ⟨hm.witness, hm.lookups, hm.zs, hm.lookupZs, hm.quotient⟩).1
    rw [hZ] at this
    exact hz (Res.ok.inj this).symm
  rw [hz] at hBa
  refine ErrLe.step hBa (fun alpha hal => ?_)
  obtain ⟨Bx, hBx, hmain⟩ := hmain alpha hal (P.quotient [theta, beta, gamma, alpha]) (hP.quotient _)
  have hq := hP.parts [theta, beta, gamma, alpha]
  have hBx' : Bx.card ≤ max B (d.size * (Q - 1) + (D - 1) + (toPoly vanishing).natDegree) := by
    refine hBx.trans (max_le_max le_rfl ?_)
    have := Nat.mul_le_mul_left d.size (Nat.sub_le_sub_right hq 1)
    omega
  refine ErrLe.step hBx' (fun xi hxi => ?_)
  have hmade := hP.made theta beta gamma alpha xi
  by_cases hst : ∃ st, verifyRegister S vk pre (P.claims [theta, beta, gamma, alpha, xi]) ws is d.size ⟨theta, beta, gamma, alpha, xi⟩ = .ok st
  swap
  · refine ErrLe.of_not _ _ _ ?_
    rintro cs ⟨_, _, _, _, _, _, _, _, _, he, h⟩
    simp only [List.cons.injEq] at he
    obtain ⟨rfl, rfl, rfl, rfl, rfl, -⟩ := he
    unfold verifyAt at h
    obtain ⟨st, h1, -⟩ := Res.bind_eq_ok.1 h
    exact hst ⟨st, h1⟩
  obtain ⟨st, hst⟩ := hst
  obtain ⟨dd, hreg⟩ := verifyRegister_iff.1 hst
  have hR := distinctRotations_le (fun o ho => hreg.rotations ho)
  have hPt := totalPoints_le (fun o ho => hreg.rotations ho)
  have hO := hreg.oracles_length
  have hqc : (P.quotient [theta, beta, gamma, alpha]).length = (P.claims [theta, beta, gamma, alpha, xi]).quotientCommitments.length :=
    hmade.quotient.length_eq
  have hzc : (P.products [theta, beta, gamma]).length = (P.claims [theta, beta, gamma, alpha, xi]).zCommitments.length :=
    hmade.zs.length_eq
  obtain ⟨B1, hB1, hmain⟩ := hmain xi hxi _ hmade st hst
  refine ErrLe.step (B := B1) (by omega) (fun x1 hx1 => ?_)
  obtain ⟨B2, hB2, hmain⟩ := hmain x1 hx1
  refine ErrLe.step (B := B2) (by omega) (fun x2 hx2 => ?_)
  obtain ⟨B3, hB3, hmain⟩ := hmain x2 hx2 (P.f [theta, beta, gamma, alpha, xi, x1, x2]).1 (P.f [theta, beta, gamma, alpha, xi, x1, x2]).2 (hP.f _)
  refine ErrLe.step (B := B3) (by omega) (fun x3 hx3 => ?_)
  obtain ⟨B4, hB4, hmain⟩ := hmain x3 hx3 (P.q [theta, beta, gamma, alpha, xi, x1, x2, x3]) (hP.enough _ _ _ _ _ _ _ _ st hst)
  refine ErrLe.step (e := 0) (B := B4) (hB4.trans hR) (fun x4 hx4 => ?_)
  refine ErrLe.of_not _ _ _ ?_
  rintro cs ⟨_, _, _, _, _, _, _, _, _, he, h⟩
  simp only [List.cons.injEq] at he
  obtain ⟨rfl, rfl, rfl, rfl, rfl, rfl, rfl, rfl, rfl, -⟩ := he
  exact hmain x4 hx4 _ h

end
end ZK
