import Verif.Lemmas.Verify
import Verif.Lemmas.Toy
/-! C33: the shape of accepted proofs. -/
set_option autoImplicit false
set_option linter.unusedSectionVars false
namespace ZK

section
variable {F : Type} [Field F] [LinearOrder F] [FftParams F] [LawfulFft F]

theorem length_of_full_chunks {α : Type} {k : Nat} (hk : 0 < k) {l : List α}
    (h : ∀ c ∈ chunks k l, k ≤ c.length) : l.length = k * (chunks k l).length := by
  have hf := congrArg List.length (chunks_flatten hk l)
  rw [List.length_flatten] at hf
  rw [← hf]
  have : (chunks k l).map List.length = (chunks k l).map (fun _ => k) := by
    apply List.map_congr_left
    intro c hc
    exact le_antisymm (chunks_length_le hk l c hc) (h c hc)
  rw [this, List.map_const', List.sum_replicate, smul_eq_mul, mul_comm]

theorem registerCommitments_config {C : Type} (os : List (VerifierOracle F C)) (cs : List C) :
    (registerCommitments os cs).map (fun o => (o.label, o.rotations, o.shouldPermute))
      = os.map (fun o => (o.label, o.rotations, o.shouldPermute)) := by
  induction os generalizing cs with
  | nil => rfl
  | cons o os ih =>
    cases cs with
    | nil => rfl
    | cons c cs => simp only [registerCommitments, List.map_cons, ih]; rfl

theorem expectedEvals_congr {C : Type} {os os' : List (VerifierOracle F C)}
    (h : os.map (fun o => (o.label, o.rotations, o.shouldPermute))
      = os'.map (fun o => (o.label, o.rotations, o.shouldPermute))) : expectedEvals os = expectedEvals os' := by
  have key : ∀ os : List (VerifierOracle F C), expectedEvals os =
      ((os.map (fun o => (o.label, o.rotations, o.shouldPermute))).flatMap (fun p => p.2.1.map
        (fun r => (p.1, r.signed)))).toFinset.card := by
    intro os
    unfold expectedEvals
    rw [List.flatMap_map]
    rfl
  rw [key, key, h]

/-- The copied columns of a list, as a number. -/
def copiedColumns {C : Type} (os : List (VerifierOracle F C)) : Nat := (os.filter (·.shouldPermute)).length

theorem copiedColumns_congr {C : Type} {os os' : List (VerifierOracle F C)}
    (h : os.map (fun o => (o.label, o.rotations, o.shouldPermute))
      = os'.map (fun o => (o.label, o.rotations, o.shouldPermute))) : copiedColumns os = copiedColumns os' := by
  have key : ∀ os : List (VerifierOracle F C), copiedColumns os =
      ((os.map (fun o => (o.label, o.rotations, o.shouldPermute))).filter (·.2.2)).length := by
    intro os
    unfold copiedColumns
    rw [List.filter_map, List.length_map]
    rfl
  rw [key, key, h]

theorem config_of_config {C : Type} {os os' : List (VerifierOracle F C)} (h : os.map (·.config) = os'.map (·.config)) :
    os.map (fun o => (o.label, o.rotations, o.shouldPermute))
      = os'.map (fun o => (o.label, o.rotations, o.shouldPermute)) := by
  have := congrArg (List.map (fun o : VerifierOracle F C => (o.label, o.rotations, o.shouldPermute))) h
  rw [List.map_map, List.map_map] at this
  exact this

/-- The number of evaluations of `m` permutation aggregation polynomials: `z(x)` and `z(wx)` of each, and
`z(w^u x)` of all but the last, which is a new point only when `u` is at least 2. -/
def expectedZEvals (u m : Nat) : Nat := if u < 2 then 2 * m else 3 * m - 1

theorem expectedEvals_zs {S : Scheme F} (u : Nat) (cs : List S.Comm) :
    expectedEvals (cs.zipIdx.map (verifierZ u cs.length)) = expectedZEvals u cs.length := by
  classical
  have hrot : setExtend [] [Rotation.curr, Rotation.next] = [Rotation.curr, Rotation.next] := by decide
  have hlab : ∀ {i j : Nat}, bytes "agg_permutation_" ++ natBytes i = bytes "agg_permutation_" ++ natBytes j → i = j :=
    fun h => natBytes_inj (List.append_cancel_left h)
  set f : Nat → Label := fun i => bytes "agg_permutation_" ++ natBytes i with hf
  have hinj : Function.Injective f := fun i j h => hlab h
  have hset : ((cs.zipIdx.map (verifierZ (S := S) u cs.length)).flatMap (fun o => (ConcreteOracle.rotations o).map
      (fun r => (ConcreteOracle.label o, r.signed)))).toFinset
      = ((Finset.range cs.length).image (fun i => (f i, (0 : ℤ)))) ∪ ((Finset.range cs.length).image (fun i => (f i, (1 : ℤ))))
        ∪ ((Finset.range (cs.length - 1)).image (fun i => (f i, (u : ℤ)))) := by
    ext p
    simp only [List.mem_toFinset, List.mem_flatMap, List.mem_map, Finset.mem_union, Finset.mem_image, Finset.mem_range]
    constructor
    · rintro ⟨o, ⟨⟨c, i⟩, hc, rfl⟩, r, hr, rfl⟩
      have hi := getElem?_some_lt (List.mem_zipIdx_iff_getElem?.1 hc)
      simp only at hi
      unfold verifierZ at hr
      simp only [ConcreteOracle.rotations, hrot] at hr
      split at hr
      · rw [mem_setInsert] at hr
        rcases hr with rfl | hr
        · exact .inr ⟨i, by omega, rfl⟩
        · simp only [List.mem_cons, List.not_mem_nil, or_false] at hr
          rcases hr with rfl | rfl
          · exact .inl (.inl ⟨i, hi, rfl⟩)
          · exact .inl (.inr ⟨i, hi, rfl⟩)
      · simp only [List.mem_cons, List.not_mem_nil, or_false] at hr
        rcases hr with rfl | rfl
        · exact .inl (.inl ⟨i, hi, rfl⟩)
        · exact .inl (.inr ⟨i, hi, rfl⟩)
    · have mem : ∀ i < cs.length, ∀ r : Rotation, (r = .curr ∨ r = .next ∨ (i < cs.length - 1 ∧ r = ⟨u, .plus⟩)) →
          ∃ a, (∃ a_1 ∈ cs.zipIdx, verifierZ (S := S) u cs.length a_1 = a) ∧
            ∃ a_1 ∈ ConcreteOracle.rotations a, (ConcreteOracle.label a, a_1.signed) = (f i, r.signed) := by
        intro i hi r hr
        refine ⟨_, ⟨(cs[i], i), List.mem_zipIdx_iff_getElem?.2 (List.getElem?_eq_getElem hi), rfl⟩, r, ?_, rfl⟩
        unfold verifierZ
        simp only [ConcreteOracle.rotations, hrot]
        split
        · rw [mem_setInsert]
          rcases hr with rfl | rfl | ⟨_, rfl⟩ <;> simp
        · rcases hr with rfl | rfl | ⟨h, rfl⟩
          · simp
          · simp
          · omega
      rintro ((⟨i, hi, rfl⟩ | ⟨i, hi, rfl⟩) | ⟨i, hi, rfl⟩)
      · exact mem i hi .curr (.inl rfl)
      · exact mem i hi .next (.inr (.inl rfl))
      · exact mem i (by omega) ⟨u, .plus⟩ (.inr (.inr ⟨hi, rfl⟩))
  have hci : ∀ k (z : ℤ), ((Finset.range k).image (fun i => (f i, z))).card = k := by
    intro k z
    rw [Finset.card_image_of_injective _ (fun i j h => hinj (Prod.mk.inj h).1), Finset.card_range]
  have hdis : ∀ k l (y z : ℤ), y ≠ z → Disjoint ((Finset.range k).image (fun i => (f i, y)))
      ((Finset.range l).image (fun i => (f i, z))) := by
    intro k l y z hyz
    rw [Finset.disjoint_left]
    intro p hp hq
    obtain ⟨i, _, rfl⟩ := Finset.mem_image.1 hp
    obtain ⟨j, _, h⟩ := Finset.mem_image.1 hq
    exact hyz (Prod.mk.inj h).2.symm
  have hsub : ∀ (z : ℤ), (Finset.range (cs.length - 1)).image (fun i => (f i, z))
      ⊆ (Finset.range cs.length).image (fun i => (f i, z)) := by
    intro z
    apply Finset.image_subset_image
    intro i
    simp only [Finset.mem_range]
    omega
  unfold expectedEvals expectedZEvals
  rw [hset]
  by_cases hu : u < 2
  · rw [if_pos hu]
    have h01 : u = 0 ∨ u = 1 := by omega
    rw [Finset.union_eq_left.2, Finset.card_union_of_disjoint (hdis _ _ _ _ (by norm_num)), hci, hci]
    · omega
    · rcases h01 with rfl | rfl
      · exact (hsub _).trans Finset.subset_union_left
      · exact (hsub _).trans Finset.subset_union_right
  · rw [if_neg hu, Finset.card_union_of_disjoint, Finset.card_union_of_disjoint (hdis _ _ _ _ (by norm_num)), hci, hci, hci]
    · omega
    · rw [Finset.disjoint_union_left]
      exact ⟨hdis _ _ _ _ (by omega), hdis _ _ _ _ (by omega)⟩

/-- What a proof that can be registered looks like, see `C33_lengths`. -/
theorem register_lengths {S : Scheme F} {vk : VerifierKey S} {pre : VerifierPreprocessed S} {proof : TPProof S}
    {ws : List (VerifierOracle F S.Comm)} {is : List (InstanceVerifierOracle F)} {domainSize : Nat} {ch : Challenges F} {st : VState S}
    (h1 : verifyRegister S vk pre proof ws is domainSize ch = .ok st) :
    let L := vk.index.lookups.length
    let m := proof.zCommitments.length
    proof.witnessEvals.length = expectedEvals ws ∧ proof.fixedEvals.length = expectedEvals pre.fixed ∧
    proof.tableEvals.length = expectedEvals pre.table ∧ proof.permEvals.length = pre.perm.length ∧
    proof.lookupCommitments.length = 2 * L ∧ proof.lookupEvals.length = 3 * L ∧
    proof.lookupZCommitments.length = L ∧ proof.lookupZEvals.length = 2 * L ∧
    (∃ c, c = copiedColumns ws ∧ if c = 0 then m = 0 else
      0 < vk.index.perm.maxCols ∧ (m - 1) * vk.index.perm.maxCols < c ∧ c ≤ m * vk.index.perm.maxCols) ∧
    proof.zEvals.length = expectedZEvals vk.index.perm.usableRows m ∧
    proof.quotientCommitments.length ≤ proof.quotientEvals.length := by
  intro L m
  obtain ⟨d, r⟩ := verifyRegister_iff.1 h1
  have hd : d.Ok := Domain.new_ok r.dom
  have hw := registerAll_inv hd r.witness
  have hf := registerAll_inv hd r.fixed
  have ht := registerAll_inv hd r.table
  have hz := registerAll_inv hd r.zs
  have hcfg := (config_of_config hw.2).trans (registerCommitments_config ws proof.witnessCommitments)
  have hlk : ∀ i (hi : i < L), ∃ a b c,
      (chunks 2 proof.lookupCommitments)[i]? = some b ∧ (chunks 3 proof.lookupEvals)[i]? = some c ∧
      vk.index.lookups[i]? = some a ∧ 2 ≤ b.length ∧ 3 ≤ c.length := by
    intro i hi
    have hb : i < (chunks 2 proof.lookupCommitments).length := by rw [r.lookupComms]; exact hi
    have hc : i < (chunks 3 proof.lookupEvals).length := by rw [r.lookupEvals]; exact hi
    have := Res.mapM_getElem r.lookups i (by simp [L] at hi ⊢; omega)
    rw [List.getElem_zipIdx, List.getElem_zip, List.getElem_zip] at this
    refine ⟨_, _, _, List.getElem?_eq_getElem hb, List.getElem?_eq_getElem hc, List.getElem?_eq_getElem hi, ?_, ?_⟩
    · unfold verifierLookup at this
      simp only [Res.bind_eq_ok, Res.idx_eq_ok] at this
      obtain ⟨_, _, _, _, _, _, _, _, _, _, _, _, _, _, _, h, _⟩ := this
      exact getElem?_some_lt h
    · unfold verifierLookup at this
      simp only [Res.bind_eq_ok, Res.idx_eq_ok] at this
      obtain ⟨_, _, _, _, _, _, _, _, _, _, _, _, _, h, _⟩ := this
      exact getElem?_some_lt h
  refine ⟨?_, hf.1, ht.1, r.permLength.symm, ?_, ?_, r.lookupZComms, ?_, ⟨_, rfl, ?_⟩, ?_, ?_⟩
  · rw [hw.1]
    exact expectedEvals_congr (registerCommitments_config _ _)
  · rw [length_of_full_chunks (k := 2) (by norm_num), r.lookupComms]
    intro c hc
    obtain ⟨i, hi, rfl⟩ := List.getElem_of_mem hc
    obtain ⟨_, b, _, hb, _, _, h2, _⟩ := hlk i (hi.trans_eq r.lookupComms)
    rw [List.getElem?_eq_getElem hi] at hb
    rw [Option.some.inj hb]; exact h2
  · rw [length_of_full_chunks (k := 3) (by norm_num), r.lookupEvals]
    intro c hc
    obtain ⟨i, hi, rfl⟩ := List.getElem_of_mem hc
    obtain ⟨_, _, b, _, hb, _, _, h2⟩ := hlk i (hi.trans_eq r.lookupEvals)
    rw [List.getElem?_eq_getElem hi] at hb
    rw [Option.some.inj hb]; exact h2
  · rw [length_of_full_chunks (k := 2) (by norm_num), r.lookupZEvals]
    intro c hc
    obtain ⟨i, hi, rfl⟩ := List.getElem_of_mem hc
    have hi' : i < proof.lookupZCommitments.length := by rw [r.lookupZComms, ← r.lookupZEvals]; exact hi
    have := Res.mapM_getElem r.lookupZs i (by simp; omega)
    rw [List.getElem_zipIdx, List.getElem_zip] at this
    unfold verifierLookupZ at this
    simp only [Res.bind_eq_ok, Res.idx_eq_ok] at this
    obtain ⟨_, _, _, h, _⟩ := this
    exact getElem?_some_lt h
  · have hn := r.numZ
    rw [show (st.witness.filter (·.shouldPermute)).length = copiedColumns ws from copiedColumns_congr hcfg] at hn
    unfold PermutationArgument.numberOfZPolys at hn
    split at hn
    · rename_i h0
      rw [if_pos h0]
      exact (Res.ok.inj hn).symm
    · rename_i h0
      rw [if_neg h0]
      split at hn
      · simp at hn
      · rename_i hm
        have hn := Res.ok.inj hn
        have hmp : 0 < vk.index.perm.maxCols := Nat.pos_of_ne_zero hm
        refine ⟨hmp, ?_⟩
        show (proof.zCommitments.length - 1) * _ < _ ∧ _ ≤ proof.zCommitments.length * _
        rw [← hn]
        set c := copiedColumns ws
        set k := vk.index.perm.maxCols
        have hdm := Nat.div_add_mod c k
        have hml := Nat.mod_lt c hmp
        split
        · rename_i hne
          rw [Nat.add_sub_cancel, Nat.add_mul, Nat.mul_comm (c / k)]
          omega
        · rename_i he
          simp only [ne_eq, not_not] at he
          have hq : 0 < c / k := by
            rcases Nat.eq_zero_or_pos (c / k) with h | h
            · rw [h, he] at hdm; simp at hdm; omega
            · exact h
          rw [Nat.add_zero, Nat.sub_mul, Nat.mul_comm (c / k)]
          have : k ≤ k * (c / k) := Nat.le_mul_of_pos_right _ hq
          omega
  · rw [hz.1, expectedEvals_zs]
  · by_contra hc
    push Not at hc
    have hlt : proof.quotientEvals.length < proof.quotientCommitments.zipIdx.length := by simpa using hc
    have := Res.mapM_getElem r.quotient _ hlt
    simp only [Res.bind_eq_ok, Res.idx_eq_ok] at this
    obtain ⟨e, he, _⟩ := this
    have := getElem?_some_lt he
    simp at this

/-- **C33** The lengths in an accepted proof. `ws` are the witness oracles given to the verifier, `m` is the
number of aggregation polynomials of the permutation argument. -/
theorem C33_lengths (S : Scheme F) (vk : VerifierKey S) (pre : VerifierPreprocessed S) (proof : TPProof S)
    (ws : List (VerifierOracle F S.Comm)) (is : List (InstanceVerifierOracle F)) (vos : List (GenericVO F))
    (domainSize : Nat) (vanishing : List F)
    (h : verify S vk pre proof ws is vos domainSize vanishing = .ok ()) :
    let L := vk.index.lookups.length
    let m := proof.zCommitments.length
    proof.witnessEvals.length = expectedEvals ws ∧ proof.fixedEvals.length = expectedEvals pre.fixed ∧
    proof.tableEvals.length = expectedEvals pre.table ∧ proof.permEvals.length = pre.perm.length ∧
    proof.lookupCommitments.length = 2 * L ∧ proof.lookupEvals.length = 3 * L ∧
    proof.lookupZCommitments.length = L ∧ proof.lookupZEvals.length = 2 * L ∧
    (∃ c, c = copiedColumns ws ∧ if c = 0 then m = 0 else
      0 < vk.index.perm.maxCols ∧ (m - 1) * vk.index.perm.maxCols < c ∧ c ≤ m * vk.index.perm.maxCols) ∧
    proof.zEvals.length = expectedZEvals vk.index.perm.usableRows m ∧
    proof.quotientCommitments.length ≤ proof.quotientEvals.length := by
  obtain ⟨st, h1, _⟩ := verify_inv.1 h
  exact register_lengths h1

end
end ZK
