import Verif.Properties.FiatShamir
import Verif.Properties.SoundnessErrorExamples
/-! C68: its hypotheses are met by the toy circuit. -/
set_option autoImplicit false
set_option linter.unusedSectionVars false
namespace ZK
open Polynomial MeasureTheory
namespace Toy

/-- The columns of the toy circuit for three witness polynomials. -/
noncomputable def viewFrom (ps : List F97[X]) : ProverView F97 :=
  viewOf (dom.fft (coeffs (ps.getD 0 0))) (dom.fft (coeffs (ps.getD 1 0))) (dom.fft (coeffs (ps.getD 2 0)))

theorem enforcedOf {k : VerifierKey S} (hk : key = .ok k) {a b c : List F97} (ha : a.length = 4) (hb : b.length = 4) (hc : c.length = 4) :
    Enforced dom dom.size k.index (viewOf a b c) sigma qBlind vos (toPoly dom.vanishing) := by
  obtain ⟨-, -, -, -, -, -, -, -, -, hu, hdl, hl, hu', -⟩ := indexer_ok dom_Ok hk
  refine (supportedOf hk ha hb hc).enforced (by decide +kernel) ?_ ?_ ?_ ?_ ?_
  · rw [hdl]
    exact ⟨rfl, rfl⟩
  · intro l hll es ts he ht
    rw [hl] at hll
    obtain rfl := List.mem_singleton.1 hll
    obtain ⟨⟩ := Res.ok.inj he
    obtain ⟨⟩ := Res.ok.inj ht
    rfl
  · rw [hu, dom_size]
    intro _
    decide +kernel
  · rw [hu, dom_size]; decide
  · intro i _
    rw [toPoly_vanishing dom dom_Ok.size_pos, eval_sub, eval_pow, eval_X, eval_one, ← pow_mul, mul_comm i, pow_mul,
      dom_Ok.prim.pow_eq_one, one_pow, sub_self]

theorem coeffs_length_le {p : F97[X]} (h : p.degree < (dom.size : Nat)) : (coeffs p).length ≤ dom.size := by
  simp only [coeffs]
  refine (trim_length_le _).trans ?_
  rw [List.length_map, List.length_range]
  by_cases h0 : p = 0
  · rw [h0, natDegree_zero]
    exact dom_Ok.size_pos
  · exact (natDegree_lt_iff_degree_lt h0).2 h

theorem toPoly_column (k : OracleType) (l : Label) {p : F97[X]} (h : p.degree < (dom.size : Nat)) (rots : List Rotation) (b : Bool) :
    toPoly (column k l (dom.fft (coeffs p)) rots b).poly = p := by
  simp only [column]
  rw [toPoly_trim, dom_Ok.toPoly_ifft_fft (coeffs_length_le h), toPoly_coeffs]

/-- Different lists of commitments have different encodings: each begins with the number of coefficients. -/
theorem encComm_injective (cs cs' : List S.Comm) (h : cs.flatMap S.encComm = cs'.flatMap S.encComm) : cs = cs' := by
  have hlen : ∀ a : List F97, (a.flatMap (fun x : F97 => [x.val])).length = a.length := by
    intro a
    induction a with
    | nil => rfl
    | cons x a ih => rw [List.flatMap_cons, List.length_append, ih, List.length_cons, Nat.add_comm]; rfl
  have hval : ∀ a b : List F97, a.flatMap (fun x : F97 => [x.val]) = b.flatMap (fun x : F97 => [x.val]) → a = b := by
    intro a
    induction a with
    | nil =>
      intro b hab
      cases b with
      | nil => rfl
      | cons y b => cases hab
    | cons x a ih =>
      intro b hab
      cases b with
      | nil => cases hab
      | cons y b =>
        rw [List.flatMap_cons, List.flatMap_cons] at hab
        obtain ⟨h1, h2⟩ := List.cons.inj hab
        rw [ih b h2, Fin.ext h1]
  induction cs generalizing cs' with
  | nil =>
    cases cs' with
    | nil => rfl
    | cons c cs' => cases h
  | cons c cs ih =>
    cases cs' with
    | nil => cases h
    | cons c' cs' =>
      rw [List.flatMap_cons, List.flatMap_cons] at h
      have h' : c.length :: (c.flatMap (fun x : F97 => [x.val]) ++ cs.flatMap S.encComm)
          = c'.length :: (c'.flatMap (fun x : F97 => [x.val]) ++ cs'.flatMap S.encComm) := h
      obtain ⟨h1, h2⟩ := List.cons.inj h'
      have h3 := List.append_inj h2 ((hlen c).trans (h1.trans (hlen c').symm))
      rw [hval _ _ h3.1, ih _ h3.2]

theorem wit_blank (a b c : List F97) : (wit a b c).map blank = witness.map blank := by
  simp only [wit, witness, List.map_cons, List.map_nil, blank, column]

theorem copiedFrom (u : Nat) (hu : u = 2) (ps : List F97[X]) :
    ∃ tau : Equiv.Perm (Fin ((viewFrom ps).witness.filter (·.shouldPermute)).length × Fin u), Encodes dom info.deltas sigma tau := by
  subst hu
  have : ∃ tau : Equiv.Perm (Fin 2 × Fin 2), Encodes dom info.deltas sigma tau := by
    refine ⟨Equiv.swap (0, 0) (1, 1), ?_⟩
    unfold Encodes MadeFrom
    decide +kernel
  exact this

/-- A forger who asks for the first challenge of the witness that violates a copy constraint, and guesses the rest. -/
noncomputable def curious : Forger F97 (TPProof S) :=
  .ask (bytes "TurboPlonk-0.0.1", [(guess.witnessCommitments.flatMap S.encComm)], 0) (fun theta =>
    .done { guess with lookupEvals := [theta, 1, 1] })

/-- C68 for the toy circuit: whoever asks at most one question finds, with probability at most `75 / 97`, an accepted proof with true
evaluations and at most two parts of the quotient for columns that violate the circuit. The bound applies to `curious`. -/
theorem fiatShamir [MeasurableSpace F97] [DiscreteMeasurableSpace F97] : ∃ k, key = .ok k ∧
    ∃ tau : ∀ ps, Equiv.Perm (Fin ((viewFrom ps).witness.filter (·.shouldPermute)).length × Fin k.index.perm.usableRows),
    (∀ ps, Encodes dom k.index.perm.deltas sigma (tau ps)) ∧ (∀ H, (curious.asked H).length ≤ 1) ∧
    ∀ A : Forger F97 (TPProof S), (∀ H, (A.asked H).length ≤ 1) →
    randomOracle F97 {H | ∃ ps ls zs lzs qs : List F97[X], ps.length = 3 ∧ qs.length ≤ 2 ∧
        (∀ p ∈ ps ++ ls ++ zs ++ lzs ++ qs, p.degree < (dom.size : Nat)) ∧
        MadeOf (S := S) (fun p _ => coeffs p) ps ls zs lzs qs (A.run H) ∧
        ¬ (GatesHold dom (viewFrom ps) vos (toPoly dom.vanishing) ∧ CopiesHold (viewFrom ps) (tau ps) ∧
          LookupsHold dom.size k.index.perm.usableRows (viewFrom ps) k.index.lookups) ∧
        (∀ st, verifyRegister S k vpre (A.run H) (witness.map blank) vinst dom.size (verifierChallenges (S.hashing H) ((A.run H).hashing H)).1 = .ok st →
          ∀ w ∈ st.oracles, TrueClaims (S := S) (fun p _ => coeffs p) dom (verifierChallenges (S.hashing H) ((A.run H).hashing H)).1.xi w) ∧
        verify (S.hashing H) (k.hashing H) (vpre.hashing H) ((A.run H).hashing H) (witness.map blank) vinst vos dom.size dom.vanishing = .ok ()}
      ≤ (75 : ENNReal) / 97 := by
  obtain ⟨k, -, hk, -⟩ := honest
  obtain ⟨-, -, -, -, -, -, -, -, -, hu, hdl, hl, hu', -⟩ := indexer_ok dom_Ok hk
  have hs := dom_size
  have hz : (toPoly dom.vanishing).natDegree = 4 := by
    rw [toPoly_vanishing dom dom_Ok.size_pos, hs]
    exact natDegree_X_pow_sub_C (r := (1 : F97))
  have hZ : k.index.perm.numberOfZPolys 2 = (.ok 1 : Res (Err S.E) Nat) := by
    unfold PermutationArgument.numberOfZPolys
    rw [maxCols hk]
    rfl
  choose tau htau using copiedFrom k.index.perm.usableRows hu
  refine ⟨k, hk, tau, by rw [hdl]; exact htau, fun H => le_rfl, fun A hA => ?_⟩
  have hmain := C68_random_oracle_soundness (S := S) (com := fun p _ => coeffs p) (vk := k) (d := dom) (D := dom.size) (L := 2) (m := 2) (pre := vpre)
    (ws := witness.map blank) (is := vinst) (sigmas := sigma) (qBlind := qBlind) (vanishing := dom.vanishing)
    (fun p q _ _ h => by rw [← toPoly_coeffs p, ← toPoly_coeffs q]; exact congrArg toPoly h) encComm_injective
    dom_Ok.new_self (by omega) (by simp [vos]) (bounds hk) hZ viewFrom (by
      intro ps hlen hdeg
      obtain ⟨a, b, c, rfl⟩ : ∃ a b c, ps = [a, b, c] := List.length_eq_three.1 hlen
      have la := Domain.fft_length dom (coeffs a)
      have lb := Domain.fft_length dom (coeffs b)
      have lc := Domain.fft_length dom (coeffs c)
      rw [hs] at la lb lc
      refine ⟨?_, rfl, ?_, enforcedOf hk la lb lc⟩
      · show [toPoly (column _ _ (dom.fft (coeffs a)) _ _).poly, toPoly (column _ _ (dom.fft (coeffs b)) _ _).poly,
          toPoly (column _ _ (dom.fft (coeffs c)) _ _).poly] = _
        rw [toPoly_column _ _ (hdeg a (by simp)), toPoly_column _ _ (hdeg b (by simp)), toPoly_column _ _ (hdeg c (by simp))]
      · have hbl := blank_same (wit (dom.fft (coeffs a)) (dom.fft (coeffs b)) (dom.fft (coeffs c)))
        rw [wit_blank] at hbl
        exact ⟨hbl, setUp.inst, setUp.fixed, setUp.table, setUp.perm, setUp.qBlind⟩)
    tau (fun ps _ => by rw [hdl]; exact htau ps) A hA
  refine hmain.trans ?_
  have hc : Fintype.card F97 = 97 := by decide +kernel
  rw [hc, hz, hu, hl, hs]
  refine le_of_eq ?_
  norm_num [roundError, vos, info]

end Toy
end ZK
