import Verif.Lemmas.NoRows
import Verif.Properties.Success
import Verif.Properties.CircuitTest
/-! C80: without usable rows of the permutation argument, neither the copies nor the lookups are enforced. -/
set_option autoImplicit false
set_option linter.unusedSectionVars false
namespace ZK
open Polynomial

section
variable {F : Type} [Field F] [LinearOrder F] [FftParams F] [LawfulFft F]

theorem res_bind_assoc {ε α β γ : Type} (m : Res ε α) (f : α → Res ε β) (g : β → Res ε γ) :
    (m >>= f) >>= g = m >>= fun a => f a >>= g := by
  cases m <;> rfl

/-- The verifier draws nothing for blinding and does not read the number of usable rows of the lookups. -/
theorem verify_unblinded (S : Scheme F) (pk : ProverKey S) (pre : VerifierPreprocessed S) (proof : TPProof S.unblinded)
    (ws : List (VerifierOracle F S.Comm)) (is : List (InstanceVerifierOracle F)) (vos : List (GenericVO F)) (n : Nat) (zh : List F) :
    verify S.unblinded pk.withoutRows.vk ⟨pre.fixed, pre.table, pre.perm, pre.qBlind⟩ proof ws is vos n zh
      = verify S pk.vk pre proof.ofUnblinded ws is vos n zh := by
  unfold verify verifyRegister
  simp only [res_bind_assoc, Res.pure_eq, Res.bind_ok]
  rfl

/-- The indexer makes the key without usable rows when it is called with none. -/
theorem indexer_withoutRows {W I K : Type} [ConcreteOracle W] [ConcreteOracle I] [ConcreteOracle K] {S : Scheme F} {pk : ProverKey S}
    {d : Domain F} {copyFlag : W → Bool} {vk : S.VK} {vos : List (GenericVO F)} {lookups : List (GenericLookupVO F)} {ows : List W}
    {ois : List I} {ofs : List K} {zh : List F} {info : PermutationInfo F} {usableRows : Nat}
    (hkey : indexer copyFlag vk vos lookups ows ois ofs d zh info usableRows (S := S) = .ok pk.vk) :
    indexer copyFlag (show S.unblinded.VK from vk) vos lookups ows ois ofs d zh info 0 (S := S.unblinded) = .ok pk.withoutRows.vk := by
  have hkey' := indexer_rows copyFlag vk vos lookups ows ois ofs d zh info usableRows 0 hkey
  unfold indexer at hkey' ⊢
  obtain ⟨qd, h2, h⟩ := Res.bind_eq_ok.1 hkey'
  obtain ⟨ext0, h3, h⟩ := Res.bind_eq_ok.1 h
  refine Res.bind_eq_ok.2 ⟨qd, h2, Res.bind_eq_ok.2 ⟨ext0, h3, ?_⟩⟩
  by_cases hc : ext0.size < d.size
  · rw [if_pos hc] at h; cases h
  · rw [if_neg hc] at h
    rw [if_neg hc]
    obtain ⟨perm, h4, h⟩ := Res.bind_eq_ok.1 h
    obtain ⟨ext, h5, h⟩ := Res.bind_eq_ok.1 h
    obtain ⟨inv, h6, h⟩ := Res.bind_eq_ok.1 h
    refine Res.bind_eq_ok.2 ⟨perm, h4, Res.bind_eq_ok.2 ⟨ext, h5, Res.bind_eq_ok.2 ⟨inv, h6, ?_⟩⟩⟩
    have h := Res.ok.inj h
    exact congrArg (fun k : VerifierKey S => (Res.ok ⟨k.vk, k.index, k.zhInverses⟩ : Res _ (VerifierKey S.unblinded))) h

/-- **C80** The permutation argument of the key has no usable rows (`u = 0`, as in `PermutationInfo::dummy`), and the blinding selector is
zero in the first row and one in the last. Then only the gates matter: for columns that satisfy the gates, whatever is to be copied or
looked up, a prover that runs `prove` with zeros for blinding and without usable rows for the lookups is accepted by the verifier of
the original key, unless the evaluation challenge is zero or `x3` meets an opening point. -/
theorem C80_only_gates {W I K : Type} [ConcreteOracle W] [ConcreteOracle I] [ConcreteOracle K]
    {S : Scheme F} {pk : ProverKey S} {com : F[X] → S.Rand → S.Comm} (hS : HomomorphicScheme S pk.ck pk.vk.vk com)
    {d : Domain F} (hd : d.Ok) (h1 : 1 < d.size) (hn : SupportsDegree S pk.ck d.size) {vos : List (GenericVO F)}
    -- the key
    {copyFlag : W → Bool} {vk : S.VK} {lookups : List (GenericLookupVO F)} {ows : List W} {ois : List I} {ofs : List K}
    {zh : List F} {info : PermutationInfo F} {usableRows : Nat}
    (hkey : indexer copyFlag vk vos lookups ows ois ofs d zh info usableRows (S := S) = .ok pk.vk)
    (htrim : zh = trim zh) (hdvd : toPoly zh ∣ X ^ d.size - 1)
    (hproper : toPoly zh = X ^ d.size - 1 ∨ (toPoly zh).natDegree < d.size)
    (hquotient : pk.vk.index.quotientDegree ≠ pk.vk.index.ext.size) (hu : pk.vk.index.perm.usableRows = 0)
    -- the circuit, the witness and the verifier's oracles
    {ws is fixed table sigmas : List (ProverOracle F)} {qBlind : ProverOracle F}
    (hcopies : (∃ o ∈ ws, o.shouldPermute = true) → d.size < pk.vk.index.perm.maxCols + 2 + (toPoly zh).natDegree)
    (hs : SupportedShape d pk.vk.index ⟨ws, is, fixed, table⟩ sigmas qBlind vos)
    (hp : Provable d pk.vk.index ⟨ws, is, fixed, table⟩ sigmas qBlind vos)
    (hq : lookups ≠ [] → Interpolates d qBlind ∧ qBlind.evals[0]? = some 0 ∧ qBlind.evals[d.size - 1]? = some 1)
    {vws : List (VerifierOracle F S.Comm)} {vis : List (InstanceVerifierOracle F)} {vpre : VerifierPreprocessed S}
    (hsu : SetUp S com ⟨ws, is, fixed, table⟩ sigmas qBlind vws vis vpre)
    (hg : GatesHold d ⟨ws, is, fixed, table⟩ vos (toPoly zh)) (z : S.Z) :
    ∃ tr, proveRounds S.unblinded pk.withoutRows (.new _ fixed sigmas table qBlind pk.vk.index) ws is vos d.size z = .ok tr ∧
      (tr.chal.xi ≠ 0 →
        ∃ proof, prove S.unblinded pk.withoutRows (.new _ fixed sigmas table qBlind pk.vk.index) ws is vos d.size z = .ok proof ∧
          (verifierChallenges S proof.ofUnblinded).1 = tr.chal ∧
          ((∀ k : ℤ, (mpChallenges S proof.ofUnblinded.multiopen (verifierChallenges S proof.ofUnblinded).2).2.2.1
              ≠ tr.chal.xi * d.omega ^ k) →
            verify S pk.vk vpre proof.ofUnblinded vws vis vos d.size zh = .ok ())) := by
  obtain ⟨-, -, -, -, hext, hle, -, -, -, -, -, hlks, -, -⟩ := indexer_ok hd hkey
  have hkey'' := indexer_withoutRows (pk := pk) hkey
  have hempty : IsEmpty (Fin (ws.filter (·.shouldPermute)).length × Fin pk.withoutRows.vk.index.perm.usableRows) := by
    have : pk.withoutRows.vk.index.perm.usableRows = 0 := hu
    rw [this]
    infer_instance
  have hs' : SupportedShape d pk.withoutRows.vk.index ⟨ws, is, fixed, table⟩ sigmas qBlind vos := hs.withoutRows hd
  obtain ⟨theta, beta, gamma, -, h2⟩ := prover_succeeds_indexed (S := S.unblinded) (pk := pk.withoutRows) (com := com)
    ⟨hS.commit, hS.zero, hS.add, hS.scale, hS.opens⟩ hd h1 ⟨hn.commit, hn.commitPlain, hn.open_⟩ hkey'' htrim hdvd hproper hquotient
    hcopies hs' (lookupsVanish_unblinded hd hext hle (hs'.allHonest _) (hs'.extend _) hu rfl (by
      intro hne
      obtain ⟨hi, h0, hl⟩ := hq (hlks ▸ hne)
      rw [hi.2 0 hd.size_pos] at h0
      rw [hi.2 _ (by omega)] at hl
      exact ⟨Option.some.inj h0, Option.some.inj hl⟩))
    ⟨hp.gates, hp.usable, hp.shape, hp.lookups, hp.distinct⟩ (tau := Equiv.refl _) (fun c => (hempty.false c).elim)
    (vws := vws) (vis := vis) (vpre := ⟨vpre.fixed, vpre.table, vpre.perm, vpre.qBlind⟩)
    ⟨hsu.witness, hsu.inst, hsu.fixed, hsu.table, hsu.perm, hsu.qBlind⟩ hg (fun c => (hempty.false c).elim)
    (fun _ _ _ _ _ _ i hi => absurd hi (Nat.not_lt_zero i)) z
  obtain ⟨tr, h3, -, -, -, h4⟩ := h2 ⟨fun c => (hempty.false c).elim, fun _ _ _ _ _ _ i hi => absurd hi (Nat.not_lt_zero i)⟩
  refine ⟨tr, h3, fun hxi => ?_⟩
  obtain ⟨proof, h5, h6, h7⟩ := h4 hxi
  exact ⟨proof, h5, h6, fun hx => (verify_unblinded S pk vpre proof vws vis vos d.size zh).symm.trans (h7 hx)⟩

end
end ZK
