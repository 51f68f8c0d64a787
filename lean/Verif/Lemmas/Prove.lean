import Verif.Lemmas.Res
import Verif.Spec.Transcript
/-! What a successful run of the prover consists of. -/
set_option autoImplicit false
namespace ZK

section
variable {F : Type} [Field F]

theorem proveRounds_inv (S : Scheme F) [LinearOrder F] [FftParams F] {pk : ProverKey S}
    {pre : ProverPreprocessed S} {ws is : List (ProverOracle F)} {vos : List (GenericVO F)}
    {domainSize : Nat} {z : S.Z} {tr : ProverTrace S}
    (h : proveRounds S pk pre ws is vos domainSize z = .ok tr) :
    ∃ domain, RanWith S pk pre ws is vos domainSize z domain tr.chal tr.view tr.rounds tr.quotient tr.wc tr.lc tr.zc
      tr.lzc tr.qc ∧
    ∀ proof : TPProof S, proof.witnessCommitments = tr.wc.map Prod.fst →
      proof.lookupCommitments = tr.lc.map Prod.fst → proof.zCommitments = tr.zc.map Prod.fst →
      proof.lookupZCommitments = tr.lzc.map Prod.fst → proof.quotientCommitments = tr.qc.map Prod.fst →
      verifierChallenges S proof = (tr.chal, tr.t) := by
  unfold proveRounds at h
  simp only [Res.bind_eq_ok, Res.mapErr_eq_ok, Res.unwrap_eq_ok] at h
  obtain ⟨⟨wc, z1⟩, h1, domain, h2, ⟨lks, z2⟩, h3, ⟨lc, z3⟩, h4, ⟨zs, z4⟩, h5, ⟨zc, z5⟩, h6, ⟨lzs, z6⟩, h7,
    ⟨lzc, z7⟩, h8, quot, h9, ⟨qc, z8⟩, h10, h11⟩ := h
  cases h11
  exact ⟨domain, ⟨h2, rfl, ⟨_, h1⟩, ⟨_, _, _, h3, h4⟩, ⟨_, _, _, h5, h6⟩, ⟨_, _, _, h7, h8⟩, h9, _, _, h10⟩,
    fun proof e1 e2 e3 e4 e5 => by simp only [verifierChallenges, e1, e2, e3, e4, e5]⟩

theorem mpProve_inv (S : Scheme F) [LinearOrder F] [FftParams F] {ck : S.CK} {oracles : List (ProverOracle F)}
    {rands : List S.Rand} {xi : F} {domainSize : Nat} {t : S.T} {z : S.Z} {proof : MpProof S} {domain : Domain F}
    (hd : Domain.new (F := F) domainSize = some domain)
    (hone : ∀ (p : LPoly F) (z z' : S.Z) cs, S.commit ck [p] z = .ok (cs, z') → cs.length = 1)
    (h : mpProve S ck oracles rands xi domainSize t z = .ok proof) :
    OpenedWith S ck oracles rands xi domain (mpChallenges S proof t).1 (mpChallenges S proof t).2.1
      (mpChallenges S proof t).2.2.1 (mpChallenges S proof t).2.2.2 proof := by
  unfold mpProve at h
  simp only [Res.bind_eq_ok, Res.mapErr_eq_ok, Res.unwrap_eq_ok] at h
  obtain ⟨domain', h1, ⟨qs, f⟩, h2, ⟨fc, z'⟩, h3, ⟨f0, r0⟩, h4, fin, h5, fc', h6, pr, h7, h8⟩ := h
  rw [hd] at h1
  cases h1
  cases h8
  have hl := hone _ _ _ _ h3
  obtain ⟨c, hc⟩ := List.length_eq_one_iff.1 hl
  subst hc
  have h4' := Res.idx_eq_ok.1 h4
  cases h4'
  exact ⟨qs, f, _, z, z', r0, fin, h2, h3, rfl, rfl, h5, fc', h6, h7⟩

end
end ZK
