import Verif.Properties.Adjust
import Verif.Properties.Success
/-! C61: a proof for every circuit without lookups. -/
set_option autoImplicit false
set_option linter.unusedSectionVars false
namespace ZK
open Polynomial

section
variable {F : Type} [Field F] [LinearOrder F] [FftParams F] [LawfulFft F]

/-- The column with the same label, rotations and copy flag, and zeros in all rows. -/
def zeroColumn (d : Domain F) (o : ProverOracle F) : ProverOracle F :=
  { o with poly := [], evals := List.replicate d.size 0, coset := none }

variable {d : Domain F} {index : Index F} {ws is fixed table sigmas : List (ProverOracle F)} {qBlind : ProverOracle F}
  {vos : List (GenericVO F)}

omit [LinearOrder F] [FftParams F] [LawfulFft F] in
theorem zeroColumn_isColumn (o : ProverOracle F) : IsColumn d (zeroColumn d o) := by
  refine ⟨⟨by simp [zeroColumn], fun i hi => ?_⟩, by simp [zeroColumn]⟩
  simp [zeroColumn, hi, toPoly]

omit [LinearOrder F] [FftParams F] [LawfulFft F] in
theorem resolves_zero {os : List (ProverOracle F)} {l : Label} {o : ProverOracle F}
    (h : Resolves os l o) : Resolves (os.map (zeroColumn d)) l (zeroColumn d o) := by
  obtain ⟨v, hv, rfl⟩ := Resolves.of_forall₂ (forall₂_map_self (fun o => zeroColumn d o) os) (by rintro o _ rfl; rfl) h
  exact hv

omit [LinearOrder F] [FftParams F] [LawfulFft F] in
theorem Answerable.zero {q : OracleQuery} (h : Answerable d.size ⟨ws, is, fixed, table⟩ q) :
    Answerable d.size ⟨ws.map (zeroColumn d), is, fixed, table⟩ q := by
  obtain ⟨h1, o, h2, h3⟩ := h
  refine ⟨h1, ?_⟩
  match hq : q.oracleType with
  | .witness =>
    rw [hq] at h2 h3
    exact ⟨zeroColumn d o, resolves_zero h2, h3⟩
  | .instance_ =>
    rw [hq] at h2 h3
    exact ⟨o, h2, h3⟩
  | .fixed =>
    rw [hq] at h2 h3
    exact ⟨o, h2, h3⟩

omit [LinearOrder F] [FftParams F] [LawfulFft F] in
/-- Whether a circuit is supported does not depend on the values in the witness columns. -/
theorem Supported.zero (h : Supported d index ⟨ws, is, fixed, table⟩ sigmas qBlind vos) :
    Supported d index ⟨ws.map (zeroColumn d), is, fixed, table⟩ sigmas qBlind vos where
  columns := by
    intro o ho
    have h0 := h.columns o
    simp only [List.append_assoc, List.mem_append] at ho h0
    rcases ho with ho | ho
    · obtain ⟨o', -, rfl⟩ := List.mem_map.1 ho
      exact zeroColumn_isColumn o'
    · exact h0 (.inr ho)
  selector := h.selector
  labels := by
    have := h.labels
    simpa [Function.comp_def, zeroColumn] using this
  rotations := by
    intro o ho
    have h0 := h.rotations
    simp only [List.append_assoc, List.mem_append] at ho h0
    rcases ho with ho | ho
    · obtain ⟨o', ho', rfl⟩ := List.mem_map.1 ho
      exact h0 o' (.inl ho')
    · exact h0 o (.inr ho)
  unrotated := h.unrotated
  gates := by
    intro vo hvo
    obtain ⟨e, h1, h2⟩ := h.gates vo hvo
    exact ⟨e, h1, fun q hq => (h2 q hq).zero⟩
  copied := by
    intro o ho hp
    obtain ⟨o', ho', rfl⟩ := List.mem_map.1 ho
    exact h.copied o' ho' hp
  lookups := by
    intro l hl
    obtain ⟨es, ts, h1, h2, h3, h4⟩ := h.lookups l hl
    exact ⟨es, ts, h1, h2, fun e he => ⟨fun q hq => ⟨((h3 e he).1 q hq).1.zero, ((h3 e he).1 q hq).2⟩, (h3 e he).2⟩, h4⟩
  blinding := by
    rintro ⟨o, ho, hp⟩
    obtain ⟨o', ho', rfl⟩ := List.mem_map.1 ho
    exact h.blinding ⟨o', ho', hp⟩
  unusable := h.unusable
  usable := h.usable

omit [LinearOrder F] [FftParams F] [LawfulFft F] in
theorem filter_zero (l : List (ProverOracle F)) :
    (l.map (zeroColumn d)).filter (·.shouldPermute) = (l.filter (·.shouldPermute)).map (zeroColumn d) := by
  rw [List.filter_map]
  rfl

omit [LinearOrder F] [FftParams F] [LawfulFft F] in
theorem Provable.zero (h : Provable d index ⟨ws, is, fixed, table⟩ sigmas qBlind vos) :
    Provable d index ⟨ws.map (zeroColumn d), is, fixed, table⟩ sigmas qBlind vos where
  gates := h.gates
  usable := h.usable
  shape := by
    rintro ⟨o, ho, hsp⟩
    obtain ⟨o', ho', rfl⟩ := List.mem_map.1 ho
    have := h.shape ⟨o', ho', hsp⟩
    simp only [filter_zero, List.length_map]
    exact this
  lookups := h.lookups
  distinct := by
    intro o ho
    have h0 := h.distinct
    simp only [List.append_assoc, List.mem_append] at ho h0
    rcases ho with ho | ho
    · obtain ⟨o', ho', rfl⟩ := List.mem_map.1 ho
      exact h0 o' (.inl ho')
    · exact h0 o (.inr ho)

omit [LinearOrder F] [FftParams F] [LawfulFft F] in
theorem colVal_zero (l : List (ProverOracle F)) (k r : Nat) : colVal (l.map (zeroColumn d)) k r = 0 := by
  unfold colVal
  rw [List.map_map, List.getD_eq_getElem?_getD (l := List.map _ _), List.getElem?_map]
  cases l[k]? with
  | none => simp
  | some o =>
    simp only [Option.map_some, Option.getD_some, Function.comp_apply, zeroColumn, List.getD_eq_getElem?_getD,
      List.getElem?_replicate]
    split <;> rfl

/-- **C61** Every statement about a circuit without lookups can be proved. For a key made by the indexer with at least two
parts of the quotient and no lookups, any gates, copies and public columns, satisfiable or not: the prover run on columns
of zeros returns a proof, and with two numbers in it changed the verifier accepts it. The proof has one `q` evaluation for
each opening set. Excepted are challenges that make a denominator vanish, that are zero or that collide. -/
theorem C61_any_statement {W I K : Type} [ConcreteOracle W] [ConcreteOracle I] [ConcreteOracle K]
    {S : Scheme F} {pk : ProverKey S} {com : F[X] → S.Rand → S.Comm} (hS : HomomorphicScheme S pk.ck pk.vk.vk com)
    (hd : d.Ok) (h1 : 1 < d.size) (hn : SupportsDegree S pk.ck d.size)
    -- the key
    {copyFlag : W → Bool} {vk : S.VK} {ows : List W} {ois : List I} {ofs : List K}
    {zh : List F} {info : PermutationInfo F} {usableRows : Nat}
    (hkey : indexer copyFlag vk vos [] ows ois ofs d zh info usableRows (S := S) = .ok pk.vk)
    (hparts : d.size < pk.vk.index.ext.size)
    -- the circuit and the verifier's oracles
    (hs : Supported d pk.vk.index ⟨ws, is, fixed, table⟩ sigmas qBlind vos)
    (hp : Provable d pk.vk.index ⟨ws, is, fixed, table⟩ sigmas qBlind vos)
    {tau : Equiv.Perm (Fin (ws.filter (·.shouldPermute)).length × Fin pk.vk.index.perm.usableRows)}
    (henc : MadeFrom d pk.vk.index.perm.deltas sigmas tau)
    {vws : List (VerifierOracle F S.Comm)} {vis : List (InstanceVerifierOracle F)} {vpre : VerifierPreprocessed S}
    (hsu : SetUp S com ⟨ws, is, fixed, table⟩ sigmas qBlind vws vis vpre) (z : S.Z) :
    ∃ theta beta gamma, FirstMessages S pk ⟨ws.map (zeroColumn d), is, fixed, table⟩ d z theta beta gamma ∧
      (GoodDraw d pk.vk.index ⟨ws.map (zeroColumn d), is, fixed, table⟩ sigmas theta beta gamma →
        ∃ tr, proveRounds S pk (.new S fixed sigmas table qBlind pk.vk.index) (ws.map (zeroColumn d)) is vos d.size z = .ok tr ∧
          (tr.chal.xi ≠ 0 → ∃ proof,
            prove S pk (.new S fixed sigmas table qBlind pk.vk.index) (ws.map (zeroColumn d)) is vos d.size z = .ok proof ∧
            (verifierChallenges S proof).1 = tr.chal ∧
            (peval zh tr.chal.xi ≠ 0 →
              (mpChallenges S proof.multiopen (verifierChallenges S proof).2).1 ≠ tr.chal.xi ^ d.size →
              (∀ k : ℤ, (mpChallenges S proof.multiopen (verifierChallenges S proof).2).2.2.1 ≠ tr.chal.xi * d.omega ^ k) →
              ∃ b st', verifyRegister S pk.vk vpre
                  (adjust proof (mpChallenges S proof.multiopen (verifierChallenges S proof).2).1 b) vws vis
                  d.size (verifierChallenges S proof).1 = .ok st' ∧
                proof.multiopen.qEvals.length = distinctRotations st'.oracles ∧
                verify S pk.vk vpre (adjust proof (mpChallenges S proof.multiopen (verifierChallenges S proof).2).1 b) vws vis vos
                  d.size zh = .ok ()))) := by
  obtain ⟨-, -, -, -, hext, hle, -, -, -, -, -, hnl, -⟩ := indexer_ok hd hkey
  have hs0 := hs.zero
  have hp0 := hp.zero
  have hlen : ((ws.map (zeroColumn d)).filter (·.shouldPermute)).length = (ws.filter (·.shouldPermute)).length := by
    rw [filter_zero, List.length_map]
  obtain ⟨tau', henc'⟩ : ∃ tau' : Equiv.Perm (Fin ((ws.map (zeroColumn d)).filter (·.shouldPermute)).length ×
      Fin pk.vk.index.perm.usableRows), MadeFrom d pk.vk.index.perm.deltas sigmas tau' := by
    rw [hlen]
    exact ⟨tau, henc⟩
  have hcop : CopiesHold ⟨ws.map (zeroColumn d), is, fixed, table⟩ tau' := by
    intro c
    simp only [cell, filter_zero, colVal_zero]
  have hl : LookupsHold d.size pk.vk.index.usableRows ⟨ws.map (zeroColumn d), is, fixed, table⟩ pk.vk.index.lookups := by
    intro l hl
    rw [hnl] at hl
    simp at hl
  have hsu0 : SetUp S com ⟨ws.map (zeroColumn d), is, fixed, table⟩ sigmas qBlind vws vis vpre :=
    { hsu with witness := List.forall₂_map_left_iff.2 hsu.witness }
  obtain ⟨theta, beta, gamma, h2, h3⟩ := proveRounds_succeeds hd hext hle h1 hs0 hp0 hl henc' hcop hn z
  refine ⟨theta, beta, gamma, h2, fun hgood => ?_⟩
  obtain ⟨tr, h4, -, -, -⟩ := h3 hgood
  refine ⟨tr, h4, fun hxi => ?_⟩
  obtain ⟨proof, h8, h9⟩ := prove_succeeds hS hd hext hle h1 hs0 hp0 hn h4 hxi
  have h10 : (verifierChallenges S proof).1 = tr.chal := by rw [h9]
  refine ⟨proof, h8, h10, fun hv hx1 hx3 => ?_⟩
  rw [← h10] at hv hx1 hx3
  exact C61_gates_not_enforced hS hd h1 hkey hparts hs0 hsu0 h8 hv hx1 hx3

end
end ZK
