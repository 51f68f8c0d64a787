import Verif.Properties.Completeness
/-! C60: what the values of the quotient parts reveal. -/
set_option autoImplicit false
set_option linter.unusedSectionVars false
namespace ZK
open Polynomial

section
variable {F : Type} [Field F] [LinearOrder F] [FftParams F] [LawfulFft F]

/-- The coefficients of the parts are those of the whole. -/
theorem coeff_recombine {n : Nat} {qs : List F[X]} (h : ∀ q ∈ qs, q.degree < n) {i : Nat} (hi : i < n) :
    ∀ j, (recombine n qs).coeff (n * j + i) = (qs[j]?.getD 0).coeff i := by
  induction qs with
  | nil => intro j; simp [recombine]
  | cons q qs ih =>
    intro j
    rw [recombine_cons, coeff_add]
    cases j with
    | zero =>
      rw [Nat.mul_zero, Nat.zero_add, coeff_X_pow_mul', if_neg (by omega)]
      simp
    | succ j =>
      rw [Nat.mul_succ, show n * j + n + i = (n * j + i) + n by ring, coeff_X_pow_mul,
        ih (fun q hq => h q (List.mem_cons_of_mem _ hq)) j,
        coeff_eq_zero_of_degree_lt ((h q List.mem_cons_self).trans_le (by exact_mod_cast (by omega)))]
      simp

/-- The value at `x` of the `j`-th part of `n` coefficients. -/
noncomputable def partValue (n : Nat) (Q : F[X]) (j : Nat) (x : F) : F := ∑ i ∈ Finset.range n, Q.coeff (n * j + i) * x ^ i

theorem eval_part {n : Nat} {qs : List F[X]} (h : ∀ q ∈ qs, q.degree < n) (j : Nat) (x : F) :
    (qs[j]?.getD 0).eval x = partValue n (recombine n qs) j x := by
  have hd : (qs[j]?.getD 0).degree < n := by
    cases hj : qs[j]? with
    | none => simpa using WithBot.bot_lt_coe n
    | some q => exact h q (List.mem_of_getElem? hj)
  unfold partValue
  rw [Finset.sum_congr rfl (fun i hi => by rw [coeff_recombine h (Finset.mem_range.1 hi) j])]
  by_cases h0 : qs[j]?.getD 0 = 0
  · simp [h0]
  · exact eval_eq_sum_range' ((natDegree_lt_iff_degree_lt h0).2 hd) x

/-- **C60** What a proof says about the quotient. For a key made by the indexer, a homomorphic commitment scheme and a
witness that satisfies the gates, the values sent for the quotient are those of each part of `n` coefficients of the exact
quotient `Q` of the aggregated constraint, one by one. No randomness of the prover enters them besides the one in the columns. -/
theorem C60_quotient_values {W I K : Type} [ConcreteOracle W] [ConcreteOracle I] [ConcreteOracle K]
    {S : Scheme F} {pk : ProverKey S} {com : F[X] → S.Rand → S.Comm} (hS : HomomorphicScheme S pk.ck pk.vk.vk com)
    {d : Domain F} (hd : d.Ok) (h1 : 1 < d.size) {vos : List (GenericVO F)}
    {copyFlag : W → Bool} {vk : S.VK} {lookups : List (GenericLookupVO F)} {ows : List W} {ois : List I} {ofs : List K}
    {zh : List F} {info : PermutationInfo F} {usableRows : Nat}
    (hkey : indexer copyFlag vk vos lookups ows ois ofs d zh info usableRows (S := S) = .ok pk.vk)
    (htrim : zh = trim zh) (hdvd : toPoly zh ∣ X ^ d.size - 1)
    (hproper : toPoly zh = X ^ d.size - 1 ∨ (toPoly zh).natDegree < d.size)
    (hquotient : pk.vk.index.quotientDegree ≠ pk.vk.index.ext.size)
    {ws is fixed table sigmas : List (ProverOracle F)} {qBlind : ProverOracle F}
    (hcopies : (∃ o ∈ ws, o.shouldPermute = true) → d.size < pk.vk.index.perm.maxCols + 2 + (toPoly zh).natDegree)
    (hs : Supported d pk.vk.index ⟨ws, is, fixed, table⟩ sigmas qBlind vos)
    (hg : GatesHold d ⟨ws, is, fixed, table⟩ vos (toPoly zh)) {z : S.Z} {proof : TPProof S}
    (hp : prove S pk (.new S fixed sigmas table qBlind pk.vk.index) ws is vos d.size z = .ok proof) :
    ∃ r Q, RoundsRan S d pk.vk.index ((⟨ws, is, fixed, table⟩ : ProverView F).extend pk.vk.index.ext)
        (sigmas.map (·.computeExtended pk.vk.index.ext)) (verifierChallenges S proof).1.theta
        (verifierChallenges S proof).1.beta (verifierChallenges S proof).1.gamma r ∧
      (runPolys d ((⟨ws, is, fixed, table⟩ : ProverView F).extend pk.vk.index.ext) vos
          (sigmas.map (·.computeExtended pk.vk.index.ext)) (qBlind.computeExtended pk.vk.index.ext) r).numerator d pk.vk.index.perm
          (verifierChallenges S proof).1.alpha (verifierChallenges S proof).1.beta (verifierChallenges S proof).1.gamma
        = Q * toPoly zh ∧
      proof.quotientEvals = (List.range (pk.vk.index.perm.maxCols + 1)).map
        (fun j => partValue d.size Q j (verifierChallenges S proof).1.xi) := by
  obtain ⟨-, hM, hqd, hqe, hext, hle, hsz, -, hlk, -, -, hlks, -, -⟩ := indexer_ok hd hkey
  obtain ⟨hlen, hinv⟩ := C16_row_set hd hkey htrim hdvd hproper
  obtain ⟨r, quotient, wc, lc, zc, lzc, qc, hr⟩ := prove_run hS hd hext hle hs hp
  obtain ⟨Q, hQ, hdeg⟩ := hr.quotient_fits hd hext hle h1
    (Supported.lookupsVanish hd hext hle hr.allHonest (hs.extend _)) hdvd (hg.extend _)
    (B := pk.vk.index.ext.size + (toPoly zh).natDegree - 1) (by omega) (by omega) (by
      rintro ⟨o, ho, ho2⟩ _
      obtain ⟨o', ho', rfl⟩ := List.mem_map.1 ho
      have h3 := hcopies ⟨o', ho', ho2⟩
      have h4 : (pk.vk.index.perm.maxCols + 2) * (d.size - 1) + (pk.vk.index.perm.maxCols + 2)
          = (pk.vk.index.perm.maxCols + 1) * d.size + d.size := by
        obtain ⟨m, hm⟩ : ∃ m, d.size = m + 1 := ⟨d.size - 1, by omega⟩
        rw [hm, Nat.add_sub_cancel]; ring
      omega) (by
      intro h2
      rw [hlks] at h2
      have h3 := Nat.mul_le_mul_right d.size (hlk h2)
      omega)
  obtain ⟨qs, hq1, -, hrec, hql, hq3⟩ := C17_quotient_chunks hd hext hle h1 hr.polys hr.fits hr.lookups hlen hinv _ _ _ hQ hdeg
  obtain rfl : qs = quotient := Res.ok.inj (hq1.symm.trans hr.round)
  have hHP := hr.honest (by
    intro o ho
    obtain ⟨i, hi⟩ := List.getElem?_of_mem ho
    exact (hq3 i o hi).2.2.1)
  refine ⟨r, Q, hr.ran, hQ, ?_⟩
  have hn := hd.size_pos
  have hqs : qs.length = pk.vk.index.perm.maxCols + 1 := by
    rw [hql, hsz, show (pk.vk.index.perm.maxCols + 1) * d.size + d.size - 1 = d.size - 1 + d.size * (pk.vk.index.perm.maxCols + 1) by
      rw [Nat.mul_comm d.size]; omega,
      Nat.add_mul_div_left _ _ hn, Nat.div_eq_of_lt (by omega), Nat.zero_add]
  rw [hHP.evals.quotient]
  apply List.ext_getElem?
  intro j
  rw [List.getElem?_map, List.getElem?_map]
  have hdeg' : ∀ q ∈ qs.map (fun o => toPoly o.poly), q.degree < d.size := by
    intro q hq
    obtain ⟨o, ho, rfl⟩ := List.mem_map.1 hq
    obtain ⟨i, hi⟩ := List.getElem?_of_mem ho
    exact (degree_toPoly_lt _).trans_le (by exact_mod_cast (hq3 i o hi).2.1)
  rcases lt_or_ge j (pk.vk.index.perm.maxCols + 1) with hj | hj
  · rw [List.getElem?_range hj, List.getElem?_eq_getElem (by omega)]
    simp only [Option.map_some, Option.some.injEq]
    rw [← hrec, ← eval_part hdeg', List.getElem?_map, List.getElem?_eq_getElem (by omega)]
    simp [ProverOracle.query, eval_toPoly]
  · rw [List.getElem?_eq_none (by omega), List.getElem?_eq_none (by simpa using hj)]
    rfl

end
end ZK
