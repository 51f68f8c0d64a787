import Verif.Spec.Answering
import Verif.Properties.Success
import Verif.Lemmas.Tuples
/-! C64: the completeness error of the interactive argument. -/
set_option autoImplicit false
set_option linter.unusedSectionVars false
namespace ZK
open Polynomial
section
variable {F : Type} [Field F] [LinearOrder F] [FftParams F] [LawfulFft F]

theorem indexer_answering {W I K : Type} [ConcreteOracle W] [ConcreteOracle I] [ConcreteOracle K]
    {S : Scheme F} {copyFlag : W → Bool} {vk : S.VK} {vos : List (GenericVO F)} {lookups : List (GenericLookupVO F)} {ws : List W}
    {is : List I} {fs : List K} {d : Domain F} {zh : List F} {info : PermutationInfo F} {usableRows : Nat} {key : VerifierKey S}
    (h : indexer copyFlag vk vos lookups ws is fs d zh info usableRows (S := S) = .ok key) (cs : List F) :
    indexer copyFlag (show (S.answering cs).VK from vk) vos lookups ws is fs d zh info usableRows (S := S.answering cs)
      = .ok (key.answering cs) := by
  unfold indexer at h ⊢
  obtain ⟨qd, h1, h⟩ := Res.bind_eq_ok.1 h
  obtain ⟨ext0, h2, h⟩ := Res.bind_eq_ok.1 h
  refine Res.bind_eq_ok.2 ⟨qd, h1, Res.bind_eq_ok.2 ⟨ext0, h2, ?_⟩⟩
  by_cases hc : ext0.size < d.size
  · rw [if_pos hc] at h; cases h
  · rw [if_neg hc] at h
    rw [if_neg hc]
    obtain ⟨perm, h3, h⟩ := Res.bind_eq_ok.1 h
    obtain ⟨ext, h4, h⟩ := Res.bind_eq_ok.1 h
    obtain ⟨inv, h5, h⟩ := Res.bind_eq_ok.1 h
    refine Res.bind_eq_ok.2 ⟨perm, h3, Res.bind_eq_ok.2 ⟨ext, h4, Res.bind_eq_ok.2 ⟨inv, h5, ?_⟩⟩⟩
    rw [← Res.ok.inj h]
    rfl

/-- The powers of the generator times `xi`. -/
theorem zpow_mem_image {d : Domain F} (hd : d.Ok) (xi : F) (k : ℤ) :
    xi * d.omega ^ k ∈ (Finset.range d.size).image (fun i => xi * d.omega ^ i) := by
  have h0 : (d.size : ℤ) ≠ 0 := by exact_mod_cast hd.size_pos.ne'
  refine Finset.mem_image.2 ⟨(k % d.size).toNat, Finset.mem_range.2 ?_, ?_⟩
  · have h := Int.emod_lt_of_pos k (by exact_mod_cast hd.size_pos : (0 : ℤ) < d.size)
    have h' := Int.emod_nonneg k h0
    omega
  · congr 1
    have h' := Int.emod_nonneg k h0
    conv_rhs => rw [← Int.emod_add_mul_ediv k d.size, zpow_add₀ hd.omega_ne_zero, zpow_mul, zpow_natCast, hd.prim.pow_eq_one, one_zpow, mul_one]
    rw [← zpow_natCast, Int.toNat_of_nonneg h']

open Classical in
/-- **C64** The completeness error of the interactive argument. In the situation of C52 let the challenges be answered by an honest verifier.
With `m` copied columns of `u` usable rows, `l` lookups of `u'` usable rows and `n` rows, for challenges from a finite set `T` and every
state of the prover's random source, the honest prover returns a proof and the verifier accepts it for all but at most the fraction
`(m * u + 2 * l * u' + 1 + n) / |T|` of all tuples of nine challenges. -/
theorem C64_completeness_error {W I K : Type} [ConcreteOracle W] [ConcreteOracle I] [ConcreteOracle K]
    {S : Scheme F} {pk : ProverKey S} {com : F[X] → S.Rand → S.Comm} (hS : HomomorphicScheme S pk.ck pk.vk.vk com)
    {d : Domain F} (hd : d.Ok) (h1 : 1 < d.size) (hn : SupportsDegree S pk.ck d.size) {vos : List (GenericVO F)}
    -- the key
    {copyFlag : W → Bool} {vk : S.VK} {lookups : List (GenericLookupVO F)} {ows : List W} {ois : List I} {ofs : List K}
    {zh : List F} {info : PermutationInfo F} {usableRows : Nat}
    (hkey : indexer copyFlag vk vos lookups ows ois ofs d zh info usableRows (S := S) = .ok pk.vk)
    (htrim : zh = trim zh) (hdvd : toPoly zh ∣ X ^ d.size - 1)
    (hproper : toPoly zh = X ^ d.size - 1 ∨ (toPoly zh).natDegree < d.size)
    (hquotient : pk.vk.index.quotientDegree ≠ pk.vk.index.ext.size)
    -- the circuit, the witness and the verifier's oracles
    {ws is fixed table sigmas : List (ProverOracle F)} {qBlind : ProverOracle F}
    (hcopies : (∃ o ∈ ws, o.shouldPermute = true) → d.size < pk.vk.index.perm.maxCols + 2 + (toPoly zh).natDegree)
    (hs : Supported d pk.vk.index ⟨ws, is, fixed, table⟩ sigmas qBlind vos)
    (hp : Provable d pk.vk.index ⟨ws, is, fixed, table⟩ sigmas qBlind vos)
    {tau : Equiv.Perm (Fin (ws.filter (·.shouldPermute)).length × Fin pk.vk.index.perm.usableRows)}
    (henc : MadeFrom d pk.vk.index.perm.deltas sigmas tau)
    {vws : List (VerifierOracle F S.Comm)} {vis : List (InstanceVerifierOracle F)} {vpre : VerifierPreprocessed S}
    (hsu : SetUp S com ⟨ws, is, fixed, table⟩ sigmas qBlind vws vis vpre)
    -- the witness satisfies the circuit
    (hg : GatesHold d ⟨ws, is, fixed, table⟩ vos (toPoly zh))
    (hcop : CopiesHold ⟨ws, is, fixed, table⟩ tau)
    (hl : LookupsHold d.size pk.vk.index.usableRows ⟨ws, is, fixed, table⟩ pk.vk.index.lookups) (z : S.Z) (T : Finset F) :
    ((Fintype.piFinset fun _ : Fin 9 => T).filter (fun c => ¬ ∃ proof,
      prove (S.answering (List.ofFn c)) (pk.answering _) (.new _ fixed sigmas table qBlind pk.vk.index) ws is vos d.size z = .ok proof ∧
      verify (S.answering (List.ofFn c)) (pk.vk.answering _) (vpre.answering _) proof vws vis vos d.size zh = .ok ())).card
    ≤ ((ws.filter (·.shouldPermute)).length * pk.vk.index.perm.usableRows
        + 2 * (pk.vk.index.lookups.length * pk.vk.index.usableRows) + 1 + d.size) * T.card ^ 8 := by
  have hmain : ∀ cs : List F, _ := fun cs => C52_honest_prover_succeeds (S := S.answering cs) (pk := pk.answering cs) (com := com)
    ⟨hS.commit, hS.zero, hS.add, hS.scale, hS.opens⟩ hd h1 ⟨hn.commit, hn.commitPlain, hn.open_⟩ (indexer_answering hkey cs)
    htrim hdvd hproper hquotient hcopies hs hp henc (vws := vws) (vis := vis) (vpre := vpre.answering cs)
    ⟨hsu.witness, hsu.inst, hsu.fixed, hsu.table, hsu.perm, hsu.qBlind⟩ hg hcop hl z
  have hcount := count_eq_card T 9 (fun cs => ¬ ∃ proof,
      prove (S.answering cs) (pk.answering cs) (.new _ fixed sigmas table qBlind pk.vk.index) ws is vos d.size z = .ok proof ∧
      verify (S.answering cs) (pk.vk.answering cs) (vpre.answering cs) proof vws vis vos d.size zh = .ok ())
  refine le_trans (le_of_eq (by congr)) (hcount.le.trans (ErrLe.card (n := 8) (ErrLe.mono (e := 0 + (((ws.filter (·.shouldPermute)).length * pk.vk.index.perm.usableRows
        + 2 * (pk.vk.index.lookups.length * pk.vk.index.usableRows)) + (0 + (1 + (0 + (0 + (d.size + (0 + 0)))))))) ?_ (by omega))))
  refine ErrLe.step (B := ∅) (by simp) (fun theta _ => ?_)
  refine ErrLe.step_pair (C52_few_bad_draws d pk.vk.index ⟨ws, is, fixed, table⟩ sigmas theta) (fun beta gamma hgood => ?_)
  refine ErrLe.step (B := ∅) (by simp) (fun alpha _ => ?_)
  refine ErrLe.step (B := {0}) (by simp) (fun xi hxi => ?_)
  refine ErrLe.step (B := ∅) (by simp) (fun x1 _ => ?_)
  refine ErrLe.step (B := ∅) (by simp) (fun x2 _ => ?_)
  refine ErrLe.step (B := (Finset.range d.size).image (fun i => xi * d.omega ^ i)) (Finset.card_image_le.trans (by simp)) (fun x3 hx3 => ?_)
  refine ErrLe.step (B := ∅) (by simp) (fun x4 _ => ?_)
  refine ErrLe.of_not T 0 0 (fun rest hnot => hnot ?_)
  obtain ⟨theta', beta', gamma', ⟨wc, z1, ls, z2, lc, z3, -, -, -, e1, e2, e3⟩, g2⟩ := hmain (theta :: beta :: gamma :: alpha :: xi :: x1 :: x2 :: x3 :: x4 :: rest)
  obtain rfl : theta' = theta := e1
  obtain rfl : beta' = beta := e2
  obtain rfl : gamma' = gamma := e3
  obtain ⟨tr, g3, -, -, -, g4⟩ := g2 (not_not.1 hgood)
  have hxi' : tr.chal.xi = xi := by
    obtain ⟨cs, hcs⟩ := hn.commitPlain ⟨[], [], false⟩ (Nat.zero_le _)
    obtain ⟨pf, -⟩ := hn.open_ ⟨[], [], false⟩ cs 0 S.emptyRand (Nat.zero_le _) hcs
    obtain ⟨-, -, h⟩ := proveRounds_inv _ g3
    have h := h ⟨tr.wc.map Prod.fst, [], [], [], [], 0, tr.lc.map Prod.fst, tr.lzc.map Prod.fst, [], [], tr.zc.map Prod.fst, [],
      tr.qc.map Prod.fst, [], ⟨[], S.zero, pf⟩⟩ rfl rfl rfl rfl rfl
    exact (congrArg (fun c => c.1.xi) h).symm
  obtain ⟨proof, g5, -, g6⟩ := g4 (by rw [hxi']; simpa using hxi)
  refine ⟨proof, g5, g6 (fun k hk => hx3 ?_)⟩
  rw [hxi'] at hk
  have hk : x3 = xi * d.omega ^ k := hk
  rw [hk]
  exact zpow_mem_image hd xi k
end
end ZK
