import Verif.Properties.CompletenessExamples
import Verif.Properties.SuccessExamples
import Verif.Properties.SoundnessExamples
/-! C72: what the mock prover says about the protocol. -/
set_option autoImplicit false
set_option linter.unusedSectionVars false
namespace ZK
open Polynomial

section
variable {F : Type} [Field F] [LinearOrder F] [FftParams F] [LawfulFft F]

/-- **C72** For a supported circuit the mock prover succeeds exactly when the gates hold on every row, and it panics otherwise. -/
theorem C72_mock_gates {ε : Type} {d : Domain F} (hd : d.Ok) {index : Index F} {v : ProverView F} {sigmas : List (ProverOracle F)}
    {qBlind : ProverOracle F} {vos : List (GenericVO F)} (hs : Supported d index v sigmas qBlind vos) :
    (mockProve (ε := ε) v vos d.size = .ok () ↔ GatesHold d v vos (X ^ d.size - 1)) ∧
    (mockProve (ε := ε) v vos d.size = .panic ↔ ¬ GatesHold d v vos (X ^ d.size - 1)) := by
  have hv : ∀ ty, ∀ o ∈ v.oracles ty, Interpolates d o := by
    intro ty o ho
    refine (hs.columns o ?_).1
    cases ty <;> simp only [ProverView.oracles] at ho <;> simp [ho]
  have h : mockProve (ε := ε) v vos d.size = .ok () ↔ GatesHold d v vos (X ^ d.size - 1) := by
    refine ⟨fun h => gatesHold_of_mock hd hv h _, fun h => ?_⟩
    rw [C43_mock_prover v vos d.size d hd.new_self hv]
    intro i hi vo hvo
    obtain ⟨e, cell, h1, h2, -⟩ := gatePoly_cells hd hs.toSupportedShape hvo i
    refine ⟨e, cell, h1, h2, h vo hvo e (getExpression_eq_ok.2 h1) i hi ?_ cell h2⟩
    rw [eval_sub, eval_pow, eval_X, eval_one, ← pow_mul, mul_comm, pow_mul, hd.prim.pow_eq_one, one_pow, sub_self]
  refine ⟨h, ?_⟩
  rw [← h]
  cases hm : mockProve (ε := ε) v vos d.size with
  | ok u => simp
  | err e => exact absurd hm (C43_mock_panics v vos d.size e)
  | panic => simp

/-- **C72** A witness with which the mock prover succeeds, and whose copies and lookups hold, is accepted by the protocol, for
every polynomial of the key that divides `X^n - 1`. The exceptions are those of C52. -/
theorem C72_mock_then_accepted {ε W I K : Type} [ConcreteOracle W] [ConcreteOracle I] [ConcreteOracle K]
    {S : Scheme F} {pk : ProverKey S} {com : F[X] → S.Rand → S.Comm} (hS : HomomorphicScheme S pk.ck pk.vk.vk com)
    {d : Domain F} (hd : d.Ok) (h1 : 1 < d.size) (hn : SupportsDegree S pk.ck d.size) {vos : List (GenericVO F)}
    -- the key
    {copyFlag : W → Bool} {vk : S.VK} {lookups : List (GenericLookupVO F)} {ows : List W} {ois : List I} {ofs : List K}
    {zh : List F} {info : PermutationInfo F} {usableRows : Nat}
    (hkey : indexer copyFlag vk vos lookups ows ois ofs d zh info usableRows (S := S) = .ok pk.vk)
    (htrim : zh = trim zh) (hdvd : toPoly zh ∣ X ^ d.size - 1)
    (hproper : toPoly zh = X ^ d.size - 1 ∨ (toPoly zh).natDegree < d.size)
    (hquotient : pk.vk.index.quotientDegree ≠ pk.vk.index.ext.size)
    -- the circuit, the witness and the verifier's oracles
    {ws is fixed table sigmas : List (ProverOracle F)} {qBlind : ProverOracle F}
    (hcopies : (∃ o ∈ ws, o.shouldPermute = true) → d.size < pk.vk.index.perm.maxCols + 2 + (toPoly zh).natDegree)
    (hs : Supported d pk.vk.index ⟨ws, is, fixed, table⟩ sigmas qBlind vos)
    (hp : Provable d pk.vk.index ⟨ws, is, fixed, table⟩ sigmas qBlind vos)
    {tau : Equiv.Perm (Fin (ws.filter (·.shouldPermute)).length × Fin pk.vk.index.perm.usableRows)}
    (henc : MadeFrom d pk.vk.index.perm.deltas sigmas tau)
    {vws : List (VerifierOracle F S.Comm)} {vis : List (InstanceVerifierOracle F)} {vpre : VerifierPreprocessed S}
    (hsu : SetUp S com ⟨ws, is, fixed, table⟩ sigmas qBlind vws vis vpre)
    -- the mock prover succeeds, copies and lookups hold
    (hmock : mockProve (ε := ε) ⟨ws, is, fixed, table⟩ vos d.size = .ok ())
    (hcop : CopiesHold ⟨ws, is, fixed, table⟩ tau)
    (hl : LookupsHold d.size pk.vk.index.usableRows ⟨ws, is, fixed, table⟩ pk.vk.index.lookups) (z : S.Z) :
    ∃ theta beta gamma, FirstMessages S pk ⟨ws, is, fixed, table⟩ d z theta beta gamma ∧
      (GoodDraw d pk.vk.index ⟨ws, is, fixed, table⟩ sigmas theta beta gamma →
        ∃ tr, proveRounds S pk (.new S fixed sigmas table qBlind pk.vk.index) ws is vos d.size z = .ok tr ∧
          tr.chal.theta = theta ∧ tr.chal.beta = beta ∧ tr.chal.gamma = gamma ∧
          (tr.chal.xi ≠ 0 →
            ∃ proof, prove S pk (.new S fixed sigmas table qBlind pk.vk.index) ws is vos d.size z = .ok proof ∧
              ((∀ k : ℤ, (mpChallenges S proof.multiopen (verifierChallenges S proof).2).2.2.1 ≠ tr.chal.xi * d.omega ^ k) →
                verify S pk.vk vpre proof vws vis vos d.size zh = .ok ()))) := by
  have hg : GatesHold d ⟨ws, is, fixed, table⟩ vos (toPoly zh) := by
    refine gatesHold_of_mock (ε := ε) hd ?_ hmock _
    intro ty o ho
    refine (hs.columns o ?_).1
    cases ty <;> simp only [ProverView.oracles] at ho <;> simp [ho]
  obtain ⟨theta, beta, gamma, g1, g2⟩ := C52_honest_prover_succeeds hS hd h1 hn hkey htrim hdvd hproper hquotient hcopies hs hp henc
    hsu hg hcop hl z
  refine ⟨theta, beta, gamma, g1, fun h => ?_⟩
  obtain ⟨tr, a1, a2, a3, a4, a5⟩ := g2 h
  refine ⟨tr, a1, a2, a3, a4, fun hx => ?_⟩
  obtain ⟨proof, b1, -, b2⟩ := a5 hx
  exact ⟨proof, b1, b2⟩

end

namespace Toy

/-- `a^3 - 7^3`, without a selector. -/
def gateSeven : Expr F97 := .sum (.prod (.oracle qA) (.prod (.oracle qA) (.oracle qA))) (.neg (.const 52))
def vosSeven : List (GenericVO F97) := [vo gateSeven]
/-- The gate holds on the first two rows only. -/
def wsSeven : List (ProverOracle F97) := [column .witness [1] [7, 7, 1, 2] [.curr] false]
def qBlindSeven : ProverOracle F97 := column .fixed (bytes "q_blind") [0, 0, 0, 0] [.curr] false

def seven (zh : List F97) : Bool :=
  match indexer (S := S) (fun (o : ProverOracle F97) => o.shouldPermute) () vosSeven [] wsSeven ([] : List (ProverOracle F97)) ([] : List (ProverOracle F97)) dom zh ⟨2, []⟩ 2 with
  | .ok k => match prove S ⟨k, ()⟩ (.new S [] [] [] qBlindSeven k.index) wsSeven [] vosSeven 4 () with
    | .ok p => match verify S k ⟨[], [], [], published qBlindSeven⟩ p (wsSeven.map blank) [] vosSeven 4 zh with
      | .ok () => true
      | _ => false
    | _ => false
  | _ => false

/-- The columns `viewRows` satisfy the gates on every row and both lookups, but `a[0]` differs from `b[1]`. The mock prover succeeds,
the prover panics. In the second example the polynomial of the key vanishes on the first two rows only: the mock prover panics,
the proof is accepted; with `X^4 - 1` it is not. -/
theorem mock_differs : mockProve (ε := Unit) viewRows vos 4 = .ok () ∧ (∃ k, key = .ok k ∧ proveWith k viewRows.witness = .panic) ∧
    mockProve (ε := Unit) ⟨wsSeven, [], [], []⟩ vosSeven 4 = .panic ∧ seven zhRows = true ∧ seven dom.vanishing = false := by
  refine ⟨by decide +kernel, ?_, by decide +kernel, by decide +kernel, by decide +kernel⟩
  have h : (match key with
    | .ok k => (match proveWith k viewRows.witness with
      | .panic => true
      | _ => false)
    | _ => false) = true := by decide +kernel
  split at h
  · rename_i k hk
    refine ⟨k, hk, ?_⟩
    split at h
    · assumption
    · simp at h
  · simp at h

/-- The hypotheses of `C72_mock_then_accepted` are met by the toy circuit. -/
theorem mock_then_accepted : ∃ k theta beta gamma, key = .ok k ∧ mockProve (ε := Unit) view vos dom.size = .ok () ∧
    FirstMessages S ⟨k, ()⟩ view dom () theta beta gamma ∧
    (GoodDraw dom k.index view sigma theta beta gamma → ∃ tr, proveRounds S ⟨k, ()⟩ (pre k) witness inst vos dom.size () = .ok tr ∧
      (tr.chal.xi ≠ 0 → ∃ proof, prove S ⟨k, ()⟩ (pre k) witness inst vos dom.size () = .ok proof ∧
        ((∀ n : ℤ, (mpChallenges S proof.multiopen (verifierChallenges S proof).2).2.2.1 ≠ tr.chal.xi * dom.omega ^ n) →
          verify S k vpre proof (witness.map blank) vinst vos dom.size dom.vanishing = .ok ()))) := by
  obtain ⟨k, p, hk, -, h⟩ := of_holds (ws := witness) (P := fun k p => decide
    (k.index.quotientDegree ≠ k.index.ext.size)) (by decide +kernel)
  have hsz := dom_size
  have hz : toPoly dom.vanishing = X ^ dom.size - 1 := toPoly_vanishing dom dom_Ok.size_pos
  have hdeg : (X ^ dom.size - 1 : F97[X]).natDegree = dom.size := natDegree_X_pow_sub_C (r := (1 : F97))
  have hm : mockProve (ε := Unit) view vos dom.size = .ok () := by rw [hsz]; decide +kernel
  obtain ⟨-, -, -, -, -, -, -, -, -, hu, hdl, -⟩ := indexer_ok dom_Ok hk
  obtain ⟨tau, henc, hcop⟩ := copiedOk k.index.perm.usableRows hu
  obtain ⟨theta, beta, gamma, h1, h2⟩ := C72_mock_then_accepted (ε := Unit) (pk := ⟨k, ()⟩) (ideal_homomorphic _ _) dom_Ok (by rw [hsz]; norm_num)
    (supports _) hk (by decide +kernel) (by rw [hz]) (Or.inl hz) (of_decide_eq_true h) (fun _ => by rw [hz, hdeg]; omega)
    (supported hk) (provable hk) (by rw [hdl]; exact henc.1) setUp hm hcop (lookedUp hk) ()
  refine ⟨k, theta, beta, gamma, hk, hm, h1, fun hg => ?_⟩
  obtain ⟨tr, h3, -, -, -, h4⟩ := h2 hg
  exact ⟨tr, h3, h4⟩

end Toy
end ZK
