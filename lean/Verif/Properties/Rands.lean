import Verif.Properties.Transcript
import Verif.Lemmas.Ideal
/-! C45: the randomness list is aligned with the list of opened oracles. -/
set_option autoImplicit false
set_option linter.unusedSectionVars false
namespace ZK
open Polynomial

section
variable {F : Type} [Field F] [LinearOrder F] [FftParams F]

/-- **C45** For every proof the prover makes: the list of randomness given to the multi-point opening has the length
of the list of oracles (so pairing them drops nothing), the commitments in the proof are those of the oracles with the
randomness at the same position, and every preprocessed oracle is paired with the empty randomness. -/
theorem C45_aligned {S : Scheme F} (pk : ProverKey S) (vk : S.VK) (com : F[X] → S.Rand → S.Comm)
    (hS : HomomorphicScheme S pk.ck vk com) (fixed perm table : List (ProverOracle F)) (qBlind : ProverOracle F)
    (index : Index F) (ws is : List (ProverOracle F)) (vos : List (GenericVO F)) (domainSize : Nat) (z : S.Z)
    (proof : TPProof S)
    (h : prove S pk (.new S fixed perm table qBlind index) ws is vos domainSize z = .ok proof) :
    let x := mpChallenges S proof.multiopen (verifierChallenges S proof).2
    ∃ (committed preprocessed : List (ProverOracle F)) (rands : List S.Rand) (domain : Domain F),
      OpenedWith S pk.ck (committed ++ preprocessed) (rands ++ List.replicate preprocessed.length S.emptyRand)
        (verifierChallenges S proof).1.xi domain x.1 x.2.1 x.2.2.1 x.2.2.2 proof.multiopen ∧
      preprocessed.map (·.poly) = (fixed ++ table ++ perm ++ [qBlind]).map (·.poly) ∧
      ws.map (·.poly) = (committed.take ws.length).map (·.poly) ∧
      committed.length = rands.length ∧
      List.Forall₂ (fun (o : ProverOracle F × S.Rand) c => c = com (toPoly o.1.poly) o.2) (List.zip committed rands)
        (proof.witnessCommitments ++ proof.lookupCommitments ++ proof.lookupZCommitments ++ proof.quotientCommitments
          ++ proof.zCommitments) := by
  intro x
  have hone : ∀ (p : LPoly F) (z z' : S.Z) cs, S.commit pk.ck [p] z = .ok (cs, z') → cs.length = 1 :=
    fun p z z' cs h => (hS.commit _ _ _ _ h).length_eq.symm
  obtain ⟨domain, view, rounds, quotient, wc, lc, zc, lzc, qc, R, e1, e2, e3, e4, e5, _, hlen, ho⟩ :=
    C40_same_challenges S pk _ ws is vos domainSize z proof hone h
  set pre := ProverPreprocessed.new S fixed perm table qBlind index with hpre
  have hpl : pre.emptyRands = List.replicate (pre.fixed ++ pre.table ++ pre.perm ++ [pre.qBlind]).length S.emptyRand := by
    simp only [hpre, ProverPreprocessed.new, List.length_append, List.length_map, List.length_cons, List.length_nil]
    congr 1
    omega
  obtain ⟨z1, hw⟩ := R.witness
  obtain ⟨_, z2, _, _, hl⟩ := R.lookups
  obtain ⟨_, z3, _, _, hp⟩ := R.permutation
  obtain ⟨_, z4, _, _, hs⟩ := R.subsetEquality
  obtain ⟨_, z5, _, hq⟩ := R.quotient
  have conv : ∀ {os : List (ProverOracle F)} {z z' cs}, S.commit pk.ck (os.map (·.toLabeled)) z = .ok (cs, z') →
      List.Forall₂ (fun (o : ProverOracle F) (c : S.Comm × S.Rand) => c.1 = com (toPoly o.poly) c.2) os cs := by
    intro os z z' cs h
    have := hS.commit _ _ _ _ h
    rwa [List.forall₂_map_left_iff] at this
  have hall : List.Forall₂ (fun (o : ProverOracle F) (c : S.Comm × S.Rand) => c.1 = com (toPoly o.poly) c.2)
      (view.witness ++ primes rounds.lookups ++ rounds.lookupZs ++ quotient ++ rounds.zs) (wc ++ lc ++ lzc ++ qc ++ zc) :=
    List.rel_append (List.rel_append (List.rel_append (List.rel_append (conv hw) (conv hl)) (conv hs)) (conv hq)) (conv hp)
  refine ⟨view.witness ++ primes rounds.lookups ++ rounds.lookupZs ++ quotient ++ rounds.zs,
    pre.fixed ++ pre.table ++ pre.perm ++ [pre.qBlind], (wc ++ lc ++ lzc ++ qc ++ zc).map Prod.snd, domain, ?_, ?_, ?_, ?_, ?_⟩
  · rw [← hpl]; exact ho
  · simp [hpre, ProverPreprocessed.new, ProverOracle.computeExtended, Function.comp_def]
  · have hvw : view.witness.map (·.poly) = ws.map (·.poly) := by
      rw [R.view_eq]; simp [ProverOracle.computeExtended, Function.comp_def]
    have hvl : view.witness.length = ws.length := by simpa using congrArg List.length hvw
    simp only [List.append_assoc]
    rw [← hvl, List.take_left', hvw]
    rfl
  · rw [hall.length_eq, List.length_map]
  · rw [e1, e2, e3, e4, e5]
    simp only [← List.map_append]
    generalize wc ++ lc ++ lzc ++ qc ++ zc = cs at hall
    generalize view.witness ++ primes rounds.lookups ++ rounds.lookupZs ++ quotient ++ rounds.zs = os at hall
    clear hlen ho
    induction hall with
    | nil => exact List.Forall₂.nil
    | cons h _ ih => exact List.Forall₂.cons h ih

end

/-- The hypotheses of C45 hold for a circuit with two gates, a copy constraint and a lookup. -/
example : ∃ k proof, Toy.key = .ok k ∧ HomomorphicScheme Toy.S () k.vk (fun p _ => coeffs p) ∧
    prove Toy.S ⟨k, ()⟩ (.new Toy.S Toy.fixed Toy.sigma Toy.table Toy.qBlind k.index) Toy.witness Toy.inst Toy.vos 4 ()
      = .ok proof ∧ 5 < proof.witnessCommitments.length + proof.lookupCommitments.length + proof.quotientCommitments.length := by
  obtain ⟨k, p, hk, hp, h⟩ := Toy.of_holds (ws := Toy.witness) (P := fun k p => decide
    (5 < p.witnessCommitments.length + p.lookupCommitments.length + p.quotientCommitments.length)) (by decide +kernel)
  exact ⟨k, p, hk, ideal_homomorphic _ _, hp, of_decide_eq_true h⟩

end ZK
