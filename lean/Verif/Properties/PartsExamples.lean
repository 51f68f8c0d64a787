import Verif.Properties.Parts
import Verif.Properties.ForgeAllExamples
import Verif.Properties.SoundnessExamples
import Verif.Properties.SuccessExamples
/-! C71: the toy circuit with a gate nothing satisfies has accepted proofs with any number of parts. -/
set_option autoImplicit false
set_option linter.unusedSectionVars false
namespace ZK
open Polynomial
namespace Toy

/-- The true values of public columns at the places where they are opened. -/
def publicEvals (os : List (ProverOracle F97)) (xi : F97) : List F97 :=
  match getQuerySet (ε := PiopErr) os xiLabel xi dom.elements with
  | .ok qs => match evaluateQuerySet (ε := PiopErr) os qs with
    | .ok es => es
    | _ => []
  | _ => []

/-- The forged proof with `m` parts, before the evaluations of the quotient are adapted. -/
def forgedParts (k : VerifierKey S) (m : Nat) (mp : MpProof S) : TPProof S :=
  let p := fun we fe te pe ze qb => forgedProof S k.index (witness.map blank) m we fe te pe ze qb mp
  let xi := (verifierChallenges S (p [] [] [] [] [] 0)).1.xi
  p (List.replicate (expectedEvals witness) 0) (publicEvals fixed xi) (publicEvals table xi) (sigma.map (·.query xi))
    (List.replicate (expectedEvals ((p [] [] [] [] [] 0).zCommitments.zipIdx.map
      (verifierZ k.index.perm.usableRows (p [] [] [] [] [] 0).zCommitments.length))) 0) (peval qBlind.poly xi)

/-- The attack: open zeros and the public columns, then adapt two numbers to the challenge `x1`. -/
def attack (k : VerifierKey S) (m : Nat) : Option (TPProof S) :=
  let p := forgedParts k m ⟨[], S.zero, ()⟩
  let c := verifierChallenges S p
  match verifyRegister S k vpre p (witness.map blank) vinst 4 c.1 with
  | .ok st =>
    let os := (st.witness ++ primes st.lookups ++ st.lookupZs ++ st.quotient ++ st.zs).map zeroOf ++
      (fixed ++ table ++ sigma ++ [qBlind])
    match mpProve S () os (os.map fun _ => S.emptyRand) c.1.xi 4 c.2 (), quotientCheckValue S k st vinst vosFalse 4 dom.vanishing c.1 with
    | .ok mp, .ok e =>
      let x1 := (mpChallenges S mp c.2).1
      some (adjust (forgedParts k m mp) x1 (e / ((c.1.xi ^ 4 - x1) * peval dom.vanishing c.1.xi)))
    | _, _ => none
  | _ => none

def attackWorks (m parts : Nat) : Bool :=
  match keyFalse with
  | .ok k => match attack k m with
    | some p => (match verify S k vpre p (witness.map blank) vinst vosFalse 4 dom.vanishing with
        | .ok () => true
        | _ => false) && decide (p.quotientCommitments.length = m ∧ k.index.ext.size / dom.size = parts)
    | none => false
  | _ => false

theorem attackWorks_eq : attackWorks 2 4 = true ∧ attackWorks 3 4 = true ∧ attackWorks 5 4 = true := by decide +kernel

/-- The hypotheses of `C71_every_circuit` are met by the toy circuit with the unsatisfiable gate, for every number of parts. -/
theorem everyNumber {m : Nat} (hm : 2 ≤ m) : ∃ k, keyFalse = .ok k ∧ ∃ we fe te pe ze qb ch t,
    (∀ mp, verifierChallenges S (forgedProof S k.index (witness.map blank) m we fe te pe ze qb mp) = (ch, t)) ∧
      (ch.xi ≠ 0 → ∃ mp : MpProof S, peval dom.vanishing ch.xi ≠ 0 → (mpChallenges S mp t).1 ≠ ch.xi ^ dom.size →
        (∀ j : ℤ, (mpChallenges S mp t).2.2.1 ≠ ch.xi * dom.omega ^ j) →
        ∃ b, verify S k vpre (adjust (forgedProof S k.index (witness.map blank) m we fe te pe ze qb mp) (mpChallenges S mp t).1 b)
          (witness.map blank) vinst vosFalse dom.size dom.vanishing = .ok ()) := by
  obtain ⟨k, -, hk, -⟩ := acceptedFalse
  refine ⟨k, hk, ?_⟩
  obtain ⟨we, fe, te, pe, ze, qb, ch, t, h1, h2⟩ := C71_every_circuit (ck := ()) (vk := k) (ideal_homomorphic _ _) dom_Ok
    (supports _) (readyFalse hk) setUpBad (by
      rw [dom_size]
      intro o ho
      simp only [viewBad, viewOf, fixed, table, sigma, qBlind, List.cons_append, List.nil_append, List.mem_cons,
        List.not_mem_nil, or_false] at ho
      rcases ho with rfl | rfl | rfl | rfl | rfl | rfl <;> simp only [column] <;> decide +kernel) (by
      intro o ho
      simp only [sigma, qBlind, List.cons_append, List.nil_append, List.mem_cons, List.not_mem_nil, or_false] at ho
      rcases ho with rfl | rfl | rfl <;> simp only [column] <;> decide +kernel) dom.vanishing hm ()
  refine ⟨we, fe, te, pe, ze, qb, ch, t, h1, fun hx => ?_⟩
  obtain ⟨mp, h3⟩ := h2 hx
  refine ⟨mp, fun a b c => ?_⟩
  obtain ⟨b, st, -, -, h4⟩ := h3 a b c
  exact ⟨b, h4⟩

end Toy

/-- **C71** is false. The key prescribes four parts. Proofs with three and with five parts are accepted, for a circuit with a gate
that no value satisfies. -/
theorem C71_false : (∀ a : F97, a * a + -5 ≠ 0) ∧ ∃ k p p', Toy.keyFalse = .ok k ∧ k.index.ext.size / Toy.dom.size = 4 ∧
    verify Toy.S k Toy.vpre p (Toy.witness.map Toy.blank) Toy.vinst Toy.vosFalse 4 Toy.dom.vanishing = .ok () ∧
    p.quotientCommitments.length = 3 ∧
    verify Toy.S k Toy.vpre p' (Toy.witness.map Toy.blank) Toy.vinst Toy.vosFalse 4 Toy.dom.vanishing = .ok () ∧
    p'.quotientCommitments.length = 5 := by
  refine ⟨Toy.no_root, ?_⟩
  have h : ∀ {m}, Toy.attackWorks m 4 = true → ∀ {k}, Toy.keyFalse = .ok k → ∃ p,
      verify Toy.S k Toy.vpre p (Toy.witness.map Toy.blank) Toy.vinst Toy.vosFalse 4 Toy.dom.vanishing = .ok () ∧
      p.quotientCommitments.length = m ∧ k.index.ext.size / Toy.dom.size = 4 := by
    intro m h k hk
    unfold Toy.attackWorks at h
    rw [hk] at h
    simp only at h
    split at h
    · rename_i p hp
      rw [Bool.and_eq_true, decide_eq_true_eq] at h
      obtain ⟨h1, h2⟩ := h
      split at h1
      · rename_i hv
        exact ⟨p, hv, h2⟩
      · simp at h1
    · simp at h
  obtain ⟨k, -, hk, -⟩ := Toy.acceptedFalse
  obtain ⟨p, h1, h2, h3⟩ := h Toy.attackWorks_eq.2.1 hk
  obtain ⟨p', h1', h2', -⟩ := h Toy.attackWorks_eq.2.2 hk
  exact ⟨k, p, p', hk, h3, h1, h2, h1', h2'⟩

end ZK
