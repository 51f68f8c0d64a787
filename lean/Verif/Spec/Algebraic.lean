import Mathlib.Algebra.Polynomial.Div
import Verif.Properties.Commitment
import Verif.Spec.Soundness
/-!
Vocabulary for soundness with KZG commitments. A prover that only combines group elements it was given (the algebraic group
model) knows for every group element it sends how it is made from the elements of the key: a polynomial for the powers of `g` and
one for the powers of `gammaG`. Here such representations take the place of the group elements.
-/
set_option autoImplicit false
set_option linter.unusedSectionVars false
namespace ZK
open Polynomial

section
variable (F : Type) [Field F]

/-- The representation of an opening. -/
structure AlgOpening where
  w : F[X]
  wr : F[X]
  randomV : F

open Classical in
/-- The commitment scheme in which a commitment is the pair of polynomial and blinding polynomial. An opening is accepted if the
equations of polynomials hold which the pairing of KZG checks at the secret of the key. Transcript and random generator are not used. -/
noncomputable def algScheme : Scheme F where
  Comm := F[X] × F[X]
  Rand := F[X]
  Proof := AlgOpening F
  CK := Unit
  VK := Unit
  E := Unit
  Z := Unit
  T := Unit
  commit := fun _ ps z => .ok (ps.map (fun p => ((toPoly p.poly, 0), 0)), z)
  commitPlain := fun _ p => .ok [(toPoly p.poly, 0)]
  open_ := fun _ p _ x r => .ok ⟨toPoly p.poly /ₘ (X - C x), r /ₘ (X - C x), r.eval x⟩
  check := fun _ c x v pf => .ok (decide (c.1 - C v = (X - C x) * pf.w ∧ c.2 - C pf.randomV = (X - C x) * pf.wr))
  add := fun a b => (a.1 + b.1, a.2 + b.2)
  scale := fun a k => (C k * a.1, C k * a.2)
  zero := (0, 0)
  emptyRand := 0
  addRand := fun a b => a + b
  scaleRand := fun a k => C k * a
  next := fun z => (0, z)
  fsInit := fun _ => ()
  fsAbsorb := fun t _ => t
  fsRand := fun t => (0, t)
  encComm := fun _ => []
  encF := fun _ => []

end

section
variable {F : Type} [Field F] [LinearOrder F] {G : Type} [AddCommGroup G] [Module F G]

/-- The group element with the given representation. -/
noncomputable def element (key : KzgKey G) (c : F[X] × F[X]) : G := kzgCom key c.1 c.2

/-- The oracle of the verifier that holds group elements instead of their representations. -/
noncomputable def VerifierOracle.elements (key : KzgKey G) (o : VerifierOracle F (F[X] × F[X])) : VerifierOracle F G :=
  ⟨o.kind, o.label, o.rotations, o.evals, o.commitment.map (element key), o.shouldPermute⟩

variable {G2 GT : Type} [AddCommGroup G2] [Module F G2] [AddCommGroup GT] [Module F GT] [DecidableEq GT]
variable (e : G →ₗ[F] G2 →ₗ[F] GT) (env : KzgEnv F G)

/-- The preprocessed input with group elements. -/
noncomputable def VerifierPreprocessed.elements (key : KzgKey G) (p : VerifierPreprocessed (algScheme F)) :
    VerifierPreprocessed (kzgScheme e env) :=
  ⟨(p.fixed.map (VerifierOracle.elements key) : List (VerifierOracle F G)),
    (p.table.map (VerifierOracle.elements key) : List (VerifierOracle F G)),
    (p.perm.map (VerifierOracle.elements key) : List (VerifierOracle F G)), (VerifierOracle.elements key p.qBlind : VerifierOracle F G)⟩

/-- The proof a prover sends whose group elements have these representations. -/
noncomputable def TPProof.elements (key : KzgKey G) (p : TPProof (algScheme F)) : TPProof (kzgScheme e env) where
  witnessCommitments := (p.witnessCommitments.map (element key) : List G)
  witnessEvals := p.witnessEvals
  fixedEvals := p.fixedEvals
  tableEvals := p.tableEvals
  permEvals := p.permEvals
  qBlindEval := p.qBlindEval
  lookupCommitments := (p.lookupCommitments.map (element key) : List G)
  lookupZCommitments := (p.lookupZCommitments.map (element key) : List G)
  lookupEvals := p.lookupEvals
  lookupZEvals := p.lookupZEvals
  zCommitments := (p.zCommitments.map (element key) : List G)
  zEvals := p.zEvals
  quotientCommitments := (p.quotientCommitments.map (element key) : List G)
  quotientEvals := p.quotientEvals
  multiopen := ⟨p.multiopen.qEvals, (element key p.multiopen.fCommit : G),
    (⟨element key (p.multiopen.opening.w, p.multiopen.opening.wr), p.multiopen.opening.randomV⟩ : KzgProof F G)⟩

/-- The representations use at most `D` powers of `g` and `R` powers of `gammaG`. -/
def TPProof.Within (D R : Nat) (p : TPProof (algScheme F)) : Prop :=
  (∀ c ∈ (p.witnessCommitments ++ p.lookupCommitments ++ p.lookupZCommitments ++ p.zCommitments ++ p.quotientCommitments ++
      [p.multiopen.fCommit, (p.multiopen.opening.w, p.multiopen.opening.wr)] : List (F[X] × F[X])), c.1.degree < D ∧ c.2.degree < R)

end
end ZK
