import Verif.Model.TurboPlonk
/-!
Vocabulary for verifier oracles that have already been used.

`TurboPlonk::verify` receives its witness oracles as `&mut [WitnessVerifierOracle]` and its preprocessed oracles
as `&mut VerifierPreprocessedInput` (src/turbo_plonk.rs 679-688). What it does to them is: `register_commitment` on
witness oracles (775-780) and `register_eval_at_challenge` on witness, fixed, table, permutation and blinding oracles
(812-829, 841-902, 1072-1075). Nothing is ever removed. A history of earlier verifications therefore is a finite
sequence of such operations, whatever the proofs were and however the earlier calls ended.
-/
set_option autoImplicit false
set_option linter.unusedSectionVars false
namespace ZK

section
variable {F : Type} [Field F]

/-- `Evaluated o o'`: `o'` is `o` after any number of registered evaluations. -/
inductive Evaluated {C : Type} (o : VerifierOracle F C) : VerifierOracle F C → Prop
  | refl : Evaluated o o
  | eval {o' : VerifierOracle F C} (x e : F) : Evaluated o o' → Evaluated o (o'.registerEval x e)

/-- `Used o o'`: `o'` is `o` after any number of registered evaluations and commitments. -/
inductive Used {C : Type} (o : VerifierOracle F C) : VerifierOracle F C → Prop
  | refl : Used o o
  | eval {o' : VerifierOracle F C} (x e : F) : Used o o' → Used o (o'.registerEval x e)
  | commitment {o' : VerifierOracle F C} (c : C) : Used o o' → Used o (o'.registerCommitment c)

/-- The preprocessed oracles after any number of registered evaluations. -/
structure EvaluatedPre {S : Scheme F} (pre pre' : VerifierPreprocessed S) : Prop where
  fixed : List.Forall₂ Evaluated pre.fixed pre'.fixed
  table : List.Forall₂ Evaluated pre.table pre'.table
  perm : List.Forall₂ Evaluated pre.perm pre'.perm
  qBlind : Evaluated pre.qBlind pre'.qBlind

/-- A witness oracle as made by `WitnessVerifierOracle::new` (and configured): nothing registered. -/
def FreshWitness {C : Type} (o : VerifierOracle F C) : Prop := o.evals = [] ∧ o.commitment = none

/-- Preprocessed oracles with nothing registered; they carry their commitments. -/
structure FreshPre {S : Scheme F} (pre : VerifierPreprocessed S) : Prop where
  fixed : ∀ o ∈ pre.fixed, o.evals = []
  table : ∀ o ∈ pre.table, o.evals = []
  perm : ∀ o ∈ pre.perm, o.evals = []
  qBlind : pre.qBlind.evals = []

/-- The errors saying that an evaluation or a commitment has not been registered. -/
inductive PiopErr.Missing : PiopErr → Prop
  | eval (l : Label) : Missing (.missingConcreteEval l)
  | witness (l : Label) : Missing (.missingWitnessCommitment l)
  | fixed (l : Label) : Missing (.missingFixedCommitment l)

/-- The same for the errors of `verify`. -/
inductive Err.Missing {E : Type} : Err E → Prop
  | iop {e : PiopErr} : e.Missing → Missing (.iop e)
  | multiproof {e : PiopErr} : e.Missing → Missing (.multiproof (.piop e))

end
end ZK
