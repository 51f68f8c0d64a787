import Verif.Model.TurboPlonk
/-! Vocabulary for statements about challenges and transcripts. -/
set_option autoImplicit false
namespace ZK

section
variable {F : Type} [Field F]

/-- The prover's rounds were computed with the given challenges: every round function was run with the
challenge of that round, and its commitments were made in this order. `t1` is what the transcript would
feed to the multi-opening. The intermediate states of `zk_rng` are existentially quantified. -/
structure RanWith (S : Scheme F) [LinearOrder F] [FftParams F] (pk : ProverKey S)
    (pre : ProverPreprocessed S) (ws is : List (ProverOracle F)) (vos : List (GenericVO F))
    (domainSize : Nat) (z : S.Z) (domain : Domain F) (ch : Challenges F) (view : ProverView F)
    (rounds : ProverRounds F) (quotient : List (ProverOracle F))
    (wc lc zc lzc qc : List (S.Comm × S.Rand)) : Prop where
  dom : Domain.new (F := F) domainSize = some domain
  view_eq : view = ⟨ws.map (·.computeExtended pk.vk.index.ext), is.map (·.computeExtended pk.vk.index.ext),
    pre.fixed, pre.table⟩
  witness : ∃ z', S.commit pk.ck (view.witness.map (·.toLabeled)) z = .ok (wc, z')
  lookups : ∃ z1 z2 z3, lookupRound (S := S) view pk.vk.index domain ch.theta z1 = .ok (rounds.lookups, z2) ∧
    S.commit pk.ck ((primes rounds.lookups).map (·.toLabeled)) z2 = .ok (lc, z3)
  permutation : ∃ z1 z2 z3, permutationRound (S := S) (ε := Err S.E) pk.vk.index
      (view.witness.filter (·.shouldPermute)) pre.perm domain ch.beta ch.gamma z1 = .ok (rounds.zs, z2) ∧
    S.commit pk.ck (rounds.zs.map (·.toLabeled)) z2 = .ok (zc, z3)
  subsetEquality : ∃ z1 z2 z3, subsetEqualityRound (S := S) (ε := Err S.E) pk.vk.index rounds.lookups domain
      ch.beta ch.gamma z1 = .ok (rounds.lookupZs, z2) ∧
    S.commit pk.ck (rounds.lookupZs.map (·.toLabeled)) z2 = .ok (lzc, z3)
  quotient : quotientRound view vos pk.vk.index pk.vk.zhInverses pre.perm pre.qBlind rounds domain
      ch.alpha ch.beta ch.gamma = .ok quotient ∧
    ∃ z1 z2, S.commit pk.ck (quotient.map (·.toLabeled)) z1 = .ok (qc, z2)

/-- The evaluations in a proof are those of the prover's oracles at the given point. -/
structure EvaluatedAt (S : Scheme F) [LinearOrder F] (pre : ProverPreprocessed S)
    (domain : Domain F) (xi : F) (view : ProverView F) (rounds : ProverRounds F)
    (quotient : List (ProverOracle F)) (proof : TPProof S) : Prop where
  witness : ∃ qs, getQuerySet (ε := Err S.E) view.witness xiLabel xi domain.elements = .ok qs ∧
    evaluateQuerySet (ε := Err S.E) view.witness qs = .ok proof.witnessEvals
  fixed : ∃ qs, getQuerySet (ε := Err S.E) pre.fixed xiLabel xi domain.elements = .ok qs ∧
    evaluateQuerySet (ε := Err S.E) pre.fixed qs = .ok proof.fixedEvals
  table : ∃ qs, getQuerySet (ε := Err S.E) pre.table xiLabel xi domain.elements = .ok qs ∧
    evaluateQuerySet (ε := Err S.E) pre.table qs = .ok proof.tableEvals
  zs : ∃ qs, getQuerySet (ε := Err S.E) rounds.zs xiLabel xi domain.elements = .ok qs ∧
    evaluateQuerySet (ε := Err S.E) rounds.zs qs = .ok proof.zEvals
  lookups : proof.lookupEvals = lookupEvalsOf rounds.lookups xi (domain.element 1)⁻¹
  lookupZs : proof.lookupZEvals = lookupZEvalsOf rounds.lookupZs xi (domain.element 1)
  quotient : proof.quotientEvals = quotient.map (·.query xi)
  perm : proof.permEvals = pre.perm.map (·.query xi)
  qBlind : proof.qBlindEval = peval pre.qBlind.poly xi

/-- The multi-opening part was computed with the given challenges: `x1, x2` aggregate the oracles into
the `qs` and `f`, the claimed values are those of the `qs` at `x3`, and `x4` aggregates the polynomial
which is opened at `x3`. -/
structure OpenedWith (S : Scheme F) [LinearOrder F] (ck : S.CK)
    (oracles : List (ProverOracle F)) (rands : List S.Rand) (xi : F) (domain : Domain F)
    (x1 x2 x3 x4 : F) (proof : MpProof S) : Prop where
  run : ∃ qs f fc z z' fRand fin,
    mpFirstRound (S := S) (openingSets (fun (o : OracleRand S) => o.1.rotations) (List.zip oracles rands))
      oracles.length domain xi x1 x2 = .ok (qs, f) ∧
    S.commit ck [⟨bytes "f_aggregated", f, true⟩] z = .ok (fc, z') ∧
    fc[0]? = some (proof.fCommit, fRand) ∧
    proof.qEvals = qs.map (fun q => peval q.1 x3) ∧
    mpThirdRound (S := S) qs f fRand x4 = .ok fin ∧
    ∃ fc', S.commitPlain ck ⟨bytes "final_poly", fin.1, false⟩ = .ok fc' ∧
      S.open_ ck ⟨bytes "final_poly", fin.1, false⟩ fc' x3 fin.2 = .ok proof.opening

end

/-- What can happen to a Fiat-Shamir generator after its creation. -/
inductive FsOp where
  | absorb (m : List Nat)
  | draw

/-- The messages absorbed by a sequence of operations. -/
def absorbed : List FsOp → List (List Nat)
  | [] => []
  | .absorb m :: ops => m :: absorbed ops
  | .draw :: ops => absorbed ops

/-- The number of draws after the last absorbed message. -/
def trailingDraws (ops : List FsOp) : Nat :=
  ops.foldl (fun k op => match op with | .absorb _ => 0 | .draw => k + 1) 0

namespace SimpleHash
variable {R Seed F : Type} (h : SimpleHash R Seed F)

/-- One operation. -/
def step (s : R × Seed) : FsOp → R × Seed
  | .absorb m => h.absorb s m
  | .draw => (h.rand s).2

/-- The state after a creation and a sequence of operations. -/
def run (init : List Nat) (ops : List FsOp) : R × Seed := ops.foldl h.step (h.init init)

/-- The inputs the digest receives: the initial message, then each message followed by the seed at that time. -/
def hashedFrom (seed : Seed) : List (List Nat) → List (List Nat)
  | [] => []
  | m :: ms => (m ++ h.seedBytes seed) :: hashedFrom (h.digest (m ++ h.seedBytes seed)) ms

def hashed (init : List Nat) (msgs : List (List Nat)) : List (List Nat) :=
  init :: h.hashedFrom (h.digest init) msgs

end SimpleHash
end ZK
