import Verif.Model.Multiopen
/-!
The prover rounds (src/piop/prover.rs) and `TurboPlonk::{prove, verify}` (src/turbo_plonk.rs).
-/
set_option autoImplicit false
namespace ZK

section
variable {F : Type} [Field F]

/-- `PIOPforPolyIdentity::get_query_set`, src/piop/verifier.rs 111-128. -/
def getQuerySet {O ε : Type} [LinearOrder F] [ConcreteOracle O] (os : List O) (l : Label) (x : F)
    (omegas : List F) : Res ε (List (Query F)) :=
  Res.foldM (fun (s : List (Query F)) (o : O) => (querySetOf o l x omegas).map1 (setExtend s)) [] os

/-- `evaluate_query_set`, src/util.rs 37-53: an unknown label panics. -/
def evaluateQuerySet {ε : Type} [LinearOrder F] (os : List (ProverOracle F)) (qs : List (Query F)) :
    Res ε (List F) :=
  Res.mapM (fun (q : Query F) =>
    match findOracle os (ofLex q).1 with
    | some o => .ok (o.query (ofLex (ofLex q).2).2)
    | none => .panic) qs

/-- The alphas given to gates, to the permutation argument and to each lookup
(src/piop/prover.rs 247-299, src/turbo_plonk.rs 1085-1122). -/
structure Alphas (F : Type) where
  gates : List F
  perm : List F
  lookups : List (List F)

def mkAlphas {ε : Type} (p : PermutationArgument F) (alpha : F) (numVos numZ numLookups : Nat) :
    Res ε (Alphas F) := do
  let gates := powersFrom 1 alpha numVos
  let lastGate ← Res.unwrap gates.getLast?
  let perm := powersFrom (lastGate * alpha) alpha (p.numberOfAlphas numZ)
  let begin_ := match perm.getLast? with
    | some a => a
    | none => lastGate
  let lks := powersFrom begin_ alpha (5 * numLookups)
  pure ⟨gates, perm, chunks 5 lks⟩

/-- `oracle.to_labeled()` of a witness oracle: hiding bound 1 (src/oracles/witness.rs 82-89). -/
def ProverOracle.toLabeled (o : ProverOracle F) : LPoly F := ⟨o.label, o.poly, true⟩

/-- The verifier messages. -/
structure Challenges (F : Type) where
  theta : F
  beta : F
  gamma : F
  alpha : F
  xi : F
  deriving DecidableEq, Repr

/-- The prover's oracles after all rounds. -/
structure ProverRounds (F : Type) where
  lookups : List (LookupOracles (ProverOracle F))
  zs : List (ProverOracle F)
  lookupZs : List (ProverOracle F)

/-- `prover_lookup_round`, src/piop/prover.rs 173-209. -/
def lookupRound {S : Scheme F} [LinearOrder F] [FftParams F] (v : ProverView F) (index : Index F)
    (domain : Domain F) (theta : F) (z : S.Z) :
    Res PiopErr (List (LookupOracles (ProverOracle F)) × S.Z) :=
  Res.foldM (fun (acc : List (LookupOracles (ProverOracle F)) × S.Z) (p : GenericLookupVO F × Nat) => do
      let es ← (p.1.getExpressions).mapErr PiopErr.vo
      let ts ← (p.1.getTableQueries).mapErr PiopErr.vo
      let r ← lookupConstruct S.next v index.usableRows p.2 es ts theta domain index.ext acc.2
      pure (acc.1 ++ [r.1], r.2)) ([], z) index.lookups.zipIdx

/-- `prover_permutation_round`, src/piop/prover.rs 146-171. -/
def permutationRound {S : Scheme F} [DecidableEq F] [FftParams F] {ε : Type} (index : Index F)
    (toCopy sigmas : List (ProverOracle F)) (domain : Domain F) (beta gamma : F) (z : S.Z) :
    Res ε (List (ProverOracle F) × S.Z) :=
  if toCopy.length = 0 then .ok ([], z)
  else index.perm.constructAggPolys S.next toCopy sigmas beta gamma domain index.ext z

/-- `prover_lookup_subset_equality_round`, src/piop/prover.rs 211-238. -/
def subsetEqualityRound {S : Scheme F} [DecidableEq F] [FftParams F] {ε : Type} (index : Index F)
    (ls : List (LookupOracles (ProverOracle F))) (domain : Domain F) (beta gamma : F) (z : S.Z) :
    Res ε (List (ProverOracle F) × S.Z) :=
  Res.foldM (fun (acc : List (ProverOracle F) × S.Z) (p : LookupOracles (ProverOracle F) × Nat) => do
      let r ← seConstruct S.next p.1 beta gamma p.2 index.usableRows domain index.ext acc.2
      pure (acc.1 ++ [r.1], r.2)) ([], z) ls.zipIdx

/-- The numerator at one coset index, src/piop/prover.rs 318-409. -/
def numeratorAt [DecidableEq F] [FftParams F] (v : ProverView F) (vos : List (GenericVO F))
    (index : Index F) (sigmas : List (ProverOracle F)) (qBlind : ProverOracle F)
    (r : ProverRounds F) (al : Alphas F) (l0 lu : List F) (beta gamma : F) (i : Nat) :
    Res PiopErr F := do
  let toCopy := v.witness.filter (·.shouldPermute)
  let e ← Res.foldM (fun (acc : F) (p : GenericVO F × Nat) => do
      let ex ← (p.1.getExpression).mapErr PiopErr.vo
      let val := ex.evalR (v.atCoset i)
      let a ← Res.idx al.gates p.2
      let val ← val
      pure (acc + a * val)) 0 vos.zipIdx
  let pe ← if toCopy.length ≠ 0 then
      index.perm.instantiate l0 lu qBlind toCopy sigmas r.zs i (index.ext.element i) beta gamma al.perm
    else pure 0
  Res.foldM (fun (acc : F)
      (p : (LookupOracles (ProverOracle F) × ProverOracle F) × List F) => do
      let le ← lookupInstantiate l0 lu qBlind p.1.1 p.1.2 beta gamma i p.2
      pure (acc + le)) (e + pe) (List.zip (List.zip r.lookups r.lookupZs) al.lookups)

/-- The Lagrange polynomial of row `i` built by ifft (src/piop/prover.rs 303-315,
src/turbo_plonk.rs 1125-1136); `n` is the length of the vector of evaluations. -/
def lagrangeRow {ε : Type} [DecidableEq F] (domain : Domain F) (n i : Nat) : Res ε (List F) :=
  (unitVec (F := F) n i).map1 (fun e => trim (domain.ifft e))

/-- `quotient_coeffs.chunks(n)` turned into oracles, src/piop/prover.rs 423-444. -/
def quotientChunks [DecidableEq F] (domain : Domain F) (extSize : Nat) (quotient : List F) :
    List (ProverOracle F) :=
  let padded := quotient ++ List.replicate (extSize - quotient.length) 0
  (chunks domain.size padded).zipIdx.map (fun p =>
    let poly := trim p.1
    ⟨.witness, bytes "quotient_chunk_" ++ natBytes p.2, poly, domain.fft poly, none,
      setExtend [] [Rotation.curr], false⟩)

/-- `prover_quotient_round`, src/piop/prover.rs 240-448. -/
def quotientRound [DecidableEq F] [FftParams F] (v : ProverView F) (vos : List (GenericVO F))
    (index : Index F) (zhInverses : List F) (sigmas : List (ProverOracle F)) (qBlind : ProverOracle F)
    (r : ProverRounds F) (domain : Domain F) (alpha beta gamma : F) :
    Res PiopErr (List (ProverOracle F)) := do
  let al ← mkAlphas index.perm alpha vos.length r.zs.length index.lookups.length
  let l0 ← lagrangeRow domain domain.size 0
  let lu ← lagrangeRow domain domain.size index.perm.usableRows
  let l0c := index.ext.cosetFft l0
  let luc := index.ext.cosetFft lu
  let nums ← Res.mapM (numeratorAt v vos index sigmas qBlind r al l0c luc beta gamma)
    (List.range index.ext.size)
  let qEvals := List.zipWith (· * ·) nums zhInverses
  let quotient := trim (index.ext.cosetIfft qEvals)
  pure (quotientChunks domain index.ext.size quotient)

/-- src/turbo_plonk.rs 46-71. -/
structure TPProof (S : Scheme F) where
  witnessCommitments : List S.Comm
  witnessEvals : List F
  fixedEvals : List F
  tableEvals : List F
  permEvals : List F
  qBlindEval : F
  lookupCommitments : List S.Comm
  lookupZCommitments : List S.Comm
  lookupEvals : List F
  lookupZEvals : List F
  zCommitments : List S.Comm
  zEvals : List F
  quotientCommitments : List S.Comm
  quotientEvals : List F
  multiopen : MpProof S

/-- The point label used for the evaluation challenge (src/piop/verifier.rs 103). -/
def xiLabel : Label := bytes "xi"

/-- `a_prime, s_prime` of every lookup in order (src/turbo_plonk.rs 285-296, 980-982). -/
def primes {O : Type} (ls : List (LookupOracles O)) : List O :=
  ls.flatMap (fun l => [l.aPrime, l.sPrime])

/-- Everything the prover has computed when it enters the multi-opening. -/
structure ProverTrace (S : Scheme F) where
  view : ProverView F
  rounds : ProverRounds F
  quotient : List (ProverOracle F)
  chal : Challenges F
  wc : List (S.Comm × S.Rand)
  lc : List (S.Comm × S.Rand)
  zc : List (S.Comm × S.Rand)
  lzc : List (S.Comm × S.Rand)
  qc : List (S.Comm × S.Rand)
  t : S.T
  z : S.Z

/-- `TurboPlonk::prove` up to the evaluation challenge, src/turbo_plonk.rs 203-408. -/
def proveRounds (S : Scheme F) [LinearOrder F] [FftParams F] (pk : ProverKey S)
    (pre : ProverPreprocessed S) (ws is : List (ProverOracle F)) (vos : List (GenericVO F))
    (domainSize : Nat) (z : S.Z) : Res (Err S.E) (ProverTrace S) := do
  let t := S.fsInit (bytes "TurboPlonk-0.0.1")
  let index := pk.vk.index
  let ws := ws.map (·.computeExtended index.ext)
  let is := is.map (·.computeExtended index.ext)
  let (wc, z) ← (S.commit pk.ck (ws.map (·.toLabeled)) z).mapErr Err.pc
  let t := S.absorbComms t (wc.map Prod.fst)
  let domain ← Res.unwrap (Domain.new (F := F) domainSize)
  let view : ProverView F := ⟨ws, is, pre.fixed, pre.table⟩
  let toCopy := ws.filter (·.shouldPermute)
  let (theta, t) := S.fsRand t
  let (lookups, z) ← (lookupRound (S := S) view index domain theta z).mapErr Err.iop
  let (lc, z) ← (S.commit pk.ck ((primes lookups).map (·.toLabeled)) z).mapErr Err.pc
  let t := S.absorbComms t (lc.map Prod.fst)
  let (beta, t) := S.fsRand t
  let (gamma, t) := S.fsRand t
  let (zs, z) ← permutationRound (S := S) index toCopy pre.perm domain beta gamma z
  let (zc, z) ← (S.commit pk.ck (zs.map (·.toLabeled)) z).mapErr Err.pc
  let t := S.absorbComms t (zc.map Prod.fst)
  let (lookupZs, z) ← subsetEqualityRound (S := S) index lookups domain beta gamma z
  let (lzc, z) ← (S.commit pk.ck (lookupZs.map (·.toLabeled)) z).mapErr Err.pc
  let t := S.absorbComms t (lzc.map Prod.fst)
  let (alpha, t) := S.fsRand t
  let rounds : ProverRounds F := ⟨lookups, zs, lookupZs⟩
  let quotient ← (quotientRound view vos index pk.vk.zhInverses pre.perm pre.qBlind rounds domain
    alpha beta gamma).mapErr Err.iop
  let (qc, z) ← (S.commit pk.ck (quotient.map (·.toLabeled)) z).mapErr Err.pc
  let t := S.absorbComms t (qc.map Prod.fst)
  let (xi, t) := S.fsRand t
  pure ⟨view, rounds, quotient, ⟨theta, beta, gamma, alpha, xi⟩, wc, lc, zc, lzc, qc, t, z⟩

/-- The oracles given to the multi-opening, in order (src/turbo_plonk.rs 509-536, 1250-1268). -/
def openingOrder {O : Type} (ws lks lkzs qs zs fixed table perm : List O) (qBlind : O) : List O :=
  ws ++ lks ++ lkzs ++ qs ++ zs ++ (fixed ++ table ++ perm ++ [qBlind])

/-- `a_prime(x), a_prime(x/w), s_prime(x)` of every lookup (src/turbo_plonk.rs 456-468). -/
def lookupEvalsOf (ls : List (LookupOracles (ProverOracle F))) (xi omegaInv : F) : List F :=
  ls.flatMap (fun l => [l.aPrime.query xi, l.aPrime.query (xi * omegaInv), l.sPrime.query xi])

/-- `z(x), z(wx)` of every lookup (src/turbo_plonk.rs 470-475). -/
def lookupZEvalsOf (zs : List (ProverOracle F)) (xi omega : F) : List F :=
  zs.flatMap (fun z => [z.query xi, z.query (xi * omega)])

/-- `TurboPlonk::prove`, src/turbo_plonk.rs 203-676. -/
def prove (S : Scheme F) [LinearOrder F] [FftParams F] (pk : ProverKey S)
    (pre : ProverPreprocessed S) (ws is : List (ProverOracle F)) (vos : List (GenericVO F))
    (domainSize : Nat) (z : S.Z) : Res (Err S.E) (TPProof S) := do
  let tr ← proveRounds S pk pre ws is vos domainSize z
  let xi := tr.chal.xi
  let domain ← Res.unwrap (Domain.new (F := F) domainSize)
  let omegas := domain.elements
  let wq ← getQuerySet tr.view.witness xiLabel xi omegas
  let witnessEvals ← evaluateQuerySet tr.view.witness wq
  let fq ← getQuerySet pre.fixed xiLabel xi omegas
  let fixedEvals ← evaluateQuerySet pre.fixed fq
  let tq ← getQuerySet pre.table xiLabel xi omegas
  let tableEvals ← evaluateQuerySet pre.table tq
  let omega := domain.element 1
  Res.assert (decide (omega ≠ 0))
  let lookupEvals := lookupEvalsOf tr.rounds.lookups xi omega⁻¹
  let lookupZEvals := lookupZEvalsOf tr.rounds.lookupZs xi omega
  let quotientEvals := tr.quotient.map (·.query xi)
  let permEvals := pre.perm.map (·.query xi)
  let zq ← getQuerySet tr.rounds.zs xiLabel xi omegas
  let zEvals ← evaluateQuerySet tr.rounds.zs zq
  let qBlindEval := peval pre.qBlind.poly xi
  let oracles := openingOrder tr.view.witness (primes tr.rounds.lookups) tr.rounds.lookupZs tr.quotient
    tr.rounds.zs pre.fixed pre.table pre.perm pre.qBlind
  let rands := tr.wc.map Prod.snd ++ tr.lc.map Prod.snd ++ tr.lzc.map Prod.snd ++ tr.qc.map Prod.snd
    ++ tr.zc.map Prod.snd ++ pre.emptyRands
  Res.assert (decide (oracles.length = rands.length))
  let mp ← (mpProve S pk.ck oracles rands xi domainSize tr.t tr.z).mapErr Err.multiproof
  pure ⟨tr.wc.map Prod.fst, witnessEvals, fixedEvals, tableEvals, permEvals, qBlindEval,
    tr.lc.map Prod.fst, tr.lzc.map Prod.fst, lookupEvals, lookupZEvals, tr.zc.map Prod.fst, zEvals,
    tr.qc.map Prod.fst, quotientEvals, mp⟩

/-! ### Verifier -/

/-- The verifier's challenges, src/turbo_plonk.rs 690-691, 733-768 with the rounds of src/piop/verifier.rs 46-109. -/
def verifierChallenges (S : Scheme F) (proof : TPProof S) : Challenges F × S.T :=
  let t := S.fsInit (bytes "TurboPlonk-0.0.1")
  let t := S.absorbComms t proof.witnessCommitments
  let (theta, t) := S.fsRand t
  let t := S.absorbComms t proof.lookupCommitments
  let (beta, t) := S.fsRand t
  let (gamma, t) := S.fsRand t
  let t := S.absorbComms t proof.zCommitments
  let t := S.absorbComms t proof.lookupZCommitments
  let (alpha, t) := S.fsRand t
  let t := S.absorbComms t proof.quotientCommitments
  let (xi, t) := S.fsRand t
  (⟨theta, beta, gamma, alpha, xi⟩, t)

/-- `for (oracle, c) in oracles.iter_mut().zip(commitments) { oracle.register_commitment(c) }`
(src/turbo_plonk.rs 770-776). -/
def registerCommitments {C : Type} : List (VerifierOracle F C) → List C → List (VerifierOracle F C)
  | [], _ => []
  | os, [] => os
  | o :: os, c :: cs => o.registerCommitment c :: registerCommitments os cs

/-- `for ((label, (_, point)), &eval) in query_set.iter().zip(evals) { register at the last oracle with
that label, or return the error }` (src/turbo_plonk.rs 805-819 and the three similar loops). -/
def registerEvals {C : Type} [LinearOrder F] (missing : Label → PiopErr)
    (os : List (VerifierOracle F C)) (qs : List (Query F)) (evals : List F) :
    Res PiopErr (List (VerifierOracle F C)) :=
  Res.foldM (fun (os : List (VerifierOracle F C)) (p : Query F × F) =>
    match lastIndexOf (os.map ConcreteOracle.label) (ofLex p.1).1 with
    | some i => .ok (os.modify i (fun o => o.registerEval (ofLex (ofLex p.1).2).2 p.2))
    | none => .err (missing (ofLex p.1).1)) os (List.zip qs evals)

/-- `get_query_set`, the length assertion and the registration loop for one list of oracles. -/
def registerAll {C : Type} [LinearOrder F] (missing : Label → PiopErr)
    (os : List (VerifierOracle F C)) (xi : F) (omegas : List F) (evals : List F) :
    Res PiopErr (List (VerifierOracle F C)) := do
  let qs ← getQuerySet os xiLabel xi omegas
  Res.assert (decide (qs.length = evals.length))
  registerEvals missing os qs evals

/-- All verifier oracles once commitments and claimed evaluations have been registered. -/
structure VState (S : Scheme F) where
  witness : List (VerifierOracle F S.Comm)
  pre : VerifierPreprocessed S
  quotient : List (VerifierOracle F S.Comm)
  lookups : List (LookupOracles (VerifierOracle F S.Comm))
  lookupZs : List (VerifierOracle F S.Comm)
  zs : List (VerifierOracle F S.Comm)

/-- The oracles of one lookup, src/turbo_plonk.rs 916-978. -/
def verifierLookup {S : Scheme F} [DecidableEq F] (v : VerifierView F S.Comm) (ch : Challenges F)
    (omegas : List F) (omegaInv : F)
    (p : ((GenericLookupVO F × List S.Comm) × List F) × Nat) :
    Res (Err S.E) (LookupOracles (VerifierOracle F S.Comm)) := do
  let es ← (p.1.1.1.getExpressions).mapErr Err.vo
  let ts ← (p.1.1.1.getTableQueries).mapErr Err.vo
  let (a, s) ← (lookupUnpermuted v p.2 es ts ch.theta ch.xi omegas).mapErr Err.iop
  let e0 ← Res.idx p.1.2 0
  let e1 ← Res.idx p.1.2 1
  let c0 ← Res.idx p.1.1.2 0
  let e2 ← Res.idx p.1.2 2
  let c1 ← Res.idx p.1.1.2 1
  pure ⟨a, s,
    ⟨.witness, bytes "lookup_a_prime_" ++ natBytes p.2 ++ bytes "_poly",
      setExtend [] [Rotation.curr, Rotation.prev], [(ch.xi * omegaInv, e1), (ch.xi, e0)], some c0, false⟩,
    ⟨.witness, bytes "lookup_s_prime_" ++ natBytes p.2 ++ bytes "_poly",
      setExtend [] [Rotation.curr], [(ch.xi, e2)], some c1, false⟩⟩

/-- The aggregation polynomial of one lookup, src/turbo_plonk.rs 991-1011. -/
def verifierLookupZ {S : Scheme F} (xi omega : F) (p : (S.Comm × List F) × Nat) :
    Res (Err S.E) (VerifierOracle F S.Comm) := do
  let e0 ← Res.idx p.1.2 0
  let e1 ← Res.idx p.1.2 1
  pure ⟨.witness, bytes "lookup_" ++ natBytes p.2 ++ bytes "_agg_poly",
    setExtend [] [Rotation.curr, Rotation.next], [(xi * omega, e1), (xi, e0)], some p.1.1, false⟩

/-- The permutation aggregation polynomials before their evaluations are registered,
src/turbo_plonk.rs 1021-1046. -/
def verifierZ {S : Scheme F} (u numZ : Nat) (p : S.Comm × Nat) : VerifierOracle F S.Comm :=
  let rots := setExtend [] [Rotation.curr, Rotation.next]
  ⟨.witness, bytes "agg_permutation_" ++ natBytes p.2,
    if p.2 ≠ numZ - 1 then setInsert ⟨u, .plus⟩ rots else rots, [], some p.1, false⟩

/-- Phase 1 of `verify`: everything from the challenges to "END CHALLENGE => EVALS MAPPING"
(src/turbo_plonk.rs 770-1081). The instance oracles are not changed. -/
def verifyRegister (S : Scheme F) [LinearOrder F] [FftParams F] (vk : VerifierKey S)
    (pre : VerifierPreprocessed S) (proof : TPProof S) (ws : List (VerifierOracle F S.Comm))
    (is : List (InstanceVerifierOracle F)) (domainSize : Nat) (ch : Challenges F) :
    Res (Err S.E) (VState S) := do
  let xi := ch.xi
  let ws := registerCommitments ws proof.witnessCommitments
  let quotient ← Res.mapM (fun (p : S.Comm × Nat) => do
      let e ← Res.idx proof.quotientEvals p.2
      pure (⟨.witness, bytes "quotient_chunk_" ++ natBytes p.2, setExtend [] [Rotation.curr],
        [(xi, e)], some p.1, false⟩ : VerifierOracle F S.Comm)) proof.quotientCommitments.zipIdx
  let domain ← Res.unwrap (Domain.new (F := F) domainSize)
  let omegas := domain.elements
  let ws ← (registerAll .missingWitnessOracle ws xi omegas proof.witnessEvals).mapErr Err.iop
  let fixed ← (registerAll .missingFixedOracle pre.fixed xi omegas proof.fixedEvals).mapErr Err.iop
  let table ← (registerAll .missingLookupTableOracle pre.table xi omegas proof.tableEvals).mapErr Err.iop
  Res.assert (decide (pre.perm.length = proof.permEvals.length))
  let perm := List.zipWith (fun (o : VerifierOracle F S.Comm) e => o.registerEval xi e) pre.perm
    proof.permEvals
  let toCopy := ws.filter (·.shouldPermute)
  let omega := domain.element 1
  Res.assert (decide (omega ≠ 0))
  let lcs := chunks 2 proof.lookupCommitments
  Res.assert (decide (lcs.length = vk.index.lookups.length))
  let les := chunks 3 proof.lookupEvals
  Res.assert (decide (les.length = vk.index.lookups.length))
  let lookups ← Res.mapM (verifierLookup ⟨ws, is, fixed, table⟩ ch omegas omega⁻¹)
    (List.zip (List.zip vk.index.lookups lcs) les).zipIdx
  let lzes := chunks 2 proof.lookupZEvals
  Res.assert (decide (proof.lookupZCommitments.length = vk.index.lookups.length))
  Res.assert (decide (lzes.length = vk.index.lookups.length))
  let lookupZs ← Res.mapM (verifierLookupZ xi omega) (List.zip proof.lookupZCommitments lzes).zipIdx
  let numZ ← vk.index.perm.numberOfZPolys toCopy.length
  Res.assert (decide (numZ = proof.zCommitments.length))
  let zs := proof.zCommitments.zipIdx.map (verifierZ vk.index.perm.usableRows numZ)
  let zs ← (registerAll .missingPermutationOracle zs xi omegas proof.zEvals).mapErr Err.iop
  let qBlind := pre.qBlind.registerEval xi proof.qBlindEval
  pure ⟨ws, ⟨fixed, table, perm, qBlind⟩, quotient, lookups, lookupZs, zs⟩

/-- Oracle closure of the verifier for gates, src/turbo_plonk.rs 1142-1179: the evaluation point is
computed before the label is looked up. -/
def VerifierView.gateAt {C : Type} [DecidableEq F] (v : VerifierView F C) (xi : F)
    (omegas : List F) (q : OracleQuery) : Res PiopErr F := do
  let x ← q.rotation.point xi omegas
  match q.oracleType with
  | .witness => withOracle v.witness q.label (.missingWitnessOracle q.label) (fun o => o.query x)
  | .instance_ => withOracle v.inst q.label (.missingInstanceOracle q.label) (fun o => .ok (o.query x))
  | .fixed => withOracle v.fixed q.label (.missingFixedOracle q.label) (fun o => o.query x)

/-- The value the verifier checks to be zero, src/turbo_plonk.rs 1083-1244. -/
def quotientCheckValue (S : Scheme F) [DecidableEq F] [FftParams F] (vk : VerifierKey S)
    (st : VState S) (is : List (InstanceVerifierOracle F)) (vos : List (GenericVO F))
    (domainSize : Nat) (vanishing : List F) (ch : Challenges F) : Res (Err S.E) F := do
  let xi := ch.xi
  let domain ← Res.unwrap (Domain.new (F := F) domainSize)
  let omegas := domain.elements
  let al ← mkAlphas vk.index.perm ch.alpha vos.length st.zs.length vk.index.lookups.length
  let l0 ← lagrangeRow domain domainSize 0
  let lu ← lagrangeRow domain domainSize vk.index.perm.usableRows
  let l0Eval := peval l0 xi
  let luEval := peval lu xi
  let view : VerifierView F S.Comm := ⟨st.witness, is, st.pre.fixed, st.pre.table⟩
  let toCopy := st.witness.filter (·.shouldPermute)
  let e ← Res.foldM (fun (acc : F) (p : GenericVO F × Nat) => do
      let ex ← (p.1.getExpression).mapErr Err.vo
      let val ← (ex.evalR (view.gateAt xi omegas)).mapErr Err.iop
      let a ← Res.idx al.gates p.2
      pure (acc + a * val)) 0 vos.zipIdx
  let pe ← if toCopy.length ≠ 0 then
      (vk.index.perm.open_ l0Eval luEval st.pre.qBlind st.zs st.pre.perm toCopy ch.beta ch.gamma domain
        xi al.perm).mapErr Err.iop
    else pure 0
  let e ← Res.foldM (fun (acc : F)
      (p : (LookupOracles (VerifierOracle F S.Comm) × VerifierOracle F S.Comm) × List F) => do
      let le ← (lookupOpen l0Eval luEval st.pre.qBlind p.1.1 p.1.2 ch.beta ch.gamma xi domain
        p.2).mapErr Err.iop
      pure (acc + le)) (e + pe) (List.zip (List.zip st.lookups st.lookupZs) al.lookups)
  let xn := xi ^ domainSize
  let tPart ← Res.foldM (fun (acc : F) (p : F × VerifierOracle F S.Comm) => do
      let v ← (p.2.query xi).mapErr Err.iop
      pure (acc + p.1 * v)) 0 (List.zip (powersFrom 1 xn st.quotient.length) st.quotient)
  pure (e - tPart * peval vanishing xi)

/-- The oracles the verifier hands to the multi-opening. -/
def VState.oracles {S : Scheme F} (st : VState S) : List (VerifierOracle F S.Comm) :=
  openingOrder st.witness (primes st.lookups) st.lookupZs st.quotient st.zs st.pre.fixed st.pre.table
    st.pre.perm st.pre.qBlind

/-- `TurboPlonk::verify`, src/turbo_plonk.rs 678-1279. -/
def verify (S : Scheme F) [LinearOrder F] [FftParams F] (vk : VerifierKey S)
    (pre : VerifierPreprocessed S) (proof : TPProof S) (ws : List (VerifierOracle F S.Comm))
    (is : List (InstanceVerifierOracle F)) (vos : List (GenericVO F)) (domainSize : Nat)
    (vanishing : List F) : Res (Err S.E) Unit := do
  let (ch, t) := verifierChallenges S proof
  let st ← verifyRegister S vk pre proof ws is domainSize ch
  let q ← quotientCheckValue S vk st is vos domainSize vanishing ch
  if q ≠ 0 then .err .quotientNotZero
  else (mpVerify S vk.vk proof.multiopen st.oracles ch.xi domainSize t).mapErr Err.multiproof

/-! ### Mock prover (src/mock_prover.rs) -/

/-- Oracle closure of the mock prover, src/mock_prover.rs 124-149: the polynomial at the rotated point. -/
def ProverView.mockQuery [DecidableEq F] (v : ProverView F) (omegas : List F) (c : F)
    (q : OracleQuery) : Res PiopErr F := do
  let x ← q.rotation.point c omegas
  match q.oracleType with
  | .witness => withOracle v.witness q.label (.missingWitnessOracle q.label) (fun o => .ok (o.query x))
  | .instance_ => withOracle v.inst q.label (.missingInstanceOracle q.label) (fun o => .ok (o.query x))
  | .fixed => withOracle v.fixed q.label (.missingFixedOracle q.label) (fun o => .ok (o.query x))

/-- `.unwrap()` of a `Result`. -/
def Res.expect {ε ε' α : Type} : Res ε α → Res ε' α
  | .ok a => .ok a
  | _ => .panic

/-- Value of a gate at the point `c` in the mock prover, src/mock_prover.rs 121-156: lookup failures and
an unconfigured gate panic. -/
def mockAt {ε : Type} [DecidableEq F] (v : ProverView F) (omegas : List F) (c : F)
    (vo : GenericVO F) : Res ε F := do
  let e ← (vo.getExpression).expect
  (e.evalR (v.mockQuery omegas c)).expect

/-- The checks of `MockProver::prove`, src/mock_prover.rs 103-168, row by row and gate by gate. The error `(vo_index, row_n)` stands for
the panic "VO number {} failed at row {}"; the other panics have no message here. -/
def mockRun [DecidableEq F] [FftParams F] (v : ProverView F) (vos : List (GenericVO F)) (domainSize : Nat) : Res (Nat × Nat) Unit := do
  let domain ← Res.unwrap (Domain.new (F := F) domainSize)
  let omegas := domain.elements
  let _ ← Res.mapM (fun (w : F × Nat) => Res.mapM (fun (vo : GenericVO F × Nat) => do
      let x ← mockAt v omegas w.1 vo.1
      if x = 0 then .ok () else .err (vo.2, w.2)) vos.zipIdx) omegas.zipIdx
  pure ()

/-- `MockProver::prove`, src/mock_prover.rs 103-206: panics at the first gate that is not zero. -/
def mockProve {ε : Type} [DecidableEq F] [FftParams F] (v : ProverView F) (vos : List (GenericVO F))
    (domainSize : Nat) : Res ε Unit :=
  (mockRun v vos domainSize).expect

/-- `MockProver::verify`, src/mock_prover.rs 208-220: ignores all its arguments. -/
def mockVerify {S : Scheme F} {P : Type} (_vk : VerifierKey S) (_pre : VerifierPreprocessed S) (_proof : P)
    (_ws : List (VerifierOracle F S.Comm)) (_is : List (InstanceVerifierOracle F)) (_vos : List (GenericVO F))
    (_domainSize : Nat) (_vanishing : List F) : Res (Err S.E) Unit := .ok ()

end
end ZK
