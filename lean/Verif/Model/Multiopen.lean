import Verif.Model.Indexer
/-!
The multi-opening argument (src/multiproof).
-/
set_option autoImplicit false
namespace ZK

section
variable {F : Type} [Field F]

/-! Polynomial arithmetic as returned by arkworks: results are trimmed. -/

/-- `&p + &q`. -/
def dadd [DecidableEq F] (p q : List F) : List F := trim (padd p q)
/-- `&p * c`. -/
def dscale [DecidableEq F] (c : F) (p : List F) : List F := trim (pscale c p)
/-- `&p * &q`. -/
def dmul [DecidableEq F] (p q : List F) : List F := trim (pmul p q)

/-- `construct_vanishing`, src/multiproof/poly.rs 29-39. -/
def constructVanishing [DecidableEq F] (xs : List F) : List F :=
  xs.foldl (fun v x => dmul v [-x, 1]) [1]

/-- Inner loop of `construct_lagrange_basis`, src/multiproof/poly.rs 10-22. -/
def lagrangeOne {ε : Type} [DecidableEq F] (xs : List F) (xi : F) (i : Nat) : Res ε (List F) :=
  Res.foldM (fun (l : List F) (p : F × Nat) =>
      if p.2 = i then .ok l
      else if xi - p.1 = 0 then .panic
      else .ok (dmul l (dscale (xi - p.1)⁻¹ [-p.1, 1]))) [1] xs.zipIdx

/-- `construct_lagrange_basis`, src/multiproof/poly.rs 5-27. -/
def lagrangeBasis {ε : Type} [DecidableEq F] (xs : List F) : Res ε (List (List F)) :=
  Res.mapM (fun (p : F × Nat) => lagrangeOne xs p.1 p.2) xs.zipIdx

/-- `multiproof::Proof`, src/multiproof/mod.rs 16-22. -/
structure MpProof (S : Scheme F) where
  qEvals : List F
  fCommit : S.Comm
  opening : S.Proof

/-- Grouping oracles by their set of rotations in a `BTreeMap<BTreeSet<Rotation>, Vec<_>>`
(src/multiproof/piop/mod.rs 156-166, src/multiproof/piop/prover.rs 46-56). -/
def openingSets {α : Type} (rot : α → List Rotation) (os : List α) : List (List Rotation × List α) :=
  os.foldl (fun m o => mapPush (rot o) o m) []

/-- `for (i, oracle) in oracles.iter().enumerate() { evaluation += x1_powers[i] * oracle.query(p)? }`
(src/multiproof/piop/prover.rs 104-108, src/multiproof/piop/mod.rs 196-200). -/
def aggQuery {α : Type} (query : α → F → Res PiopErr F) (x1s : List F) (os : List α) (p : F) :
    Res PiopErr F :=
  Res.foldM (fun (acc : F) (o : α × Nat) => do
      let x ← Res.idx x1s o.2
      let v ← query o.1 p
      pure (acc + x * v)) 0 os.zipIdx

/-- The loop over the rotations of one opening set. `dup r` is the outcome when two rotations give the
same point: an error for the prover (src/multiproof/piop/prover.rs 110-115), a panic for the verifier (src/multiproof/piop/mod.rs 202-208). -/
def evalSet [LinearOrder F] {α : Type} (query : α → F → Res PiopErr F) (x1s : List F) (os : List α)
    (xi : F) (omegas : List F) (dup : Rotation → Res PiopErr (List (F × F)))
    (rots : List Rotation) : Res PiopErr (List (F × F)) :=
  Res.foldM (fun (m : List (F × F)) (r : Rotation) => do
      let p ← r.point xi omegas
      let v ← aggQuery query x1s os p
      match mapInsert p v m with
      | (m', none) => .ok m'
      | (_, some _) => dup r) [] rots

/-! ### Prover -/

/-- An oracle together with its commitment randomness, as kept in the opening sets. -/
abbrev OracleRand (S : Scheme F) := ProverOracle F × S.Rand

/-- One `q_i`: aggregated polynomial, aggregated randomness, evaluation set
(closure `qs`, src/multiproof/piop/prover.rs 84-120). -/
def mpProverSet {S : Scheme F} [LinearOrder F] (x1s : List F) (xi : F) (omegas : List F)
    (set : List Rotation × List (OracleRand S)) :
    Res PiopErr ((List F × S.Rand) × List (F × F)) := do
  let q ← Res.foldM (fun (acc : List F × S.Rand) (o : OracleRand S × Nat) => do
      let x ← Res.idx x1s o.2
      pure (dadd acc.1 (dscale x o.1.1.poly), S.addRand acc.2 (S.scaleRand o.1.2 x)))
    ([], S.emptyRand) set.2.zipIdx
  let es ← evalSet (fun (o : OracleRand S) p => .ok (o.1.query p)) x1s set.2 xi omegas
    (fun r => .err (.repeatedRotation r)) set.1
  pure (q, es)

/-- `prover_first_round`, src/multiproof/piop/prover.rs 72-188: the `q_i` with their randomness and the
aggregated quotient `f`. The closure `qs` is deterministic, its three evaluations coincide. -/
def mpFirstRound {S : Scheme F} [LinearOrder F] (sets : List (List Rotation × List (OracleRand S)))
    (numOracles : Nat) (domain : Domain F) (xi x1 x2 : F) :
    Res PiopErr (List (List F × S.Rand) × List F) := do
  let x1s := powersFrom 1 x1 numOracles
  let qs ← Res.mapM (mpProverSet (S := S) x1s xi domain.elements) sets
  let fs ← Res.mapM (fun (q : (List F × S.Rand) × List (F × F)) =>
      pdiv q.1.1 (constructVanishing (q.2.map Prod.fst))) qs
  let x2s := powersFrom 1 x2 fs.length
  let f ← Res.foldM (fun (acc : List F) (p : List F × Nat) => do
      let x ← Res.idx x2s p.2
      pure (dadd acc (dscale x p.1))) [] fs.zipIdx
  pure (qs.map Prod.fst, f)

/-- `prover_third_round`, src/multiproof/piop/prover.rs 203-242. -/
def mpThirdRound {S : Scheme F} [DecidableEq F] (qs : List (List F × S.Rand)) (f : List F)
    (fRand : S.Rand) (x4 : F) : Res PiopErr (List F × S.Rand) :=
  let x4s := powersFrom x4 x4 qs.length
  Res.foldM (fun (acc : List F × S.Rand) (q : (List F × S.Rand) × Nat) => do
      let x ← Res.idx x4s q.2
      pure (dadd acc.1 (dscale x q.1.1), S.addRand acc.2 (S.scaleRand q.1.2 x))) (f, fRand) qs.zipIdx

/-- `Multiopen::prove`, src/multiproof/piop/mod.rs 61-129. -/
def mpProve (S : Scheme F) [LinearOrder F] [FftParams F] (ck : S.CK) (oracles : List (ProverOracle F))
    (rands : List S.Rand) (xi : F) (domainSize : Nat) (t : S.T) (z : S.Z) :
    Res (MpErr S.E) (MpProof S) := do
  let (x1, t) := S.fsRand t
  let (x2, t) := S.fsRand t
  let sets := openingSets (fun (o : OracleRand S) => o.1.rotations) (List.zip oracles rands)
  let domain ← Res.unwrap (Domain.new (F := F) domainSize)
  let (qs, f) ← (mpFirstRound sets oracles.length domain xi x1 x2).mapErr MpErr.piop
  let (fc, _) ← (S.commit ck [⟨bytes "f_aggregated", f, true⟩] z).mapErr MpErr.pc
  let t := S.absorbComms t (fc.map Prod.fst)
  let (x3, t) := S.fsRand t
  let qEvals := qs.map (fun q => peval q.1 x3)
  let t := S.absorbFs t qEvals
  let (x4, _) := S.fsRand t
  let f0 ← Res.idx fc 0
  let (fin, finRand) ← (mpThirdRound (S := S) qs f f0.2 x4).mapErr MpErr.piop
  let finPoly : LPoly F := ⟨bytes "final_poly", fin, false⟩
  let finComm ← (S.commitPlain ck finPoly).mapErr MpErr.pc
  let proof ← (S.open_ ck finPoly finComm x3 finRand).mapErr MpErr.pc
  pure ⟨qEvals, f0.1, proof⟩

/-! ### Verifier -/

/-- One `q_i` of the verifier: aggregated commitment and evaluation set (closure `qs`,
src/multiproof/piop/mod.rs 175-213). -/
def mpVerifierSet {S : Scheme F} [LinearOrder F] (x1s : List F) (xi : F) (omegas : List F)
    (set : List Rotation × List (VerifierOracle F S.Comm)) : Res PiopErr (S.Comm × List (F × F)) := do
  let q ← Res.foldM (fun (acc : S.Comm) (o : VerifierOracle F S.Comm × Nat) => do
      let c ← o.1.getCommitment
      let x ← Res.idx x1s o.2
      pure (S.add acc (S.scale c x))) S.zero set.2.zipIdx
  let es ← evalSet (fun (o : VerifierOracle F S.Comm) p => o.query p) x1s set.2 xi omegas
    (fun _ => .panic) set.1
  pure (q, es)

/-- `it.map(f).zip(cs.iter()).map(|(b, c)| g(b?, c)).collect::<Result<Vec<_>, _>>()`: `zip` asks the
left iterator first, so when `cs` ends first `f` is run once more, its result dropped. -/
def zipEvalM {ε α β γ δ : Type} (f : α → Res ε β) (g : β → γ → Res ε δ) :
    List α → List γ → Res ε (List δ)
  | [], _ => .ok []
  | a :: _, [] => match f a with
    | .panic => .panic
    | _ => .ok []
  | a :: as, c :: cs => do
    let b ← f a
    let d ← g b c
    let ds ← zipEvalM f g as cs
    pure (d :: ds)

/-- `f_i(x3)` computed from `q_i(x3)` and the evaluation set (src/multiproof/piop/mod.rs 215-237). -/
def fEval {ε : Type} [DecidableEq F] (x3 : F) (es : List (F × F)) (qEval : F) : Res ε F := do
  let pts := es.map Prod.fst
  let zh := constructVanishing pts
  let bases ← lagrangeBasis pts
  let r := (List.zip bases (es.map Prod.snd)).foldl (fun acc p => dadd acc (dscale p.2 p.1)) []
  mulInv (qEval - peval r x3) (peval zh x3)

/-- The challenges of `Multiopen::verify`, src/multiproof/piop/mod.rs 143-154, drawn in src/multiproof/piop/verifier.rs 32-76. -/
def mpChallenges (S : Scheme F) (proof : MpProof S) (t : S.T) : F × F × F × F :=
  let (x1, t) := S.fsRand t
  let (x2, t) := S.fsRand t
  let t := S.absorbComms t [proof.fCommit]
  let (x3, t) := S.fsRand t
  let t := S.absorbFs t proof.qEvals
  let (x4, _) := S.fsRand t
  (x1, x2, x3, x4)

/-- `Multiopen::verify` for given challenges, src/multiproof/piop/mod.rs 156-289. -/
def mpVerifyWith (S : Scheme F) [LinearOrder F] (vk : S.VK) (proof : MpProof S)
    (oracles : List (VerifierOracle F S.Comm)) (xi : F) (domain : Domain F) (x1 x2 x3 x4 : F) :
    Res (MpErr S.E) Unit := do
  let sets := openingSets (fun (o : VerifierOracle F S.Comm) => o.rotations) oracles
  let x1s := powersFrom 1 x1 oracles.length
  let fEvals ← (zipEvalM (mpVerifierSet (S := S) x1s xi domain.elements)
    (fun q qe => fEval x3 q.2 qe) sets proof.qEvals).mapErr MpErr.piop
  let x2s := powersFrom 1 x2 oracles.length
  let e0 ← Res.foldM (fun (acc : F) (p : F × Nat) => do
      let x ← Res.idx x2s p.2
      pure (acc + x * p.1)) 0 fEvals.zipIdx
  let x4s := powersFrom x4 x4 proof.qEvals.length
  let qc ← (zipEvalM (mpVerifierSet (S := S) x1s xi domain.elements)
    (fun q qe => .ok (q.1, qe)) sets proof.qEvals).mapErr MpErr.piop
  let fin ← Res.foldM (fun (acc : S.Comm × F) (p : (S.Comm × F) × Nat) => do
      let x ← Res.idx x4s p.2
      pure (S.add acc.1 (S.scale p.1.1 x), acc.2 + x * p.1.2)) (proof.fCommit, e0) qc.zipIdx
  let ok ← (S.check vk fin.1 x3 fin.2 proof.opening).mapErr MpErr.pc
  if ok then pure () else .err .openingCheckFailed

/-- `Multiopen::verify`, src/multiproof/piop/mod.rs 132-289. -/
def mpVerify (S : Scheme F) [LinearOrder F] [FftParams F] (vk : S.VK) (proof : MpProof S)
    (oracles : List (VerifierOracle F S.Comm)) (xi : F) (domainSize : Nat) (t : S.T) :
    Res (MpErr S.E) Unit := do
  let domain ← Res.unwrap (Domain.new (F := F) domainSize)
  let (x1, x2, x3, x4) := mpChallenges S proof t
  mpVerifyWith S vk proof oracles xi domain x1 x2 x3 x4

end
end ZK
