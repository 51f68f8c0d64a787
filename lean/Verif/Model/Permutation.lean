import Verif.Model.Expression
/-!
The permutation argument (src/permutation).

`F::rand(zk_rng)` draws from an abstract generator `next : Z → F × Z` with state `Z`.
-/
set_option autoImplicit false
namespace ZK

section
variable {F : Type} [Field F] {ε Z : Type}

/-- `for _ in 0..t { v.push(F::rand(zk_rng)) }`. -/
def drawN (next : Z → F × Z) : Nat → Z → List F × Z
  | 0, z => ([], z)
  | t + 1, z => ((next z).1 :: (drawN next t (next z).2).1, (drawN next t (next z).2).2)

/-- The accumulation loop `z_prev *= factor(i); z_evals.push(z_prev)` started with `z_evals = [z_prev]`
(src/permutation/grand_product.rs 55-71, src/lookup/subset_equality.rs 41-51). -/
def zRun (factor : Nat → Res ε F) : F → List Nat → Res ε (List F)
  | z, [] => .ok [z]
  | z, i :: is =>
    match factor i with
    | .ok f => (zRun factor (z * f) is).map1 (fun l => z :: l)
    | .err e => .err e
    | .panic => .panic

/-- `a * b.inverse().unwrap()`. -/
def mulInv [DecidableEq F] (a b : F) : Res ε F := if b = 0 then .panic else .ok (a * b⁻¹)

/-- The inner loop of `construct_agg_poly` at row `i`: numerator and denominator
(src/permutation/grand_product.rs 60-69). -/
def gpFactor [DecidableEq F] (ws sigmas : List (List F)) (deltas : List F) (beta gamma : F)
    (domain : Domain F) (i : Nat) : Res ε F := do
  let nd ← Res.foldM (fun (acc : F × F) (t : (List F × List F) × F) => do
      let w ← Res.idx t.1.1 i
      let s ← Res.idx t.1.2 i
      pure (acc.1 * (w + beta * t.2 * domain.element i + gamma), acc.2 * (w + beta * s + gamma)))
    (1, 1) (List.zip (List.zip ws sigmas) deltas)
  mulInv nd.1 nd.2

/-- `GrandProductArgument::construct_agg_poly`, src/permutation/grand_product.rs 32-104. -/
def gpConstruct [DecidableEq F] [FftParams F] (next : Z → F × Z) (chunkIndex : Nat) (isLast : Bool)
    (init : F) (sigmas ws : List (ProverOracle F)) (deltas : List F) (beta gamma : F) (u : Nat)
    (domain ext : Domain F) (z : Z) : Res ε (ProverOracle F × Z) := do
  let zs ← zRun (gpFactor (ws.map (·.evals)) (sigmas.map (·.evals)) deltas beta gamma domain) init
    (List.range u)
  -- `domain.size() - 1 - u` underflows
  Res.assert (decide (u + 1 ≤ domain.size))
  let blind := drawN next (domain.size - 1 - u) z
  let zEvals := zs ++ blind.1
  Res.assert (decide (zEvals.length = domain.size))
  let poly := trim (domain.ifft zEvals)
  let rots := setExtend [] [Rotation.curr, Rotation.next]
  let rots := if isLast then rots else setInsert ⟨u, .plus⟩ rots
  pure (⟨.witness, bytes "agg_permutation_" ++ natBytes chunkIndex, poly, zEvals,
    some (ext.cosetFft poly), rots, false⟩, blind.2)

/-- `GrandProductArgument::instantiate_argument_at_omega_i`, src/permutation/grand_product.rs 107-144. -/
def gpInstantiate [FftParams F] (qLast : List F) (qBlind z : ProverOracle F)
    (sigmas ws : List (ProverOracle F)) (deltas : List F) (beta gamma omega : F) (i : Nat) :
    Res PiopErr F := do
  let ql ← Res.idx qLast i
  let qb ← qBlind.queryInCoset i .curr
  let zkPart := 1 - (ql + qb)
  let lhs ← z.queryInCoset i .next
  let rhs ← z.queryInCoset i .curr
  let lr ← Res.foldM
    (fun (acc : F × F) (t : (ProverOracle F × ProverOracle F) × F) => do
      let w ← t.1.1.queryInCoset i .curr
      let s ← t.1.2.queryInCoset i .curr
      pure (acc.1 * (w + beta * s + gamma),
        acc.2 * (w + beta * t.2 * FftParams.gen * omega + gamma)))
    (lhs, rhs) (List.zip (List.zip ws sigmas) deltas)
  pure (zkPart * (lr.1 - lr.2))

/-- `GrandProductArgument::open_argument`, src/permutation/grand_product.rs 146-177. -/
def gpOpen {C : Type} [DecidableEq F] (qLastEval : F) (qBlind z : VerifierOracle F C)
    (sigmas ws : List (VerifierOracle F C)) (deltas : List F) (beta gamma : F) (domain : Domain F)
    (xi : F) : Res PiopErr F := do
  let shifted := domain.element 1 * xi
  let qb ← qBlind.query xi
  let zkPart := 1 - (qLastEval + qb)
  let lhs ← z.query shifted
  let rhs ← z.query xi
  let lr ← Res.foldM
    (fun (acc : F × F) (t : (VerifierOracle F C × VerifierOracle F C) × F) => do
      let w ← t.1.1.query xi
      let s ← t.1.2.query xi
      pure (acc.1 * (w + beta * s + gamma), acc.2 * (w + beta * t.2 * xi + gamma)))
    (lhs, rhs) (List.zip (List.zip ws sigmas) deltas)
  pure (zkPart * (lr.1 - lr.2))

/-- src/permutation/mod.rs 23-31. -/
structure PermutationArgument (F : Type) where
  maxCols : Nat
  usableRows : Nat
  deltas : List F
  deriving DecidableEq, Repr

/-- src/data_structures.rs 18-24. -/
structure PermutationInfo (F : Type) where
  u : Nat
  deltas : List F
  deriving DecidableEq, Repr

/-- `PermutationInfo::empty` and `dummy`, src/data_structures.rs 26-43. -/
def PermutationInfo.empty : PermutationInfo F := ⟨0, []⟩

namespace PermutationArgument

/-- `MINIMAL_SCALING_FACTOR`, src/permutation/mod.rs 46. -/
def minimalScalingFactor : Nat := 2

/-- `PermutationArgument::new`, src/permutation/mod.rs 48-60 (`scaling_factor - 1` underflows at 0). -/
def new (scalingFactor : Nat) (info : PermutationInfo F) : Res ε (PermutationArgument F) :=
  if scalingFactor = 0 then .panic else .ok ⟨scalingFactor - 1, info.u, info.deltas⟩

/-- `number_of_z_polys`, src/permutation/mod.rs 62-73 (division by zero panics). -/
def numberOfZPolys (p : PermutationArgument F) (num : Nat) : Res ε Nat :=
  if num = 0 then .ok 0
  else if p.maxCols = 0 then .panic
  else .ok (num / p.maxCols + (if num % p.maxCols ≠ 0 then 1 else 0))

/-- `number_of_alphas`, src/permutation/mod.rs 75-84. -/
def numberOfAlphas (_p : PermutationArgument F) (numZ : Nat) : Nat := 2 * numZ + 1 + 1 - 1

/-- One iteration of the loop over the chunks in `construct_agg_polys`
(src/permutation/mod.rs 109-138). -/
def aggStep [DecidableEq F] [FftParams F] (p : PermutationArgument F) (next : Z → F × Z)
    (beta gamma : F) (domain ext : Domain F) (numChunks : Nat)
    (acc : List (ProverOracle F) × Z)
    (c : ((List (ProverOracle F) × List (ProverOracle F)) × List F) × Nat) :
    Res ε (List (ProverOracle F) × Z) := do
  let i := c.2
  let init ← if i = 0 then pure 1 else do
    let prev ← Res.idx acc.1 (i - 1)
    Res.idx prev.evals p.usableRows
  let r ← gpConstruct next i (decide (i = numChunks - 1)) init c.1.1.2 c.1.1.1 c.1.2 beta gamma
    p.usableRows domain ext acc.2
  pure (acc.1 ++ [r.1], r.2)

/-- `construct_agg_polys`, src/permutation/mod.rs 87-144. -/
def constructAggPolys [DecidableEq F] [FftParams F] (p : PermutationArgument F) (next : Z → F × Z)
    (ws sigmas : List (ProverOracle F)) (beta gamma : F) (domain ext : Domain F) (z : Z) :
    Res ε (List (ProverOracle F) × Z) := do
  Res.assert (decide (ws.length = sigmas.length))
  Res.assert (decide (ws.length = p.deltas.length))
  let wc ← chunksR p.maxCols ws
  let sc ← chunksR p.maxCols sigmas
  let dc ← chunksR p.maxCols p.deltas
  let r ← Res.foldM (p.aggStep next beta gamma domain ext wc.length) ([], z)
    (List.zip (List.zip wc sc) dc).zipIdx
  let last ← Res.unwrap r.1.getLast?
  let zu ← Res.idx last.evals p.usableRows
  Res.assert (decide (zu = 1))
  pure r

/-- `instantiate_argument_at_omega_i`, src/permutation/mod.rs 154-242. -/
def instantiate [FftParams F] (p : PermutationArgument F) (l0 qLast : List F)
    (qBlind : ProverOracle F) (ws sigmas agg : List (ProverOracle F)) (i : Nat)
    (omega beta gamma : F) (alphas : List F) : Res PiopErr F := do
  Res.assert (decide (ws.length = sigmas.length))
  Res.assert (decide (ws.length = p.deltas.length))
  let wc ← chunksR p.maxCols ws
  let sc ← chunksR p.maxCols sigmas
  let dc ← chunksR p.maxCols p.deltas
  Res.assert (decide (wc.length = sc.length))
  Res.assert (decide (wc.length = dc.length))
  Res.assert (decide (agg.length = wc.length))
  Res.assert (decide (2 * agg.length + 1 + 1 - 1 = alphas.length))
  let a0 ← Res.idx alphas 0
  let l0i ← Res.idx l0 i
  let agg0 ← Res.idx agg 0
  let z0 ← agg0.queryInCoset i .curr
  let e0 := a0 * l0i * (1 - z0)
  let e1 ← Res.foldM
    (fun (acc : F) (c : ((List (ProverOracle F) × List (ProverOracle F)) × List F) × Nat) => do
      let a ← Res.idx alphas (c.2 + 1)
      let zi ← Res.idx agg c.2
      let g ← gpInstantiate qLast qBlind zi c.1.1.2 c.1.1.1 c.1.2 beta gamma omega i
      pure (acc + a * g))
    e0 (List.zip (List.zip wc sc) dc).zipIdx
  let e2 ← Res.foldM
    (fun (acc : F) (j : Nat) => do
      let a ← Res.idx alphas (j + (1 + agg.length))
      let l ← Res.idx l0 i
      let zj1 ← Res.idx agg (j + 1)
      let v1 ← zj1.queryInCoset i .curr
      let zj ← Res.idx agg j
      let v0 ← zj.queryInCoset i ⟨p.usableRows, .plus⟩
      pure (acc + a * l * (v1 - v0)))
    e1 (List.range (agg.length - 1))
  let zl ← Res.unwrap agg.getLast?
  let zlv ← zl.queryInCoset i .curr
  let al ← Res.unwrap alphas.getLast?
  let qli ← Res.idx qLast i
  pure (e2 + al * qli * (zlv * zlv - zlv))

/-- `open_argument`, src/permutation/mod.rs 245-325. -/
def open_ {C : Type} [DecidableEq F] (p : PermutationArgument F) (l0Eval qLastEval : F)
    (qBlind : VerifierOracle F C) (agg sigmas ws : List (VerifierOracle F C)) (beta gamma : F)
    (domain : Domain F) (xi : F) (alphas : List F) : Res PiopErr F := do
  Res.assert (decide (ws.length = sigmas.length))
  Res.assert (decide (ws.length = p.deltas.length))
  let wc ← chunksR p.maxCols ws
  let sc ← chunksR p.maxCols sigmas
  let dc ← chunksR p.maxCols p.deltas
  Res.assert (decide (wc.length = sc.length))
  Res.assert (decide (wc.length = dc.length))
  Res.assert (decide (agg.length = wc.length))
  Res.assert (decide (2 * agg.length + 1 + 1 - 1 = alphas.length))
  let a0 ← Res.idx alphas 0
  let agg0 ← Res.idx agg 0
  let z0 ← agg0.query xi
  let e0 := a0 * l0Eval * (1 - z0)
  let e1 ← Res.foldM
    (fun (acc : F) (c : ((List (VerifierOracle F C) × List (VerifierOracle F C)) × List F) × Nat) => do
      let a ← Res.idx alphas (c.2 + 1)
      let zi ← Res.idx agg c.2
      let g ← gpOpen qLastEval qBlind zi c.1.1.2 c.1.1.1 c.1.2 beta gamma domain xi
      pure (acc + a * g))
    e0 (List.zip (List.zip wc sc) dc).zipIdx
  let e2 ← Res.foldM
    (fun (acc : F) (j : Nat) => do
      let a ← Res.idx alphas (j + (1 + agg.length))
      let zj1 ← Res.idx agg (j + 1)
      let v1 ← zj1.query xi
      let zj ← Res.idx agg j
      let v0 ← zj.query (domain.element p.usableRows * xi)
      pure (acc + a * l0Eval * (v1 - v0)))
    e1 (List.range (agg.length - 1))
  let zl ← Res.unwrap agg.getLast?
  let zlv ← zl.query xi
  let al ← Res.unwrap alphas.getLast?
  pure (e2 + al * qLastEval * (zlv * zlv - zlv))

end PermutationArgument
end
end ZK
