import Mathlib.Data.List.Sort
import Verif.Model.Permutation
/-!
The lookup argument (src/lookup).
-/
set_option autoImplicit false
namespace ZK

section
variable {F : Type} [Field F]

/-! ### Permuting input and table (src/lookup/permute.rs) -/

/-- `*table_element_counts.entry(si).or_insert(0) += 1`, src/lookup/permute.rs 12-15: a `BTreeMap` as a
list of entries sorted by key. -/
def countInc [LinearOrder F] (x : F) : List (F × Nat) → List (F × Nat)
  | [] => [(x, 1)]
  | (y, c) :: l =>
    if x < y then (x, 1) :: (y, c) :: l
    else if y < x then (y, c) :: countInc x l
    else (y, c + 1) :: l

/-- `*cnt -= 1` on the entry of `x` or the panic "not found in table", src/lookup/permute.rs 24-28;
decrementing zero underflows. -/
def countDec {ε : Type} [LinearOrder F] (x : F) : List (F × Nat) → Res ε (List (F × Nat))
  | [] => .panic
  | (y, c) :: l =>
    if x = y then (if c = 0 then .panic else .ok ((y, c - 1) :: l))
    else (countDec x l).map1 (fun l' => (y, c) :: l')

/-- State of the two loops of `permute_for_lookup`. `unassigned` is the stack, top first. -/
structure PermState (F : Type) where
  table : List F
  counts : List (F × Nat)
  unassigned : List Nat

/-- Body of the loop over the sorted input, src/lookup/permute.rs 21-33. -/
def permStep {ε : Type} [LinearOrder F] (aSorted : List F) (st : PermState F) (p : F × Nat) :
    Res ε (PermState F) :=
  if p.2 = 0 ∨ aSorted[p.2 - 1]? ≠ some p.1 then
    (countDec p.1 st.counts).map1
      (fun c => { st with table := st.table.set p.2 p.1, counts := c })
  else .ok { st with unassigned := p.2 :: st.unassigned }

/-- Body of the loop distributing what is left of the table, src/lookup/permute.rs 35-40. -/
def fillStep {ε : Type} (st : PermState F) (el : F) : Res ε (PermState F) :=
  match st.unassigned with
  | [] => .panic
  | i :: rest => .ok { st with table := st.table.set i el, unassigned := rest }

/-- `permute_for_lookup`, src/lookup/permute.rs 5-43. `sort` is insertion sort here: for a total order
all sorting functions return the same list. -/
def permuteForLookup {ε : Type} [LinearOrder F] (a s : List F) : Res ε (List F × List F) := do
  Res.assert (decide (a.length = s.length))
  let aSorted := a.insertionSort (· ≤ ·)
  let counts := s.foldl (fun m x => countInc x m) []
  let st ← Res.foldM (permStep aSorted) ⟨List.replicate a.length 0, counts, []⟩ aSorted.zipIdx
  let st' ← Res.foldM fillStep st (st.counts.flatMap (fun p => List.replicate p.2 p.1))
  Res.assert (decide (st'.unassigned.length = 0))
  pure (aSorted, st'.table)

/-! ### Subset equality (src/lookup/subset_equality.rs) -/

/-- `LookupProverOracles`, src/piop/prover.rs 32-44: `(a, s, a_prime, s_prime)`. -/
structure LookupOracles (O : Type) where
  a : O
  s : O
  aPrime : O
  sPrime : O
  deriving DecidableEq, Repr

/-- `num * denom.inverse().unwrap()` at row `i`, src/lookup/subset_equality.rs 45-49. -/
def seFactor {ε : Type} [DecidableEq F] (l : LookupOracles (ProverOracle F)) (beta gamma : F)
    (i : Nat) : Res ε F := do
  let a ← Res.idx l.a.evals i
  let s ← Res.idx l.s.evals i
  let a' ← Res.idx l.aPrime.evals i
  let s' ← Res.idx l.sPrime.evals i
  mulInv ((a + beta) * (s + gamma)) ((a' + beta) * (s' + gamma))

/-- `SubsetEqualityArgument::construct_agg_poly`, src/lookup/subset_equality.rs 30-78. -/
def seConstruct {ε Z : Type} [DecidableEq F] [FftParams F] (next : Z → F × Z)
    (l : LookupOracles (ProverOracle F)) (beta gamma : F) (lookupIndex u : Nat)
    (domain ext : Domain F) (z : Z) : Res ε (ProverOracle F × Z) := do
  let zs ← zRun (seFactor l beta gamma) 1 (List.range u)
  let zu ← Res.idx zs u
  Res.assert (decide (zu = 1))
  -- `domain.size() - 1 - u` underflows
  Res.assert (decide (u + 1 ≤ domain.size))
  let blind := drawN next (domain.size - 1 - u) z
  let zEvals := zs ++ blind.1
  let poly := trim (domain.ifft zEvals)
  pure (⟨.witness, bytes "lookup_" ++ natBytes lookupIndex ++ bytes "_agg_poly", poly, zEvals,
    some (ext.cosetFft poly), setExtend [] [Rotation.curr, Rotation.next], false⟩, blind.2)

/-- `SubsetEqualityArgument::instantiate_argument_at_omega_i`, src/lookup/subset_equality.rs 84-133. -/
def seInstantiate (l0 qLast : List F) (qBlind : ProverOracle F)
    (l : LookupOracles (ProverOracle F)) (z : ProverOracle F) (beta gamma : F) (i : Nat)
    (alphas : List F) : Res PiopErr F := do
  Res.assert (decide (alphas.length = 3))
  let a ← l.a.queryInCoset i .curr
  let a' ← l.aPrime.queryInCoset i .curr
  let s ← l.s.queryInCoset i .curr
  let s' ← l.sPrime.queryInCoset i .curr
  let zx ← z.queryInCoset i .curr
  let zwx ← z.queryInCoset i .next
  let qb ← qBlind.queryInCoset i .curr
  let a0 ← Res.idx alphas 0
  let l0i ← Res.idx l0 i
  let qli ← Res.idx qLast i
  let a1 ← Res.idx alphas 1
  let a2 ← Res.idx alphas 2
  let num := 0 + a0 * l0i * (1 - zx)
  let zkPart := 1 - (qb + qli)
  let lhs := zwx * (a' + beta) * (s' + gamma)
  let rhs := zx * (a + beta) * (s + gamma)
  let num := num + a1 * (zkPart * (lhs - rhs))
  pure (num + a2 * qli * (zx * zx - zx))

/-- `SubsetEqualityArgument::open_argument`, src/lookup/subset_equality.rs 135-175. -/
def seOpen {C : Type} [DecidableEq F] (l0Eval qLastEval : F) (qBlind : VerifierOracle F C)
    (l : LookupOracles (VerifierOracle F C)) (z : VerifierOracle F C) (beta gamma xi : F)
    (domain : Domain F) (alphas : List F) : Res PiopErr F := do
  Res.assert (decide (alphas.length = 3))
  let shifted := domain.element 1 * xi
  let a ← l.a.query xi
  let a' ← l.aPrime.query xi
  let s ← l.s.query xi
  let s' ← l.sPrime.query xi
  let zx ← z.query xi
  let zwx ← z.query shifted
  let a0 ← Res.idx alphas 0
  let opening := 0 + a0 * l0Eval * (1 - zx)
  let qb ← qBlind.query xi
  let zkPart := 1 - (qLastEval + qb)
  let lhs := zwx * (a' + beta) * (s' + gamma)
  let rhs := zx * (a + beta) * (s + gamma)
  let a1 ← Res.idx alphas 1
  let opening := opening + a1 * zkPart * (lhs - rhs)
  let a2 ← Res.idx alphas 2
  pure (opening + a2 * qLastEval * (zx * zx - zx))

/-! ### The lookup argument (src/lookup/mod.rs) -/

/-- `mapping.get(label)` followed by indexing the list the mapping was built from: the last oracle
carrying the label. Every caller in the crate builds the mapping from the very list it then indexes
(src/piop/prover.rs 101-131, src/turbo_plonk.rs 693-715, src/indexer.rs 146-163). -/
def findOracle {O : Type} [ConcreteOracle O] (os : List O) (l : Label) : Option O :=
  match lastIndexOf (os.map ConcreteOracle.label) l with
  | some i => os[i]?
  | none => none

/-- `match mapping.get(&label) { Some(index) => f(..), None => Err(e) }`. -/
def withOracle {O α : Type} [ConcreteOracle O] (os : List O) (l : Label) (e : PiopErr)
    (f : O → Res PiopErr α) : Res PiopErr α :=
  match findOracle os l with
  | some o => f o
  | none => .err e

/-- `for (expr_i, theta_i) in exprs.zip(powers_of_theta) { agg += expr_i? * theta_i }`
(src/lookup/mod.rs 166-171, 223-228, 288-293, 326-331, 478-481, 519-523). -/
def thetaAgg {α : Type} (f : α → Res PiopErr F) (theta : F) (l : List α) : Res PiopErr F :=
  Res.foldM (fun (acc : F) (p : α × F) => (f p.1).map1 (fun v => acc + v * p.2)) 0
    (List.zip l (powersFrom 1 theta l.length))

/-- The oracles of the prover that lookup expressions and gates can query. -/
structure ProverView (F : Type) where
  witness : List (ProverOracle F)
  inst : List (ProverOracle F)
  fixed : List (ProverOracle F)
  table : List (ProverOracle F)

/-- Oracle closure on the rows of the original domain, src/lookup/mod.rs 111-164. -/
def ProverView.atRow (v : ProverView F) (i : Nat) (q : OracleQuery) : Res PiopErr F :=
  match q.oracleType with
  | .witness => withOracle v.witness q.label (.missingWitnessOracle q.label)
      (fun o => o.queryAtOmega i q.rotation)
  | .instance_ => withOracle v.inst q.label (.missingInstanceOracle q.label)
      (fun o => o.queryAtOmega i q.rotation)
  | .fixed => withOracle v.fixed q.label (.missingFixedOracle q.label)
      (fun o => o.queryAtOmega i q.rotation)

/-- Oracle closure on the extended coset, src/lookup/mod.rs 177-221; the same closure is used for gates in
src/piop/prover.rs 322-358. -/
def ProverView.atCoset (v : ProverView F) (i : Nat) (q : OracleQuery) : Res PiopErr F :=
  match q.oracleType with
  | .witness => withOracle v.witness q.label (.missingWitnessOracle q.label)
      (fun o => o.queryInCoset i q.rotation)
  | .instance_ => withOracle v.inst q.label (.missingInstanceOracle q.label)
      (fun o => o.queryInCoset i q.rotation)
  | .fixed => withOracle v.fixed q.label (.missingFixedOracle q.label)
      (fun o => o.queryInCoset i q.rotation)

/-- Table closure on the rows: `table_oracles[index].evals[i]`, src/lookup/mod.rs 260-286. -/
def ProverView.tableAtRow (v : ProverView F) (i : Nat) (q : OracleQuery) : Res PiopErr F :=
  match q.oracleType with
  | .witness => .err (.witnessTableNotAllowed q.label)
  | .instance_ => .err (.instanceTableNotAllowed q.label)
  | .fixed => withOracle v.table q.label (.missingFixedOracle q.label) (fun o => Res.idx o.evals i)

/-- Table closure on the coset, src/lookup/mod.rs 299-324. -/
def ProverView.tableAtCoset (v : ProverView F) (i : Nat) (q : OracleQuery) : Res PiopErr F :=
  match q.oracleType with
  | .witness => .err (.witnessTableNotAllowed q.label)
  | .instance_ => .err (.instanceTableNotAllowed q.label)
  | .fixed => withOracle v.table q.label (.missingFixedOracle q.label)
      (fun o => o.queryInCoset i .curr)

/-- `for _ in usable_rows..domain.size() { a.push(rand); s.push(rand) }`, src/lookup/mod.rs 361-364. -/
def drawPairs {Z : Type} (next : Z → F × Z) : Nat → Z → List F × List F × Z
  | 0, z => ([], [], z)
  | t + 1, z =>
    let x := next z
    let y := next x.2
    let r := drawPairs next t y.2
    (x.1 :: r.1, y.1 :: r.2.1, r.2.2)

/-- `construct_a_and_s_polys_prover`, src/lookup/mod.rs 70-401. -/
def lookupConstruct {Z : Type} [LinearOrder F] [FftParams F] (next : Z → F × Z) (v : ProverView F)
    (usableRows lookupIndex : Nat) (exprs : List (Expr F)) (tables : List OracleQuery) (theta : F)
    (domain ext : Domain F) (z : Z) : Res PiopErr (LookupOracles (ProverOracle F) × Z) := do
  Res.assert (decide (exprs.length = tables.length))
  let aRows ← Res.mapM (fun i => thetaAgg (fun e => e.evalR (v.atRow i)) theta exprs)
    (List.range domain.size)
  let aCoset ← Res.mapM (fun i => thetaAgg (fun e => e.evalR (v.atCoset i)) theta exprs)
    (List.range ext.size)
  let aPoly := trim (domain.ifft aRows)
  let a : ProverOracle F := ⟨.witness, bytes "lookup_a_" ++ natBytes lookupIndex ++ bytes "_poly",
    aPoly, aRows, some aCoset, setExtend [] [Rotation.curr], false⟩
  Res.assert (decide (aCoset = ext.cosetFft aPoly))
  let sRows ← Res.mapM (fun i => thetaAgg (v.tableAtRow i) theta tables) (List.range domain.size)
  let sCoset ← Res.mapM (fun i => thetaAgg (v.tableAtCoset i) theta tables) (List.range ext.size)
  let sPoly := trim (domain.ifft sRows)
  let s : ProverOracle F := ⟨.witness, bytes "lookup_s_" ++ natBytes lookupIndex ++ bytes "_poly",
    sPoly, sRows, some sCoset, setExtend [] [Rotation.curr], false⟩
  Res.assert (decide (sCoset = ext.cosetFft sPoly))
  -- slicing `[..usable_rows]`
  Res.assert (decide (usableRows ≤ aRows.length))
  Res.assert (decide (usableRows ≤ sRows.length))
  let perm ← permuteForLookup (aRows.take usableRows) (sRows.take usableRows)
  let blind := drawPairs next (domain.size - usableRows) z
  let a'Rows := perm.1 ++ blind.1
  let s'Rows := perm.2 ++ blind.2.1
  Res.assert (decide (a'Rows.length = domain.size))
  Res.assert (decide (s'Rows.length = domain.size))
  let a'Poly := trim (domain.ifft a'Rows)
  let a' : ProverOracle F :=
    ⟨.witness, bytes "lookup_a_prime_" ++ natBytes lookupIndex ++ bytes "_poly", a'Poly, a'Rows,
      some (ext.cosetFft a'Poly), setExtend [] [Rotation.curr, Rotation.prev], false⟩
  let s'Poly := trim (domain.ifft s'Rows)
  let s' : ProverOracle F :=
    ⟨.witness, bytes "lookup_s_prime_" ++ natBytes lookupIndex ++ bytes "_poly", s'Poly, s'Rows,
      some (ext.cosetFft s'Poly), setExtend [] [Rotation.curr], false⟩
  pure (⟨a, s, a', s'⟩, blind.2.2)

/-- The oracles of the verifier that lookup expressions and gates can query. -/
structure VerifierView (F C : Type) where
  witness : List (VerifierOracle F C)
  inst : List (InstanceVerifierOracle F)
  fixed : List (VerifierOracle F C)
  table : List (VerifierOracle F C)

/-- Oracle closure of the verifier's lookup expressions, src/lookup/mod.rs 434-468: the rotation is used
for witness queries only. `compute_evaluation_point` runs before the label is looked up. -/
def VerifierView.lookupAt {C : Type} [DecidableEq F] (v : VerifierView F C) (xi : F)
    (omegas : List F) (q : OracleQuery) : Res PiopErr F :=
  match q.oracleType with
  | .witness => do
      let x ← q.rotation.point xi omegas
      withOracle v.witness q.label (.missingWitnessOracle q.label) (fun o => o.query x)
  | .instance_ => withOracle v.inst q.label (.missingInstanceOracle q.label)
      (fun o => .ok (o.query xi))
  | .fixed => withOracle v.fixed q.label (.missingFixedOracle q.label) (fun o => o.query xi)

/-- Table closure of the verifier, src/lookup/mod.rs 491-517. -/
def VerifierView.tableAt {C : Type} [DecidableEq F] (v : VerifierView F C) (xi : F)
    (q : OracleQuery) : Res PiopErr F :=
  match q.oracleType with
  | .witness => .err (.witnessTableNotAllowed q.label)
  | .instance_ => .err (.instanceTableNotAllowed q.label)
  | .fixed => withOracle v.table q.label (.missingFixedOracle q.label) (fun o => o.query xi)

/-- `construct_a_and_s_unpermuted_polys_verifier`, src/lookup/mod.rs 404-534. -/
def lookupUnpermuted {C : Type} [DecidableEq F] (v : VerifierView F C) (lookupIndex : Nat)
    (exprs : List (Expr F)) (tables : List OracleQuery) (theta xi : F) (omegas : List F) :
    Res PiopErr (VerifierOracle F C × VerifierOracle F C) := do
  Res.assert (decide (exprs.length = tables.length))
  let a ← thetaAgg (fun e => e.evalR (v.lookupAt xi omegas)) theta exprs
  let s ← thetaAgg (v.tableAt xi) theta tables
  pure (⟨.witness, bytes "lookup_a_" ++ natBytes lookupIndex ++ bytes "_poly",
      setExtend [] [Rotation.curr], [(xi, a)], none, false⟩,
    ⟨.witness, bytes "lookup_s_" ++ natBytes lookupIndex ++ bytes "_poly",
      setExtend [] [Rotation.curr], [(xi, s)], none, false⟩)

/-- `LookupArgument::instantiate_argument_at_omega_i`, src/lookup/mod.rs 536-592. -/
def lookupInstantiate (l0 qLast : List F) (qBlind : ProverOracle F)
    (l : LookupOracles (ProverOracle F)) (z : ProverOracle F) (beta gamma : F) (i : Nat)
    (alphas : List F) : Res PiopErr F := do
  Res.assert (decide (alphas.length = 5))
  let se ← seInstantiate l0 qLast qBlind l z beta gamma i (alphas.take 3)
  let num := 0 + se
  let a' ← l.aPrime.queryInCoset i .curr
  let a'prev ← l.aPrime.queryInCoset i .prev
  let s' ← l.sPrime.queryInCoset i .curr
  let qb ← qBlind.queryInCoset i .curr
  let a3 ← Res.idx alphas 3
  let l0i ← Res.idx l0 i
  let num := num + a3 * l0i * (a' - s')
  let qli ← Res.idx qLast i
  let zkPart := 1 - (qli + qb)
  let a4 ← Res.idx alphas 4
  pure (num + a4 * zkPart * (a' - s') * (a' - a'prev))

/-- `LookupArgument::open_argument`, src/lookup/mod.rs 594-647. -/
def lookupOpen {C : Type} [DecidableEq F] (l0Eval qLastEval : F) (qBlind : VerifierOracle F C)
    (l : LookupOracles (VerifierOracle F C)) (z : VerifierOracle F C) (beta gamma xi : F)
    (domain : Domain F) (alphas : List F) : Res PiopErr F := do
  Res.assert (decide (alphas.length = 5))
  let se ← seOpen l0Eval qLastEval qBlind l z beta gamma xi domain (alphas.take 3)
  let opening := 0 + se
  Res.assert (decide (domain.element 1 ≠ 0))
  let shifted := (domain.element 1)⁻¹ * xi
  let a' ← l.aPrime.query xi
  let a'prev ← l.aPrime.query shifted
  let s' ← l.sPrime.query xi
  let qb ← qBlind.query xi
  let a3 ← Res.idx alphas 3
  let opening := opening + a3 * l0Eval * (a' - s')
  let zkPart := 1 - (qLastEval + qb)
  let a4 ← Res.idx alphas 4
  pure (opening + a4 * zkPart * (a' - s') * (a' - a'prev))

end
end ZK
