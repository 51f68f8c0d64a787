import Verif.Model.LookupTest
/-!
The test of one grand product on its own: `test_product_argument` (src/permutation/grand_product.rs 232-648). A failed `assert_eq!` or
`unwrap` panics.
-/
set_option autoImplicit false
namespace ZK
section
variable {F : Type} [Field F]

/-- One round of the sanity check at row `i`, with the products in the order of the source
(src/permutation/grand_product.rs 371-393). `zEvals` has one more entry than there are rows. -/
def productSanity {ε : Type} [DecidableEq F] (t : PermutationTest F) (d : Domain F) (zEvals : List F) (beta gamma : F)
    (i : Nat) : Res ε Unit := do
  let qb ← Res.idx (testBlinding t.size t.u) i
  let last ← unitVec t.size t.u
  let ql ← Res.idx last i
  let zNext ← Res.idx zEvals (i + 1)
  let zCurr ← Res.idx zEvals i
  let lr ← Res.foldM (fun (acc : F × F) (c : (List F × List F) × F) => do
      let w ← Res.idx c.1.1 i
      let s ← Res.idx c.1.2 i
      pure (acc.1 * (w + beta * s + gamma), acc.2 * (w + beta * c.2 * d.element i + gamma)))
    (zNext, zCurr) (List.zip (List.zip (t.columns.map (·.2)) (t.sigmas.map (·.2))) t.deltas)
  Res.assert (decide ((1 - (qb + ql)) * (lr.1 - lr.2) = 0))

/-- The test from the grand product on, src/permutation/grand_product.rs 493-646. `zPoly` interpolates the products computed by hand.
The commitments of the verifier's oracles are `None`, so their type `C` plays no role. -/
def productChecks {Z : Type} (C : Type) [DecidableEq F] [FftParams F] (t : PermutationTest F) (d ext : Domain F)
    (zPoly : List F) (beta gamma : F) (next : Z → F × Z) (z : Z) : Res PiopErr Unit := do
  let ws := t.columns.map (testOracle d ext .witness true)
  let sigmas := t.sigmas.map (testOracle d ext .fixed false)
  let qBlind := testOracle d ext .fixed false (bytes "q_blind", testBlinding t.size t.u)
  let lu ← lagrangeRow d t.size t.u
  let r ← gpConstruct next 0 true 1 sigmas ws t.deltas beta gamma t.u d ext z
  let _ ← Res.mapM (fun i => Res.assert (decide (peval r.1.poly (d.element i) = peval zPoly (d.element i))))
    (List.range (t.u + 1))
  let nums ← Res.mapM (fun i =>
      (gpInstantiate (ext.cosetFft lu) qBlind r.1 sigmas ws t.deltas beta gamma (ext.element i) i).expect)
    (List.range ext.size)
  let num := trim (ext.cosetIfft nums)
  let q ← pdiv num d.vanishing
  Res.assert (decide (num = trim (pmul q d.vanishing)))
  let x := next r.2
  let zv : VerifierOracle F C := testVerifierOracle .witness (bytes "agg_permutation_0") [Rotation.curr, Rotation.next] false
    r.1.poly [x.1, d.element 1 * x.1]
  let opened ← (gpOpen (peval lu x.1) (testColumn x.1 qBlind) zv (sigmas.map (testColumn x.1)) (ws.map (testColumn x.1))
    t.deltas beta gamma d x.1).expect
  Res.assert (decide (opened = peval q x.1 * peval d.vanishing x.1))

/-- `test_product_argument`, src/permutation/grand_product.rs 343-646, from the challenges on. The random values come from `next` in the order of
the source: beta, gamma, the blinds of the product computed by hand, those of `construct_agg_poly`, the point. `domain.ifft` cuts off
the entry pushed for the sanity check. -/
def productTest {Z : Type} (C : Type) [DecidableEq F] [FftParams F] (t : PermutationTest F) (next : Z → F × Z) (z : Z) :
    Res PiopErr Unit := do
  let d ← Res.unwrap (Domain.new (F := F) t.size)
  let b := next z
  let g := next b.2
  let zs ← zRun (gpFactor (t.columns.map (·.2)) (t.sigmas.map (·.2)) t.deltas b.1 g.1 d) 1 (List.range t.u)
  let zu ← Res.idx zs t.u
  Res.assert (decide (zu = 1))
  let blind := drawN next (t.size - 1 - t.u) g.2
  let zEvals := zs ++ blind.1 ++ [1]
  let _ ← Res.mapM (productSanity t d zEvals b.1 g.1) (List.range d.size)
  let ext ← Res.unwrap (Domain.new (F := F) (t.scaling * t.size))
  productChecks C t d ext (trim (d.ifft zEvals)) b.1 g.1 next blind.2

/-- The data of `test_product_argument`, src/permutation/grand_product.rs 258-338: the columns, sigmas and deltas of
`test_chunked_permutation`, on a coset four times as large. -/
def productArgument (d : Domain F) (a0 a1 a2 b0 dummy : F) (blindA blindB : List F) : PermutationTest F :=
  { chunkedPermutation d a0 a1 a2 b0 dummy blindA blindB with scaling := 4 }

end
end ZK
