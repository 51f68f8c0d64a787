import Verif.Model.Expression
/-!
Precompiled gates and lookups (src/vo/precompiled, src/vo/precompiled_lookups).
-/
set_option autoImplicit false
namespace ZK
namespace Gates
variable {F : Type} [Field F]

/-- `VirtualQuery::new(i, Rotation::curr(), ..)` for the three oracle types (src/vo/query.rs 13-24). -/
def wq (i : Nat) : VirtualQuery := ⟨i, .curr, .witness⟩
def fq (i : Nat) : VirtualQuery := ⟨i, .curr, .fixed⟩
def iq (i : Nat) : VirtualQuery := ⟨i, .curr, .instance_⟩

/-- The `From<VirtualQuery>` conversion, src/vo/virtual_expression.rs 132-136. -/
def v (q : VirtualQuery) : VExpr F := .oracle q

/-- `VirtualExpression::Constant(F::from(n))`. -/
def k (n : Nat) : VExpr F := .const (n : F)

/-- `PrecompiledPlonkArith`, src/vo/precompiled/plonk_arith.rs 13-48. -/
def plonkArith : VExpr F × List VirtualQuery :=
  let qm := fq 0; let ql := fq 1; let qr := fq 2; let qo := fq 3; let qc := fq 4
  let pi := iq 0
  let a := wq 0; let b := wq 1; let c := wq 2
  (v a * v b * v qm + v a * v ql + v b * v qr + v c * v qo + v qc + v pi,
    [qm, ql, qr, qo, qc, pi, a, b, c])

/-- `PlonkArith4`, src/vo/precompiled/plonk_arith.rs 54-99. -/
def plonkArith4 : VExpr F × List VirtualQuery :=
  let qm := fq 0; let ql := fq 1; let qr := fq 2; let q4 := fq 3; let qo := fq 4; let qc := fq 5
  let pi := iq 0
  let a := wq 0; let b := wq 1; let c := wq 2; let d := wq 2
  (v a * v b * v qm + v a * v ql + v b * v qr + v d * v q4 + v c * v qo + v pi + v qc,
    [qm, ql, qr, q4, qo, qc, pi, a, b, c])

/-- The closure `pow_5`, src/vo/precompiled/rescue.rs 37-39. -/
def pow5 (e : VExpr F) : VExpr F := e * e * e * e * e

/-- `PrecompiledRescue`, src/vo/precompiled/rescue.rs 19-50. -/
def rescue : VExpr F × List VirtualQuery :=
  (v (fq 0) * pow5 (v (wq 0)) + v (fq 1) * pow5 (v (wq 1)) + v (fq 2) * pow5 (v (wq 2))
      + v (fq 3) * pow5 (v (wq 3)) - v (wq 4),
    [fq 0, fq 1, fq 2, fq 3, wq 0, wq 1, wq 2, wq 3, wq 4])

/-- `PrecompiledMul`, src/vo/precompiled/mul.rs 10-26. -/
def mul : VExpr F × List VirtualQuery :=
  (v (wq 0) * v (wq 1) - v (iq 0), [wq 0, wq 1, iq 0])

/-- The closure `delta`, src/vo/precompiled/logic.rs 41-52. -/
def deltaE (e : VExpr F) : VExpr F := (e - k 3) * (e - k 2) * (e - .const 1) * e

/-- `Delta`, src/vo/precompiled/logic.rs 21-56. -/
def delta : VExpr F × List VirtualQuery :=
  let a := wq 0
  let aNext : VirtualQuery := ⟨0, .next, .witness⟩
  let qLast := fq 0
  ((.const 1 - v qLast) * deltaE (v aNext - k 4 * v a), [qLast, a, aNext])

/-- `DeltaXorAnd`, src/vo/precompiled/logic.rs 76-131. -/
def deltaXorAnd : VExpr F × List VirtualQuery :=
  let a := wq 0; let b := wq 1; let c := wq 2; let d := wq 3
  let qc := fq 0
  let f : VExpr F := v c * (v c * (k 4 * v c - k 18 * (v a + v b) + k 81)
      + k 18 * (v a * v a + v b * v b) - k 81 * (v a + v b) + k 83)
  let e : VExpr F := k 3 * (v a + v b + v d) - k 2 * f
  let h : VExpr F := v qc * (k 9 * v d - k 3 * (v a + v b))
  (h + e, [a, b, c, d, qc])

/-- `PrecompiledSimple1ArithLookup`, src/vo/precompiled_lookups/simple_1_arith.rs 16-36. -/
def simple1 : List (VExpr F) × List VirtualQuery × List VirtualQuery := ([v (wq 0)], [wq 0], [fq 0])

/-- `PrecompiledSimple3ArithLookup`, src/vo/precompiled_lookups/simple_3_arith.rs 16-42. -/
def simple3 : List (VExpr F) × List VirtualQuery × List VirtualQuery :=
  ([v (wq 0), v (wq 1), v (wq 2)], [wq 0, wq 1, wq 2], [fq 0, fq 1, fq 2])

end Gates
end ZK
