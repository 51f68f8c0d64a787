import Verif.Model.GateTest
/-!
The tests of the precompiled gates that use the mock prover: `test_plonk_arith` (src/vo/precompiled/plonk_arith.rs 117-234), `test_delta` and
`test_delta_xor_and` (src/vo/precompiled/logic.rs 154-215, 219-350) and `test_rescue_gate` (src/vo/precompiled/rescue.rs 68-145). The random
values are arguments. A failed assertion panics.
-/
set_option autoImplicit false
namespace ZK

section
variable {F : Type} [Field F] [LinearOrder F] [FftParams F]

/-- The end of each of these tests: `run_prover`, `run_verifier` and `assert!(res.is_ok())`, for example
src/vo/precompiled/plonk_arith.rs 207-233. -/
def gateTestRun (S : Scheme F) (ck : S.CK) (vk : S.VK) (d : Domain F) (t : TestColumns F) (gate : VExpr F × List VirtualQuery) :
    Res (Err S.E) Unit := do
  let proof ← runMockProver S vk d t gate
  (runMockVerifier S ck vk d t gate proof).orPanic

/-- The zero column with some entries overwritten: `vec![F::zero(); domain_size]` and `evals[i] = x`. A row that is not there panics in the
source; the tests have at least four rows. -/
def withRows (n : Nat) (rows : List (Nat × F)) : List F :=
  rows.foldl (fun l r => l.set r.1 r.2) (List.replicate n 0)

/-- The columns of `test_plonk_arith`, src/vo/precompiled/plonk_arith.rs 146-205, with three arguments for the entries of row 2: the public
input, the value in `c` and the selector of `c`. -/
def plonkArithColumns (n : Nat) (a b : List F) (pi c2 qo2 : F) : TestColumns F :=
  ⟨[(bytes "a", a), (bytes "b", b),
      (bytes "c", withRows n [(0, a.getD 0 0 * b.getD 0 0), (1, a.getD 1 0 + b.getD 1 0), (2, c2), (3, a.getD 3 0 * b.getD 3 0)])],
    [(bytes "pi", withRows n [(2, pi)])],
    [(bytes "qm", withRows n [(0, 1), (3, 1)]), (bytes "ql", withRows n [(1, 1)]), (bytes "qr", withRows n [(1, 1)]),
      (bytes "qo", withRows n [(0, -1), (1, -1), (2, qo2), (3, -1)]), (bytes "qpi", withRows n [(2, -pi)])]⟩

/-- One round of the check in `test_plonk_arith`, src/vo/precompiled/plonk_arith.rs 181-196. -/
def plonkArithCheck {ε : Type} (t : TestColumns F) (i : Nat) : Res ε Unit := do
  let a ← Res.idx t.witness 0 >>= fun c => Res.idx c.2 i
  let b ← Res.idx t.witness 1 >>= fun c => Res.idx c.2 i
  let c ← Res.idx t.witness 2 >>= fun c => Res.idx c.2 i
  let pi ← Res.idx t.inst 0 >>= fun c => Res.idx c.2 i
  let qm ← Res.idx t.fixed 0 >>= fun c => Res.idx c.2 i
  let ql ← Res.idx t.fixed 1 >>= fun c => Res.idx c.2 i
  let qr ← Res.idx t.fixed 2 >>= fun c => Res.idx c.2 i
  let qo ← Res.idx t.fixed 3 >>= fun c => Res.idx c.2 i
  let qpi ← Res.idx t.fixed 4 >>= fun c => Res.idx c.2 i
  Res.assert (decide (a * b * qm + a * ql + b * qr + c * qo + pi + qpi = 0))

/-- `test_plonk_arith` with three arguments for the entries of row 2. -/
def plonkArithProgram (S : Scheme F) (ck : S.CK) (vk : S.VK) (d : Domain F) (a b : List F) (pi c2 qo2 : F) : Res (Err S.E) Unit := do
  let t := plonkArithColumns d.size a b pi c2 qo2
  let _ ← Res.mapM (plonkArithCheck t) (List.range d.size)
  gateTestRun S ck vk d t Gates.plonkArith

/-- `test_plonk_arith`, src/vo/precompiled/plonk_arith.rs 117-234, with the two random polynomials and the random public input. -/
def plonkArithTest (S : Scheme F) (ck : S.CK) (vk : S.VK) (d : Domain F) (aPoly bPoly : List F) (pi : F) : Res (Err S.E) Unit :=
  plonkArithProgram S ck vk d (d.fft aPoly) (d.fft bPoly) pi pi 0

/-- The columns of `test_delta`, src/vo/precompiled/logic.rs 174-187. -/
def deltaColumns (n : Nat) (a : List F) : TestColumns F :=
  ⟨[(bytes "a", a)], [], [(bytes "q_last", withRows n [(n - 1, 1)])]⟩

/-- One round of the check in `test_delta`, src/vo/precompiled/logic.rs 178-184. -/
def deltaCheck {ε : Type} (n : Nat) (a : List F) (i : Nat) : Res ε Unit := do
  let x ← Res.idx a i
  if i < n - 1 then do
    let y ← Res.idx a (i + 1)
    let v := y - 4 * x
    Res.assert (decide ((0 : F) = v * (v - 1) * (v - 2) * (v - 3)))
  else pure ()

/-- `test_delta` from the column on, src/vo/precompiled/logic.rs 174-214. -/
def deltaProgram (S : Scheme F) (ck : S.CK) (vk : S.VK) (d : Domain F) (a : List F) : Res (Err S.E) Unit := do
  let _ ← Res.mapM (deltaCheck d.size a) (List.range a.length)
  gateTestRun S ck vk d (deltaColumns d.size a) Gates.delta

/-- The column of `test_delta`, src/vo/precompiled/logic.rs 161-172: `draw` is the sequence of the values of `rng.next_u32()`. -/
def deltaEval (draw : Nat → Nat) : Nat → F
  | 0 => ((draw 0 % 4 : Nat) : F)
  | i + 1 => ((draw (i + 1) % 4 : Nat) : F) + 4 * deltaEval draw i

/-- `test_delta`, src/vo/precompiled/logic.rs 154-215. -/
def deltaTest (S : Scheme F) (ck : S.CK) (vk : S.VK) (d : Domain F) (draw : Nat → Nat) : Res (Err S.E) Unit :=
  deltaProgram S ck vk d ((List.range d.size).map (deltaEval draw))

/-- The column `d_evals` of `test_delta_xor_and`, src/vo/precompiled/logic.rs 253-262: "and" in the first `half` rows and "xor" after them. -/
def logicColumn (half : Nat) (as bs : List Nat) : List F :=
  (List.zip as bs).mapIdx (fun i p => if i < half then ((p.1 &&& p.2 : Nat) : F) else ((p.1 ^^^ p.2 : Nat) : F))

/-- The columns of `test_delta_xor_and`, src/vo/precompiled/logic.rs 247-262, 313-321, for the selector `qc`. -/
def xorAndColumns (half : Nat) (as bs : List Nat) (qc : List F) : TestColumns F :=
  ⟨[(bytes "a", as.map fun v : Nat => (v : F)), (bytes "b", bs.map fun v : Nat => (v : F)),
      (bytes "product", List.zipWith (· * ·) (as.map fun v : Nat => (v : F)) (bs.map fun v : Nat => (v : F))), (bytes "logic", logicColumn half as bs)],
    [], [(bytes "qc", qc)]⟩

/-- One round of the check in `test_delta_xor_and`, src/vo/precompiled/logic.rs 264-311. `original_func` and `res` are the same expression
with the names of its arguments changed. -/
def xorAndCheck {ε : Type} (r : (F × F) × (F × F) × F) : Res ε Unit := do
  let a := r.1.1
  let b := r.1.2
  let c := r.2.1.1
  let d := r.2.1.2
  let f := c * (c * (4 * c - 18 * (a + b) + 81) + 18 * (a * a + b * b) - 81 * (a + b) + 83)
  Res.assert (decide ((0 : F) = r.2.2 * (9 * d - 3 * (a + b)) + (3 * (a + b + d) - 2 * f)))

/-- `test_delta_xor_and` for arbitrary lists of values. -/
def xorAndProgram (S : Scheme F) (ck : S.CK) (vk : S.VK) (d : Domain F) (half : Nat) (as bs : List Nat) (qc : List F) :
    Res (Err S.E) Unit := do
  let t := xorAndColumns half as bs qc
  let _ ← Res.mapM xorAndCheck
    (List.zip (List.zip (as.map fun v : Nat => (v : F)) (bs.map fun v : Nat => (v : F)))
      (List.zip (List.zip (List.zipWith (· * ·) (as.map fun v : Nat => (v : F)) (bs.map fun v : Nat => (v : F))) (logicColumn half as bs)) qc))
  gateTestRun S ck vk d t Gates.deltaXorAnd

/-- `a_values_full`, src/vo/precompiled/logic.rs 227-231. -/
def xorAndA : List Nat :=
  [0, 0, 0, 0, 1, 1, 1, 1, 2, 2, 2, 2, 3, 3, 3, 3, 0, 0, 0, 0, 1, 1, 1, 1, 2, 2, 2, 2, 3, 3, 3, 3]

/-- `b_values_full`, src/vo/precompiled/logic.rs 232-236. -/
def xorAndB : List Nat :=
  [0, 1, 2, 3, 0, 1, 2, 3, 0, 1, 2, 3, 0, 1, 2, 3, 0, 1, 2, 3, 0, 1, 2, 3, 0, 1, 2, 3, 0, 1, 2, 3]

/-- `test_delta_xor_and`, src/vo/precompiled/logic.rs 219-350. It has 32 rows and no random values. -/
def xorAndTest (S : Scheme F) (ck : S.CK) (vk : S.VK) (d : Domain F) : Res (Err S.E) Unit :=
  xorAndProgram S ck vk d 16 xorAndA xorAndB (List.replicate 16 1 ++ List.replicate 16 (-1))

/-- The column `w5_evals` of `test_rescue_gate`, src/vo/precompiled/rescue.rs 98-113. -/
def rescueColumn (n : Nat) (w q : List (List F)) : List F :=
  (List.range n).map (fun i =>
    let pow5 := fun (j : Nat) => (w.getD j []).getD i 0 * (w.getD j []).getD i 0 * (w.getD j []).getD i 0 * (w.getD j []).getD i 0 *
      (w.getD j []).getD i 0
    (q.getD 0 []).getD i 0 * pow5 0 + (q.getD 1 []).getD i 0 * pow5 1 + (q.getD 2 []).getD i 0 * pow5 2 + (q.getD 3 []).getD i 0 * pow5 3)

/-- The columns of `test_rescue_gate`, src/vo/precompiled/rescue.rs 80-115, with an arbitrary last column. The fifth random column is not used. -/
def rescueColumns (w q : List (List F)) (w5 : List F) : TestColumns F :=
  ⟨List.zip [bytes "w_1", bytes "w_2", bytes "w_3", bytes "w_4"] w ++ [(bytes "w_5", w5)], [],
    List.zip [bytes "q1", bytes "q2", bytes "q3", bytes "q4"] q⟩

/-- `test_rescue_gate`, src/vo/precompiled/rescue.rs 68-145, with the random columns. -/
def rescueTest (S : Scheme F) (ck : S.CK) (vk : S.VK) (d : Domain F) (w q : List (List F)) : Res (Err S.E) Unit :=
  gateTestRun S ck vk d (rescueColumns w q (rescueColumn d.size w q)) Gates.rescue

end
end ZK
