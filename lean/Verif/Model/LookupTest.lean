import Verif.Model.ArgumentTest
import Verif.Model.Lookup
/-!
The tests of the lookup argument on its own: `test_subset_equality_argument` (src/lookup/subset_equality.rs
204-478) and `simple_lookup` (src/lookup/mod.rs 677-997). From the four columns on they are one program, run with the
three constraints of the subset equality and with the five constraints of the lookup.
A failed `assert_eq!`, `panic!` or `unwrap` panics.
-/
set_option autoImplicit false
namespace ZK
section
variable {F : Type} [Field F]

/-- `let num = coset_ifft(num_evals); let q = &num / &zh_dense; assert_eq!(num, &q * &zh_dense)`,
src/lookup/mod.rs 864-870. -/
def divisionCheck {ε : Type} [DecidableEq F] [FftParams F] (d ext : Domain F) (nums : List F) : Res ε Unit := do
  let num := trim (ext.cosetIfft nums)
  let q ← pdiv num d.vanishing
  Res.assert (decide (num = trim (pmul q d.vanishing)))

/-- The tests from the four columns on, src/lookup/subset_equality.rs 240-477 and, with `full`, src/lookup/mod.rs 733-996.
The random values are drawn in the order of the source: beta, gamma, the blinds of the grand product, alpha, the point. -/
def lookupChecks {Z : Type} (C : Type) [DecidableEq F] [FftParams F] (full : Bool) (size u : Nat) (d ext : Domain F)
    (cols : LookupOracles (List F)) (next : Z → F × Z) (z : Z) : Res PiopErr Unit := do
  let l : LookupOracles (ProverOracle F) :=
    ⟨testOracle d ext .witness false (bytes "a", cols.a), testOracle d ext .witness false (bytes "s", cols.s),
      testOracle d ext .witness false (bytes "a_prime", cols.aPrime),
      testOracle d ext .witness false (bytes "s_prime", cols.sPrime)⟩
  let b := next z
  let g := next b.2
  let r ← seConstruct next l b.1 g.1 0 u d ext g.2
  let l0 ← lagrangeRow d size 0
  let lu ← lagrangeRow d size u
  let qBlind := testOracle d ext .fixed false (bytes "q_blind", testBlinding size u)
  let a := next r.2
  let alphas := powersFrom 1 a.1 (if full then 5 else 3)
  let nums ← Res.mapM (fun i =>
      (if full then lookupInstantiate (ext.cosetFft l0) (ext.cosetFft lu) qBlind l r.1 b.1 g.1 i alphas
        else seInstantiate (ext.cosetFft l0) (ext.cosetFft lu) qBlind l r.1 b.1 g.1 i alphas).expect)
    (List.range ext.size)
  if full then
    divisionCheck d ext nums
  let quotient ← testQuotient ext size nums
  let x := next a.2
  -- `domain.element(1).inverse().unwrap()`, for the previous point at which `a_prime` is known
  if full then
    Res.assert (decide (d.element 1 ≠ 0))
  let lv : LookupOracles (VerifierOracle F C) :=
    ⟨testColumn x.1 l.a, testColumn x.1 l.s,
      (if full then testVerifierOracle .witness (bytes "a_prime") [Rotation.curr, Rotation.prev] false l.aPrime.poly
          [x.1, x.1 * (d.element 1)⁻¹]
        else testColumn x.1 l.aPrime),
      testColumn x.1 l.sPrime⟩
  let zv : VerifierOracle F C := testVerifierOracle .witness (bytes "lookup_agg_poly") [Rotation.curr, Rotation.next] false
    r.1.poly [x.1, x.1 * d.element 1]
  let opened ← (if full then
      lookupOpen (peval l0 x.1) (peval lu x.1) (testColumn x.1 qBlind) lv zv b.1 g.1 x.1 d alphas
    else seOpen (peval l0 x.1) (peval lu x.1) (testColumn x.1 qBlind) lv zv b.1 g.1 x.1 d alphas).expect
  Res.assert (decide (opened = peval quotient x.1 * peval d.vanishing x.1))

/-- The data of a test of the lookup argument: the values of the four columns on the usable rows. -/
structure SubsetTest (F : Type) where
  size : Nat
  scaling : Nat
  u : Nat
  cols : LookupOracles (List F)

/-- `for _ in u..domain_size { a.push(rand); a_prime.push(rand); s.push(rand); s_prime.push(rand) }`,
src/lookup/subset_equality.rs 231-236. -/
def drawFours {Z : Type} (next : Z → F × Z) : Nat → Z → LookupOracles (List F) × Z
  | 0, z => (⟨[], [], [], []⟩, z)
  | t + 1, z =>
    let a := next z
    let a' := next a.2
    let s := next a'.2
    let s' := next s.2
    let r := drawFours next t s'.2
    (⟨a.1 :: r.1.a, s.1 :: r.1.s, a'.1 :: r.1.aPrime, s'.1 :: r.1.sPrime⟩, r.2)

/-- `test_subset_equality_argument`, src/lookup/subset_equality.rs 204-478, from the blinding on.

Simplification: the random values on the usable rows and their shuffles by the `shuffle` crate (lines 219-229) are data. -/
def subsetTest {Z : Type} (C : Type) [DecidableEq F] [FftParams F] (t : SubsetTest F) (next : Z → F × Z) (z : Z) :
    Res PiopErr Unit := do
  let d ← Res.unwrap (Domain.new (F := F) t.size)
  let ext ← Res.unwrap (Domain.new (F := F) (t.scaling * t.size))
  let b := drawFours next (t.size - t.u) z
  Res.assert (decide ((t.cols.a ++ b.1.a).length = t.size))
  lookupChecks C false t.size t.u d ext
    ⟨t.cols.a ++ b.1.a, t.cols.s ++ b.1.s, t.cols.aPrime ++ b.1.aPrime, t.cols.sPrime ++ b.1.sPrime⟩ next b.2

/-- `simple_lookup`, src/lookup/mod.rs 677-997, with input values `a` and table values `s` on the usable rows. -/
def lookupArgumentTest {Z : Type} (C : Type) [LinearOrder F] [FftParams F] (size scaling u : Nat) (a s : List F)
    (next : Z → F × Z) (z : Z) : Res PiopErr Unit := do
  let d ← Res.unwrap (Domain.new (F := F) size)
  let ext ← Res.unwrap (Domain.new (F := F) (scaling * size))
  let b := drawPairs next (size - u) z
  let a := a ++ b.1
  let s := s ++ b.2.1
  -- slicing `[..u]`
  Res.assert (decide (u ≤ a.length))
  Res.assert (decide (u ≤ s.length))
  let perm ← permuteForLookup (a.take u) (s.take u)
  let b' := drawPairs next (size - u) b.2.2
  let a' := perm.1 ++ b'.1
  let s' := perm.2 ++ b'.2.1
  -- "sanity check", src/lookup/mod.rs 722-731
  let a0 ← Res.idx a' 0
  let s0 ← Res.idx s' 0
  Res.assert (decide (a0 = s0))
  let _ ← Res.mapM (fun i => do
      let x ← Res.idx a' (i + 1)
      let y ← Res.idx a' i
      let w ← Res.idx s' (i + 1)
      Res.assert (decide (¬ (x ≠ y ∧ x ≠ w))))
    (List.range (u - 1))
  lookupChecks C true size u d ext ⟨a, s, a', s'⟩ next b'.2.2

/-- The values of `simple_lookup`, src/lookup/mod.rs 695-702. -/
def simpleLookupValues : List F × List F :=
  ([1, 1, 1, 2, 2, 2, 3, 6, 7, 99], [1, 1, 2, 3, 4, 5, 6, 7, 99, 99])

end
end ZK
