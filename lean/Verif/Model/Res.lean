/-!
Outcomes of Rust functions and the error types of the crate.
-/
set_option autoImplicit false
namespace ZK

/-- Outcome of a Rust call: `Ok`, `Err`, or a panic (failed `assert!`, `unwrap` on `None`, index out of
range, `usize` underflow, division by zero). -/
inductive Res (ε α : Type) where
  | ok (a : α)
  | err (e : ε)
  | panic
  deriving DecidableEq, Repr

namespace Res
variable {ε ε' α β γ : Type}

/-- Rust `?` / sequencing. -/
def bind (x : Res ε α) (f : α → Res ε β) : Res ε β :=
  match x with
  | ok a => f a
  | err e => err e
  | panic => panic

instance : Monad (Res ε) where
  pure := Res.ok
  bind := Res.bind

/-- `map_err`. -/
def mapErr (f : ε → ε') : Res ε α → Res ε' α
  | ok a => ok a
  | err e => err (f e)
  | panic => panic

/-- `Option::unwrap`. -/
def unwrap : Option α → Res ε α
  | some a => ok a
  | none => panic

/-- `assert!(b)`. -/
def assert (b : Bool) : Res ε Unit := if b then ok () else panic

/-- `list[i]` with Rust's bounds check. -/
def idx (l : List α) (i : Nat) : Res ε α :=
  match l[i]? with
  | some a => ok a
  | none => panic

/-- Does the call return `Ok`? -/
def isOk : Res ε α → Bool
  | ok _ => true
  | _ => false

/-- Strict binary operation on two results, as in the closures `x.and_then(|x| y.map(|y| ..))`
(src/piop/prover.rs 76-87, src/lookup/mod.rs 49-60, src/turbo_plonk.rs 1181-1182): both arguments have
been evaluated before the closure runs, so a panic in either wins; otherwise the first error wins. -/
def lift2 (f : α → β → γ) (x : Res ε α) (y : Res ε β) : Res ε γ :=
  match x, y with
  | panic, _ => panic
  | _, panic => panic
  | err e, _ => err e
  | _, err e => err e
  | ok a, ok b => ok (f a b)

/-- `x.map(f)`. -/
def map1 (f : α → β) (x : Res ε α) : Res ε β :=
  match x with
  | ok a => ok (f a)
  | err e => err e
  | panic => panic

/-- `iter.map(f).collect::<Result<Vec<_>, _>>()?` and `for x in xs { ... f(x)? ... }`: stops at the
first error or panic. -/
def mapM (f : α → Res ε β) : List α → Res ε (List β)
  | [] => ok []
  | a :: l =>
    match f a with
    | ok b =>
      match mapM f l with
      | ok bs => ok (b :: bs)
      | err e => err e
      | panic => panic
    | err e => err e
    | panic => panic

/-- `for x in xs { acc = f(acc, x)?; }`. -/
def foldM (f : β → α → Res ε β) : β → List α → Res ε β
  | b, [] => ok b
  | b, a :: l =>
    match f b a with
    | ok b' => foldM f b' l
    | err e => err e
    | panic => panic

end Res

/-- Rust `String`s are modelled by their UTF-8 bytes; `Ord` on `String` is the lexicographic order. -/
abbrev Label := List Nat

/-- src/vo/error.rs 3-10 (the two variants concerning point labels are never constructed by the code
modelled here and are omitted). -/
inductive VOErr where
  | uninitializedExpr
  | uninitializedLookupExpr
  | uninitializedLookupTableQuery
  deriving DecidableEq, Repr

/-- src/oracles/rotation.rs 4-8. -/
inductive Sign where
  | plus
  | minus
  deriving DecidableEq, Repr

/-- src/oracles/rotation.rs 11-15. -/
structure Rotation where
  degree : Nat
  sign : Sign
  deriving DecidableEq, Repr

/-- src/piop/error.rs 5-47. `MissingExtendedEvals`, `MissingInstanceCommitment` and the two
`*QueryIndexOutOfBounds` variants are never constructed in the crate and are omitted. The
strings carried by the variants are byte lists. -/
inductive PiopErr where
  | missingWitnessCommitment (l : Label)
  | missingFixedCommitment (l : Label)
  | missingConcreteEval (l : Label)
  | missingCosetWitnessEval (l : Label)
  | missingCosetFixedEval (l : Label)
  | missingCosetInstanceEval (l : Label)
  | missingWitnessOracle (l : Label)
  | missingFixedOracle (l : Label)
  | missingInstanceOracle (l : Label)
  | missingPermutationOracle (l : Label)
  | missingLookupTableOracle (l : Label)
  | witnessTableNotAllowed (l : Label)
  | instanceTableNotAllowed (l : Label)
  | repeatedRotation (r : Rotation)
  | vo (e : VOErr)
  deriving DecidableEq, Repr

/-- src/multiproof/error.rs 3-12. -/
inductive MpErr (E : Type) where
  | pc (e : E)
  | piop (e : PiopErr)
  | openingCheckFailed
  deriving DecidableEq, Repr

/-- src/error.rs 6-23 (`IndexTooLarge` and `WrongNumberOfChunks` are never constructed). -/
inductive Err (E : Type) where
  | iop (e : PiopErr)
  | vo (e : VOErr)
  | pc (e : E)
  | quotientNotZero
  | multiproof (e : MpErr E)
  | quotientTooSmall
  deriving DecidableEq, Repr

end ZK
