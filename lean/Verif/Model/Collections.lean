import Mathlib.Data.List.Lex
import Mathlib.Data.Prod.Lex
import Verif.Model.Res
/-!
`BTreeSet` and `BTreeMap` from the Rust standard library, as sorted duplicate-free lists, and the
label-to-index maps of the crate.
-/
set_option autoImplicit false
namespace ZK

/-- `BTreeSet::insert` on the sorted list of elements. -/
def setInsert {α : Type} [LinearOrder α] (a : α) : List α → List α
  | [] => [a]
  | b :: l => if a < b then a :: b :: l else if b < a then b :: setInsert a l else b :: l

/-- `BTreeSet::extend` / collecting an iterator in a `BTreeSet`. -/
def setExtend {α : Type} [LinearOrder α] (s : List α) (l : List α) : List α :=
  l.foldl (fun s a => setInsert a s) s

/-- `BTreeMap::insert`; returns the previous value under that key as well. -/
def mapInsert {α β : Type} [LinearOrder α] (k : α) (v : β) : List (α × β) → List (α × β) × Option β
  | [] => ([(k, v)], none)
  | (k', v') :: l =>
    if k < k' then ((k, v) :: (k', v') :: l, none)
    else if k' < k then
      let r := mapInsert k v l
      ((k', v') :: r.1, r.2)
    else ((k, v) :: l, some v')

/-- `map.entry(k).or_default().push(v)` for a `BTreeMap<K, Vec<V>>`. -/
def mapPush {α β : Type} [LinearOrder α] (k : α) (v : β) : List (α × List β) → List (α × List β)
  | [] => [(k, [v])]
  | (k', vs) :: l =>
    if k < k' then (k, [v]) :: (k', vs) :: l
    else if k' < k then (k', vs) :: mapPush k v l
    else (k', vs ++ [v]) :: l

/-- Maps of which only `insert` and `get` are used (`evals_at_challenges`): association list, newest
entry first. -/
def assocGet {α β : Type} [DecidableEq α] (k : α) : List (α × β) → Option β
  | [] => none
  | (k', v) :: l => if k = k' then some v else assocGet k l

/-- The label-to-index maps built by `iter().enumerate().map(|(i, o)| (o.get_label(), i)).collect()`
(src/indexer.rs 146-163, src/piop/prover.rs 101-122, src/turbo_plonk.rs 693-715) followed by `.get(l)`:
later entries overwrite earlier ones, so the result is the last index carrying the label. -/
def lastIndexOf (labels : List Label) (l : Label) : Option Nat :=
  match labels with
  | [] => none
  | b :: bs =>
    match lastIndexOf bs l with
    | some i => some (i + 1)
    | none => if b = l then some 0 else none

/-- `slice.chunks(k)`: panics in Rust when `k = 0` (see `chunksR`); consecutive blocks of length `k`,
the last one possibly shorter. -/
def chunksAux {α : Type} (k : Nat) : Nat → List α → List (List α)
  | 0, _ => []
  | _ + 1, [] => []
  | fuel + 1, a :: l => (a :: l).take k :: chunksAux k fuel ((a :: l).drop k)

def chunks {α : Type} (k : Nat) (l : List α) : List (List α) := chunksAux k l.length l

/-- `slice.chunks(k)` with the panic on a zero chunk size. -/
def chunksR {ε α : Type} (k : Nat) (l : List α) : Res ε (List (List α)) :=
  if k = 0 then .panic else .ok (chunks k l)

/-- `successors(Some(start), |x| Some(*x * q)).take(k).collect()`. -/
def powersFrom {F : Type} [Mul F] (start q : F) : Nat → List F
  | 0 => []
  | k + 1 => start :: powersFrom (start * q) q k

/-- Decimal digits as bytes, used by `format!("..{}", i)`. -/
def natBytes (n : Nat) : Label := (Nat.toDigits 10 n).map Char.toNat

/-- Bytes of an ASCII literal. -/
def bytes (s : String) : Label := s.toList.map Char.toNat

end ZK
