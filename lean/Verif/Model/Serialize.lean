import Verif.Model.Info
/-!
Serialisation of proofs. The code derives it with the macros of `ark-serialize` 0.3 (src/turbo_plonk.rs 46,
src/multiproof/mod.rs 16): the fields are written one after the other in the order of their declaration, a `Vec` as its
length in eight bytes, least significant first, followed by the elements; reading does the same in the same order and stops
with an error as soon as something cannot be read. How field elements, commitments and opening proofs are written is a
parameter. Errors are `none`.
-/
set_option autoImplicit false
namespace ZK

/-- `CanonicalSerialize` and `CanonicalDeserialize` of a type: the bytes written, and the value read from the front of some
bytes together with the bytes left over. -/
structure Codec (α : Type) where
  write : α → List UInt8
  read : List UInt8 → Option (α × List UInt8)

/-- Continue with the value read and the bytes left over, the `?` of Rust. -/
def andThen {α β : Type} (r : Option (α × List UInt8)) (k : α → List UInt8 → Option β) : Option β :=
  match r with
  | none => none
  | some (a, bs) => k a bs

/-- `n` in `k` bytes, least significant first. -/
def leBytes : Nat → Nat → List UInt8
  | 0, _ => []
  | k + 1, n => UInt8.ofNat (n % 256) :: leBytes k (n / 256)

/-- The number with these bytes, least significant first. -/
def leValue : List UInt8 → Nat
  | [] => 0
  | b :: l => b.toNat + 256 * leValue l

/-- `u64`. -/
def u64Codec : Codec Nat where
  write n := leBytes 8 n
  read bs := if bs.length < 8 then none else some (leValue (bs.take 8), bs.drop 8)

section
variable {α : Type}

/-- `n` elements. -/
def Codec.readMany (c : Codec α) : Nat → List UInt8 → Option (List α × List UInt8)
  | 0, bs => some ([], bs)
  | n + 1, bs => andThen (c.read bs) fun a bs => andThen (c.readMany n bs) fun l bs => some (a :: l, bs)

/-- `Vec<T>`. The length is cast to `u64` before it is written. -/
def Codec.vec (c : Codec α) : Codec (List α) where
  write l := u64Codec.write (l.length % 2 ^ 64) ++ l.flatMap c.write
  read bs := andThen (u64Codec.read bs) fun n bs => c.readMany n bs

end

section
variable {F : Type} [Field F] {S : Scheme F} (f : Codec F) (c : Codec S.Comm) (o : Codec S.Proof)

/-- src/multiproof/mod.rs 16-22. -/
def mpProofCodec : Codec (MpProof S) where
  write p := f.vec.write p.qEvals ++ (c.write p.fCommit ++ o.write p.opening)
  read bs :=
    andThen (f.vec.read bs) fun qEvals bs =>
    andThen (c.read bs) fun fCommit bs =>
    andThen (o.read bs) fun opening bs =>
    some (⟨qEvals, fCommit, opening⟩, bs)

/-- src/turbo_plonk.rs 46-71. -/
def proofCodec : Codec (TPProof S) where
  write p := c.vec.write p.witnessCommitments ++ (f.vec.write p.witnessEvals ++ (f.vec.write p.fixedEvals ++
    (f.vec.write p.tableEvals ++ (f.vec.write p.permEvals ++ (f.write p.qBlindEval ++ (c.vec.write p.lookupCommitments ++
    (c.vec.write p.lookupZCommitments ++ (f.vec.write p.lookupEvals ++ (f.vec.write p.lookupZEvals ++
    (c.vec.write p.zCommitments ++ (f.vec.write p.zEvals ++ (c.vec.write p.quotientCommitments ++
    (f.vec.write p.quotientEvals ++ (mpProofCodec f c o).write p.multiopen)))))))))))))
  read bs :=
    andThen (c.vec.read bs) fun witnessCommitments bs =>
    andThen (f.vec.read bs) fun witnessEvals bs =>
    andThen (f.vec.read bs) fun fixedEvals bs =>
    andThen (f.vec.read bs) fun tableEvals bs =>
    andThen (f.vec.read bs) fun permEvals bs =>
    andThen (f.read bs) fun qBlindEval bs =>
    andThen (c.vec.read bs) fun lookupCommitments bs =>
    andThen (c.vec.read bs) fun lookupZCommitments bs =>
    andThen (f.vec.read bs) fun lookupEvals bs =>
    andThen (f.vec.read bs) fun lookupZEvals bs =>
    andThen (c.vec.read bs) fun zCommitments bs =>
    andThen (f.vec.read bs) fun zEvals bs =>
    andThen (c.vec.read bs) fun quotientCommitments bs =>
    andThen (f.vec.read bs) fun quotientEvals bs =>
    andThen ((mpProofCodec f c o).read bs) fun multiopen bs =>
    some (⟨witnessCommitments, witnessEvals, fixedEvals, tableEvals, permEvals, qBlindEval, lookupCommitments,
      lookupZCommitments, lookupEvals, lookupZEvals, zCommitments, zEvals, quotientCommitments, quotientEvals, multiopen⟩, bs)

end
end ZK
