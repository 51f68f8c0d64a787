import Verif.Model.Lookup
/-!
The external components the crate is generic in: the polynomial commitment scheme
(`HomomorphicCommitment`, src/commitment.rs 10-42, and `PolynomialCommitment` of `ark_poly_commit`), the
Fiat-Shamir generator (`FiatShamirRng`, src/rng.rs 10-15) and the zero-knowledge randomness `zk_rng`.
They are parameters of the model; assumed laws are separate predicates (see `Verif/Spec`).
-/
set_option autoImplicit false
namespace ZK

/-- `LabeledPolynomial` of `ark_poly_commit`: label, polynomial, and whether a hiding bound is given. -/
structure LPoly (F : Type) where
  label : Label
  poly : List F
  hide : Bool
  deriving DecidableEq, Repr

/-- All external components. Commitment, randomness, proof, keys, errors, `zk_rng` state and transcript
state are abstract types. -/
structure Scheme (F : Type) where
  Comm : Type
  Rand : Type
  Proof : Type
  CK : Type
  VK : Type
  E : Type
  /-- state of `zk_rng` -/
  Z : Type
  /-- state of the Fiat-Shamir generator -/
  T : Type
  /-- `PC::commit(ck, polys, Some(zk_rng))`; the returned pairs are the two returned vectors zipped -/
  commit : CK → List (LPoly F) → Z → Res E (List (Comm × Rand) × Z)
  /-- `PC::commit(ck, once(poly), None)` (only used with a polynomial without hiding bound) -/
  commitPlain : CK → LPoly F → Res E (List Comm)
  /-- `PC::open(ck, once(poly), commitments, point, 1, &[rand], None)` -/
  open_ : CK → LPoly F → List Comm → F → Rand → Res E Proof
  /-- `PC::check(vk, &[commitment], point, [value], proof, 1, None)` -/
  check : VK → Comm → F → F → Proof → Res E Bool
  add : Comm → Comm → Comm
  scale : Comm → F → Comm
  zero : Comm
  emptyRand : Rand
  addRand : Rand → Rand → Rand
  scaleRand : Rand → F → Rand
  /-- `F::rand(zk_rng)` -/
  next : Z → F × Z
  /-- `FS::initialize` -/
  fsInit : List Nat → T
  /-- `fs_rng.absorb` -/
  fsAbsorb : T → List Nat → T
  /-- `F::rand(fs_rng)` -/
  fsRand : T → F × T
  /-- `to_bytes!` of a commitment (a labeled commitment serialises as its commitment) -/
  encComm : Comm → List Nat
  /-- `to_bytes!` of a field element -/
  encF : F → List Nat

namespace Scheme
variable {F : Type} (S : Scheme F)

/-- `fs_rng.absorb(&to_bytes![commitments])`: vectors serialise as the concatenation of their elements. -/
def absorbComms (t : S.T) (cs : List S.Comm) : S.T := S.fsAbsorb t (cs.flatMap S.encComm)

/-- `fs_rng.absorb(&to_bytes![q_evals])`. -/
def absorbFs (t : S.T) (xs : List F) : S.T := S.fsAbsorb t (xs.flatMap S.encF)

end Scheme

/-- `SimpleHashFiatShamirRng`, src/rng.rs 17-90, over an abstract digest `H` and an abstract seeded
generator: state is the pair of the generator state and the seed. -/
structure SimpleHash (R Seed F : Type) where
  digest : List Nat → Seed
  seedBytes : Seed → List Nat
  fromSeed : Seed → R
  draw : R → F × R

namespace SimpleHash
variable {R Seed F : Type} (h : SimpleHash R Seed F)

/-- `initialize`, src/rng.rs 62-75. -/
def init (input : List Nat) : R × Seed := (h.fromSeed (h.digest input), h.digest input)

/-- `absorb`, src/rng.rs 80-89: `seed = H(new_input || seed)`. -/
def absorb (s : R × Seed) (input : List Nat) : R × Seed :=
  let seed := h.digest (input ++ h.seedBytes s.2)
  (h.fromSeed seed, seed)

/-- `F::rand(fs_rng)`: draws from the inner generator (src/rng.rs 26-52). -/
def rand (s : R × Seed) : F × (R × Seed) := ((h.draw s.1).1, ((h.draw s.1).2, s.2))

end SimpleHash
end ZK
