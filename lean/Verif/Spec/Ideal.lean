import Verif.Model.Scheme
/-!
A concrete instance of the external components, used to show that hypotheses are satisfiable and to exhibit
counterexamples: a commitment is the committed polynomial itself, an opening is accepted when the
polynomial has the claimed value, and a challenge is an arbitrary function of everything absorbed.
-/
set_option autoImplicit false
namespace ZK

/-- The ideal scheme. `chal` turns the transcript into challenges, `encF` serialises field elements. -/
def idealScheme {F : Type} [Field F] [DecidableEq F] (chal : List Nat → F) (encF : F → List Nat) :
    Scheme F where
  Comm := List F
  Rand := Unit
  Proof := Unit
  CK := Unit
  VK := Unit
  E := Unit
  Z := Unit
  T := List Nat
  commit := fun _ ps z => .ok (ps.map (fun p => (trim p.poly, ())), z)
  commitPlain := fun _ p => .ok [trim p.poly]
  open_ := fun _ _ _ _ _ => .ok ()
  check := fun _ c x v _ => .ok (decide (peval c x = v))
  add := fun a b => trim (padd a b)
  scale := fun a k => trim (pscale k a)
  zero := []
  emptyRand := ()
  addRand := fun _ _ => ()
  scaleRand := fun _ _ => ()
  next := fun z => (1, z)
  fsInit := fun l => l
  fsAbsorb := fun t l => t ++ l
  fsRand := fun t => (chal t, t ++ [0])
  encComm := fun c => c.length :: c.flatMap encF
  encF := encF

end ZK
