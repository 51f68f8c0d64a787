import Mathlib.Data.Fintype.Card
import Mathlib.Data.Fintype.Pi
import Mathlib.Data.List.OfFn
/-!
Vocabulary for the statements about blinding: the elements a generator hands out and uniformly distributed results.
-/
set_option autoImplicit false
namespace ZK

section
variable {F Z : Type}

/-- The state of a generator after `k` elements have been drawn. -/
def after (next : Z → F × Z) (k : Nat) (z : Z) : Z := (fun w => (next w).2)^[k] z

/-- The element drawn when `k` elements have been drawn before. -/
def draw (next : Z → F × Z) (z : Z) (k : Nat) : F := (next (after next k z)).1

end

open Classical in
/-- Every result is produced by the same number of draws. -/
def Uniform {A B : Type} [Fintype A] (f : A → B) : Prop :=
  ∀ y y' : B, (Finset.univ.filter (fun a => f a = y)).card = (Finset.univ.filter (fun a => f a = y')).card

end ZK
