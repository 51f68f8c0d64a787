import Verif.Model.CircuitTest
/-! The inputs of the tests of whole circuits, src/tests/with_copy.rs and src/tests/with_lookup.rs. Random values are parameters. -/
set_option autoImplicit false
namespace ZK
section
variable {F : Type} [Field F]

/-- The circuit of `copy_plonk`, src/tests/with_copy.rs 784-961: sixteen rows of which eight are usable. The witness columns `a`, `b` and `c`
are parameters. -/
def copyPlonkCircuit (d : Domain F) (a b c : List F) : CircuitTest F :=
  let two : F := 2
  let twelve : F := 12
  let dummy : F := 999
  let zeros : List F := List.replicate 8 0
  let dummys : List F := List.replicate 8 dummy
  let deltas : List F := [1, 7, 13]
  let el (k i : Nat) : F := deltas.getD k 0 * d.omega ^ i
  copyTest a b c
    ([0, 0, two, 0, 0, twelve, 0, 0] ++ zeros)
    ([1, 1, 0, 1, 0, 0, 0, 0] ++ zeros)
    ([0, 0, 0, 0, 1, 0, 1, 0] ++ zeros)
    ([0, 0, -1, 0, 1, -1, 1, 0] ++ zeros)
    ([-1, -1, 0, -1, -1, 0, -1, -1] ++ zeros)
    (List.replicate 16 0)
    ([el 1 0, el 2 0, el 0 2, el 0 0, el 2 1, el 0 5, el 2 4, el 0 7] ++ dummys)
    ([el 1 1, el 0 3, el 1 3, el 1 2, el 2 3, el 1 6, el 1 5, el 1 7] ++ dummys)
    ([el 0 1, el 0 4, el 2 2, el 1 4, el 0 6, el 2 5, el 2 7, el 2 6] ++ dummys)
    (List.replicate 9 0 ++ List.replicate 7 1) deltas 8

/-- `copy_plonk`, src/tests/with_copy.rs 758-961: the witness for `x^3 + 2 x + 12 = 0`. The rows from the ninth on are blinded with
`blindA`, `blindB` and `blindC`, which have eight entries. In the source `x` is `-2`. -/
def copyPlonkAt (d : Domain F) (x : F) (blindA blindB blindC : List F) : CircuitTest F :=
  let x2 := x * x
  let x3 := x * x2
  let two : F := 2
  let twoX := two * x
  let twelve : F := 12
  let dummy : F := 999
  copyPlonkCircuit d
    ([x, x2, dummy, x, x3, dummy, x3 + twoX, dummy] ++ blindA)
    ([x, x, two, two, twoX, twelve, twelve, dummy] ++ blindB)
    ([x2, x3, dummy, twoX, x3 + twoX, dummy, x3 + twoX + twelve, x3 + twoX + twelve] ++ blindC)

/-- `copy_plonk` as it stands in the source. -/
def copyPlonk (d : Domain F) (blindA blindB blindC : List F) : CircuitTest F := copyPlonkAt d (-2) blindA blindB blindC

/-- `test_full_circuit_simple_lookup`, src/tests/with_lookup.rs 85-180: sixteen rows, ten of them usable. `b` has sixteen random entries,
`restA` and `restC` have six. -/
def simpleLookup (b restA restC : List F) : CircuitTest F :=
  let dummy : F := 999
  let a : List F := [1, 1, 2, 3, 4, 4, dummy, dummy, dummy, dummy]
  lookupTest (a ++ restA) b (List.zipWith (· * ·) a b ++ restC)
    (List.replicate 10 1 ++ List.replicate 6 0)
    ([1, 2, 3, 4, 5, 6, 7] ++ List.replicate 9 dummy)
    (List.replicate 10 0 ++ List.replicate 6 1) 10

end
end ZK
