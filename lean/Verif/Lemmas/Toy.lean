import Verif.Model.TurboPlonk
import Verif.Spec.Ideal
import Verif.Lemmas.F97
/-!
A small complete circuit over `F97` with a gate, a copy constraint and a lookup, together with the ideal
commitment scheme. It is used to show that the hypotheses of the statements about whole proofs are
satisfiable, and to exhibit counterexamples. Everything computes in the kernel.
-/
set_option autoImplicit false
namespace ZK
namespace Toy

def chal (l : List Nat) : F97 :=
  ⟨l.foldl (fun acc x => (acc * 31 + x + 7) % 97) 3 % 97, Nat.mod_lt _ (by norm_num)⟩

/-- The ideal scheme with a toy hash. -/
abbrev S : Scheme F97 := idealScheme chal (fun x => [x.val])

def dom : Domain F97 := F97.dom 2

/-- A prover oracle with the given rows, queried at the current and the next row. -/
def column (k : OracleType) (l : Label) (evals : List F97) (rots : List Rotation) (copied : Bool) : ProverOracle F97 :=
  ⟨k, l, trim (dom.ifft evals), evals, none, rots, copied⟩

def qA : OracleQuery := ⟨[1], .curr, .witness⟩
def qB : OracleQuery := ⟨[2], .curr, .witness⟩
def qC : OracleQuery := ⟨[3], .curr, .witness⟩
def qI : OracleQuery := ⟨[4], .curr, .instance_⟩
def qS : OracleQuery := ⟨[5], .curr, .fixed⟩
def qT : OracleQuery := ⟨[6], .curr, .fixed⟩

/-- `q * (a * b - c + i)`. -/
def gate : Expr F97 :=
  .prod (.oracle qS) (.sum (.sum (.prod (.oracle qA) (.oracle qB)) (.neg (.oracle qC))) (.oracle qI))

/-- A second gate, `q * (b(next row) - 7)`, active in row 0 only. -/
def gateNext : Expr F97 :=
  .prod (.oracle ⟨[7], .curr, .fixed⟩) (.sum (.oracle ⟨[2], .next, .witness⟩) (.neg (.const 7)))

def vo (e : Expr F97) : GenericVO F97 := ⟨.const 0, [], some e⟩
def vos : List (GenericVO F97) := [vo gate, vo gateNext]

/-- `c` is looked up in the table. -/
def lookup : GenericLookupVO F97 := ⟨[], [], [], some [qT], some [.oracle qC]⟩

/-- The witness: `a[0] = b[1]`. -/
def witness : List (ProverOracle F97) :=
  [column .witness [1] [7, 3, 11, 4] [.curr] true, column .witness [2] [8, 7, 2, 6] [.curr, .next] true,
    column .witness [3] [56, 26, 9, 2] [.curr] false]
def inst : List (ProverOracle F97) := [column .instance_ [4] [0, 5, 0, 0] [.curr] false]
def fixed : List (ProverOracle F97) :=
  [column .fixed [5] [1, 1, 0, 0] [.curr] false, column .fixed [7] [1, 0, 0, 0] [.curr] false]
def table : List (ProverOracle F97) := [column .fixed [6] [26, 56, 0, 0] [.curr] false]
def sigma : List (ProverOracle F97) :=
  [column .fixed [8] [5 * dom.omega, dom.omega, 9, 9] [.curr] false, column .fixed [9] [5, 1, 10, 10] [.curr] false]
def qBlind : ProverOracle F97 := column .fixed (bytes "q_blind") [0, 0, 0, 1] [.curr] false

/-- The two cosets of the permutation argument are `H` and `5 H`, two of the four rows are usable. -/
def info : PermutationInfo F97 := ⟨2, [1, 5]⟩

def key : Res (Err Unit) (VerifierKey S) :=
  indexer (S := S) (fun o => o.shouldPermute) () vos [lookup] witness inst fixed dom dom.vanishing info 2

def pre (k : VerifierKey S) : ProverPreprocessed S := .new S fixed sigma table qBlind k.index

/-- The verifier's oracle of a prover oracle: same label and rotations. -/
def published (o : ProverOracle F97) : VerifierOracle F97 (List F97) :=
  ⟨o.kind, o.label, o.rotations, [], some o.poly, o.shouldPermute⟩
def blank (o : ProverOracle F97) : VerifierOracle F97 (List F97) :=
  ⟨o.kind, o.label, o.rotations, [], none, o.shouldPermute⟩

def vpre : VerifierPreprocessed S := ⟨fixed.map published, table.map published, sigma.map published, published qBlind⟩
def vinst : List (InstanceVerifierOracle F97) := inst.map (fun o => ⟨o.label, o.poly, o.rotations⟩)

/-- The proof made for a witness. -/
def proveWith (k : VerifierKey S) (ws : List (ProverOracle F97)) : Res (Err Unit) (TPProof S) :=
  prove S ⟨k, ()⟩ (pre k) ws inst vos 4 ()

/-- Verification with fresh oracles. -/
def verifyWith (k : VerifierKey S) (is : List (InstanceVerifierOracle F97)) (p : TPProof S) : Res (Err Unit) Unit :=
  verify S k vpre p (witness.map blank) is vos 4 dom.vanishing

/-- Does a property hold of the key and the proof made for a witness? -/
def holds (ws : List (ProverOracle F97)) (P : VerifierKey S → TPProof S → Bool) : Bool :=
  match key with
  | .ok k => match proveWith k ws with
    | .ok p => P k p
    | _ => false
  | _ => false

theorem of_holds {ws : List (ProverOracle F97)} {P : VerifierKey S → TPProof S → Bool} (h : holds ws P = true) :
    ∃ k p, key = .ok k ∧ proveWith k ws = .ok p ∧ P k p = true := by
  unfold holds at h
  split at h
  · rename_i k hk
    split at h
    · rename_i p hp
      exact ⟨k, p, hk, hp, h⟩
    · simp at h
  · simp at h

/-- The honest proof is made and accepted. -/
theorem honest : ∃ k p, key = .ok k ∧ proveWith k witness = .ok p ∧ verifyWith k vinst p = .ok () := by
  obtain ⟨k, p, h1, h2, h3⟩ := of_holds (ws := witness)
    (P := fun k p => decide (verifyWith k vinst p = .ok ())) (by decide +kernel)
  exact ⟨k, p, h1, h2, of_decide_eq_true h3⟩

end Toy
end ZK
