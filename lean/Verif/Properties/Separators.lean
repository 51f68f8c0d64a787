import Verif.Properties.SuccessExamples
/-!
The separators (`deltas`) of the permutation argument are chosen by the caller
(`PermutationInfo`, src/data_structures.rs:19-43) and used as they are (src/permutation/mod.rs:49-60). This file says when
they give different cells different identities, and what happens if they do not.
-/
set_option autoImplicit false
set_option linter.unusedSectionVars false
namespace ZK

section
variable {F : Type} [Field F] [FftParams F] [LawfulFft F]

/-- **C55** Different cells have different identities exactly if no separator is zero and the `n`-th powers of the
separators are different, where `n` is the number of rows. -/
theorem C55_separators_check {d : Domain F} (hd : d.Ok) (h1 : 1 < d.size) (deltas : List F) :
    Function.Injective (cellId d deltas : Fin deltas.length × Fin d.size → F) ↔
      0 ∉ deltas ∧ (deltas.map (· ^ d.size)).Nodup := by
  have hprim := hd.prim
  have h0 : d.omega ≠ 0 := hprim.ne_zero (by omega)
  constructor
  · intro h
    have hnz : 0 ∉ deltas := by
      intro hm
      obtain ⟨i, hi, e⟩ := List.getElem_of_mem hm
      have := @h (⟨i, hi⟩, ⟨0, by omega⟩) (⟨i, hi⟩, ⟨1, h1⟩) (by simp [cellId, hi, e])
      simp at this
    refine ⟨hnz, ?_⟩
    rw [List.Nodup, List.pairwise_iff_getElem]
    intro i j hi hj hij e
    simp only [List.length_map] at hi hj
    simp only [List.getElem_map] at e
    have hj0 : deltas[j] ≠ 0 := fun h => hnz (h ▸ List.getElem_mem hj)
    have : NeZero d.size := ⟨by omega⟩
    obtain ⟨k, hk, e'⟩ := hprim.eq_pow_of_pow_eq_one (ξ := deltas[i] / deltas[j]) (by
      rw [div_pow, e, div_self (pow_ne_zero _ hj0)])
    have := @h (⟨i, hi⟩, ⟨0, by omega⟩) (⟨j, hj⟩, ⟨k, hk⟩) (by
      simp only [cellId, pow_zero, mul_one, e', List.getD_eq_getElem?_getD, List.getElem?_eq_getElem, hi, hj,
        Option.getD_some]
      field_simp)
    simp only [Prod.mk.injEq, Fin.mk.injEq] at this
    omega
  · rintro ⟨hnz, hnd⟩ ⟨⟨i, hi⟩, ⟨a, ha⟩⟩ ⟨⟨j, hj⟩, ⟨b, hb⟩⟩ e
    simp only [cellId, List.getD_eq_getElem?_getD, List.getElem?_eq_getElem, hi, hj, Option.getD_some] at e
    have hpow : deltas[i] ^ d.size = deltas[j] ^ d.size := by
      have := congrArg (· ^ d.size) e
      simpa only [mul_pow, ← pow_mul, mul_comm _ d.size, pow_mul d.omega, hprim.pow_eq_one, one_pow, mul_one] using this
    have hij : i = j := by
      have := List.Nodup.getElem_inj_iff hnd (i := i) (hi := by simpa using hi) (j := j) (hj := by simpa using hj)
      exact this.1 (by simpa using hpow)
    subst hij
    have hi0 : deltas[i] ≠ 0 := fun h => hnz (h ▸ List.getElem_mem hi)
    have := hprim.pow_inj ha hb (mul_left_cancel₀ hi0 e)
    subst this
    rfl

/-- Identities that are different on all rows are different on the usable rows. -/
theorem C55_usable_rows {d : Domain F} {deltas : List F} {m u : Nat} (hm : deltas.length = m) (hu : u ≤ d.size)
    (h : Function.Injective (cellId d deltas : Fin deltas.length × Fin d.size → F)) :
    Function.Injective (cellId d deltas : Fin m × Fin u → F) := by
  subst hm
  rintro ⟨i, a⟩ ⟨j, b⟩ e
  have := @h (i, a.castLE hu) (j, b.castLE hu) e
  simp only [Prod.mk.injEq, Fin.ext_iff, Fin.val_castLE] at this ⊢
  exact this

/-- **C55** (why it matters) If two cells have the same identity, the sigma columns made for a circuit are those made for
the circuit in which the two cells are in addition swapped, so that a copy constraint between them cannot be expressed. -/
theorem C55_same_identity {d : Domain F} {deltas : List F} {m u : Nat} (c c' : Fin m × Fin u)
    (h : cellId d deltas c = cellId d deltas c') (sigmas : List (ProverOracle F)) (tau : Equiv.Perm (Fin m × Fin u)) :
    MadeFrom d deltas sigmas (tau.trans (Equiv.swap c c')) ↔ MadeFrom d deltas sigmas tau := by
  refine forall_congr' (fun x => ?_)
  rw [Equiv.trans_apply]
  by_cases h1 : tau x = c
  · rw [h1, Equiv.swap_apply_left, h]
  · by_cases h2 : tau x = c'
    · rw [h2, Equiv.swap_apply_right, h]
    · rw [Equiv.swap_apply_of_ne_of_ne h1 h2]

end

/-! ## An accepted violation -/

namespace Toy

/-- The two columns have the same separator. -/
def infoSame : PermutationInfo F97 := ⟨2, [1, 1]⟩

/-- The sigmas for the copy constraint `a[0] = b[0]`. -/
def sigmaSame : List (ProverOracle F97) :=
  [column .fixed [8] [1, dom.omega, 9, 9] [.curr] false, column .fixed [9] [1, dom.omega, 10, 10] [.curr] false]

/-- The witness of the toy circuit with another value in a blinding row. -/
def witnessSame : List (ProverOracle F97) :=
  [column .witness [1] [7, 3, 5, 4] [.curr] true, column .witness [2] [8, 7, 2, 6] [.curr, .next] true,
    column .witness [3] [56, 26, 9, 2] [.curr] false]

def keySame : Res (Err Unit) (VerifierKey S) :=
  indexer (S := S) (fun o => o.shouldPermute) () vos [lookup] witnessSame inst fixed dom dom.vanishing infoSame 2

def proveSame (k : VerifierKey S) : Res (Err Unit) (TPProof S) :=
  prove S ⟨k, ()⟩ (.new S fixed sigmaSame table qBlind k.index) witnessSame inst vos 4 ()

def verifySame (k : VerifierKey S) (p : TPProof S) : Res (Err Unit) Unit :=
  verify S k ⟨fixed.map published, table.map published, sigmaSame.map published, published qBlind⟩ p (witnessSame.map blank)
    vinst vos 4 dom.vanishing

def acceptedSame : Bool :=
  match keySame with
  | .ok k => match proveSame k with
    | .ok p => decide (verifySame k p = .ok ())
    | _ => false
  | _ => false

/-- **C55** (the code does not check this) The indexer accepts equal separators. The honest prover makes a proof for a
witness that violates the copy constraint encoded by the sigmas, and the verifier accepts it. -/
theorem C55_equal_separators : ∃ k p, keySame = .ok k ∧ proveSame k = .ok p ∧ verifySame k p = .ok () ∧
    ∃ tau : Equiv.Perm (Fin (witnessSame.filter (·.shouldPermute)).length × Fin 2),
      MadeFrom dom infoSame.deltas sigmaSame tau ∧ ¬ CopiesHold ⟨witnessSame, inst, fixed, table⟩ tau := by
  have h : acceptedSame = true := by decide +kernel
  unfold acceptedSame at h
  split at h
  · rename_i k hk
    split at h
    · rename_i p hp
      refine ⟨k, p, hk, hp, of_decide_eq_true h, Equiv.swap (⟨0, by decide +kernel⟩, 0) (⟨1, by decide +kernel⟩, 0), ?_⟩
      unfold MadeFrom CopiesHold
      decide +kernel
    · simp at h
  · simp at h

/-- The separators of the toy circuit pass the check of `C55_separators_check`. -/
example : 0 ∉ info.deltas ∧ (info.deltas.map (· ^ dom.size)).Nodup := by decide +kernel
example : ¬ (infoSame.deltas.map (· ^ dom.size)).Nodup := by decide +kernel

end Toy
end ZK
