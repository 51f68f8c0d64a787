import Verif.Model.Oracle
import Verif.Spec.Basic
/-! Labels made with `format!` are distinct. -/
set_option autoImplicit false
namespace ZK

theorem natBytes_eq (n : Nat) :
    natBytes n = if n < 10 then [48 + n] else natBytes (n / 10) ++ [48 + n % 10] := by
  unfold natBytes
  rw [Nat.toDigits_eq_if (by norm_num)]
  split
  · rename_i h
    simp [Nat.toNat_digitChar_of_lt_ten h]
  · simp [Nat.toNat_digitChar_of_lt_ten (Nat.mod_lt n (by norm_num : 0 < 10))]

theorem natBytes_ne_nil (n : Nat) : natBytes n ≠ [] := by
  rw [natBytes_eq]
  split <;> simp

theorem natBytes_digit (n : Nat) : ∀ b ∈ natBytes n, 48 ≤ b ∧ b < 58 := by
  induction n using Nat.strong_induction_on with
  | _ n ih =>
    rw [natBytes_eq]
    split
    · intro b hb; simp at hb; omega
    · intro b hb
      rcases List.mem_append.1 hb with h | h
      · exact ih (n / 10) (by omega) b h
      · simp at h; omega

theorem natBytes_inj {m n : Nat} (h : natBytes m = natBytes n) : m = n := by
  induction m using Nat.strong_induction_on generalizing n with
  | _ m ih =>
    have h' := h
    rw [natBytes_eq m, natBytes_eq n] at h'
    split at h' <;> split at h'
    · simpa using h'
    · have h1 := congrArg List.length h'
      have h2 := List.length_pos_iff.2 (natBytes_ne_nil (n / 10))
      rw [List.length_append] at h1
      simp only [List.length_cons, List.length_nil] at h1; omega
    · have h1 := congrArg List.length h'
      have h2 := List.length_pos_iff.2 (natBytes_ne_nil (m / 10))
      rw [List.length_append] at h1
      simp only [List.length_cons, List.length_nil] at h1; omega
    · obtain ⟨h1, h2⟩ := List.append_inj_left' h' (by simp), List.append_inj_right' h' (by simp)
      have := ih (m / 10) (by omega) h1
      simp at h2; omega

theorem Rotation.pointLabel_inj {r r' : Rotation} {l : Label} (h : r.pointLabel l = r'.pointLabel l) :
    r.signed = r'.signed := by
  obtain ⟨d, s⟩ := r
  obtain ⟨d', s'⟩ := r'
  have hd : ∀ (n : Nat) (x y : Label), natBytes n ++ x ≠ 45 :: y := by
    intro n x y h
    cases hn : natBytes n with
    | nil => exact natBytes_ne_nil n hn
    | cons b bs =>
      rw [hn] at h
      have h1 := natBytes_digit n b (by simp [hn])
      simp at h; omega
  have e1 : bytes "omega_" = [111, 109, 101, 103, 97, 95] := by decide
  have e2 : bytes "omega_-" = [111, 109, 101, 103, 97, 95, 45] := by decide
  have e3 : bytes "_" = [95] := by decide
  unfold Rotation.pointLabel at h
  unfold Rotation.signed
  simp only [e1, e2, e3] at h
  by_cases h0 : d = 0 <;> by_cases h0' : d' = 0
  · subst h0 h0'; cases s <;> cases s' <;> simp
  · simp only [h0, h0', if_true, if_false] at h
    exfalso
    cases s' <;> (have := congrArg List.length h; simp only [List.length_append, List.length_cons, List.length_nil] at this; omega)
  · simp only [h0, h0', if_true, if_false] at h
    exfalso
    cases s <;> (have := congrArg List.length h; simp only [List.length_append, List.length_cons, List.length_nil] at this; omega)
  · simp only [h0, h0', if_false] at h
    cases s <;> cases s' <;> simp only [List.append_assoc, List.cons_append, List.nil_append,
      List.cons.injEq, true_and] at h
    · have := natBytes_inj (List.append_cancel_right h)
      simp [this]
    · exact absurd h (hd _ _ _)
    · exact absurd h.symm (hd _ _ _)
    · have := natBytes_inj (List.append_cancel_right h)
      simp [this]

end ZK
