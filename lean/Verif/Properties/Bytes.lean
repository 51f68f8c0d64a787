import Verif.Spec.Bytes
import Verif.Properties.Panic
import Verif.Properties.Serialize
/-! C81: bytes that stop the verifier. -/
set_option autoImplicit false
set_option linter.unusedSectionVars false
namespace ZK

section
variable {F : Type} [Field F] [LinearOrder F] [FftParams F] [LawfulFft F]
variable {S : Scheme F} {f : Codec F} {c : Codec S.Comm} {o : Codec S.Proof}

/-- **C81** One message of constant length stops the verifier of every circuit. It depends on nothing: any field element, any commitment and
any opening will do. -/
theorem C81_one_message_stops_all (hf : f.RoundTrip) (hc : c.RoundTrip) (ho : o.RoundTrip) (v : F) (x : S.Comm) (pf : S.Proof) :
    ∃ bs : List UInt8, bs.length = 14 * 8 + (f.write v).length + 2 * (c.write x).length + (o.write pf).length ∧
      ∀ (vk : VerifierKey S) (pre : VerifierPreprocessed S) (ws : List (VerifierOracle F S.Comm)) (is : List (InstanceVerifierOracle F))
        (vos : List (GenericVO F)) (d : Domain F) (vanishing : List F), d.Ok → Ready d.size vk.index pre ws is vos →
        receive (proofCodec f c o).read (fun p => verify S vk pre p ws is vos d.size vanishing) bs = .stopped := by
  refine ⟨(proofCodec f c o).write (stopMessage v x pf), ?_, ?_⟩
  · have hnil : ∀ {α : Type} (k : Codec α), (k.vec.write []).length = 8 := fun k => by simp [Codec.vec, u64Codec, leBytes]
    have hone : (c.vec.write [x]).length = 8 + (c.write x).length := by simp [Codec.vec, u64Codec, leBytes]; omega
    simp only [proofCodec, mpProofCodec, stopMessage, List.length_append, hnil, hone]
    omega
  · intro vk pre ws is vos d vanishing hd hR
    have hfit : (stopMessage v x pf).FitsMemory := by
      simp [TPProof.FitsMemory, stopMessage]
    have hread := C62_round_trip hf hc ho hfit []
    rw [List.append_nil] at hread
    have hstop := C65_malformed_proof_panics hd hR (stopMessage v x pf) vanishing (fun h => by
      have : 1 ≤ 0 := h.quotientEvals
      omega)
    unfold receive
    rw [hread]
    show (match verify S vk pre (stopMessage v x pf) ws is vos d.size vanishing with
      | .ok _ => Received.accepted | .err _ => .rejected | .panic => .stopped) = .stopped
    rw [hstop]

/-- **C81** What happens to arbitrary bytes: a verifier that is ready for the proofs of a circuit is stopped exactly by the encodings of
proofs with a wrong number of entries in some list, possibly with more bytes behind, unless the evaluation challenge is zero, `x3` meets
an opening point or the commitment scheme panics. -/
theorem C81_stopped_iff (hf : f.RoundTrip) (hc : c.RoundTrip) (ho : o.RoundTrip) (hf' : f.Canonical) (hc' : c.Canonical) (ho' : o.Canonical)
    {vk : VerifierKey S} {pre : VerifierPreprocessed S} {ws : List (VerifierOracle F S.Comm)} {is : List (InstanceVerifierOracle F)}
    {vos : List (GenericVO F)} {d : Domain F} (hd : d.Ok) (hR : Ready d.size vk.index pre ws is vos) (vanishing : List F)
    (hcheck : ∀ c x y pf, S.check vk.vk c x y pf ≠ .panic) (bs : List UInt8)
    (hlucky : ∀ p rest, bs = (proofCodec f c o).write p ++ rest → (verifierChallenges S p).1.xi ≠ 0 ∧
      ∀ k : ℤ, (mpChallenges S p.multiopen (verifierChallenges S p).2).2.2.1 ≠ (verifierChallenges S p).1.xi * d.omega ^ k) :
    receive (proofCodec f c o).read (fun p => verify S vk pre p ws is vos d.size vanishing) bs = .stopped ↔
      ∃ p rest, bs = (proofCodec f c o).write p ++ rest ∧ p.FitsMemory ∧ ¬ WellShaped vk.index pre ws p := by
  constructor
  · intro h
    unfold receive at h
    cases hr : (proofCodec f c o).read bs with
    | none => rw [hr] at h; cases h
    | some pr =>
      obtain ⟨p, rest⟩ := pr
      obtain ⟨h1, h2⟩ := C62_canonical hf' hc' ho' hr
      refine ⟨p, rest, h1, h2, fun hW => ?_⟩
      rw [hr] at h
      obtain ⟨hxi, hx3⟩ := hlucky p rest h1
      rcases C65_no_panic_partial hd hR p vanishing hW rfl hxi rfl hx3 hcheck with h3 | h3 | ⟨e, h3⟩ <;>
        · dsimp only at h
          rw [h3] at h
          cases h
  · rintro ⟨p, rest, rfl, hp, hW⟩
    unfold receive
    rw [C62_round_trip hf hc ho hp rest]
    dsimp only
    rw [C65_malformed_proof_panics hd hR p vanishing hW]

end
end ZK
