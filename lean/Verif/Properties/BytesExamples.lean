import Verif.Properties.Bytes
import Verif.Properties.PanicExamples
import Verif.Properties.SerializeExamples
import Verif.Spec.HonestVerifier
/-! A case that meets the hypotheses of C81. -/
set_option autoImplicit false
namespace ZK
namespace Toy
variable (env : KzgEnv F97 G97)

/-- A verifier for the gate `a * a` on four rows. -/
noncomputable def squareWitness : List (VerifierOracle F97 (kzgScheme pair97 env).Comm) :=
  [{ VerifierOracle.newWitness [1] false with rotations := [.curr] }]
def squareGate : List (GenericVO F97) := [vo (.prod (.oracle qA) (.oracle qA))]
noncomputable def squarePre : VerifierPreprocessed (kzgScheme pair97 env) :=
  ⟨[], [], [], { VerifierOracle.newFixed (bytes "q_blind") none with rotations := [.curr] }⟩

theorem square_ready {index : Index F97} (hl : index.lookups = []) (hu : index.perm.usableRows = 0) :
    Ready (S := kzgScheme pair97 env) dom.size index (squarePre env) (squareWitness env) [] squareGate := by
  rw [show dom.size = 4 from dom_size]
  have hrot : ∀ o ∈ squareWitness env ++ (squarePre env).fixed ++ (squarePre env).table ++ (squarePre env).perm ++ [(squarePre env).qBlind],
      o.rotations = [.curr] := by
    intro o ho
    simp only [squarePre, squareWitness, List.append_nil, List.mem_append, List.mem_singleton] at ho
    rcases ho with rfl | rfl <;> rfl
  have hplain : ∀ o ∈ squareWitness env, o.shouldPermute = false := by
    intro o ho
    obtain rfl := List.mem_singleton.1 ho
    rfl
  refine ⟨by decide, List.cons_ne_nil _ _, ?_, ⟨List.nodup_singleton _, List.nodup_nil, List.nodup_nil⟩, ?_, ?_, ?_, by rw [hu]; decide, ?_, ?_⟩
  · intro v hv
    obtain rfl := List.mem_singleton.1 hv
    refine ⟨_, rfl, ?_⟩
    have hq : ∀ q ∈ (Expr.prod (.oracle qA) (.oracle qA) : Expr F97).queries, q = qA := by
      intro q hq
      simpa [Expr.queries] using hq
    intro q h
    rw [hq q h]
    refine ⟨by decide, fun _ => ⟨_, ⟨0, rfl, rfl, ?_⟩, List.mem_singleton.2 rfl⟩, ⟨fun h => (by cases h), fun h => (by cases h)⟩⟩
    intro j o hj hjo
    have := (List.getElem?_eq_some_iff.1 hjo).1
    have : j < 1 := this
    omega
  · intro o ho r hr
    rw [hrot o ho] at hr
    obtain rfl := List.mem_singleton.1 hr
    decide
  · intro o ho
    rw [hrot o ho]
    exact List.pairwise_singleton _ _
  · intro o ho h
    rw [hplain o ho] at h
    cases h
  · rintro ⟨o, ho, h⟩
    rw [hplain o ho] at h
    cases h
  · rw [hl]
    intro l h
    cases h

/-- With the encodings of C62 the message has 112 bytes for the lengths and five for a field element, two commitments and an opening. It
stops the verifier of the square gate, and with it every other. -/
example (vk : (kzgScheme pair97 env).VK) : ∃ bs : List UInt8, bs.length = 117 ∧
    receive (proofCodec (S := kzgScheme pair97 env) f97Codec g97Codec openingCodec).read
      (fun p => verify _ ⟨vk, ⟨8, dom, ⟨1, 0, []⟩, [], 0⟩, []⟩ (squarePre env) p (squareWitness env) [] squareGate dom.size dom.vanishing) bs
      = .stopped := by
  obtain ⟨bs, h1, h2⟩ := C81_one_message_stops_all (S := kzgScheme pair97 env) (f := f97Codec) (c := g97Codec) (o := openingCodec)
    f97_roundTrip f97_roundTrip opening_roundTrip 0 (0 : F97) (⟨(0 : F97), 0⟩ : KzgProof F97 G97)
  exact ⟨bs, h1, h2 _ _ _ _ _ _ _ dom_Ok (square_ready env rfl rfl)⟩

/-- An environment in which `x3` is two and all other challenges are one. -/
abbrev fixedEnv : KzgEnv F97 G97 := honestEnv fun i => if i = 7 then 2 else 1

/-- The hypotheses of `C81_stopped_iff` are met, for all bytes, in this environment. -/
example (vk : (kzgScheme pair97 fixedEnv).VK) (bs : List UInt8) :
    receive (proofCodec (S := kzgScheme pair97 fixedEnv) f97Codec g97Codec openingCodec).read
      (fun p => verify _ ⟨vk, ⟨8, dom, ⟨1, 0, []⟩, [], 0⟩, []⟩ (squarePre fixedEnv) p (squareWitness fixedEnv) [] squareGate dom.size
        dom.vanishing) bs = .stopped ↔
    ∃ p rest, bs = (proofCodec (S := kzgScheme pair97 fixedEnv) f97Codec g97Codec openingCodec).write p ++ rest ∧ p.FitsMemory ∧
      ¬ WellShaped ⟨8, dom, ⟨1, 0, []⟩, [], 0⟩ (squarePre fixedEnv) (squareWitness fixedEnv) p := by
  refine C81_stopped_iff (S := kzgScheme pair97 fixedEnv) (f := f97Codec) (c := g97Codec) (o := openingCodec) f97_roundTrip f97_roundTrip
    opening_roundTrip f97_canonical f97_canonical opening_canonical dom_Ok (square_ready fixedEnv rfl rfl) dom.vanishing
    (fun _ _ _ _ h => by cases h) bs fun p rest _ => ⟨?_, fun k hk => ?_⟩
  · show (1 : F97) ≠ 0
    decide
  · have hk : (2 : F97) = 1 * dom.omega ^ k := hk
    have h4 : (2 : F97) ^ 4 = 1 := by
      have h1 : dom.omega ^ 4 = 1 := by decide +kernel
      rw [hk, one_mul, ← zpow_natCast, ← zpow_mul, mul_comm, zpow_mul, zpow_natCast, h1, one_zpow]
    exact absurd h4 (by decide)

end Toy
end ZK
