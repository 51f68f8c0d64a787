import Verif.Properties.Serialize
import Verif.Properties.SetupExamples
/-! Serialised proofs of the toy circuit. -/
set_option autoImplicit false
set_option linter.unusedSectionVars false
namespace ZK
namespace Toy

/-- An element of the field in one byte. -/
def f97Codec : Codec F97 where
  write x := [UInt8.ofNat (Fin.val (n := 97) x)]
  read
    | [] => none
    | b :: bs => if h : b.toNat < 97 then some ((⟨b.toNat, h⟩ : Fin 97), bs) else none

theorem f97_roundTrip : f97Codec.RoundTrip := by
  intro (x : Fin 97) rest
  have hx := x.isLt
  have hb : (UInt8.ofNat x.val).toNat = x.val := by
    rw [UInt8.toNat_ofNat']
    omega
  show (if h : (UInt8.ofNat x.val).toNat < 97 then some ((⟨(UInt8.ofNat x.val).toNat, h⟩ : Fin 97), rest) else none) = some (x, rest)
  rw [dif_pos (by rw [hb]; exact hx)]
  congr

theorem f97_canonical : f97Codec.Canonical := by
  intro bs (x : Fin 97) rest h
  cases bs with
  | nil => exact absurd h (by simp [f97Codec])
  | cons b bs =>
    have h' : (if h : b.toNat < 97 then some ((⟨b.toNat, h⟩ : Fin 97), bs) else none) = some (x, rest) := h
    split at h'
    · obtain ⟨rfl, rfl⟩ := Prod.mk.inj (Option.some.inj h')
      show b :: bs = [UInt8.ofNat b.toNat] ++ bs
      rw [UInt8.ofNat_toNat]
      rfl
    · simp at h'

theorem f97_sized : f97Codec.Sized 1 := fun _ => rfl

/-- Group elements of the toy group are field elements. -/
def g97Codec : Codec G97 := f97Codec

/-- An opening proof of KZG: the witness and the value of the blinding polynomial. -/
def openingCodec : Codec (KzgProof F97 G97) where
  write p := g97Codec.write p.w ++ f97Codec.write p.randomV
  read bs := andThen (g97Codec.read bs) fun w bs => andThen (f97Codec.read bs) fun v bs => some (⟨w, v⟩, bs)

theorem opening_roundTrip : openingCodec.RoundTrip := by
  intro p rest
  have h1 : g97Codec.read (g97Codec.write p.w ++ (f97Codec.write p.randomV ++ rest)) = some (p.w, f97Codec.write p.randomV ++ rest) :=
    f97_roundTrip _ _
  simp only [openingCodec, List.append_assoc]
  rw [h1, andThen_some, f97_roundTrip, andThen_some]

theorem opening_canonical : openingCodec.Canonical := by
  intro bs p rest h
  obtain ⟨w, b1, e1, h⟩ := andThen_eq_some.1 h
  obtain ⟨v, b2, e2, h⟩ := andThen_eq_some.1 h
  obtain ⟨rfl, rfl⟩ := Prod.mk.inj (Option.some.inj h)
  have e1' : bs = g97Codec.write w ++ b1 := f97_canonical _ _ _ e1
  rw [e1', f97_canonical _ _ _ e2]
  simp [openingCodec]

variable (env : KzgEnv F97 G97)

/-- With these encodings every proof object that fits into memory, for the toy group, is read back. -/
theorem proofs_read_back {p : TPProof (kzgScheme pair97 env)} (hp : p.FitsMemory) :
    (proofCodec (S := kzgScheme pair97 env) f97Codec g97Codec openingCodec).read
      ((proofCodec (S := kzgScheme pair97 env) f97Codec g97Codec openingCodec).write p) = some (p, []) := by
  have := C62_round_trip (S := kzgScheme pair97 env) (f := f97Codec) (c := g97Codec) (o := openingCodec) f97_roundTrip
    f97_roundTrip opening_roundTrip hp []
  rwa [List.append_nil] at this

/-- A proof object with one entry in every list. -/
noncomputable def smallProof : TPProof (kzgScheme pair97 env) :=
  ⟨[(1 : F97)], [2], [3], [4], [5], 6, [(7 : F97)], [(8 : F97)], [9], [10], [(11 : F97)], [12], [(13 : F97)], [14],
    ⟨[15], (16 : F97), (⟨(17 : F97), 18⟩ : KzgProof F97 G97)⟩⟩

theorem smallProof_fits : (smallProof env).FitsMemory := by
  rw [fitsMemory_iff]
  show ∀ n ∈ [1, 1, 1, 1, 1, 1, 1, 1, 1, 1, 1, 1, 1, 1], n < 2 ^ 64
  decide

/-- It takes 112 bytes for the lengths and 18 for the entries, and no part of these bytes is read as a proof. -/
theorem smallProof_bytes :
    ((proofCodec (S := kzgScheme pair97 env) f97Codec g97Codec openingCodec).write (smallProof env)).length = 130 ∧
    ∀ bs cut, cut ≠ [] → bs ++ cut = (proofCodec (S := kzgScheme pair97 env) f97Codec g97Codec openingCodec).write (smallProof env) →
      (proofCodec (S := kzgScheme pair97 env) f97Codec g97Codec openingCodec).read bs = none := by
  refine ⟨rfl, fun bs cut hcut h => ?_⟩
  exact C62_truncated (S := kzgScheme pair97 env) (f := f97Codec) (c := g97Codec) (o := openingCodec) f97_roundTrip
    f97_roundTrip opening_roundTrip f97_canonical f97_canonical opening_canonical (smallProof_fits env) hcut h

end Toy
end ZK
