import Verif.Spec.Serialize
import Verif.Properties.ProofSize
/-! C62: serialised proofs. -/
set_option autoImplicit false
set_option linter.unusedSectionVars false
namespace ZK

theorem andThen_some {α β : Type} (a : α) (bs : List UInt8) (k : α → List UInt8 → Option β) :
    andThen (some (a, bs)) k = k a bs := rfl

theorem andThen_eq_some {α β : Type} {r : Option (α × List UInt8)} {k : α → List UInt8 → Option β} {b : β} :
    andThen r k = some b ↔ ∃ a bs, r = some (a, bs) ∧ k a bs = some b := by
  cases r with
  | none => simp [andThen]
  | some x =>
    obtain ⟨a, bs⟩ := x
    simp only [andThen, Option.some.injEq, Prod.mk.injEq]
    exact ⟨fun h => ⟨a, bs, ⟨rfl, rfl⟩, h⟩, by rintro ⟨_, _, ⟨rfl, rfl⟩, h⟩; exact h⟩

theorem leBytes_length (k n : Nat) : (leBytes k n).length = k := by
  induction k generalizing n with
  | zero => rfl
  | succ k ih => simp [leBytes, ih]

theorem leValue_leBytes (k n : Nat) : leValue (leBytes k n) = n % 256 ^ k := by
  induction k generalizing n with
  | zero => simp [leBytes, leValue, Nat.mod_one]
  | succ k ih =>
    rw [leBytes, leValue, ih, pow_succ', Nat.mod_mul]
    congr 1
    rw [UInt8.toNat_ofNat']
    omega

theorem leBytes_leValue (l : List UInt8) : leBytes l.length (leValue l) = l := by
  induction l with
  | nil => rfl
  | cons b l ih =>
    have hb : b.toNat < 256 := b.toNat_lt
    rw [List.length_cons, leBytes, leValue, show (b.toNat + 256 * leValue l) % 256 = b.toNat by omega,
      show (b.toNat + 256 * leValue l) / 256 = leValue l by omega, ih, UInt8.ofNat_toNat]

theorem leValue_lt (l : List UInt8) : leValue l < 256 ^ l.length := by
  induction l with
  | nil => simp [leValue]
  | cons b l ih =>
    have hb : b.toNat < 256 := b.toNat_lt
    rw [List.length_cons, leValue, pow_succ']
    omega

theorem u64_read_write {n : Nat} (h : n < 2 ^ 64) (rest : List UInt8) :
    u64Codec.read (u64Codec.write n ++ rest) = some (n, rest) := by
  have hl := leBytes_length 8 n
  simp only [u64Codec, List.length_append, hl]
  rw [if_neg (by omega), List.take_left' hl, List.drop_left' hl, leValue_leBytes,
    Nat.mod_eq_of_lt (lt_of_lt_of_eq h (by norm_num))]

theorem u64_canonical {bs rest : List UInt8} {n : Nat} (h : u64Codec.read bs = some (n, rest)) :
    bs = u64Codec.write n ++ rest ∧ n < 2 ^ 64 := by
  simp only [u64Codec] at h ⊢
  split at h
  · simp at h
  · rename_i hl
    obtain ⟨rfl, rfl⟩ := Prod.mk.inj (Option.some.inj h)
    have h8 : (bs.take 8).length = 8 := by rw [List.length_take]; omega
    have h1 := leBytes_leValue (bs.take 8)
    have h2 := leValue_lt (bs.take 8)
    rw [h8] at h1 h2
    rw [h1, List.take_append_drop]
    exact ⟨rfl, lt_of_lt_of_eq h2 (by norm_num)⟩

section
variable {α : Type} {c : Codec α}

theorem Codec.RoundTrip.many (hc : c.RoundTrip) (l : List α) (rest : List UInt8) :
    c.readMany l.length (l.flatMap c.write ++ rest) = some (l, rest) := by
  induction l with
  | nil => rfl
  | cons a l ih => simp only [List.length_cons, List.flatMap_cons, List.append_assoc, Codec.readMany, hc a, ih, andThen_some]

theorem Codec.RoundTrip.vec (hc : c.RoundTrip) {l : List α} (h : l.length < 2 ^ 64) (rest : List UInt8) :
    c.vec.read (c.vec.write l ++ rest) = some (l, rest) := by
  simp only [Codec.vec, List.append_assoc]
  rw [Nat.mod_eq_of_lt h, u64_read_write h, andThen_some]
  exact hc.many l rest

theorem Codec.Canonical.many (hc : c.Canonical) {n : Nat} {bs rest : List UInt8} {l : List α}
    (h : c.readMany n bs = some (l, rest)) : bs = l.flatMap c.write ++ rest ∧ l.length = n := by
  induction n generalizing bs l with
  | zero =>
    obtain ⟨rfl, rfl⟩ := Prod.mk.inj (Option.some.inj h)
    exact ⟨rfl, rfl⟩
  | succ n ih =>
    obtain ⟨a, bs', ha, h⟩ := andThen_eq_some.1 h
    obtain ⟨l', bs'', hl, h⟩ := andThen_eq_some.1 h
    obtain ⟨rfl, rfl⟩ := Prod.mk.inj (Option.some.inj h)
    obtain ⟨rfl, rfl⟩ := ih hl
    rw [hc _ _ _ ha]
    exact ⟨by simp, by simp⟩

theorem Codec.Canonical.vec (hc : c.Canonical) {bs rest : List UInt8} {l : List α} (h : c.vec.read bs = some (l, rest)) :
    bs = c.vec.write l ++ rest ∧ l.length < 2 ^ 64 := by
  obtain ⟨n, bs', hn, h⟩ := andThen_eq_some.1 h
  obtain ⟨h1, h2⟩ := u64_canonical hn
  obtain ⟨h3, rfl⟩ := hc.many h
  simp only [Codec.vec]
  rw [Nat.mod_eq_of_lt h2, h1, h3, List.append_assoc]
  exact ⟨rfl, h2⟩

theorem Codec.Sized.vec {k : Nat} (hc : c.Sized k) (l : List α) : (c.vec.write l).length = 8 + l.length * k := by
  simp only [Codec.vec, List.length_append, u64Codec, leBytes_length]
  congr 1
  induction l with
  | nil => simp
  | cons a l ih => rw [List.flatMap_cons, List.length_append, ih, hc a, List.length_cons]; ring

end

section
variable {F : Type} [Field F] {S : Scheme F} {f : Codec F} {c : Codec S.Comm} {o : Codec S.Proof}

/-- **C62** A serialised proof is read back, and the bytes after it are left alone. -/
theorem C62_round_trip (hf : f.RoundTrip) (hc : c.RoundTrip) (ho : o.RoundTrip) {p : TPProof S} (hp : p.FitsMemory)
    (rest : List UInt8) : (proofCodec f c o).read ((proofCodec f c o).write p ++ rest) = some (p, rest) := by
  obtain ⟨h1, h2, h3, h4, h5, h6, h7, h8, h9, h10, h11, h12, h13, h14⟩ := hp
  simp only [proofCodec, mpProofCodec, List.append_assoc]
  rw [hc.vec h1, andThen_some, hf.vec h2, andThen_some, hf.vec h3, andThen_some, hf.vec h4, andThen_some,
    hf.vec h5, andThen_some, hf, andThen_some, hc.vec h6, andThen_some, hc.vec h7, andThen_some, hf.vec h8,
    andThen_some, hf.vec h9, andThen_some, hc.vec h10, andThen_some, hf.vec h11, andThen_some, hc.vec h12,
    andThen_some, hf.vec h13, andThen_some, hf.vec h14, andThen_some, hc, andThen_some, ho, andThen_some, andThen_some]

/-- **C62** Only what has been written can be read: if a proof is read from some bytes, they begin with the serialised proof.
So no proof has two encodings. -/
theorem C62_canonical (hf : f.Canonical) (hc : c.Canonical) (ho : o.Canonical) {bs rest : List UInt8} {p : TPProof S}
    (h : (proofCodec f c o).read bs = some (p, rest)) : bs = (proofCodec f c o).write p ++ rest ∧ p.FitsMemory := by
  obtain ⟨v1, b1, e1, h⟩ := andThen_eq_some.1 h
  obtain ⟨v2, b2, e2, h⟩ := andThen_eq_some.1 h
  obtain ⟨v3, b3, e3, h⟩ := andThen_eq_some.1 h
  obtain ⟨v4, b4, e4, h⟩ := andThen_eq_some.1 h
  obtain ⟨v5, b5, e5, h⟩ := andThen_eq_some.1 h
  obtain ⟨v6, b6, e6, h⟩ := andThen_eq_some.1 h
  obtain ⟨v7, b7, e7, h⟩ := andThen_eq_some.1 h
  obtain ⟨v8, b8, e8, h⟩ := andThen_eq_some.1 h
  obtain ⟨v9, b9, e9, h⟩ := andThen_eq_some.1 h
  obtain ⟨v10, b10, e10, h⟩ := andThen_eq_some.1 h
  obtain ⟨v11, b11, e11, h⟩ := andThen_eq_some.1 h
  obtain ⟨v12, b12, e12, h⟩ := andThen_eq_some.1 h
  obtain ⟨v13, b13, e13, h⟩ := andThen_eq_some.1 h
  obtain ⟨v14, b14, e14, h⟩ := andThen_eq_some.1 h
  obtain ⟨v15, b15, e15, h⟩ := andThen_eq_some.1 h
  obtain ⟨w1, d1, g1, e15⟩ := andThen_eq_some.1 e15
  obtain ⟨w2, d2, g2, e15⟩ := andThen_eq_some.1 e15
  obtain ⟨w3, d3, g3, e15⟩ := andThen_eq_some.1 e15
  obtain ⟨rfl, rfl⟩ := Prod.mk.inj (Option.some.inj e15)
  obtain ⟨rfl, rfl⟩ := Prod.mk.inj (Option.some.inj h)
  obtain ⟨rfl, l1⟩ := hc.vec e1
  obtain ⟨rfl, l2⟩ := hf.vec e2
  obtain ⟨rfl, l3⟩ := hf.vec e3
  obtain ⟨rfl, l4⟩ := hf.vec e4
  obtain ⟨rfl, l5⟩ := hf.vec e5
  obtain rfl := hf _ _ _ e6
  obtain ⟨rfl, l7⟩ := hc.vec e7
  obtain ⟨rfl, l8⟩ := hc.vec e8
  obtain ⟨rfl, l9⟩ := hf.vec e9
  obtain ⟨rfl, l10⟩ := hf.vec e10
  obtain ⟨rfl, l11⟩ := hc.vec e11
  obtain ⟨rfl, l12⟩ := hf.vec e12
  obtain ⟨rfl, l13⟩ := hc.vec e13
  obtain ⟨rfl, l14⟩ := hf.vec e14
  obtain ⟨rfl, k1⟩ := hf.vec g1
  obtain rfl := hc _ _ _ g2
  obtain rfl := ho _ _ _ g3
  refine ⟨?_, l1, l2, l3, l4, l5, l7, l8, l9, l10, l11, l12, l13, l14, k1⟩
  simp only [proofCodec, mpProofCodec, List.append_assoc]

/-- **C62** A truncated proof is not read as a proof. -/
theorem C62_truncated (hf : f.RoundTrip) (hc : c.RoundTrip) (ho : o.RoundTrip) (hf' : f.Canonical) (hc' : c.Canonical)
    (ho' : o.Canonical) {p : TPProof S} (hp : p.FitsMemory) {bs cut : List UInt8} (hcut : cut ≠ [])
    (h : bs ++ cut = (proofCodec f c o).write p) : (proofCodec f c o).read bs = none := by
  by_contra hne
  obtain ⟨⟨p', rest⟩, hr⟩ := Option.ne_none_iff_exists'.1 hne
  obtain ⟨h1, h2⟩ := C62_canonical hf' hc' ho' hr
  have h3 := C62_round_trip hf hc ho h2 (rest ++ cut)
  have h4 := C62_round_trip hf hc ho hp []
  rw [List.append_nil, ← h, h1, List.append_assoc, h3] at h4
  obtain ⟨-, h5⟩ := Prod.mk.inj (Option.some.inj h4)
  exact hcut (List.append_eq_nil_iff.1 h5).2

/-- **C62** The number of bytes of a proof: fourteen lengths, the commitments and field elements counted by `cumulative_info`
and the opening proof. -/
theorem C62_bytes {kf kc : Nat} (hf : f.Sized kf) (hc : c.Sized kc) (p : TPProof S) :
    ((proofCodec f c o).write p).length
      = 14 * 8 + p.numCommitments * kc + p.numFieldElements * kf + (o.write p.multiopen.opening).length := by
  simp only [proofCodec, mpProofCodec, List.length_append, hf.vec, hc.vec, hf _, hc _, TPProof.numCommitments,
    TPProof.numFieldElements]
  ring

theorem fitsMemory_iff (p : TPProof S) : p.FitsMemory ↔ ∀ n ∈ p.infoCounts, n < 2 ^ 64 := by
  simp only [TPProof.FitsMemory, TPProof.infoCounts, List.forall_mem_cons, List.forall_mem_nil, and_true]
  tauto

end

section
open Polynomial
variable {F : Type} [Field F] [LinearOrder F] [FftParams F] [LawfulFft F] {S : Scheme F} {com : F[X] → S.Rand → S.Comm}
  {f : Codec F} {c : Codec S.Comm} {o : Codec S.Proof}

/-- **C62** The proofs of a circuit. With `c` copied columns and `L` lookups every proof returned by `prove` takes the same
number of bytes, up to the opening proof, and is read back, unless one of the numbers of `C58_proof_size` exceeds what
fits into memory. -/
theorem C62_circuit {W I K : Type} [ConcreteOracle W] [ConcreteOracle I] [ConcreteOracle K]
    {pk : ProverKey S} (hS : HomomorphicScheme S pk.ck pk.vk.vk com)
    {d : Domain F} (hd : d.Ok) {vos : List (GenericVO F)}
    {copyFlag : W → Bool} {vk : S.VK} {lookups : List (GenericLookupVO F)} {ows : List W} {ois : List I} {ofs : List K}
    {zh : List F} {info : PermutationInfo F} {usableRows : Nat}
    (hkey : indexer copyFlag vk vos lookups ows ois ofs d zh info usableRows (S := S) = .ok pk.vk)
    {ws is fixed table sigmas : List (ProverOracle F)} {qBlind : ProverOracle F}
    (hs : Supported d pk.vk.index ⟨ws, is, fixed, table⟩ sigmas qBlind vos) {z : S.Z} {proof : TPProof S}
    (hp : prove S pk (.new S fixed sigmas table qBlind pk.vk.index) ws is vos d.size z = .ok proof)
    {kf kc : Nat} (hf : f.RoundTrip) (hc : c.RoundTrip) (ho : o.RoundTrip) (hf' : f.Sized kf) (hc' : c.Sized kc) :
    let c0 := (ws.filter (·.shouldPermute)).length
    let L := lookups.length
    let s := pk.vk.index.perm.maxCols + 1
    let Z := grandProducts c0 pk.vk.index.perm.maxCols
    let q := (openedSets (ws ++ fixed ++ table ++ sigmas ++ [qBlind]) L Z info.u).card
    ((proofCodec f c o).write proof).length = 14 * 8 + (ws.length + 3 * L + s + Z + 1) * kc
      + (expectedEvals ws + expectedEvals fixed + expectedEvals table + sigmas.length + 1 + 5 * L + s
        + expectedZEvals info.u Z + q) * kf + (o.write proof.multiopen.opening).length ∧
    ((∀ n ∈ [ws.length, expectedEvals ws, expectedEvals fixed, expectedEvals table, sigmas.length,
        2 * L, 3 * L, L, 2 * L, s, s, Z, expectedZEvals info.u Z, q], n < 2 ^ 64) →
      (proofCodec f c o).read ((proofCodec f c o).write proof) = some (proof, [])) := by
  intro c0 L s Z q
  obtain ⟨h1, h2, h3⟩ := C58_proof_size hS hd hkey hs hp
  refine ⟨by rw [C62_bytes hf' hc', h2, h3], fun hm => ?_⟩
  have := C62_round_trip (S := S) hf hc ho ((fitsMemory_iff proof).2 (by rw [h1]; exact hm)) []
  rwa [List.append_nil] at this

end
end ZK
