import Verif.Properties.ProofSize
import Verif.Properties.Serialize
import Verif.Properties.TestSound
/-! C93: the sizes of the proofs the crate's tests of whole circuits make. -/
set_option autoImplicit false
set_option linter.unusedSectionVars false
open Polynomial
namespace ZK

theorem Res.orPanic_ok {ε ε' α : Type} {r : Res ε α} {x : α} (h : (r.orPanic : Res ε' α) = .ok x) : r = .ok x := by
  cases r with
  | ok y => exact congrArg Res.ok (Res.ok.inj h)
  | err y => cases h
  | panic => cases h

section
variable {F : Type} [Field F] [LinearOrder F] [FftParams F] [LawfulFft F] {d : Domain F} {t : CircuitTest F}

/-- **C93** The size of a test's proof. It depends on the shape of the circuit: the numbers of columns, calls and sigmas, the degree `m` of
the gates and the rotations of the configured columns. Any values may be in the columns, also values that do not satisfy the circuit. -/
theorem C93_circuit {S : Scheme F} {ck : S.CK} {vk : S.VK} {com : F[X] → S.Rand → S.Comm} (hS : HomomorphicScheme S ck vk com)
    (hd : d.Ok) (ht : t.Wellformed d.size) (hfit : t.Fits d.size)
    {m : Nat} (hdeg : GateDegrees d.size (FftParams.adicity F) m t.calls) {z : S.Z} {proof : TPProof S}
    (hp : runCircuitProver S ck vk d t z = .ok proof) :
    ∃ c, configureAll t.calls (t.prover d) (t.proverTables d) = .ok c ∧
      let w := t.columns.witness.length
      let L := lookupCount t.calls
      let s := t.scale d.size m
      let Z := t.products d.size m
      let q := (openedSets (c.oracles.witness ++ c.oracles.fixed ++ c.tables ++ t.proverSigmas d ++ [t.proverSelector d]) L Z t.info.u).card
      proof.infoCounts = [w, expectedEvals c.oracles.witness, expectedEvals c.oracles.fixed, expectedEvals c.tables, t.sigmas.length,
        2 * L, 3 * L, L, 2 * L, s, s, Z, expectedZEvals t.info.u Z, q] ∧
      proof.numCommitments = w + 3 * L + s + Z + 1 ∧
      proof.numFieldElements = expectedEvals c.oracles.witness + expectedEvals c.oracles.fixed + expectedEvals c.tables + t.sigmas.length + 1
        + 5 * L + s + expectedZEvals t.info.u Z + q := by
  have hgate : ∃ e qs, Call.gate e qs ∈ t.calls := by
    obtain ⟨e, qs, h, -⟩ := hdeg.reached
    exact ⟨e, qs, h⟩
  have hgood := CircuitTest.goodCircuit hd ht hfit hgate
  obtain ⟨p, hprover, hrun⟩ := Res.bind_eq_ok.1 hp
  unfold circuitProver at hprover
  obtain ⟨c, hc, hprover⟩ := Res.bind_eq_ok.1 hprover
  obtain ⟨key, hkey, hprover⟩ := Res.bind_eq_ok.1 hprover
  obtain rfl := Res.ok.inj hprover
  have hc := Res.orPanic_ok hc
  have hkey := Res.orPanic_ok hkey
  have hrun := Res.orPanic_ok hrun
  obtain ⟨key0, hkey0, hvk, hqd, -⟩ := C76_key (S := S) hd hgood hdeg hc vk
  obtain rfl := Res.ok.inj (hkey.symm.trans hkey0)
  subst hvk
  have hC := configureAll_ok hc
  have hcopied : (c.oracles.witness.filter (·.shouldPermute)).length = t.copiedCount := by
    rw [← (configured_copied hC).length_eq, CircuitTest.copiedCount_eq]
  have hL : c.lookups.length = lookupCount t.calls := by rw [← hC.lookups.length_eq, ← lookupCount_eq]
  have hscale : key.index.perm.maxCols = t.scale d.size m - 1 := by
    rw [indexer_cols hd hkey, hqd, hcopied, hL]
    rfl
  obtain ⟨-, -, -, -, hext, hle, hsz, hcols, -, hu, hdl, hlk, hur, -⟩ := indexer_ok hd hkey
  have hsupp := (C74_supported hc hgood hlk hu hur hdl hle (fun ⟨o, ho, h⟩ => by
    obtain ⟨o', ho', he⟩ := mem_forall₂' hC.oracles.1.erased ho
    have := hcols (List.length_pos_of_mem (List.mem_filter.2 ⟨ho', (erase_copied he).trans h⟩))
    omega)).1
  obtain ⟨h1, h2, h3⟩ := C58_proof_size (pk := ⟨key, ck⟩) hS hd hkey hsupp hrun
  have hw : c.oracles.witness.length = t.columns.witness.length := by
    rw [← hC.oracles.1.erased.length_eq]
    exact List.length_map ..
  have hs : (t.proverSigmas d).length = t.sigmas.length := List.length_map ..
  have hmc : t.scale d.size m - 1 + 1 = t.scale d.size m := by
    have : 0 < t.scale d.size m := by
      obtain ⟨-, -, h, -⟩ := indexer_sizes (copied := 0) (lookups := 0) (by obtain ⟨j, -, h⟩ := hd; exact ⟨j, congrArg Domain.size h⟩) hdeg.two hdeg.rows hdeg.field
      exact lt_of_lt_of_le (Nat.div_pos h hd.size_pos) (le_max_left _ _)
    omega
  have hZ : grandProducts t.copiedCount (t.scale d.size m - 1) = t.products d.size m := rfl
  simp only [hw, hs, hcopied, hL, hscale, hmc, hZ] at h1 h2 h3
  exact ⟨c, hc, h1, h2, h3⟩

/-- The number of evaluations depends on labels and rotations. -/
theorem expectedEvals_map (os : List (ProverOracle F)) : expectedEvals os =
    ((os.map (fun o => (o.label, o.rotations))).flatMap (fun p => p.2.map (fun r => (p.1, r.signed)))).toFinset.card := by
  unfold expectedEvals
  rw [List.flatMap_map]
  rfl

/-- The bytes of a proof of which the numbers are known. -/
theorem bytes_of_counts {S : Scheme F} {proof : TPProof S} {l : List Nat} {nc nf : Nat} (h1 : proof.infoCounts = l) (hl : ∀ n ∈ l, n < 2 ^ 64)
    (h2 : proof.numCommitments = nc) (h3 : proof.numFieldElements = nf) {f : Codec F} {c : Codec S.Comm} {o : Codec S.Proof} {kf kc : Nat}
    (hf : f.RoundTrip) (hc : c.RoundTrip) (ho : o.RoundTrip) (hf' : f.Sized kf) (hc' : c.Sized kc) :
    ((proofCodec f c o).write proof).length = 112 + nc * kc + nf * kf + (o.write proof.multiopen.opening).length ∧
    (proofCodec f c o).read ((proofCodec f c o).write proof) = some (proof, []) := by
  refine ⟨by rw [C62_bytes hf' hc', h2, h3], ?_⟩
  have := C62_round_trip (S := S) hf hc ho ((fitsMemory_iff proof).2 (by rw [h1]; exact hl)) []
  rwa [List.append_nil] at this

/-- A gate of degree three needs at most twice the rows of the domain. -/
theorem scale_three (hd : d.Ok) : 2 ^ Nat.clog 2 (3 * (d.size - 1) - d.size) / d.size ≤ 2 := by
  obtain ⟨k, hn⟩ : ∃ k, d.size = 2 ^ k := by
    obtain ⟨j, -, h⟩ := hd
    exact ⟨j, congrArg Domain.size h⟩
  generalize d.size = n at hn ⊢
  have hpos : 0 < n := by rw [hn]; positivity
  have h : Nat.clog 2 (3 * (n - 1) - n) ≤ k + 1 := Nat.clog_le_of_le_pow (by rw [pow_succ, ← hn]; omega)
  refine Nat.div_le_of_le_mul ((Nat.pow_le_pow_right (by norm_num) h).trans ?_)
  rw [pow_succ, ← hn]

/-- **C93** The proofs of `test_full_circuit_simple_lookup`, with any values in its columns and any number of rows from eight on: eleven
commitments and eighteen field elements. These are the numbers the test prints. With `kf` bytes for a field element and `kc` for a commitment
a proof has `112 + 11 kc + 18 kf` bytes besides the opening proof, and is read back. -/
theorem C93_lookup {S : Scheme F} {ck : S.CK} {vk : S.VK} {com : F[X] → S.Rand → S.Comm} (hS : HomomorphicScheme S ck vk com)
    (hd : d.Ok) (h8 : 8 ≤ d.size) (h4 : 4 * d.size ≤ 2 ^ FftParams.adicity F)
    {a b c q table selector : List F} (hlen : ∀ l ∈ [a, b, c, q, table, selector], l.length = d.size)
    {rows : Nat} (hrows : 0 < rows ∧ rows < d.size) (hsel : ∀ i < d.size, rows ≤ i → selector.getD i 0 = 1)
    {z : S.Z} {proof : TPProof S} (hp : runCircuitProver S ck vk d (lookupTest a b c q table selector rows) z = .ok proof) :
    proof.infoCounts = [3, 3, 1, 1, 0, 2, 3, 1, 2, 4, 4, 0, 0, 3] ∧ proof.numCommitments = 11 ∧ proof.numFieldElements = 18 ∧
    ∀ {f : Codec F} {g : Codec S.Comm} {o : Codec S.Proof} {kf kc : Nat}, f.RoundTrip → g.RoundTrip → o.RoundTrip → f.Sized kf → g.Sized kc →
      ((proofCodec f g o).write proof).length = 112 + 11 * kc + 18 * kf + (o.write proof.multiopen.opening).length ∧
      (proofCodec f g o).read ((proofCodec f g o).write proof) = some (proof, []) := by
  obtain ⟨cc, hc, h1, h2, h3⟩ := C93_circuit hS hd
    (lookupTest_wellformed (hlen _ (by simp)) (hlen _ (by simp)) (hlen _ (by simp)) (hlen _ (by simp)) (hlen _ (by simp)) (hlen _ (by simp)))
    (lookupTest_fits hrows hsel) (lookupTest_degrees h8 h4) hp
  have hs : (lookupTest a b c q table selector rows).scale d.size 3 = 4 := by
    have := scale_three hd
    show max _ (max 0 4) = 4
    omega
  have hZ : (lookupTest a b c q table selector rows).products d.size 3 = 0 := by
    unfold CircuitTest.products
    rw [hs]
    show (0 + (4 - 1) - 1) / (4 - 1) = 0
    norm_num
  obtain ⟨c0, e0, e1, e2, e3, e4⟩ : ∃ c0, configureAll (lookupTest a b c q table selector rows).calls
      ((lookupTest a b c q table selector rows).prover d) ((lookupTest a b c q table selector rows).proverTables d) = .ok c0 ∧
      c0.oracles.witness.map (fun o => (o.label, o.rotations)) = [(bytes "a", [.curr]), (bytes "b", [.curr]), (bytes "c", [.curr])] ∧
      c0.oracles.fixed.map (fun o => (o.label, o.rotations)) = [(bytes "q", [.curr])] ∧
      c0.tables.map (fun o => (o.label, o.rotations)) = [(bytes "t", [.curr])] ∧
      (c0.oracles.witness ++ c0.oracles.fixed ++ c0.tables ++ (lookupTest a b c q table selector rows).proverSigmas d ++
        [(lookupTest a b c q table selector rows).proverSelector d]).map (·.rotations) = List.replicate 6 [.curr] :=
    ⟨_, rfl, rfl, rfl, rfl, rfl⟩
  obtain rfl := Res.ok.inj (hc.symm.trans e0)
  have hq : (openedSets (cc.oracles.witness ++ cc.oracles.fixed ++ cc.tables ++ (lookupTest a b c q table selector rows).proverSigmas d ++
      [(lookupTest a b c q table selector rows).proverSelector d]) 1 0 0).card = 3 := by
    unfold openedSets
    rw [e4]
    decide
  have hw : expectedEvals cc.oracles.witness = 3 := by rw [expectedEvals_map, e1]; decide
  have hf : expectedEvals cc.oracles.fixed = 1 := by rw [expectedEvals_map, e2]; decide
  have ht : expectedEvals cc.tables = 1 := by rw [expectedEvals_map, e3]; decide
  simp only [hs, hZ] at h1 h2 h3
  rw [hw, hf, ht] at h1 h3
  suffices h : proof.infoCounts = [3, 3, 1, 1, 0, 2, 3, 1, 2, 4, 4, 0, 0, 3] ∧ proof.numCommitments = 11 ∧ proof.numFieldElements = 18 from
    ⟨h.1, h.2.1, h.2.2, fun k1 k2 k3 k4 k5 => bytes_of_counts h.1 (by simp) h.2.1 h.2.2 k1 k2 k3 k4 k5⟩
  refine ⟨h1.trans ?_, h2, h3.trans ?_⟩
  · show [3, 3, 1, 1, 0, 2 * 1, 3 * 1, 1, 2 * 1, 4, 4, 0, expectedZEvals 0 0, (openedSets _ 1 0 0).card] = _
    rw [hq]
    rfl
  · show 3 + 1 + 1 + 0 + 1 + 5 * 1 + 4 + expectedZEvals 0 0 + (openedSets _ 1 0 0).card = _
    rw [hq]
    rfl

/-- **C93** The proofs of `copy_plonk`, with any values in its columns and any number of rows from eight on, of which two or more are usable:
nine commitments and twenty-five field elements, and `112 + 9 kc + 25 kf` bytes besides the opening proof. -/
theorem C93_copy {S : Scheme F} {ck : S.CK} {vk : S.VK} {com : F[X] → S.Rand → S.Comm} (hS : HomomorphicScheme S ck vk com)
    (hd : d.Ok) (h8 : 8 ≤ d.size) (h4 : 4 * d.size ≤ 2 ^ FftParams.adicity F)
    {a b c pi qm ql qr qo qc s1 s2 s3 selector deltas : List F}
    (hlen : ∀ l ∈ [a, b, c, pi, qm, ql, qr, qo, qc, s1, s2, s3, selector], l.length = d.size) {u : Nat} (hu2 : 2 ≤ u) (hu : u < d.size)
    (hdel : deltas.length = 3) (hsel : ∀ i < d.size, selector.getD i 0 = if i ≤ u then 0 else 1)
    {z : S.Z} {proof : TPProof S}
    (hp : runCircuitProver S ck vk d (copyTest a b c pi qm ql qr qo qc s1 s2 s3 selector deltas u) z = .ok proof) :
    proof.infoCounts = [3, 3, 5, 0, 3, 0, 0, 0, 0, 2, 2, 3, 8, 3] ∧ proof.numCommitments = 9 ∧ proof.numFieldElements = 25 ∧
    ∀ {f : Codec F} {g : Codec S.Comm} {o : Codec S.Proof} {kf kc : Nat}, f.RoundTrip → g.RoundTrip → o.RoundTrip → f.Sized kf → g.Sized kc →
      ((proofCodec f g o).write proof).length = 112 + 9 * kc + 25 * kf + (o.write proof.multiopen.opening).length ∧
      (proofCodec f g o).read ((proofCodec f g o).write proof) = some (proof, []) := by
  obtain ⟨cc, hc, h1, h2, h3⟩ := C93_circuit hS hd (copyTest_wellformed hlen) (copyTest_fits hu hdel hsel) (copyTest_degrees h8 h4) hp
  have hs : (copyTest a b c pi qm ql qr qo qc s1 s2 s3 selector deltas u).scale d.size 3 = 2 := by
    have := scale_three hd
    show max _ (max 2 0) = 2
    omega
  have hZ : (copyTest a b c pi qm ql qr qo qc s1 s2 s3 selector deltas u).products d.size 3 = 3 := by
    unfold CircuitTest.products
    rw [hs]
    show (3 + (2 - 1) - 1) / (2 - 1) = 3
    norm_num
  obtain ⟨c0, e0, e1, e2, e3, e4⟩ : ∃ c0, configureAll (copyTest a b c pi qm ql qr qo qc s1 s2 s3 selector deltas u).calls
      ((copyTest a b c pi qm ql qr qo qc s1 s2 s3 selector deltas u).prover d)
      ((copyTest a b c pi qm ql qr qo qc s1 s2 s3 selector deltas u).proverTables d) = .ok c0 ∧
      c0.oracles.witness.map (fun o => (o.label, o.rotations)) = [(bytes "a", [.curr]), (bytes "b", [.curr]), (bytes "c", [.curr])] ∧
      c0.oracles.fixed.map (fun o => (o.label, o.rotations)) = [(bytes "qm", [.curr]), (bytes "ql", [.curr]), (bytes "qr", [.curr]),
        (bytes "qo", [.curr]), (bytes "qc", [.curr])] ∧
      c0.tables = [] ∧
      (c0.oracles.witness ++ c0.oracles.fixed ++ c0.tables ++ (copyTest a b c pi qm ql qr qo qc s1 s2 s3 selector deltas u).proverSigmas d ++
        [(copyTest a b c pi qm ql qr qo qc s1 s2 s3 selector deltas u).proverSelector d]).map (·.rotations) = List.replicate 12 [.curr] :=
    ⟨_, rfl, rfl, rfl, rfl, rfl⟩
  obtain rfl := Res.ok.inj (hc.symm.trans e0)
  have hq : (openedSets (cc.oracles.witness ++ cc.oracles.fixed ++ cc.tables ++
      (copyTest a b c pi qm ql qr qo qc s1 s2 s3 selector deltas u).proverSigmas d ++
      [(copyTest a b c pi qm ql qr qo qc s1 s2 s3 selector deltas u).proverSelector d]) 0 3 u).card = 3 := by
    unfold openedSets
    rw [e4, if_neg (by decide), if_pos (by decide), if_pos ⟨by decide, hu2⟩]
    have h : (List.replicate 12 [Rotation.curr]).toFinset ∪ {[Rotation.curr]} ∪ ∅ ∪ {[Rotation.curr, Rotation.next]} =
      ({[Rotation.curr], [Rotation.curr, Rotation.next]} : Finset (List Rotation)) := by decide
    rw [h, Finset.card_union_of_disjoint]
    · rw [Finset.card_singleton]
      decide
    · simp
  have hw : expectedEvals cc.oracles.witness = 3 := by rw [expectedEvals_map, e1]; decide
  have hf : expectedEvals cc.oracles.fixed = 5 := by rw [expectedEvals_map, e2]; decide
  have ht : expectedEvals cc.tables = 0 := by rw [e3]; rfl
  have hz : expectedZEvals u 3 = 8 := by
    unfold expectedZEvals
    rw [if_neg (by omega)]
  simp only [hs, hZ] at h1 h2 h3
  rw [hw, hf, ht] at h1 h3
  suffices h : proof.infoCounts = [3, 3, 5, 0, 3, 0, 0, 0, 0, 2, 2, 3, 8, 3] ∧ proof.numCommitments = 9 ∧ proof.numFieldElements = 25 from
    ⟨h.1, h.2.1, h.2.2, fun k1 k2 k3 k4 k5 => bytes_of_counts h.1 (by simp) h.2.1 h.2.2 k1 k2 k3 k4 k5⟩
  refine ⟨h1.trans ?_, h2, h3.trans ?_⟩
  · show [3, 3, 5, 0, 3, 2 * 0, 3 * 0, 0, 2 * 0, 2, 2, 3, expectedZEvals u 3, (openedSets _ 0 3 u).card] = _
    rw [hq, hz]
  · show 3 + 5 + 0 + 3 + 1 + 5 * 0 + 2 + expectedZEvals u 3 + (openedSets _ 0 3 u).card = _
    rw [hq, hz]

end
end ZK
