import Verif.Properties.TestSize
import Verif.Properties.GateKzg
/-! C97: the sizes of the proofs the crate's tests of single gates make. -/
set_option autoImplicit false
set_option linter.unusedSectionVars false
open Polynomial
namespace ZK

section
variable {F : Type} [Field F] [LinearOrder F] [FftParams F] [LawfulFft F] {d : Domain F} {t : TestColumns F}
  {gate : VExpr F × List VirtualQuery} {m : Nat}

/-- **C97** The size of the proof of a test of a single gate of degree `m`. Any values may be in the columns, also values for which the gate is
not zero. -/
theorem C97_gate {S : Scheme F} {ck : S.CK} {vk : S.VK} {com : F[X] → S.Rand → S.Comm} (hS : HomomorphicScheme S ck vk com)
    (hd : d.Ok) (ht : t.Wellformed d.size)
    (hfits : GateFits d.size (FftParams.adicity F) m (fun ty => (t.ofType ty).length) gate) {z : S.Z} {proof : TPProof S}
    (hp : runProver S ck vk d t gate z = .ok proof) :
    ∃ vo o, (GenericVO.init gate).configure (t.prover d) = .ok (vo, o) ∧
      let w := t.witness.length
      let s := 2 ^ Nat.clog 2 (m * (d.size - 1) - d.size) / d.size
      let q := (openedSets (o.witness ++ o.fixed ++ [testSelector]) 0 0 0).card
      proof.infoCounts = [w, expectedEvals o.witness, expectedEvals o.fixed, 0, 0, 0, 0, 0, 0, s, s, 0, 0, q] ∧
      proof.numCommitments = w + s + 1 ∧
      proof.numFieldElements = expectedEvals o.witness + expectedEvals o.fixed + 1 + s + q := by
  obtain ⟨hgood, hrange, hdeg⟩ := hfits.goodCircuit hd ht
  obtain ⟨p, hprover, hrun⟩ := Res.bind_eq_ok.1 hp
  unfold testProver at hprover
  obtain ⟨⟨vo, o⟩, hc, hprover⟩ := Res.bind_eq_ok.1 hprover
  obtain ⟨key, hkey, hprover⟩ := Res.bind_eq_ok.1 hprover
  obtain rfl := Res.ok.inj hprover
  have hc := Res.orPanic_ok hc
  have hkey := Res.orPanic_ok hkey
  have hrun := Res.orPanic_ok hrun
  obtain ⟨c, -, -, hcc, -⟩ := C76_both_sides vk hd hgood hrange hdeg (t.fresh S com d)
  obtain ⟨key0, hkey0, hvk, hqd, -⟩ := C76_key (S := S) hd hgood hdeg hcc vk
  have hC := configureAll_ok hcc
  have hcopied : (c.oracles.witness.filter (·.shouldPermute)).length = 0 := by
    rw [← (configured_copied hC).length_eq, List.length_eq_zero_iff, List.filter_eq_nil_iff]
    intro o ho h
    obtain ⟨c, -, rfl⟩ := List.mem_map.1 ho
    cases h
  have hsupp := fun h1 h2 h3 h4 h5 => (C74_supported (index := key.index) hcc hgood h1 h2 h3 h4 h5 (fun ⟨o, ho, h⟩ => by
    obtain ⟨c, -, rfl⟩ := List.mem_map.1 ho
    cases h)).1
  have hw : c.oracles.witness.length = t.witness.length := by
    rw [← hC.oracles.1.erased.length_eq]
    exact List.length_map ..
  obtain ⟨vo', o', g1, rfl⟩ := configureAll_single hcc
  obtain ⟨rfl, rfl⟩ := Prod.mk.inj (Res.ok.inj (g1.symm.trans hc))
  obtain rfl := Res.ok.inj (hkey.symm.trans hkey0)
  subst hvk
  have hmc : key.index.perm.maxCols + 1 = 2 ^ Nat.clog 2 (m * (d.size - 1) - d.size) / d.size := by
    obtain ⟨-, -, h, -⟩ := indexer_sizes (copied := 0) (lookups := 0) (by obtain ⟨j, -, h⟩ := hd; exact ⟨j, congrArg Domain.size h⟩)
      hdeg.two hdeg.rows hdeg.field
    have := Nat.div_pos h hd.size_pos
    rw [indexer_cols hd hkey, hqd, hcopied]
    show max _ (max 0 0) - 1 + 1 = _
    omega
  obtain ⟨-, -, -, -, hext, hle, hsz, hcols, -, hu, hdl, hlk, hur, -⟩ := indexer_ok hd hkey
  obtain ⟨h1, h2, h3⟩ := C58_proof_size (pk := ⟨key, ck⟩) hS hd hkey (hsupp hlk hu hur hdl hle) hrun
  refine ⟨vo', o', g1, ?_⟩
  have hZ : grandProducts 0 key.index.perm.maxCols = 0 := by
    unfold grandProducts
    rcases Nat.eq_zero_or_pos key.index.perm.maxCols with h | h
    · rw [h, Nat.div_zero]
    · exact Nat.div_eq_of_lt (by omega)
  simp only [hw, hcopied, hmc, hZ, List.append_nil, List.length_nil] at h1 h2 h3
  exact ⟨h1, h2, h3⟩

/-- **C97** The proofs of `test_simple_mul`, with any values in its columns and any number of rows from eight on: four commitments and six field
elements. With `kf` bytes for a field element and `kc` for a commitment a proof has `112 + 4 kc + 6 kf` bytes besides the opening proof, and
is read back. -/
theorem C97_mul {S : Scheme F} {ck : S.CK} {vk : S.VK} {com : F[X] → S.Rand → S.Comm} (hS : HomomorphicScheme S ck vk com)
    (hd : d.Ok) (h8 : 8 ≤ d.size) (h4 : 4 * d.size ≤ 2 ^ FftParams.adicity F)
    {la lb lc : Label} (hl : la ≠ lb) {a b c : List F} (ha : a.length = d.size) (hb : b.length = d.size) (hc : c.length = d.size)
    {z : S.Z} {proof : TPProof S} (hp : runProver S ck vk d ⟨[(la, a), (lb, b)], [(lc, c)], []⟩ Gates.mul z = .ok proof) :
    proof.infoCounts = [2, 2, 0, 0, 0, 0, 0, 0, 0, 1, 1, 0, 0, 2] ∧ proof.numCommitments = 4 ∧ proof.numFieldElements = 6 ∧
    ∀ {f : Codec F} {g : Codec S.Comm} {o : Codec S.Proof} {kf kc : Nat}, f.RoundTrip → g.RoundTrip → o.RoundTrip → f.Sized kf → g.Sized kc →
      ((proofCodec f g o).write proof).length = 112 + 4 * kc + 6 * kf + (o.write proof.multiopen.opening).length ∧
      (proofCodec f g o).read ((proofCodec f g o).write proof) = some (proof, []) := by
  obtain ⟨ht, hfits⟩ := mul_fits (F := F) (lc := lc) h8 h4 hl ha hb hc
  obtain ⟨vo, o, h0, h1, h2, h3⟩ := C97_gate hS hd ht hfits hp
  have hs : 2 ^ Nat.clog 2 (2 * (d.size - 1) - d.size) / d.size = 1 := by
    obtain ⟨j, hj⟩ : ∃ j, d.size = 2 ^ j := by
      obtain ⟨j, -, h⟩ := hd
      exact ⟨j, congrArg Domain.size h⟩
    have h : Nat.clog 2 (2 * (d.size - 1) - d.size) = j := by
      refine le_antisymm (Nat.clog_le_of_le_pow (by rw [← hj]; omega)) ?_
      by_contra hlt
      have hlt : Nat.clog 2 (2 * (d.size - 1) - d.size) ≤ j - 1 := by omega
      have hle := (Nat.le_pow_clog (by norm_num : 1 < 2) (2 * (d.size - 1) - d.size)).trans (Nat.pow_le_pow_right (by norm_num) hlt)
      have hj0 : j ≠ 0 := by
        rintro rfl
        omega
      have : d.size = 2 * 2 ^ (j - 1) := by rw [hj, ← pow_succ', Nat.sub_add_cancel (Nat.one_le_iff_ne_zero.2 hj0)]
      omega
    rw [h, ← hj]
    exact Nat.div_self hd.size_pos
  obtain ⟨e1, e2, e3⟩ : o.witness.map (fun o => (o.label, o.rotations)) = [(la, [.curr]), (lb, [.curr])] ∧ o.fixed = [] ∧
      (o.witness ++ o.fixed ++ [testSelector]).map ProverOracle.rotations = [[Rotation.curr], [Rotation.curr], []] := by
    cases h0
    exact ⟨rfl, rfl, rfl⟩
  have hq : (openedSets (o.witness ++ o.fixed ++ [testSelector]) 0 0 0).card = 2 := by
    unfold openedSets
    rw [e3]
    decide
  have hw : expectedEvals o.witness = 2 := by
    rw [expectedEvals_map, e1]
    show ([(la, _), (lb, _)] : List (Label × ℤ)).toFinset.card = 2
    rw [List.toFinset_card_of_nodup (by simp [hl])]
    rfl
  have hf : expectedEvals o.fixed = 0 := by rw [e2]; rfl
  simp only [hs, hw, hf, hq] at h1 h2 h3
  exact ⟨h1, h2, h3, fun k1 k2 k3 k4 k5 => bytes_of_counts h1 (by simp) h2 h3 k1 k2 k3 k4 k5⟩

end
end ZK
