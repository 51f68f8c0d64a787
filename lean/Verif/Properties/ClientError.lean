import Verif.Properties.CircuitTest
import Verif.Properties.RandomOracle
import Verif.Spec.ClientError
/-! With which probability a client, and a test of a whole circuit, fails (C82). -/
set_option autoImplicit false
set_option linter.unusedSectionVars false
open Polynomial
namespace ZK

theorem lookupCount_eq {F : Type} (calls : List (Call F)) : lookupCount calls = (calls.filterMap Call.isLookup?).length := by
  induction calls with
  | nil => rfl
  | cons call calls ih =>
    cases call with
    | gate e qs => exact ih
    | lookup es qs ts => exact congrArg Nat.succ ih

section
variable {F : Type} [Field F] [LinearOrder F] [FftParams F] [LawfulFft F] [Fintype F] [MeasurableSpace F] [DiscreteMeasurableSpace F]
variable {d : Domain F}

section
variable {s : Oracles (ProverOracle F) (ProverOracle F) (ProverOracle F)} {ts : List (ProverOracle F)} {calls : List (Call F)}
  {sigmas : List (ProverOracle F)} {qBlind : ProverOracle F} {info : PermutationInfo F} {usableRows : Nat}

/-- **C82** The client of C76 with a random oracle: with `m` copied columns of `u` rows, `l` lookups of `u'` usable rows and `n` rows, the
probability that the client's prover returns no proof, or one the client's verifier does not accept, is at most
`(m * u + 2 * l * u' + 1 + n) / |F|`, whatever the prover's random source is. -/
theorem C82_client {S : Scheme F} {ck : S.CK} {vk : S.VK} {com : F[X] → S.Rand → S.Comm} (hS : HomomorphicScheme S ck vk com)
    (hd : d.Ok) (hn : SupportsDegree S ck d.size)
    -- the circuit
    (hgood : GoodCircuit d d.size s ts calls sigmas qBlind info usableRows) (hrange : InRange s.count ts.length calls)
    {m : Nat} (hdeg : GateDegrees d.size (FftParams.adicity F) m calls)
    {tau : Equiv.Perm (Fin (s.witness.filter (·.shouldPermute)).length × Fin info.u)} (henc : MadeFrom d info.deltas sigmas tau)
    -- the verifier's side
    {s' : Oracles (VerifierOracle F S.Comm) (InstanceVerifierOracle F) (VerifierOracle F S.Comm)} {ts' : List (VerifierOracle F S.Comm)}
    (hv : FreshVerifier S com s ts s' ts') {perm : List (VerifierOracle F S.Comm)} {vBlind : VerifierOracle F S.Comm}
    (hperm : List.Forall₂ (fun o p => SameConfig o p ∧ p.commitment = some (com (toPoly o.poly) S.emptyRand)) sigmas perm)
    (hblind : SameConfig qBlind vBlind ∧ vBlind.commitment = some (com (toPoly qBlind.poly) S.emptyRand))
    -- the columns satisfy the circuit
    (hg : GateCallsHold d s calls (X ^ d.size - 1)) (hl : LookupCallsHold d.size usableRows s ts calls)
    (hcop : ∀ x, cell (s.witness.filter (·.shouldPermute)) (tau x) = cell (s.witness.filter (·.shouldPermute)) x) :
    ∃ c c' key, configureAll calls s ts = .ok c ∧ configureAll calls s' ts' = .ok c' ∧ c'.vos = c.vos ∧
      indexer (fun o => o.shouldPermute) vk c.vos c.lookups c.oracles.witness c.oracles.inst c.oracles.fixed d d.vanishing info usableRows
        (S := S) = .ok key ∧
      indexer (fun o => o.shouldPermute) vk c'.vos c'.lookups c'.oracles.witness c'.oracles.inst c'.oracles.fixed d d.vanishing info
        usableRows (S := S) = .ok key ∧
      ∀ z, randomOracle F {H | ¬ ∃ proof,
        prove (S.hashing H) (ProverKey.hashing ⟨key, ck⟩ H) (.new _ c.oracles.fixed sigmas c.tables qBlind key.index) c.oracles.witness
          c.oracles.inst c.vos d.size z = .ok proof ∧
        verify (S.hashing H) (key.hashing H) (VerifierPreprocessed.hashing (S := S) ⟨c'.oracles.fixed, c'.tables, perm, vBlind⟩ H) proof
          c'.oracles.witness c'.oracles.inst c'.vos d.size d.vanishing = .ok ()}
      ≤ (((s.witness.filter (·.shouldPermute)).length * info.u + 2 * (lookupCount calls * usableRows) + 1 + d.size
          : Nat) : ENNReal) / (Fintype.card F : ENNReal) := by
  obtain ⟨c, c', key, hc, hc', hvos, hkey, hkey', rfl, hq⟩ := C76_both_sides vk hd hgood hrange hdeg hv
  have hz : toPoly d.vanishing = X ^ d.size - 1 := toPoly_vanishing d hd.size_pos
  have hzd : (toPoly d.vanishing).natDegree = d.size := by rw [hz]; exact natDegree_X_pow_sub_C (r := (1 : F))
  have h1 : 1 < d.size := hdeg.rows.one_lt
  have hC := configureAll_ok hc
  refine ⟨c, c', key, hc, hc', hvos, hkey, hkey', fun z => ?_⟩
  obtain ⟨-, hset⟩ := C74_set_up hgood.fresh hv calls
  obtain ⟨-, -, hsu⟩ := hset c c' hc hc'
  obtain ⟨-, -, -, -, -, hle, -, hmax, -, hu, hdl, hlk, hur, -⟩ := indexer_ok hd hkey
  obtain ⟨hs, hp⟩ := C74_supported hc hgood hlk hu hur hdl hle (fun ⟨o, ho, hp⟩ => by
    obtain ⟨o', ho', he⟩ := mem_forall₂' hC.oracles.1.erased ho
    have := hmax (List.length_pos_of_mem (List.mem_filter.2 ⟨ho', (erase_copied he).trans hp⟩))
    omega)
  obtain ⟨tau', henc', hcop'⟩ := transport_copies (d := d) (sigmas := sigmas) (configured_copied hC).length_eq hu.symm hdl.symm
    (configured_copied hC) henc hcop
  obtain ⟨m1, m2⟩ := C74_meaning hc hgood.fresh hgood.good
  rw [hvos, (configured_copied hC).length_eq, ← hu, lookupCount_eq, hC.lookups.length_eq, ← hlk, ← hur]
  refine C67_completeness_error_random_oracle (pk := ⟨key, ck⟩) hS hd h1 hn hkey (trim_vanishing d).symm (by rw [hz]) (Or.inl hz) hq
    (fun _ => by rw [hzd]; omega) hs hp henc' (hsu sigmas qBlind perm vBlind hperm hblind)
    (by rw [hz]; exact (m1 _).2 hg) hcop' ?_ z
  rw [hlk, hur]
  exact (m2 _).2 hl

end

section
variable {t : CircuitTest F}

theorem circuitProver_hashing {S : Scheme F} {vk : S.VK} {p : CircuitProver S} (h : circuitProver S vk d t = .ok p) (H : History → F) :
    circuitProver (S.hashing H) vk d t = .ok ⟨p.key.hashing H, p.made⟩ := by
  unfold circuitProver at h ⊢
  obtain ⟨c, h1, h⟩ := Res.bind_eq_ok.1 h
  obtain ⟨key, h2, h⟩ := Res.bind_eq_ok.1 h
  obtain rfl := Res.ok.inj h
  refine Res.bind_eq_ok.2 ⟨c, h1, Res.bind_eq_ok.2 ⟨key.hashing H, ?_, rfl⟩⟩
  cases hx : indexer (fun o => o.shouldPermute) vk c.vos c.lookups c.oracles.witness c.oracles.inst c.oracles.fixed d d.vanishing t.info t.rows
    (S := S) with
  | ok k =>
    rw [hx] at h2
    obtain rfl := Res.ok.inj h2
    rw [indexer_hashing hx H]
    rfl
  | err e => rw [hx] at h2; cases h2
  | panic => rw [hx] at h2; cases h2

/-- **C82** The test program of a whole circuit, for all columns, calls, copies and lookups that satisfy the circuit, with a random oracle in
place of the Fiat-Shamir generator. The probability that the program does not end with an accepted proof is at most
`(m * u + 2 * l * u' + 1 + n) / |F|`, where `m` columns of `u` rows are copied and there are `l` lookups of `u'` usable rows. -/
theorem C82_circuit {S : Scheme F} {ck : S.CK} {vk : S.VK} {com : F[X] → S.Rand → S.Comm} (hS : HomomorphicScheme S ck vk com)
    (hplain : ∀ p cs, S.commitPlain ck p = .ok cs → cs = [com (toPoly p.poly) S.emptyRand])
    (hd : d.Ok) (hn : SupportsDegree S ck d.size) (ht : t.Wellformed d.size) (hfit : t.Fits d.size)
    {m : Nat} (hdeg : GateDegrees d.size (FftParams.adicity F) m t.calls)
    {tau : Equiv.Perm (Fin t.columns.witness.length × Fin t.info.u)} (hholds : t.Holds d tau) (z : S.Z) :
    randomOracle F {H | ¬ t.Succeeds (S.hashing H) ck vk d z}
    ≤ ((t.copiedCount * t.info.u + 2 * (lookupCount t.calls * t.rows) + 1 + d.size : Nat) : ENNReal) / (Fintype.card F : ENNReal) := by
  obtain ⟨hgood, hrange, hv, hperm, hblind, hg, hl, tau', ht1, ht2⟩ := CircuitTest.client S com hd ht hfit hdeg hholds
  obtain ⟨c, c', key, hc, hc', -, hkey, hkey', h⟩ := C82_client hS hd hn hgood hrange hdeg ht1 hv hperm hblind hg hl ht2
  have hcount : ((t.prover d).witness.filter (·.shouldPermute)).length = t.copiedCount := by
    unfold CircuitTest.copiedCount
    by_cases hcp : t.copied = true
    · rw [CircuitTest.filter_copied hcp, if_pos hcp]
      exact List.length_map ..
    · rw [CircuitTest.filter_plain (by simpa using hcp), if_neg hcp]
      rfl
  have hprover : circuitProver S vk d t = .ok ⟨key, c⟩ := by
    unfold circuitProver
    rw [hc]
    exact Res.bind_eq_ok.2 ⟨_, rfl, Res.bind_eq_ok.2 ⟨_, by rw [hkey]; rfl, rfl⟩⟩
  have h := h z
  rw [hcount] at h
  refine le_trans (MeasureTheory.measure_mono fun H hH => ?_) h
  rintro ⟨proof, h1, h2⟩
  refine hH ⟨proof, Res.bind_eq_ok.2 ⟨_, circuitProver_hashing hprover H, ?_⟩, ?_⟩
  · exact congrArg Res.orPanic h1
  · rw [runCircuitVerifier_eq (S := S.hashing H) (com := com) hplain ⟨hn.commit, hn.commitPlain, hn.open_⟩ hc' (indexer_hashing hkey' H)]
    exact h2

end
end
end ZK
