import Verif.Properties.Configure
import Verif.Properties.SoundnessVerify
/-! C75: soundness for a circuit made with `configure`. -/
set_option autoImplicit false
set_option linter.unusedSectionVars false
namespace ZK
open Polynomial

section
variable {F : Type} [Field F] {s : Oracles (ProverOracle F) (ProverOracle F) (ProverOracle F)} {ts : List (ProverOracle F)}
  {calls : List (Call F)} {c : Configured F (ProverOracle F) (ProverOracle F) (ProverOracle F) (ProverOracle F)} {d : Domain F} {D : Nat}
  {sigmas : List (ProverOracle F)} {qBlind : ProverOracle F} {info : PermutationInfo F} {usableRows : Nat}

/-- Encoding and violated copies carry over from the columns of the client to those of the configured circuit. -/
theorem transport_encoding {m u m' u' : Nat} (hm : m = m') (hu : u = u') {deltas deltas' : List F} (hd : deltas = deltas')
    {cols cols' : List (ProverOracle F)} (hcols : List.Forall₂ (fun o o' => OracleData.erase o' = OracleData.erase o) cols cols')
    {tau : Equiv.Perm (Fin m × Fin u)} (henc : Encodes d deltas sigmas tau) :
    ∃ tau' : Equiv.Perm (Fin m' × Fin u'), Encodes d deltas' sigmas tau' ∧
      ((∀ x, cell cols' (tau' x) = cell cols' x) → ∀ x, cell cols (tau x) = cell cols x) := by
  subst hm hu hd
  have h : cols'.map (·.evals) = cols.map (·.evals) := by
    induction hcols with
    | nil => rfl
    | cons h _ ih => rw [List.map_cons, List.map_cons, erase_evals h, ih]
  refine ⟨tau, henc, fun hcop x => ?_⟩
  have hv : ∀ k r, colVal cols' k r = colVal cols k r := by
    intro k r
    unfold colVal
    rw [h]
  have := hcop x
  unfold cell at this ⊢
  rw [hv, hv] at this
  exact this

/-- **C75** A circuit made with `configure` is one that soundness is stated for. -/
theorem C75_enforced (hc : configureAll calls s ts = .ok c) (hg : GoodCircuit d D s ts calls sigmas qBlind info usableRows) {zh : F[X]}
    (hzh : (∃ o ∈ s.witness, o.shouldPermute = true) ∨ (∃ es qs ts, Call.lookup es qs ts ∈ calls) →
      ∀ i ≤ info.u, zh.eval (d.omega ^ i) = 0)
    (hrows : (∃ es qs ts, Call.lookup es qs ts ∈ calls) → MarksRows d info.u qBlind) {index : Index F} (hl : index.lookups = c.lookups) (hu : index.perm.usableRows = info.u) (hu' : index.usableRows = usableRows)
    (hdl : index.perm.deltas = info.deltas) (hle : d.size ≤ index.ext.size)
    (hcols : (∃ o ∈ s.witness, o.shouldPermute = true) → 0 < index.perm.maxCols) :
    Enforced d D index ⟨c.oracles.witness, c.oracles.inst, c.oracles.fixed, c.tables⟩ sigmas qBlind c.vos zh := by
  obtain ⟨h1, -, h2, h3, h4, h5, h6⟩ := circuit_parts hc hg hl hu hu' hdl hle hcols
  refine ⟨h1, hg.selector.1, ?_, h2, h3, fun h => ⟨(h6.shape h).1, (h6.shape h).2.1⟩, ?_, h6.usable, ?_⟩
  · intro o ho
    exact ⟨.curr, by rw [(hg.sigmaColumns o ho).2]; exact List.mem_singleton.2 rfl, rfl⟩
  · intro l hl
    obtain ⟨es, ts, g1, g2, g3, g4⟩ := h4 l hl
    exact ⟨es, ts, g1, g2, (h6.lookups l hl es ts g1 g2).1, fun e he q hq => (g3 e he).1 q hq, g4⟩
  · intro h
    have g1 := h.imp h5.1 h5.2
    have g2 := g1.elim hg.blinding hrows
    rw [← hu] at g2
    exact ⟨⟨g2.1.1, .curr, by rw [g2.1.2]; exact List.mem_singleton.2 rfl, rfl⟩, g2.2, by rw [hu]; exact hzh g1⟩

/-- **C75** The degrees of the configured circuit are bounded by those of the expressions the client wrote. -/
theorem C75_degrees (hc : configureAll calls s ts = .ok c) (hg : GoodCalls d.size calls) {N B K : Nat} (hN : d.size ≤ N) (hD : D ≤ N) (hpos : 0 < N)
    (hgates : ∀ e qs, Call.gate e qs ∈ calls → e.totalDegree * (D - 1) ≤ B)
    (hlookups : ∀ es qs ts, Call.lookup es qs ts ∈ calls → es.length ≤ K)
    {index : Index F} (hl : index.lookups = c.lookups) (hperm : (index.perm.maxCols + 2) * (N - 1) ≤ B) (hlook : 4 * (N - 1) ≤ B) :
    DegreeBounds d D N B K index c.vos := by
  have hC := configureAll_ok hc
  refine ⟨hN, hD, ?_, ?_, hperm, hlook⟩
  · intro vo hvo e' he'
    obtain ⟨⟨e, qs⟩, h1, e'', h2, rfl⟩ := mem_forall₂ hC.vos hvo
    obtain rfl := Res.ok.inj he'
    obtain ⟨k, h3, h4⟩ := VExpr.toExpr_degree s.witness s.inst s.fixed (D - 1) e _ h2
    exact ⟨k, h4.trans (hgates e qs (mem_gates.1 h1)), h3⟩
  · intro l hl' es0 he0
    rw [hl] at hl'
    obtain ⟨⟨es, qs, tqs⟩, h1, es', h2, rfl⟩ := mem_forall₂ hC.lookups hl'
    obtain rfl := Res.ok.inj he0
    have hcall := mem_lookups.1 h1
    refine ⟨by rw [← h2.length_eq]; exact hlookups _ _ _ hcall, fun e' he' => ?_⟩
    obtain ⟨e, he, h3⟩ := mem_forall₂ h2 he'
    obtain ⟨k, h4, h5⟩ := VExpr.toExpr_degree s.witness s.inst s.fixed (D - 1) e e' h3
    refine ⟨k, ?_, h4⟩
    have : e.totalDegree * (D - 1) ≤ 1 * (D - 1) := Nat.mul_le_mul_right _ ((hg.lookups es qs tqs hcall).2.2.2 e he)
    omega

variable [LinearOrder F] [FftParams F] [LawfulFft F]

open Classical in
/-- **C75** Soundness in the terms of the client. A client has columns, tables, gates and lookups that name columns by index, and a
permutation of the copied cells. The verifier makes the calls of `configure` on its handles, and the indexer makes the key from the
configured gates and lookups. If a gate, a lookup or a copy fails on the columns, then no strategy that commits to these columns is
accepted by an honest verifier except for few challenges. -/
theorem C75_soundness {W I K' : Type} [ConcreteOracle W] [ConcreteOracle I] [ConcreteOracle K'] {N B K Z Q : Nat}
    {S : Scheme F} {com : F[X] → S.Rand → S.Comm} {ck : S.CK} {key : VerifierKey S}
    (hS : HomomorphicScheme S ck key.vk com) (hB : Binding S key.vk com) (hinj : ∀ p q r s, com p r = com q s → p = q)
    (hd : d.Ok) (hn : 2 ≤ d.size)
    -- the circuit
    (hgood : GoodCircuit d D s ts calls sigmas qBlind info usableRows)
    (hrows : (∃ es qs ts, Call.lookup es qs ts ∈ calls) → MarksRows d info.u qBlind)
    {tau : Equiv.Perm (Fin (s.witness.filter (·.shouldPermute)).length × Fin info.u)} (henc : Encodes d info.deltas sigmas tau)
    -- the verifier's side
    {s' : Oracles (VerifierOracle F S.Comm) (InstanceVerifierOracle F) (VerifierOracle F S.Comm)} {ts' : List (VerifierOracle F S.Comm)}
    (hv : FreshVerifier S com s ts s' ts')
    {c' : Configured F (VerifierOracle F S.Comm) (InstanceVerifierOracle F) (VerifierOracle F S.Comm) (VerifierOracle F S.Comm)}
    (hc' : configureAll calls s' ts' = .ok c')
    {perm : List (VerifierOracle F S.Comm)} {vBlind : VerifierOracle F S.Comm}
    (hperm : List.Forall₂ (fun o p => SameConfig o p ∧ p.commitment = some (com (toPoly o.poly) S.emptyRand)) sigmas perm)
    (hblind : SameConfig qBlind vBlind ∧ vBlind.commitment = some (com (toPoly qBlind.poly) S.emptyRand))
    -- the key
    {copyFlag : W → Bool} {vk : S.VK} {ows : List W} {ois : List I} {ofs : List K'} {zh : List F}
    (hows : (∃ o ∈ s.witness, o.shouldPermute = true) → ∃ o ∈ ows, copyFlag o = true)
    (hkey : indexer copyFlag vk c'.vos c'.lookups ows ois ofs d zh info usableRows (S := S) = .ok key)
    (hzh : (∃ o ∈ s.witness, o.shouldPermute = true) ∨ (∃ es qs ts, Call.lookup es qs ts ∈ calls) →
      ∀ i ≤ info.u, (toPoly zh).eval (d.omega ^ i) = 0)
    -- degrees
    (hN : d.size ≤ N) (hDN : D ≤ N) (hgates : ∀ e qs, Call.gate e qs ∈ calls → e.totalDegree * (D - 1) ≤ B)
    (hlookups : ∀ es qs ts, Call.lookup es qs ts ∈ calls → es.length ≤ K)
    (hBp : (key.index.perm.maxCols + 2) * (N - 1) ≤ B) (hBl : 4 * (N - 1) ≤ B)
    (hZ : key.index.perm.numberOfZPolys (s.witness.filter (·.shouldPermute)).length = (.ok Z : Res (Err S.E) Nat))
    -- the columns violate the circuit
    (hfalse : ¬ (GateCallsHold d s calls (toPoly zh) ∧ LookupCallsHold d.size info.u s ts calls ∧
      ∀ x, cell (s.witness.filter (·.shouldPermute)) (tau x) = cell (s.witness.filter (·.shouldPermute)) x))
    -- the prover
    (P : Strategy S) (hP : P.Legal com D Q key ⟨c'.oracles.fixed, c'.tables, perm, vBlind⟩ c'.oracles.witness c'.oracles.inst d.size
      (s.witness.map (fun o => toPoly o.poly))) (T : Finset F) :
    ((Fintype.piFinset fun _ : Fin 9 => T).filter (fun x =>
      verify (S.answering (List.ofFn x)) (key.answering _) (VerifierPreprocessed.answering ⟨c'.oracles.fixed, c'.tables, perm, vBlind⟩ _)
        ((P.proof com x).answering _) c'.oracles.witness c'.oracles.inst c'.vos d.size zh = .ok ())).card
    ≤ soundnessError info.u K (s.witness.filter (·.shouldPermute)).length c'.vos.length c'.lookups.length Z Q B d.size D
        (toPoly zh).natDegree
        (c'.oracles.witness.length + 3 * c'.lookups.length + Q + Z + (c'.oracles.fixed.length + c'.tables.length + perm.length + 1))
        (rotationSets (c'.oracles.witness ++ c'.oracles.fixed ++ c'.tables ++ perm ++ [vBlind]) info.u).card
        (∑ r ∈ rotationSets (c'.oracles.witness ++ c'.oracles.fixed ++ c'.tables ++ perm ++ [vBlind]) info.u, r.length)
      * T.card ^ 8 := by
  obtain ⟨hboth, hset⟩ := C74_set_up hgood.fresh hv calls
  obtain ⟨c, hc⟩ := hboth.2 ⟨c', hc'⟩
  obtain ⟨hvos, hlks, hsu⟩ := hset c c' hc hc'
  obtain ⟨-, -, -, -, -, hle, -, hmax, -, hu, hdl, hlk, hur, -⟩ := indexer_ok hd hkey
  have hC := configureAll_ok hc
  have hlen := (configured_copied hC).length_eq
  rw [hlks] at hlk
  have hcols : (∃ o ∈ s.witness, o.shouldPermute = true) → 0 < key.index.perm.maxCols := fun h => by
    obtain ⟨o, ho, hf⟩ := hows h
    have := hmax (List.length_pos_of_mem (List.mem_filter.2 ⟨ho, hf⟩))
    omega
  obtain ⟨tau', henc', hcop'⟩ := transport_encoding (d := d) (sigmas := sigmas) hlen hu.symm hdl.symm
    (configured_copied hC) henc
  obtain ⟨m1, m2⟩ := C74_meaning hc hgood.fresh hgood.good
  have hpolys : s.witness.map (fun o => toPoly o.poly) = c.oracles.witness.map (fun o => toPoly o.poly) := by
    have := hC.oracles.1.erased
    generalize s.witness = a at this
    generalize c.oracles.witness = b at this
    induction this with
    | nil => rfl
    | cons h _ ih => rw [List.map_cons, List.map_cons, ih, erase_poly h]
  rw [hpolys] at hP
  have hmain := C57_honest_verifier (v := ⟨c.oracles.witness, c.oracles.inst, c.oracles.fixed, c.tables⟩) (vos := c.vos) hS hB hinj
    (hsu sigmas qBlind perm vBlind hperm hblind) hd.new_self hn
    (by
      obtain ⟨e, qs, h⟩ := hgood.gate
      obtain ⟨vo, hvo, -⟩ := mem_forall₂' hC.vos (mem_gates.2 h)
      exact List.ne_nil_of_mem hvo)
    (C75_enforced hc hgood hzh hrows hlk hu hur hdl hle hcols)
    (C75_degrees hc hgood.good hN hDN (by omega) hgates hlookups hlk hBp hBl) tau' henc'
    (fun h => hfalse ⟨(m1 _).1 h.1, (m2 _).1 (by
      have := h.2.2
      rw [hlk, hu] at this
      exact this), hcop' h.2.1⟩)
    (by rw [← hlen]; exact hZ) P hP T
  rw [hlk, hu, ← hlen] at hmain
  rw [hvos, hlks]
  exact hmain

end
end ZK
