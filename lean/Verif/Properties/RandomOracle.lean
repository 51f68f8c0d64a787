import Verif.Lemmas.RandomOracle
import Verif.Properties.CompletenessError
/-! C67: the completeness error of the non-interactive argument with a random oracle. -/
set_option autoImplicit false
set_option linter.unusedSectionVars false
namespace ZK
open Polynomial MeasureTheory

section
variable {F : Type} [Field F] [LinearOrder F] [FftParams F]

/-- The messages of the prover up to the evaluation challenge for given challenges. Nothing here depends on the transcript. -/
structure Messages (S : Scheme F) (ck : S.CK) (index : Index F) (zhInv : List F) (view : ProverView F) (perm : List (ProverOracle F))
    (qBlind : ProverOracle F) (vos : List (GenericVO F)) (d : Domain F) (z : S.Z) (theta beta gamma alpha : F)
    (rounds : ProverRounds F) (quotient : List (ProverOracle F)) (wc lc zc lzc qc : List (S.Comm × S.Rand)) (z' : S.Z) : Prop where
  run : ∃ z1 z2 z3 z4 z5 z6 z7,
    S.commit ck (view.witness.map (·.toLabeled)) z = .ok (wc, z1) ∧
    lookupRound (S := S) view index d theta z1 = .ok (rounds.lookups, z2) ∧
    S.commit ck ((primes rounds.lookups).map (·.toLabeled)) z2 = .ok (lc, z3) ∧
    permutationRound (S := S) (ε := Err S.E) index (view.witness.filter (·.shouldPermute)) perm d beta gamma z3 = .ok (rounds.zs, z4) ∧
    S.commit ck (rounds.zs.map (·.toLabeled)) z4 = .ok (zc, z5) ∧
    subsetEqualityRound (S := S) (ε := Err S.E) index rounds.lookups d beta gamma z5 = .ok (rounds.lookupZs, z6) ∧
    S.commit ck (rounds.lookupZs.map (·.toLabeled)) z6 = .ok (lzc, z7) ∧
    quotientRound view vos index zhInv perm qBlind rounds d alpha beta gamma = .ok quotient ∧
    S.commit ck (quotient.map (·.toLabeled)) z7 = .ok (qc, z')

theorem Messages.unique {S : Scheme F} {ck : S.CK} {index : Index F} {zhInv : List F} {view : ProverView F} {perm : List (ProverOracle F)}
    {qBlind : ProverOracle F} {vos : List (GenericVO F)} {d : Domain F} {z : S.Z} {theta beta gamma alpha : F}
    {r r' : ProverRounds F} {q q' : List (ProverOracle F)} {wc lc zc lzc qc wc' lc' zc' lzc' qc' : List (S.Comm × S.Rand)} {y y' : S.Z}
    (h : Messages S ck index zhInv view perm qBlind vos d z theta beta gamma alpha r q wc lc zc lzc qc y)
    (h' : Messages S ck index zhInv view perm qBlind vos d z theta beta gamma alpha r' q' wc' lc' zc' lzc' qc' y') :
    r = r' ∧ q = q' ∧ wc = wc' ∧ lc = lc' ∧ zc = zc' ∧ lzc = lzc' ∧ qc = qc' ∧ y = y' := by
  obtain ⟨ls, zs, lzs⟩ := r
  obtain ⟨ls', zs', lzs'⟩ := r'
  obtain ⟨z1, z2, z3, z4, z5, z6, z7, a1, a2, a3, a4, a5, a6, a7, a8, a9⟩ := h.run
  obtain ⟨z1', z2', z3', z4', z5', z6', z7', b1, b2, b3, b4, b5, b6, b7, b8, b9⟩ := h'.run
  obtain ⟨rfl, rfl⟩ := Prod.mk.inj (Res.ok.inj (a1.symm.trans b1))
  obtain ⟨rfl, rfl⟩ := Prod.mk.inj (Res.ok.inj (a2.symm.trans b2))
  obtain ⟨rfl, rfl⟩ := Prod.mk.inj (Res.ok.inj (a3.symm.trans b3))
  obtain ⟨rfl, rfl⟩ := Prod.mk.inj (Res.ok.inj (a4.symm.trans b4))
  obtain ⟨rfl, rfl⟩ := Prod.mk.inj (Res.ok.inj (a5.symm.trans b5))
  obtain ⟨rfl, rfl⟩ := Prod.mk.inj (Res.ok.inj (a6.symm.trans b6))
  obtain ⟨rfl, rfl⟩ := Prod.mk.inj (Res.ok.inj (a7.symm.trans b7))
  obtain rfl := Res.ok.inj (a8.symm.trans b8)
  obtain ⟨rfl, rfl⟩ := Prod.mk.inj (Res.ok.inj (a9.symm.trans b9))
  exact ⟨rfl, rfl, rfl, rfl, rfl, rfl, rfl, rfl⟩

theorem proveRounds_messages (S : Scheme F) {pk : ProverKey S} {pre : ProverPreprocessed S} {ws is : List (ProverOracle F)}
    {vos : List (GenericVO F)} {d : Domain F} {n : Nat} (hd : Domain.new (F := F) n = some d) {z : S.Z} {tr : ProverTrace S}
    (h : proveRounds S pk pre ws is vos n z = .ok tr) :
    Messages S pk.ck pk.vk.index pk.vk.zhInverses ⟨ws.map (·.computeExtended pk.vk.index.ext), is.map (·.computeExtended pk.vk.index.ext),
      pre.fixed, pre.table⟩ pre.perm pre.qBlind vos d z tr.chal.theta tr.chal.beta tr.chal.gamma tr.chal.alpha tr.rounds tr.quotient
      tr.wc tr.lc tr.zc tr.lzc tr.qc tr.z ∧
    tr.view = ⟨ws.map (·.computeExtended pk.vk.index.ext), is.map (·.computeExtended pk.vk.index.ext), pre.fixed, pre.table⟩ := by
  unfold proveRounds at h
  simp only [Res.bind_eq_ok, Res.mapErr_eq_ok, Res.unwrap_eq_ok] at h
  obtain ⟨⟨wc, z1⟩, h1, domain, h2, ⟨lks, z2⟩, h3, ⟨lc, z3⟩, h4, ⟨zs, z4⟩, h5, ⟨zc, z5⟩, h6, ⟨lzs, z6⟩, h7,
    ⟨lzc, z7⟩, h8, quot, h9, ⟨qc, z8⟩, h10, h11⟩ := h
  obtain rfl := Option.some.inj (h2.symm.trans hd)
  cases h11
  exact ⟨⟨_, _, _, _, _, _, _, h1, h3, h4, h5, h6, h7, h8, h9, h10⟩, rfl⟩

/-- The message with the given commitments. -/
def messageOf (S : Scheme F) (cs : List (S.Comm × S.Rand)) : List Nat := (cs.map Prod.fst).flatMap S.encComm

/-- The first three questions of the prover. -/
def Asked3 (S : Scheme F) (ck : S.CK) (index : Index F) (view : ProverView F) (d : Domain F) (z : S.Z) (c : Fin 3 → F) (q : Fin 3 → History) : Prop :=
  ∃ wc z1 ls z2 lc z3,
    S.commit ck (view.witness.map (·.toLabeled)) z = .ok (wc, z1) ∧
    lookupRound (S := S) view index d (c 0) z1 = .ok (ls, z2) ∧
    S.commit ck ((primes ls).map (·.toLabeled)) z2 = .ok (lc, z3) ∧
    q = ![(bytes "TurboPlonk-0.0.1", [messageOf S wc], 0), (bytes "TurboPlonk-0.0.1", [messageOf S wc, messageOf S lc], 0),
      (bytes "TurboPlonk-0.0.1", [messageOf S wc, messageOf S lc], 1)]

theorem Asked3.unique {S : Scheme F} {ck : S.CK} {index : Index F} {view : ProverView F} {d : Domain F} {z : S.Z} {c : Fin 3 → F}
    {q q' : Fin 3 → History} (h : Asked3 S ck index view d z c q) (h' : Asked3 S ck index view d z c q') : q = q' := by
  obtain ⟨wc, z1, ls, z2, lc, z3, a1, a2, a3, rfl⟩ := h
  obtain ⟨wc', z1', ls', z2', lc', z3', b1, b2, b3, rfl⟩ := h'
  obtain ⟨rfl, rfl⟩ := Prod.mk.inj (Res.ok.inj (a1.symm.trans b1))
  obtain ⟨rfl, rfl⟩ := Prod.mk.inj (Res.ok.inj (a2.symm.trans b2))
  obtain ⟨rfl, rfl⟩ := Prod.mk.inj (Res.ok.inj (a3.symm.trans b3))
  rfl

theorem Asked3.injective {S : Scheme F} {ck : S.CK} {index : Index F} {view : ProverView F} {d : Domain F} {z : S.Z} {c : Fin 3 → F}
    {q : Fin 3 → History} (h : Asked3 S ck index view d z c q) : Function.Injective q := by
  obtain ⟨wc, z1, ls, z2, lc, z3, a1, a2, a3, rfl⟩ := h
  intro i j hij
  have := congrArg (fun h : History => (h.2.1.length, h.2.2)) hij
  fin_cases i <;> fin_cases j <;> first | rfl | (simp at this)

/-- The histories at which the first five challenges are drawn. -/
def history5 (S : Scheme F) (wc lc zc lzc qc : List (S.Comm × S.Rand)) : Fin 5 → History :=
  ![(bytes "TurboPlonk-0.0.1", [messageOf S wc], 0), (bytes "TurboPlonk-0.0.1", [messageOf S wc, messageOf S lc], 0),
    (bytes "TurboPlonk-0.0.1", [messageOf S wc, messageOf S lc], 1),
    (bytes "TurboPlonk-0.0.1", [messageOf S wc, messageOf S lc, messageOf S zc, messageOf S lzc], 0),
    (bytes "TurboPlonk-0.0.1", [messageOf S wc, messageOf S lc, messageOf S zc, messageOf S lzc, messageOf S qc], 0)]

/-- The histories of the challenges up to `x3`. -/
def history8 (S : Scheme F) (wc lc zc lzc qc : List (S.Comm × S.Rand)) (f : S.Comm) : Fin 8 → History :=
  Fin.append (history5 S wc lc zc lzc qc)
    ![(bytes "TurboPlonk-0.0.1", [messageOf S wc, messageOf S lc, messageOf S zc, messageOf S lzc, messageOf S qc], 1),
      (bytes "TurboPlonk-0.0.1", [messageOf S wc, messageOf S lc, messageOf S zc, messageOf S lzc, messageOf S qc], 2),
      (bytes "TurboPlonk-0.0.1", [messageOf S wc, messageOf S lc, messageOf S zc, messageOf S lzc, messageOf S qc, [f].flatMap S.encComm], 0)]

theorem history5_injective (S : Scheme F) (wc lc zc lzc qc : List (S.Comm × S.Rand)) : Function.Injective (history5 S wc lc zc lzc qc) := by
  intro i j hij
  have := congrArg (fun h : History => (h.2.1.length, h.2.2)) hij
  fin_cases i <;> fin_cases j <;> first | rfl | (simp [history5] at this)

theorem history8_injective (S : Scheme F) (wc lc zc lzc qc : List (S.Comm × S.Rand)) (f : S.Comm) :
    Function.Injective (history8 S wc lc zc lzc qc f) := by
  have hl : ∀ i, ((history8 S wc lc zc lzc qc f i).2.1.length, (history8 S wc lc zc lzc qc f i).2.2)
      = (![(1, 0), (2, 0), (2, 1), (4, 0), (5, 0), (5, 1), (5, 2), (6, 0)] : Fin 8 → Nat × Nat) i := by
    intro i
    fin_cases i <;> rfl
  have hd : Function.Injective (![(1, 0), (2, 0), (2, 1), (4, 0), (5, 0), (5, 1), (5, 2), (6, 0)] : Fin 8 → Nat × Nat) := by
    intro i j
    revert i j
    decide
  intro i j hij
  refine hd ?_
  rw [← hl, ← hl, hij]

/-- The aggregated quotient of the multi-point opening and the commitment to it. -/
def Aggregated (S : Scheme F) (ck : S.CK) (view : ProverView F) (perm : List (ProverOracle F)) (qBlind : ProverOracle F) (es : List S.Rand)
    (d : Domain F) (rounds : ProverRounds F) (quotient : List (ProverOracle F)) (wc lc zc lzc qc : List (S.Comm × S.Rand)) (z : S.Z)
    (xi x1 x2 : F) (c : S.Comm) : Prop :=
  ∃ qs f fc z' f0,
    mpFirstRound (S := S) (openingSets (fun (o : OracleRand S) => o.1.rotations) (List.zip
        (openingOrder view.witness (primes rounds.lookups) rounds.lookupZs quotient rounds.zs view.fixed view.table perm qBlind)
        (wc.map Prod.snd ++ lc.map Prod.snd ++ lzc.map Prod.snd ++ qc.map Prod.snd ++ zc.map Prod.snd ++ es)))
      (openingOrder view.witness (primes rounds.lookups) rounds.lookupZs quotient rounds.zs view.fixed view.table perm qBlind).length d xi x1 x2
      = .ok (qs, f) ∧
    S.commit ck [⟨bytes "f_aggregated", f, true⟩] z = .ok (fc, z') ∧ Res.idx (ε := Unit) fc 0 = .ok f0 ∧ c = f0.1

theorem Aggregated.unique {S : Scheme F} {ck : S.CK} {view : ProverView F} {perm : List (ProverOracle F)} {qBlind : ProverOracle F}
    {es : List S.Rand} {d : Domain F} {rounds : ProverRounds F} {quotient : List (ProverOracle F)} {wc lc zc lzc qc : List (S.Comm × S.Rand)}
    {z : S.Z} {xi x1 x2 : F} {c c' : S.Comm}
    (h : Aggregated S ck view perm qBlind es d rounds quotient wc lc zc lzc qc z xi x1 x2 c)
    (h' : Aggregated S ck view perm qBlind es d rounds quotient wc lc zc lzc qc z xi x1 x2 c') : c = c' := by
  obtain ⟨qs, f, fc, z', f0, a1, a2, a3, rfl⟩ := h
  obtain ⟨qs', f', fc', z'', f0', b1, b2, b3, rfl⟩ := h'
  obtain ⟨rfl, rfl⟩ := Prod.mk.inj (Res.ok.inj (a1.symm.trans b1))
  obtain ⟨rfl, rfl⟩ := Prod.mk.inj (Res.ok.inj (a2.symm.trans b2))
  obtain rfl := Res.ok.inj (a3.symm.trans b3)
  rfl

theorem prove_aggregated (S : Scheme F) {pk : ProverKey S} {pre : ProverPreprocessed S} {ws is : List (ProverOracle F)}
    {vos : List (GenericVO F)} {d : Domain F} {n : Nat} (hd : Domain.new (F := F) n = some d) {z : S.Z} {tr : ProverTrace S} {proof : TPProof S}
    (h : proveRounds S pk pre ws is vos n z = .ok tr) (h' : prove S pk pre ws is vos n z = .ok proof) :
    Aggregated S pk.ck tr.view pre.perm pre.qBlind pre.emptyRands d tr.rounds tr.quotient tr.wc tr.lc tr.zc tr.lzc tr.qc tr.z tr.chal.xi
      (S.fsRand tr.t).1 (S.fsRand (S.fsRand tr.t).2).1 proof.multiopen.fCommit ∧
    verifierChallenges S proof = (tr.chal, tr.t) := by
  have hview : tr.view.fixed = pre.fixed ∧ tr.view.table = pre.table := by
    rw [(proveRounds_messages S hd h).2]
    exact ⟨rfl, rfl⟩
  obtain ⟨-, -, hv⟩ := proveRounds_inv S h
  unfold prove at h'
  simp only [h, Res.bind_ok] at h'
  simp only [Res.bind_eq_ok, Res.mapErr_eq_ok, Res.unwrap_eq_ok] at h'
  obtain ⟨domain, h2, wq, -, we, -, fq, -, fe, -, tq, -, te, -, -, -, zq, -, ze, -, -, -, mp, hmp, hp⟩ := h'
  obtain rfl := Option.some.inj (h2.symm.trans hd)
  cases hp
  refine ⟨?_, hv _ rfl rfl rfl rfl rfl⟩
  unfold mpProve at hmp
  simp only [Res.bind_eq_ok, Res.mapErr_eq_ok, Res.unwrap_eq_ok] at hmp
  obtain ⟨domain', g1, ⟨qs, f⟩, g2, ⟨fc, z'⟩, g3, f0, g4, fin, -, fc', -, pr, -, g8⟩ := hmp
  obtain rfl := Option.some.inj (g1.symm.trans h2)
  cases g8
  rw [← hview.1, ← hview.2] at g2
  exact ⟨qs, f, fc, z', f0, g2, g3, Res.idx_eq_ok.2 (Res.idx_eq_ok.1 g4), rfl⟩

theorem proveRounds_hashing {S : Scheme F} {H : History → F} {pk : ProverKey (S.hashing H)} {pre : ProverPreprocessed (S.hashing H)}
    {ws is : List (ProverOracle F)} {vos : List (GenericVO F)} {n : Nat} {z : S.Z} {tr : ProverTrace (S.hashing H)}
    (h : proveRounds (S.hashing H) pk pre ws is vos n z = .ok tr) :
    (∀ k, H (history5 S tr.wc tr.lc tr.zc tr.lzc tr.qc k)
      = (![tr.chal.theta, tr.chal.beta, tr.chal.gamma, tr.chal.alpha, tr.chal.xi] : Fin 5 → F) k) ∧
    tr.t = ((history5 S tr.wc tr.lc tr.zc tr.lzc tr.qc 4).1, (history5 S tr.wc tr.lc tr.zc tr.lzc tr.qc 4).2.1, 1) := by
  unfold proveRounds at h
  simp only [Res.bind_eq_ok, Res.mapErr_eq_ok, Res.unwrap_eq_ok] at h
  obtain ⟨⟨wc, z1⟩, h1, domain, h2, ⟨lks, z2⟩, h3, ⟨lc, z3⟩, h4, ⟨zs, z4⟩, h5, ⟨zc, z5⟩, h6, ⟨lzs, z6⟩, h7,
    ⟨lzc, z7⟩, h8, quot, h9, ⟨qc, z8⟩, h10, h11⟩ := h
  cases h11
  refine ⟨fun k => ?_, rfl⟩
  fin_cases k <;> rfl

end

section
variable {F : Type} [Field F] [LinearOrder F] [FftParams F] [LawfulFft F]

theorem indexer_hashing {W I K : Type} [ConcreteOracle W] [ConcreteOracle I] [ConcreteOracle K]
    {S : Scheme F} {copyFlag : W → Bool} {vk : S.VK} {vos : List (GenericVO F)} {lookups : List (GenericLookupVO F)} {ws : List W}
    {is : List I} {fs : List K} {d : Domain F} {zh : List F} {info : PermutationInfo F} {usableRows : Nat} {key : VerifierKey S}
    (h : indexer copyFlag vk vos lookups ws is fs d zh info usableRows (S := S) = .ok key) (H : History → F) :
    indexer copyFlag (show (S.hashing H).VK from vk) vos lookups ws is fs d zh info usableRows (S := S.hashing H)
      = .ok (key.hashing H) := by
  unfold indexer at h ⊢
  obtain ⟨qd, h1, h⟩ := Res.bind_eq_ok.1 h
  obtain ⟨ext0, h2, h⟩ := Res.bind_eq_ok.1 h
  refine Res.bind_eq_ok.2 ⟨qd, h1, Res.bind_eq_ok.2 ⟨ext0, h2, ?_⟩⟩
  by_cases hc : ext0.size < d.size
  · rw [if_pos hc] at h; cases h
  · rw [if_neg hc] at h
    rw [if_neg hc]
    obtain ⟨perm, h3, h⟩ := Res.bind_eq_ok.1 h
    obtain ⟨ext, h4, h⟩ := Res.bind_eq_ok.1 h
    obtain ⟨inv, h5, h⟩ := Res.bind_eq_ok.1 h
    refine Res.bind_eq_ok.2 ⟨perm, h3, Res.bind_eq_ok.2 ⟨ext, h4, Res.bind_eq_ok.2 ⟨inv, h5, ?_⟩⟩⟩
    rw [← Res.ok.inj h]
    rfl

/-- **C67** The completeness error of the non-interactive argument with a random oracle. In the situation of C52 let the challenges be the
values of a hash function `H` at the history of the transcript. With `m` copied columns of `u` usable rows, `l` lookups of `u'`
usable rows and `n` rows, for every state of the prover's random source and a uniformly random `H`, the probability that the honest prover
returns no proof, or one the verifier does not accept, is at most `(m * u + 2 * l * u' + 1 + n) / |F|`. -/
theorem C67_completeness_error_random_oracle [Fintype F] [MeasurableSpace F] [DiscreteMeasurableSpace F]
    {W I K : Type} [ConcreteOracle W] [ConcreteOracle I] [ConcreteOracle K]
    {S : Scheme F} {pk : ProverKey S} {com : F[X] → S.Rand → S.Comm} (hS : HomomorphicScheme S pk.ck pk.vk.vk com)
    {d : Domain F} (hd : d.Ok) (h1 : 1 < d.size) (hn : SupportsDegree S pk.ck d.size) {vos : List (GenericVO F)}
    -- the key
    {copyFlag : W → Bool} {vk : S.VK} {lookups : List (GenericLookupVO F)} {ows : List W} {ois : List I} {ofs : List K}
    {zh : List F} {info : PermutationInfo F} {usableRows : Nat}
    (hkey : indexer copyFlag vk vos lookups ows ois ofs d zh info usableRows (S := S) = .ok pk.vk)
    (htrim : zh = trim zh) (hdvd : toPoly zh ∣ X ^ d.size - 1)
    (hproper : toPoly zh = X ^ d.size - 1 ∨ (toPoly zh).natDegree < d.size)
    (hquotient : pk.vk.index.quotientDegree ≠ pk.vk.index.ext.size)
    -- the circuit, the witness and the verifier's oracles
    {ws is fixed table sigmas : List (ProverOracle F)} {qBlind : ProverOracle F}
    (hcopies : (∃ o ∈ ws, o.shouldPermute = true) → d.size < pk.vk.index.perm.maxCols + 2 + (toPoly zh).natDegree)
    (hs : Supported d pk.vk.index ⟨ws, is, fixed, table⟩ sigmas qBlind vos)
    (hp : Provable d pk.vk.index ⟨ws, is, fixed, table⟩ sigmas qBlind vos)
    {tau : Equiv.Perm (Fin (ws.filter (·.shouldPermute)).length × Fin pk.vk.index.perm.usableRows)}
    (henc : MadeFrom d pk.vk.index.perm.deltas sigmas tau)
    {vws : List (VerifierOracle F S.Comm)} {vis : List (InstanceVerifierOracle F)} {vpre : VerifierPreprocessed S}
    (hsu : SetUp S com ⟨ws, is, fixed, table⟩ sigmas qBlind vws vis vpre)
    -- the witness satisfies the circuit
    (hg : GatesHold d ⟨ws, is, fixed, table⟩ vos (toPoly zh))
    (hcop : CopiesHold ⟨ws, is, fixed, table⟩ tau)
    (hl : LookupsHold d.size pk.vk.index.usableRows ⟨ws, is, fixed, table⟩ pk.vk.index.lookups) (z : S.Z) :
    randomOracle F {H | ¬ ∃ proof,
      prove (S.hashing H) (pk.hashing H) (.new _ fixed sigmas table qBlind pk.vk.index) ws is vos d.size z = .ok proof ∧
      verify (S.hashing H) (pk.vk.hashing H) (vpre.hashing H) proof vws vis vos d.size zh = .ok ()}
    ≤ (((ws.filter (·.shouldPermute)).length * pk.vk.index.perm.usableRows
        + 2 * (pk.vk.index.lookups.length * pk.vk.index.usableRows) + 1 + d.size : Nat) : ENNReal) / (Fintype.card F : ENNReal) := by
  classical
  have hmain : ∀ H : History → F, _ := fun H => C52_honest_prover_succeeds (S := S.hashing H) (pk := pk.hashing H) (com := com)
    ⟨hS.commit, hS.zero, hS.add, hS.scale, hS.opens⟩ hd h1 ⟨hn.commit, hn.commitPlain, hn.open_⟩ (indexer_hashing hkey H)
    htrim hdvd hproper hquotient hcopies hs hp henc (vws := vws) (vis := vis) (vpre := vpre.hashing H)
    ⟨hsu.witness, hsu.inst, hsu.fixed, hsu.table, hsu.perm, hsu.qBlind⟩ hg hcop hl z
  have hcard : (Fintype.card F : ENNReal) ≠ 0 := by exact_mod_cast Fintype.card_ne_zero
  have hdiv : ∀ (N k m : Nat), N ≤ k * Fintype.card F ^ m → (N : ENNReal) / (Fintype.card F : ENNReal) ^ (m + 1) ≤ k / (Fintype.card F : ENNReal) := by
    intro N k m h
    refine (ENNReal.div_le_div_right (b := ((k * Fintype.card F ^ m : Nat) : ENNReal)) (by exact_mod_cast h) _).trans (le_of_eq ?_)
    rw [Nat.cast_mul, Nat.cast_pow, pow_succ', ENNReal.mul_div_mul_right _ _ (pow_ne_zero _ hcard) (ENNReal.pow_ne_top (ENNReal.natCast_ne_top _))]
  let v : ProverView F := ⟨ws, is, fixed, table⟩
  let view := v.extend pk.vk.index.ext
  let perm := sigmas.map (·.computeExtended pk.vk.index.ext)
  let qb := qBlind.computeExtended pk.vk.index.ext
  let es := List.replicate (fixed.length + sigmas.length + table.length + 1) S.emptyRand
  -- the three ways to fail
  let E1 : Set (History → F) := {H | ∃ theta beta gamma, FirstMessages (S.hashing H) (pk.hashing H) v d z theta beta gamma ∧
    ¬ GoodDraw d pk.vk.index v sigmas theta beta gamma}
  let E2 : Set (History → F) := {H | ∃ tr, proveRounds (S.hashing H) (pk.hashing H) (.new _ fixed sigmas table qBlind pk.vk.index) ws is vos
    d.size z = .ok tr ∧ tr.chal.xi = 0}
  let E3 : Set (History → F) := {H | ∃ tr proof, proveRounds (S.hashing H) (pk.hashing H) (.new _ fixed sigmas table qBlind pk.vk.index) ws is
    vos d.size z = .ok tr ∧
    prove (S.hashing H) (pk.hashing H) (.new _ fixed sigmas table qBlind pk.vk.index) ws is vos d.size z = .ok proof ∧
    ∃ k : ℤ, (mpChallenges (S.hashing H) proof.multiopen (verifierChallenges (S.hashing H) proof).2).2.2.1 = tr.chal.xi * d.omega ^ k}
  have hsub : {H | ¬ ∃ proof,
      prove (S.hashing H) (pk.hashing H) (.new _ fixed sigmas table qBlind pk.vk.index) ws is vos d.size z = .ok proof ∧
      verify (S.hashing H) (pk.vk.hashing H) (vpre.hashing H) proof vws vis vos d.size zh = .ok ()} ⊆ E1 ∪ (E2 ∪ E3) := by
    intro H hH
    obtain ⟨theta, beta, gamma, g1, g2⟩ := hmain H
    by_cases hgood : GoodDraw d pk.vk.index v sigmas theta beta gamma
    · obtain ⟨tr, g3, -, -, -, g4⟩ := g2 hgood
      refine Or.inr ?_
      by_cases hxi : tr.chal.xi = 0
      · exact Or.inl ⟨tr, g3, hxi⟩
      · obtain ⟨proof, g5, -, g6⟩ := g4 hxi
        refine Or.inr ⟨tr, proof, g3, g5, ?_⟩
        by_contra hk
        exact hH ⟨proof, g5, g6 (fun k h => hk ⟨k, h⟩)⟩
    · exact Or.inl ⟨theta, beta, gamma, g1, hgood⟩
  have m1 : randomOracle F E1 ≤ (((ws.filter (·.shouldPermute)).length * pk.vk.index.perm.usableRows
        + 2 * (pk.vk.index.lookups.length * pk.vk.index.usableRows) : Nat) : ENNReal) / (Fintype.card F : ENNReal) := by
    refine (randomOracle_le E1 {c : Fin 3 → F | (c 1, c 2) ∈ {p : F × F | ¬ GoodDraw d pk.vk.index v sigmas (c 0) p.1 p.2}}
      (Asked3 S pk.ck pk.vk.index view d z) (fun c q q' => Asked3.unique) ?_).trans (hdiv _ _ 2 ?_)
    · rintro H ⟨theta, beta, gamma, ⟨wc, z1, ls, z2, lc, z3, a1, a2, a3, e1, e2, e3⟩, hbad⟩
      have hq : Asked3 S pk.ck pk.vk.index view d z ![theta, beta, gamma] _ := ⟨wc, z1, ls, z2, lc, z3, a1, a2, a3, rfl⟩
      refine ⟨![theta, beta, gamma], hbad, _, hq, hq.injective, fun k => ?_⟩
      fin_cases k
      · exact e1.symm
      · exact e2.symm
      · exact e3.symm
    · refine (ncard_pair (A := fun x => {p : F × F | ¬ GoodDraw d pk.vk.index v sigmas x p.1 p.2}) (k := ((ws.filter (·.shouldPermute)).length * pk.vk.index.perm.usableRows
        + 2 * (pk.vk.index.lookups.length * pk.vk.index.usableRows)) * Fintype.card F) (fun x => ?_)).trans (le_of_eq (by ring))
      have h := C52_few_bad_draws d pk.vk.index v sigmas x Finset.univ
      rw [Finset.card_univ] at h
      refine le_trans (le_of_eq ?_) h
      rw [Set.ncard_eq_toFinset_card _ (Set.toFinite _)]
      congr 1
      ext p
      simp
  have m2 : randomOracle F E2 ≤ ((1 : Nat) : ENNReal) / (Fintype.card F : ENNReal) := by
    refine (randomOracle_le E2 {c : Fin 5 → F | c 4 = 0} (fun c q => ∃ r quot wc lc zc lzc qc y,
      Messages S pk.ck pk.vk.index pk.vk.zhInverses view perm qb vos d z (c 0) (c 1) (c 2) (c 3) r quot wc lc zc lzc qc y ∧
      q = history5 S wc lc zc lzc qc) ?_ ?_).trans (hdiv _ _ 4 ?_)
    · rintro c q q' ⟨r, quot, wc, lc, zc, lzc, qc, y, a, rfl⟩ ⟨r', quot', wc', lc', zc', lzc', qc', y', b, rfl⟩
      obtain ⟨-, -, rfl, rfl, rfl, rfl, rfl, -⟩ := a.unique b
      rfl
    · rintro H ⟨tr, g, hxi⟩
      exact ⟨![tr.chal.theta, tr.chal.beta, tr.chal.gamma, tr.chal.alpha, tr.chal.xi], hxi, _,
        ⟨tr.rounds, tr.quotient, tr.wc, tr.lc, tr.zc, tr.lzc, tr.qc, tr.z, ⟨(proveRounds_messages _ hd.new_self g).1.run⟩, rfl⟩,
        history5_injective S _ _ _ _ _, (proveRounds_hashing g).1⟩
    · refine ncard_last (fun c => ?_)
      refine (Set.ncard_le_ncard (t := {0}) (fun x hx => ?_) (Set.toFinite _)).trans (Set.ncard_singleton _).le
      have hx : (Fin.snoc c x : Fin 5 → F) (Fin.last 4) = 0 := hx
      rw [Fin.snoc_last] at hx
      exact hx
  have m3 : randomOracle F E3 ≤ (d.size : ENNReal) / (Fintype.card F : ENNReal) := by
    refine (randomOracle_le E3 {c : Fin 8 → F | c 7 ∈ (Finset.range d.size).image (fun i => c 4 * d.omega ^ i)} (fun c q => ∃ r quot wc lc zc lzc qc y f,
      Messages S pk.ck pk.vk.index pk.vk.zhInverses view perm qb vos d z (c 0) (c 1) (c 2) (c 3) r quot wc lc zc lzc qc y ∧
      Aggregated S pk.ck view perm qb es d r quot wc lc zc lzc qc y (c 4) (c 5) (c 6) f ∧
      q = history8 S wc lc zc lzc qc f) ?_ ?_).trans (hdiv _ _ 7 ?_)
    · rintro c q q' ⟨r, quot, wc, lc, zc, lzc, qc, y, f, a, a', rfl⟩ ⟨r', quot', wc', lc', zc', lzc', qc', y', f', b, b', rfl⟩
      obtain ⟨rfl, rfl, rfl, rfl, rfl, rfl, rfl, rfl⟩ := a.unique b
      rw [a'.unique b']
    · rintro H ⟨tr, proof, g, g', k, hk⟩
      obtain ⟨ha, hv⟩ := prove_aggregated _ hd.new_self g g'
      rw [hv] at hk
      obtain ⟨hm, hview⟩ := proveRounds_messages _ hd.new_self g
      obtain ⟨hh, ht⟩ := proveRounds_hashing g
      rw [hview, ht] at ha
      rw [ht] at hk
      let q8 := history8 S tr.wc tr.lc tr.zc tr.lzc tr.qc proof.multiopen.fCommit
      have hk : H (q8 7) = tr.chal.xi * d.omega ^ k := hk
      refine ⟨![tr.chal.theta, tr.chal.beta, tr.chal.gamma, tr.chal.alpha, tr.chal.xi, H (q8 5), H (q8 6), H (q8 7)], ?_, _,
        ⟨tr.rounds, tr.quotient, tr.wc, tr.lc, tr.zc, tr.lzc, tr.qc, tr.z, proof.multiopen.fCommit, ⟨hm.run⟩, ha, rfl⟩,
        history8_injective S _ _ _ _ _ _, fun k => ?_⟩
      · show H (q8 7) ∈ (Finset.range d.size).image (fun i => tr.chal.xi * d.omega ^ i)
        rw [hk]
        exact zpow_mem_image hd _ k
      · fin_cases k
        · exact hh 0
        · exact hh 1
        · exact hh 2
        · exact hh 3
        · exact hh 4
        · rfl
        · rfl
        · rfl
    · refine ncard_last (fun c => ?_)
      refine (Set.ncard_le_ncard (t := ((Finset.range d.size).image (fun i => c 4 * d.omega ^ i) : Finset F)) (fun x hx => ?_) (Set.toFinite _)).trans ?_
      · have hx : (Fin.snoc c x : Fin 8 → F) (Fin.last 7) ∈ (Finset.range d.size).image (fun i => (Fin.snoc c x : Fin 8 → F) (Fin.castSucc 4) * d.omega ^ i) := hx
        rw [Fin.snoc_last, Fin.snoc_castSucc] at hx
        exact hx
      · rw [Set.ncard_coe_finset]
        exact Finset.card_image_le.trans (Finset.card_range _).le
  refine (measure_mono hsub).trans ((measure_union_le _ _).trans ((add_le_add m1 ((measure_union_le _ _).trans (add_le_add m2 m3))).trans (le_of_eq ?_)))
  rw [ENNReal.div_add_div_same, ENNReal.div_add_div_same]
  congr 1
  push_cast
  ring

end
end ZK
