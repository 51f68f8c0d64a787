import Verif.Spec.Success
import Verif.Lemmas.SoundRow
import Verif.Properties.Completeness
import Verif.Properties.Commitment
/-! The rounds of the honest prover succeed. -/
set_option autoImplicit false
set_option linter.unusedSectionVars false
namespace ZK
open Polynomial

theorem Res.foldM_ok_of {ε α β : Type} {f : β → α → Res ε β} {l : List α} (h : ∀ b, ∀ a ∈ l, ∃ b', f b a = .ok b') (b : β) :
    ∃ c, Res.foldM f b l = .ok c := by
  induction l generalizing b with
  | nil => exact ⟨b, rfl⟩
  | cons a l ih =>
    obtain ⟨b', hb⟩ := h b a (by simp)
    obtain ⟨c, hc⟩ := ih (fun b a ha => h b a (by simp [ha])) b'
    exact ⟨c, Res.foldM_eq_ok_cons.2 ⟨b', hb, hc⟩⟩

/-- A loop appending one result per element, where each step succeeds. -/
theorem Res.foldM_push_of {ε α β Z : Type} {g : List β × Z → α → Res ε (List β × Z)} (P : α → β → Prop) {l : List α}
    (hg : ∀ acc, ∀ a ∈ l, ∃ b z', g acc a = .ok (acc.1 ++ [b], z') ∧ P a b) (acc : List β × Z) :
    ∃ bs z', Res.foldM g acc l = .ok (acc.1 ++ bs, z') ∧ List.Forall₂ P l bs := by
  induction l generalizing acc with
  | nil => exact ⟨[], acc.2, by simp, List.Forall₂.nil⟩
  | cons a l ih =>
    obtain ⟨b, z1, h1, h2⟩ := hg acc a (by simp)
    obtain ⟨bs, z2, h3, h4⟩ := ih (fun acc a ha => hg acc a (by simp [ha])) (acc.1 ++ [b], z1)
    refine ⟨b :: bs, z2, Res.foldM_eq_ok_cons.2 ⟨_, h1, ?_⟩, List.Forall₂.cons h2 h4⟩
    rw [h3]
    simp

section
variable {F : Type} [Field F]

/-! ### Adding the values on the coset changes nothing -/

section
variable [FftParams F] {d : Domain F} {index : Index F} {v : ProverView F} {sigmas : List (ProverOracle F)}
  {qBlind : ProverOracle F} {vos : List (GenericVO F)}

theorem resolves_of_extend {ext : Domain F} {os : List (ProverOracle F)} {l : Label} {o : ProverOracle F}
    (h : Resolves (os.map (·.computeExtended ext)) l o) : ∃ o', Resolves os l o' ∧ o = o'.computeExtended ext := by
  obtain ⟨k, hk, hl, hlast⟩ := h
  rw [List.getElem?_map, Option.map_eq_some_iff] at hk
  obtain ⟨o', ho', rfl⟩ := hk
  refine ⟨o', ⟨k, ho', hl, ?_⟩, rfl⟩
  intro j o'' hj ho''
  exact hlast j (o''.computeExtended ext) hj (by rw [List.getElem?_map, ho'']; rfl)

theorem ReadsCell.extend {n : Nat} {i : Nat} {q : OracleQuery} {y : F} (ext : Domain F)
    (h : ReadsCell n v i q y) : ReadsCell n (v.extend ext) i q y := by
  obtain ⟨h1, o, h2, h3⟩ := h
  exact ⟨h1, o.computeExtended ext, by rw [ProverView.extend_oracles]; exact resolves_extend h2, h3⟩

theorem LookupsHold.extend {n u : Nat} {ls : List (GenericLookupVO F)} (ext : Domain F) (h : LookupsHold n u v ls) :
    LookupsHold n u (v.extend ext) ls := by
  intro l hl es ts h1 h2 i hi
  obtain ⟨j, hj, h3⟩ := h l hl es ts h1 h2 i hi
  refine ⟨j, hj, h3.imp ?_⟩
  rintro e t ⟨y, h4, o, h5, h6⟩
  exact ⟨y, fun q hq => (h4 q hq).extend ext, _, resolves_extend h5, h6⟩

theorem InputRow.of_extend {n : Nat} {es : List (Expr F)} {i : Nat} {vals : List F} {ext : Domain F}
    (h : InputRow n (v.extend ext) es i vals) : InputRow n v es i vals := by
  refine List.Forall₂.imp ?_ h
  rintro e x ⟨y, h1, h2⟩
  exact ⟨y, fun q hq => (h1 q hq).of_extend, h2⟩

theorem TableRow.of_extend {ts : List OracleQuery} {i : Nat} {vals : List F} {ext : Domain F}
    (h : TableRow (v.extend ext) ts i vals) : TableRow v ts i vals := by
  refine List.Forall₂.imp ?_ h
  rintro t x ⟨o, h1, h2⟩
  obtain ⟨o', h3, rfl⟩ := resolves_of_extend h1
  exact ⟨o', h3, h2⟩

theorem InputRow.extend {n : Nat} {es : List (Expr F)} {i : Nat} {vals : List F} (ext : Domain F)
    (h : InputRow n v es i vals) : InputRow n (v.extend ext) es i vals := by
  refine List.Forall₂.imp ?_ h
  rintro e x ⟨y, h1, h2⟩
  exact ⟨y, fun q hq => (h1 q hq).extend ext, h2⟩

theorem TableRow.extend {ts : List OracleQuery} {i : Nat} {vals : List F} (ext : Domain F)
    (h : TableRow v ts i vals) : TableRow (v.extend ext) ts i vals := by
  refine List.Forall₂.imp ?_ h
  rintro t x ⟨o, h1, h2⟩
  exact ⟨_, resolves_extend h1, h2⟩

theorem CompressedLookups.extend {n u : Nat} {ls : List (GenericLookupVO F)} {theta : F} (ext : Domain F)
    (h : CompressedLookups n u v ls theta) : CompressedLookups n u (v.extend ext) ls theta := by
  intro l hl es ts h1 h2 i hi
  obtain ⟨j, hj, a, s, h3, h4, h5⟩ := h l hl es ts h1 h2 i hi
  exact ⟨j, hj, a, s, h3.extend ext, h4.extend ext, h5⟩

theorem CompressedLookups.of_extend {n u : Nat} {ls : List (GenericLookupVO F)} {theta : F} {ext : Domain F}
    (h : CompressedLookups n u (v.extend ext) ls theta) : CompressedLookups n u v ls theta := by
  intro l hl es ts h1 h2 i hi
  obtain ⟨j, hj, a, s, h3, h4, h5⟩ := h l hl es ts h1 h2 i hi
  exact ⟨j, hj, a, s, h3.of_extend, h4.of_extend, h5⟩

omit [FftParams F] in
/-- Lookups that hold still hold after compression. -/
theorem LookupsHold.compressed {n u : Nat} {ls : List (GenericLookupVO F)} (h : LookupsHold n u v ls) (theta : F) :
    CompressedLookups n u v ls theta := by
  intro l hl es ts h1 h2 i hi
  obtain ⟨j, hj, h3⟩ := h l hl es ts h1 h2 i hi
  obtain ⟨a, h4, h5⟩ : ∃ a, InputRow n v es i a ∧ TableRow v ts j a := by
    clear h1 h2
    induction h3 with
    | nil => exact ⟨[], .nil, .nil⟩
    | cons hx _ ih =>
      obtain ⟨a, h4, h5⟩ := ih
      obtain ⟨y, h6, o, h7, h8⟩ := hx
      exact ⟨_ :: a, .cons ⟨y, h6, rfl⟩ h4, .cons ⟨o, h7, h8⟩ h5⟩
  exact ⟨j, hj, a, a, h4, h5, rfl⟩

omit [FftParams F] in
/-- Copies that hold make the products equal. -/
theorem CopiesHold.equalProducts {tau : Equiv.Perm (Fin (v.witness.filter (·.shouldPermute)).length × Fin index.perm.usableRows)}
    (henc : MadeFrom d index.perm.deltas sigmas tau) (hcop : CopiesHold v tau) (beta gamma : F) :
    EqualProducts d index v sigmas beta gamma := by
  unfold EqualProducts
  rw [← Equiv.prod_comp tau (fun c => cell (v.witness.filter (·.shouldPermute)) c + beta * cellId d index.perm.deltas c + gamma)]
  exact Finset.prod_congr rfl (fun c _ => by rw [henc, hcop])

theorem filter_extend (ext : Domain F) (ws : List (ProverOracle F)) :
    (ws.map (·.computeExtended ext)).filter (·.shouldPermute) = (ws.filter (·.shouldPermute)).map (·.computeExtended ext) := by
  rw [List.filter_map]
  rfl

theorem colVal_extend (ext : Domain F) (ws : List (ProverOracle F)) (k r : Nat) :
    colVal (ws.map (·.computeExtended ext)) k r = colVal ws k r := by
  unfold colVal
  rw [List.map_map]
  rfl

theorem EqualProducts.iff_extend (ext : Domain F) {beta gamma : F} :
    EqualProducts d index (v.extend ext) (sigmas.map (·.computeExtended ext)) beta gamma ↔
      EqualProducts d index v sigmas beta gamma := by
  have hf : (v.extend ext).witness.filter (·.shouldPermute) = (v.witness.filter (·.shouldPermute)).map (·.computeExtended ext) :=
    filter_extend ext v.witness
  have hlen : ((v.extend ext).witness.filter (·.shouldPermute)).length = (v.witness.filter (·.shouldPermute)).length := by
    rw [hf, List.length_map]
  let e : Fin ((v.extend ext).witness.filter (·.shouldPermute)).length × Fin index.perm.usableRows ≃
      Fin (v.witness.filter (·.shouldPermute)).length × Fin index.perm.usableRows := (finCongr hlen).prodCongr (Equiv.refl _)
  have h : ∀ c, cell ((v.extend ext).witness.filter (·.shouldPermute)) c = cell (v.witness.filter (·.shouldPermute)) (e c) := by
    have : ∀ k r, colVal ((v.extend ext).witness.filter (·.shouldPermute)) k r = colVal (v.witness.filter (·.shouldPermute)) k r := by
      intro k r
      rw [hf, colVal_extend]
    exact fun c => this c.1 c.2
  have h' : ∀ c, cell (sigmas.map (·.computeExtended ext)) c = cell sigmas (e c) := fun c => colVal_extend ext sigmas c.1 c.2
  unfold EqualProducts
  rw [Fintype.prod_equiv e _ (fun c => cell (v.witness.filter (·.shouldPermute)) c + beta * cellId d index.perm.deltas c + gamma)
    (fun c => by rw [h]; rfl), Fintype.prod_equiv e _ (fun c => cell (v.witness.filter (·.shouldPermute)) c + beta * cell sigmas c + gamma)
    (fun c => by rw [h, h'])]

end

/-! ### Rounds -/

section
variable [FftParams F] [LawfulFft F] [LinearOrder F] {S : Scheme F} {d : Domain F} {index : Index F} {v : ProverView F}
  {sigmas : List (ProverOracle F)} {qBlind : ProverOracle F} {vos : List (GenericVO F)} {theta beta gamma : F}
  (hd : d.Ok) (he : index.ext.Ok) (hle : d.size ≤ index.ext.size) (hH : AllHonest d index.ext v sigmas qBlind)
  (hs : SupportedShape d index v sigmas qBlind vos) (hp : Provable d index v sigmas qBlind vos)

include hd hH in
/-- What a query reads on a row is the value of its polynomial. -/
theorem AllHonest.reads {q : OracleQuery} (hq : Answerable d.size v q) (i : Nat) :
    ReadsCell d.size v i q ((v.polyOf d q).eval (d.omega ^ i)) := by
  obtain ⟨h3, o, h4, -⟩ := hq
  refine ⟨h3, o, h4, ?_⟩
  obtain ⟨j, hj, he⟩ := (hH.oracles _ o h4.mem).1.eval_zpow hd ((i : ℤ) + q.rotation.signed)
  refine ⟨j, hj, ?_⟩
  rw [he, ProverView.polyOf, findOracle_eq_some.2 h4]
  simp only [eval_shifted, eval_toPoly]
  rw [zpow_add₀ hd.omega_ne_zero, zpow_natCast, mul_comm]

include hd hH in
theorem AllHonest.inputRow {es : List (Expr F)} (h : ∀ e ∈ es, ∀ q ∈ e.queries, Answerable d.size v q) (i : Nat) :
    InputRow d.size v es i (es.map (fun e => (e.denote C (v.polyOf d)).eval (d.omega ^ i))) := by
  unfold InputRow
  rw [List.forall₂_map_right_iff]
  refine List.forall₂_same.2 (fun e hee => ⟨fun q => (v.polyOf d q).eval (d.omega ^ i), ?_, ?_⟩)
  · exact fun q hq => hH.reads hd (h e hee q hq) i
  · exact Expr.eval_denote e _ _

include hH in
theorem AllHonest.tableRow {ts : List OracleQuery} (h : ∀ t ∈ ts, ∃ o, Resolves v.table t.label o) {i : Nat} (hi : i < d.size) :
    TableRow v ts i (ts.map (fun q => (v.tablePolyOf q).eval (d.omega ^ i))) := by
  unfold TableRow
  rw [List.forall₂_map_right_iff]
  refine List.forall₂_same.2 (fun t ht => ?_)
  obtain ⟨o, ho⟩ := h t ht
  refine ⟨o, ho, ?_⟩
  rw [(hH.table o ho.mem).1.2 i hi, ProverView.tablePolyOf, findOracle_eq_some.2 ho]

omit [LinearOrder F] [FftParams F] [LawfulFft F] in
theorem InputRow.unique {n : Nat} {es : List (Expr F)} {i : Nat} {vals vals' : List F} (h : InputRow n v es i vals)
    (h' : InputRow n v es i vals') : vals = vals' := by
  unfold InputRow at h h'
  induction h generalizing vals' with
  | nil => cases h'; rfl
  | cons hx _ ih =>
    obtain _ | ⟨hx', ht'⟩ := h'
    obtain ⟨y, h1, rfl⟩ := hx
    obtain ⟨y', h1', rfl⟩ := hx'
    rw [ih ht', Expr.denote_congr id _ (fun q hq => (h1 q hq).unique (h1' q hq))]

omit [LinearOrder F] [FftParams F] [LawfulFft F] in
theorem TableRow.unique {v : ProverView F} {ts : List OracleQuery} {i : Nat} {vals vals' : List F}
    (h : TableRow v ts i vals) (h' : TableRow v ts i vals') : vals = vals' := by
  unfold TableRow at h h'
  induction h generalizing vals' with
  | nil => cases h'; rfl
  | cons hx _ ih =>
    obtain _ | ⟨hx', ht'⟩ := h'
    obtain ⟨o, h1, h2⟩ := hx
    obtain ⟨o', h1', h2'⟩ := hx'
    rw [ih ht']
    rw [← findOracle_eq_some] at h1 h1'
    obtain rfl := Option.some.inj (h1.symm.trans h1')
    rw [Option.some.inj (h2.symm.trans h2')]

/-- What one lookup is built from. -/
structure LookupFor (d : Domain F) (index : Index F) (v : ProverView F) (theta : F) (k : Nat) (vo : GenericLookupVO F)
    (l : LookupOracles (ProverOracle F)) : Prop where
  built : ∃ es ts, vo.getExpressions = .ok es ∧ vo.getTableQueries = .ok ts ∧
    LookupBuilt d index.ext index.usableRows k (compress (C theta) (es.map (Expr.denote C (v.polyOf d))))
      (compress (C theta) (ts.map v.tablePolyOf)) l

include hd he hle hH hs hp in
/-- A lookup that holds for the compressed values can be built. -/
theorem lookupConstruct_succeeds (hl : CompressedLookups d.size index.usableRows v index.lookups theta) {vo : GenericLookupVO F}
    (hvo : vo ∈ index.lookups) (k : Nat) (z : S.Z) :
    ∃ es ts l z', vo.getExpressions = .ok es ∧ vo.getTableQueries = .ok ts ∧
      lookupConstruct S.next v index.usableRows k es ts theta d index.ext z = .ok (l, z') ∧
      LookupFor d index v theta k vo l := by
  obtain ⟨es, ts, h1, h2, h3, h4⟩ := hs.lookups vo hvo
  obtain ⟨hlen, haff⟩ := hp.lookups vo hvo es ts h1 h2
  have hus := hs.unusable (List.ne_nil_of_mem hvo)
  have hP : ∀ e ∈ es, QueryPolys d index.ext v e.queries (v.polyOf d) :=
    fun e hee => hH.queryPolys (fun q hq => ((h3 e hee).1 q hq).1)
  have hT : TablePolys d index.ext v ts v.tablePolyOf := by
    refine tablePolys_tablePolyOf hH.table ?_
    intro t ht
    obtain ⟨h8, o, h9, -⟩ := h4 t ht
    exact ⟨h8, by rw [findOracle_eq_some.2 h9]; rfl⟩
  have hAdeg : (compress (C theta) (es.map (Expr.denote C (v.polyOf d)))).degree < d.size := by
    refine natDegree_lt_degree hd.size_pos (natDegree_compress_le _ _ _ ?_)
    intro p hpm
    obtain ⟨e, hee, rfl⟩ := List.mem_map.1 hpm
    obtain ⟨k, hk1, hk⟩ := haff e hee
    obtain ⟨k', hk', hle'⟩ := degree_const_eq e (d.size - 1) k hk
    refine ((hP e hee).natDegree_denote hk').trans (hle'.trans ?_)
    calc k * (d.size - 1) ≤ 1 * (d.size - 1) := Nat.mul_le_mul_right _ hk1
      _ = _ := Nat.one_mul _
  obtain ⟨-, h5⟩ := lookupConstruct_outcome S.next v index.usableRows k es ts theta z hd he hle hlen (by omega) (v.polyOf d)
    v.tablePolyOf hP hT (hAdeg.trans_le (by exact_mod_cast hle))
  obtain ⟨l, h6, h7⟩ := (h5 hAdeg).1 (by
    intro i hi
    obtain ⟨j, hj, a, s, h8, h9, h10⟩ := hl vo hvo es ts h1 h2 i hi
    refine ⟨j, hj, ?_⟩
    rw [eval_compress, eval_compress, List.map_map, List.map_map]
    rw [h8.unique (hH.inputRow hd (fun e hee q hq => ((h3 e hee).1 q hq).1) i),
      h9.unique (hH.tableRow (fun t ht => ⟨_, (h4 t ht).2.choose_spec.1⟩) (by omega : j < d.size))] at h10
    exact h10)
  exact ⟨es, ts, l, _, h1, h2, h6, ⟨es, ts, h1, h2, h7⟩⟩

include hd he hle hH hs hp in
/-- The lookup round succeeds when the compressed lookups hold. -/
theorem lookupRound_succeeds_at {theta : F} (hl : CompressedLookups d.size index.usableRows v index.lookups theta) (z : S.Z) :
    ∃ ls z', lookupRound (S := S) v index d theta z = .ok (ls, z') ∧
      List.Forall₂ (fun (p : GenericLookupVO F × Nat) l => LookupFor d index v theta p.2 p.1 l) index.lookups.zipIdx ls := by
  have h := Res.foldM_push_of (ε := PiopErr) (l := index.lookups.zipIdx)
    (g := fun (acc : List (LookupOracles (ProverOracle F)) × S.Z) (p : GenericLookupVO F × Nat) => do
      let es ← (p.1.getExpressions).mapErr PiopErr.vo
      let ts ← (p.1.getTableQueries).mapErr PiopErr.vo
      let r ← lookupConstruct S.next v index.usableRows p.2 es ts theta d index.ext acc.2
      pure (acc.1 ++ [r.1], r.2))
    (fun (p : GenericLookupVO F × Nat) l => LookupFor d index v theta p.2 p.1 l) (by
      intro acc p hpm
      obtain ⟨es, ts, l, z', h1, h2, h3, h4⟩ := lookupConstruct_succeeds hd he hle hH hs hp hl
        (List.fst_mem_of_mem_zipIdx hpm) p.2 acc.2 (theta := theta)
      simp only [h1, h2, Res.mapErr_ok, Res.bind_ok, h3]
      exact ⟨_, _, rfl, h4⟩) ([], z)
  simp only [List.nil_append] at h
  exact h

include hd he hle hH hs hp in
/-- The lookup round succeeds. -/
theorem lookupRound_succeeds (hl : LookupsHold d.size index.usableRows v index.lookups) (theta : F) (z : S.Z) :
    ∃ ls z', lookupRound (S := S) v index d theta z = .ok (ls, z') ∧
      List.Forall₂ (fun (p : GenericLookupVO F × Nat) l => LookupFor d index v theta p.2 p.1 l) index.lookups.zipIdx ls :=
  lookupRound_succeeds_at hd he hle hH hs hp (hl.compressed theta) z

omit [FftParams F] [LawfulFft F] in
/-- When no denominator vanishes, the full product of the ratios is one exactly when the products are equal. -/
theorem copyRatio_prod_eq_one (d : Domain F) (index : Index F) (v : ProverView F) (sigmas : List (ProverOracle F))
    (hden : ∀ c : Fin (v.witness.filter (·.shouldPermute)).length × Fin index.perm.usableRows,
      cell (v.witness.filter (·.shouldPermute)) c + beta * cell sigmas c + gamma ≠ 0) :
    ∏ k ∈ Finset.range (v.witness.filter (·.shouldPermute)).length, ∏ r ∈ Finset.range index.perm.usableRows,
      copyRatio d beta gamma index.perm.deltas (v.witness.filter (·.shouldPermute)) sigmas k r = 1 ↔
    EqualProducts d index v sigmas beta gamma := by
  set ws := v.witness.filter (·.shouldPermute) with hws
  have e : ∏ k ∈ Finset.range ws.length, ∏ r ∈ Finset.range index.perm.usableRows,
      copyRatio d beta gamma index.perm.deltas ws sigmas k r
      = ∏ c : Fin ws.length × Fin index.perm.usableRows,
        (cell ws c + beta * cellId d index.perm.deltas c + gamma) / (cell ws c + beta * cell sigmas c + gamma) := by
    rw [Fintype.prod_prod_type, ← Fin.prod_univ_eq_prod_range (fun k => ∏ r ∈ Finset.range index.perm.usableRows,
      copyRatio d beta gamma index.perm.deltas ws sigmas k r)]
    refine Finset.prod_congr rfl (fun k _ => ?_)
    rw [← Fin.prod_univ_eq_prod_range (fun r => copyRatio d beta gamma index.perm.deltas ws sigmas k r)]
    rfl
  rw [e, Finset.prod_div_distrib, div_eq_one_iff_eq (Finset.prod_ne_zero_iff.2 (fun c _ => hden c))]
  rfl

omit [LawfulFft F] in
include hs hp in
/-- When no denominator vanishes, the permutation round succeeds if the products are equal and panics otherwise. -/
theorem permutationRound_outcome {ε : Type}
    (hden : ∀ c : Fin (v.witness.filter (·.shouldPermute)).length × Fin index.perm.usableRows,
      cell (v.witness.filter (·.shouldPermute)) c + beta * cell sigmas c + gamma ≠ 0) (z : S.Z) :
    (EqualProducts d index v sigmas beta gamma →
      ∃ zs z', permutationRound (S := S) (ε := ε) index (v.witness.filter (·.shouldPermute)) sigmas d beta gamma z = .ok (zs, z')) ∧
    (¬ EqualProducts d index v sigmas beta gamma →
      permutationRound (S := S) (ε := ε) index (v.witness.filter (·.shouldPermute)) sigmas d beta gamma z = .panic) := by
  unfold permutationRound
  split
  · rename_i h0
    refine ⟨fun _ => ⟨_, _, rfl⟩, fun h => absurd ?_ h⟩
    unfold EqualProducts
    have : IsEmpty (Fin (v.witness.filter (·.shouldPermute)).length × Fin index.perm.usableRows) := by
      rw [h0]
      infer_instance
    rw [Finset.univ_eq_empty, Finset.prod_empty, Finset.prod_empty]
  · rename_i h0
    have hne : v.witness.filter (·.shouldPermute) ≠ [] := by
      intro h
      rw [h] at h0
      exact h0 rfl
    obtain ⟨o, ho⟩ := List.exists_mem_of_ne_nil _ hne
    obtain ⟨ho1, ho2⟩ := List.mem_filter.1 ho
    obtain ⟨h1, h2, h3⟩ := hp.shape ⟨o, ho1, ho2⟩
    have hus := hp.usable
    obtain ⟨agg, z', -, h4⟩ := constructAggPolys_outcome (ε := ε) index.perm S.next (v.witness.filter (·.shouldPermute)) sigmas beta
      gamma d index.ext z h3 hne h1.symm h2.symm (by omega)
      (by
        intro o ho
        rw [(hs.columns o (by simp [(List.mem_filter.1 ho).1])).1.1]
        omega)
      (by
        intro o ho
        rw [(hs.columns o (by simp [ho])).1.1]
        omega)
      (den_prod_ne d beta gamma index.perm _ sigmas h1.symm h2.symm hden)
    rw [h4, fullRatio_eq d beta gamma index.perm _ sigmas h1.symm h2.symm]
    have h5 := copyRatio_prod_eq_one d index v sigmas hden
    exact ⟨fun h => ⟨agg, z', if_pos (h5.2 h)⟩, fun h => if_neg (fun h' => h (h5.1 h'))⟩

omit [LawfulFft F] in
include hs hp in
/-- The permutation round succeeds. -/
theorem permutationRound_succeeds {ε : Type} {m : Nat} (hm : (v.witness.filter (·.shouldPermute)).length = m)
    {tau : Equiv.Perm (Fin m × Fin index.perm.usableRows)} (henc : MadeFrom d index.perm.deltas sigmas tau)
    (hcop : CopiesHold v tau)
    (hden : ∀ c : Fin m × Fin index.perm.usableRows,
      cell (v.witness.filter (·.shouldPermute)) c + beta * cell sigmas c + gamma ≠ 0) (z : S.Z) :
    ∃ zs z', permutationRound (S := S) (ε := ε) index (v.witness.filter (·.shouldPermute)) sigmas d beta gamma z = .ok (zs, z') := by
  subst hm
  exact (permutationRound_outcome hs hp hden z).1 (hcop.equalProducts henc beta gamma)

omit [FftParams F] [LawfulFft F] [LinearOrder F] in
theorem prod_perm_add {u : Nat} {l : List F} {g : Nat → F} (h : (l.take u).Perm ((List.range u).map g)) (x : F) (b : Nat → F)
    (hb : ∀ i < u, l[i]? = some (b i)) :
    ((List.range u).map (fun i => b i + x)).prod = ((List.range u).map (fun i => g i + x)).prod := by
  have e : l.take u = (List.range u).map b := by
    refine List.ext_getElem? (fun i => ?_)
    rw [List.getElem?_take, List.getElem?_map]
    split
    · rename_i hi
      rw [hb i hi, List.getElem?_range hi]
      rfl
    · rename_i hi
      rw [List.getElem?_eq_none (by simpa using hi)]
      rfl
  have := (h.map (fun y => y + x)).prod_eq
  rw [e, List.map_map, List.map_map] at this
  exact this

include hd in
/-- The grand product of a lookup that has been built can be constructed. -/
theorem seConstruct_succeeds {ε : Type} {k : Nat} {A T : F[X]} {l : LookupOracles (ProverOracle F)}
    (hl : LookupBuilt d index.ext index.usableRows k A T l) (hu : index.usableRows < d.size)
    (hA : ∀ i < index.usableRows, A.eval (d.omega ^ i) + beta ≠ 0)
    (hT : ∀ i < index.usableRows, T.eval (d.omega ^ i) + gamma ≠ 0) (k' : Nat) (z : S.Z) :
    ∃ o z', (seConstruct S.next l beta gamma k' index.usableRows d index.ext z : Res ε _) = .ok (o, z') := by
  have ha : ∀ i < index.usableRows, l.a.evals[i]? = some (A.eval (d.omega ^ i)) := by
    intro i hi
    rw [hl.aHonest.1.2 i (by omega), ← hl.aPoly]
  have hS : ∀ i < index.usableRows, l.s.evals[i]? = some (T.eval (d.omega ^ i)) := by
    intro i hi
    rw [hl.sHonest.1.2 i (by omega), ← hl.sPoly]
  have ha' : ∀ i < index.usableRows, l.aPrime.evals[i]? = some ((toPoly l.aPrime.poly).eval (d.omega ^ i)) :=
    fun i hi => hl.aPrimeHonest.1.2 i (by omega)
  have hs' : ∀ i < index.usableRows, l.sPrime.evals[i]? = some ((toPoly l.sPrime.poly).eval (d.omega ^ i)) :=
    fun i hi => hl.sPrimeHonest.1.2 i (by omega)
  have pa := prod_perm_add hl.aPerm beta _ ha'
  have ps := prod_perm_add hl.sPerm gamma _ hs'
  have hane : ((List.range index.usableRows).map (fun i => A.eval (d.omega ^ i) + beta)).prod ≠ 0 := by
    rw [ne_eq, List.prod_eq_zero_iff]
    intro h
    obtain ⟨i, hi, h⟩ := List.mem_map.1 h
    exact hA i (List.mem_range.1 hi) h
  have hsne : ((List.range index.usableRows).map (fun i => T.eval (d.omega ^ i) + gamma)).prod ≠ 0 := by
    rw [ne_eq, List.prod_eq_zero_iff]
    intro h
    obtain ⟨i, hi, h⟩ := List.mem_map.1 h
    exact hT i (List.mem_range.1 hi) h
  have hane' : ∀ i < index.usableRows, (toPoly l.aPrime.poly).eval (d.omega ^ i) + beta ≠ 0 := by
    rw [ne_eq, ← pa, List.prod_eq_zero_iff] at hane
    intro i hi h
    exact hane (List.mem_map.2 ⟨i, List.mem_range.2 hi, h⟩)
  have hsne' : ∀ i < index.usableRows, (toPoly l.sPrime.poly).eval (d.omega ^ i) + gamma ≠ 0 := by
    rw [ne_eq, ← ps, List.prod_eq_zero_iff] at hsne
    intro i hi h
    exact hsne (List.mem_map.2 ⟨i, List.mem_range.2 hi, h⟩)
  have hrun := zRun_ok (ε := ε) (factor := seFactor l beta gamma)
    (f := fun i => (A.eval (d.omega ^ i) + beta) * (T.eval (d.omega ^ i) + gamma) *
      (((toPoly l.aPrime.poly).eval (d.omega ^ i) + beta) * ((toPoly l.sPrime.poly).eval (d.omega ^ i) + gamma))⁻¹) 1
    (List.range index.usableRows) (by
      intro i hi
      have hi' := List.mem_range.1 hi
      unfold seFactor
      simp only [Res.idx, ha i hi', hS i hi', ha' i hi', hs' i hi', Res.bind_ok]
      unfold mulInv
      rw [if_neg (mul_ne_zero (hane' i hi') (hsne' i hi'))])
  unfold seConstruct
  rw [hrun]
  simp only [Res.bind_ok, List.length_range, one_mul]
  have hlast : ((List.range (index.usableRows + 1)).map (fun i => (((List.range index.usableRows).take i).map
      (fun i => (A.eval (d.omega ^ i) + beta) * (T.eval (d.omega ^ i) + gamma) *
      (((toPoly l.aPrime.poly).eval (d.omega ^ i) + beta) * ((toPoly l.sPrime.poly).eval (d.omega ^ i) + gamma))⁻¹)).prod))[index.usableRows]?
      = some 1 := by
    rw [List.getElem?_map, List.getElem?_range (by omega)]
    simp only [Option.map_some, Option.some.injEq]
    rw [List.take_of_length_le (by simp), List.prod_map_mul, List.prod_map_mul, ← pa, ← ps,
      ← List.prod_map_mul, ← List.prod_map_mul]
    refine List.prod_eq_one ?_
    intro x hx
    obtain ⟨i, hi, rfl⟩ := List.mem_map.1 hx
    exact mul_inv_cancel₀ (mul_ne_zero (hane' i (List.mem_range.1 hi)) (hsne' i (List.mem_range.1 hi)))
  simp only [Res.idx, hlast, Res.bind_ok, decide_true, Res.assert_true, show index.usableRows + 1 ≤ d.size from hu]
  exact ⟨_, _, rfl⟩

include hd hH hs hp in
/-- The round of the grand products of the lookups succeeds. -/
theorem subsetEqualityRound_succeeds {ε : Type} {ls : List (LookupOracles (ProverOracle F))}
    (hls : List.Forall₂ (fun (p : GenericLookupVO F × Nat) l => LookupFor d index v theta p.2 p.1 l) index.lookups.zipIdx ls)
    (hg : ∀ l ∈ index.lookups, ∀ es ts, l.getExpressions = .ok es → l.getTableQueries = .ok ts →
      ∀ i < index.usableRows, ∀ vals, (InputRow d.size v es i vals → compress theta vals + beta ≠ 0) ∧
        (TableRow v ts i vals → compress theta vals + gamma ≠ 0)) (z : S.Z) :
    ∃ zs z', subsetEqualityRound (S := S) (ε := ε) index ls d beta gamma z = .ok (zs, z') := by
  have h := Res.foldM_ok_of (ε := ε) (l := ls.zipIdx)
    (f := fun (acc : List (ProverOracle F) × S.Z) (p : LookupOracles (ProverOracle F) × Nat) => do
      let r ← seConstruct S.next p.1 beta gamma p.2 index.usableRows d index.ext acc.2
      pure (acc.1 ++ [r.1], r.2)) (by
    rintro acc ⟨l, k⟩ hpm
    obtain ⟨i, hi⟩ := List.mem_iff_getElem?.1 (List.fst_mem_of_mem_zipIdx hpm)
    obtain ⟨⟨vo, j⟩, hvo, ⟨es, ts, h1, h2, h3⟩⟩ := Forall₂.right hls hi
    have hmem : vo ∈ index.lookups := List.fst_mem_of_mem_zipIdx (List.mem_of_getElem? hvo)
    have hus := hs.unusable (List.ne_nil_of_mem hmem)
    obtain ⟨es', ts', h1', h2', h4, h5⟩ := hs.lookups vo hmem
    obtain rfl := Res.ok.inj (h1.symm.trans h1')
    obtain rfl := Res.ok.inj (h2.symm.trans h2')
    obtain ⟨o, z', h6⟩ := seConstruct_succeeds (S := S) (ε := ε) hd h3 (by omega) (beta := beta) (gamma := gamma)
      (by
        intro i hi
        rw [eval_compress, List.map_map]
        exact (hg vo hmem es ts h1 h2 i hi _).1 (hH.inputRow hd (fun e hee q hq => ((h4 e hee).1 q hq).1) i))
      (by
        intro i hi
        rw [eval_compress, List.map_map]
        exact (hg vo hmem es ts h1 h2 i hi _).2 (hH.tableRow (fun t ht => by
          obtain ⟨-, o, ho, -⟩ := h5 t ht
          exact ⟨o, ho⟩) (by omega))) k acc.2
    simp only [h6, Res.bind_ok]
    exact ⟨_, rfl⟩) ([], z)
  obtain ⟨⟨zs, z'⟩, h⟩ := h
  exact ⟨zs, z', h⟩

/-! ### The quotient -/

include hd he hle hH hs hp in
/-- The quotient round succeeds. -/
theorem quotientRound_succeeds (h1 : 1 < d.size) {r : ProverRounds F} (h : RoundsRan S d index v sigmas theta beta gamma r)
    (zhInverses : List F) (alpha : F) :
    ∃ qs, quotientRound v vos index zhInverses sigmas qBlind r d alpha beta gamma = .ok qs ∧
      ∀ o ∈ qs, o.poly.length ≤ d.size ∧ o.rotations = setExtend [] [Rotation.curr] := by
  have hP := h.proverPolys hd he hle hH hs (h.zs_honest hd hH)
  have hF := h.fits hH hp.gates hp.usable (qBlind := qBlind)
  obtain ⟨l0, hl0, hl0l, hl0p⟩ := lagrangeRow_eq (ε := PiopErr) hd hd.size_pos
  obtain ⟨lu, hlu, hlul, hlup⟩ := lagrangeRow_eq (ε := PiopErr) hd hF.usable
  have hg : 0 < vos.length := List.length_pos_iff.2 hp.gates
  have hL : index.lookups.length = (runPolys d v vos sigmas qBlind r).lookups.length := by
    rw [← h.lookup.1, hP.lookups.length_eq]
  have hnum := Res.mapM_ok_map (l := List.range index.ext.size) (fun i hi =>
    numeratorAt_eq hd he hle hP hF hl0l hl0p hlul hlup alpha beta gamma h1 (List.mem_range.1 hi))
  unfold quotientRound
  rw [mkAlphas_eq _ _ hg, Res.bind_ok, hl0, Res.bind_ok, hlu, Res.bind_ok, hL]
  unfold alphasOf at hnum
  simp only
  rw [hnum, Res.bind_ok]
  refine ⟨_, rfl, ?_⟩
  intro o ho
  obtain ⟨i, hi⟩ := List.getElem?_of_mem ho
  obtain ⟨-, -, h3⟩ := quotientChunks_spec hd index.ext.size _ (show (trim (index.ext.cosetIfft (List.zipWith (· * ·)
    ((List.range index.ext.size).map (fun i => ((runPolys d v vos sigmas qBlind r).numerator d index.perm alpha beta gamma).eval
          ((FftParams.gen : F) * index.ext.element i))) zhInverses))).length ≤ index.ext.size by
      refine (trim_length_le _).trans ?_
      simp)
  obtain ⟨-, h4, h5, -⟩ := h3 i o hi
  exact ⟨h4, h5⟩

/-! ### The multi-opening -/

omit [FftParams F] [LawfulFft F] in
theorem dadd_length_le {p q : List F} {n : Nat} (h1 : p.length ≤ n) (h2 : q.length ≤ n) : (dadd p q).length ≤ n :=
  (trim_length_le _).trans (by rw [padd_length]; exact max_le h1 h2)

omit [FftParams F] [LawfulFft F] in
theorem dscale_length_le {p : List F} {n : Nat} (x : F) (h1 : p.length ≤ n) : (dscale x p).length ≤ n :=
  (trim_length_le _).trans (by rw [pscale, List.length_map]; exact h1)

omit [FftParams F] [LawfulFft F] [LinearOrder F] in
theorem divModAux_length (l : List F) (x : F) (p : List F) : (divModAux l x p).1.length = p.length := by
  induction p with
  | nil => rfl
  | cons c p ih => simp [divModAux, ih]

omit [FftParams F] [LawfulFft F] in
theorem pdiv_length_le {ε : Type} {p q r : List F} {n : Nat} (h : (pdiv p q : Res ε _) = .ok r) (h1 : p.length ≤ n) :
    r.length ≤ n := by
  unfold pdiv at h
  split at h
  · simp at h
  · obtain rfl := Res.ok.inj h
    exact (trim_length_le _).trans (by rw [divModAux_length]; exact h1)

omit [FftParams F] [LawfulFft F] in
/-- The aggregated polynomials of the multi-opening are not longer than the longest polynomial opened. -/
theorem mpFirstRound_length {os : List (ProverOracle F)} {rands : List S.Rand} {n m : Nat} {xi x1 x2 : F}
    {out : List (List F × S.Rand) × List F} (hos : ∀ o ∈ os, o.poly.length ≤ n)
    (h : mpFirstRound (S := S) (openingSets (fun (o : OracleRand S) => o.1.rotations) (List.zip os rands)) m d xi x1 x2 = .ok out) :
    (∀ q ∈ out.1, q.1.length ≤ n) ∧ out.2.length ≤ n := by
  have hpart := (C39_partition (fun (o : OracleRand S) => o.1.rotations) (List.zip os rands))
  unfold mpFirstRound at h
  simp only [Res.bind_eq_ok] at h
  obtain ⟨qs, h1, fs, h2, f, h3, h4⟩ := h
  obtain ⟨⟩ := Res.ok.inj h4
  have hq : ∀ q ∈ qs, q.1.1.length ≤ n := by
    intro q hq
    obtain ⟨i, hi, rfl⟩ := List.getElem_of_mem hq
    have hl := Res.mapM_length h1
    have h5 := Res.mapM_getElem h1 i (by omega)
    have hmem : (openingSets (fun (o : OracleRand S) => o.1.rotations) (List.zip os rands))[i]'(by omega) ∈ _ :=
      List.getElem_mem (by omega)
    obtain ⟨hs1, -⟩ := hpart.2.1 _ hmem
    unfold mpProverSet at h5
    simp only [Res.bind_eq_ok] at h5
    obtain ⟨a, h6, es, -, h7⟩ := h5
    rw [← Res.ok.inj h7]
    refine Res.foldM_inv (fun a : List F × S.Rand => a.1.length ≤ n) (by simp) ?_ h6
    rintro b o ho c hb h8
    simp only [Res.bind_eq_ok] at h8
    obtain ⟨x, -, h8⟩ := h8
    rw [← Res.ok.inj h8]
    refine dadd_length_le hb (dscale_length_le _ (hos _ ?_))
    have := List.fst_mem_of_mem_zipIdx ho
    rw [hs1] at this
    exact (List.of_mem_zip (a := o.1.1) (b := o.1.2) (List.mem_filter.1 this).1).1
  refine ⟨?_, ?_⟩
  · intro q hqm
    obtain ⟨q', hq', rfl⟩ := List.mem_map.1 hqm
    exact hq q' hq'
  · refine Res.foldM_inv (fun a : List F => a.length ≤ n) (by simp) ?_ h3
    rintro b p ho c hb h8
    simp only [Res.bind_eq_ok] at h8
    obtain ⟨x, -, h8⟩ := h8
    rw [← Res.ok.inj h8]
    refine dadd_length_le hb (dscale_length_le _ ?_)
    obtain ⟨i, hi, hpi⟩ := List.getElem_of_mem (List.fst_mem_of_mem_zipIdx ho)
    have hl := Res.mapM_length h2
    have h5 := Res.mapM_getElem h2 i (by omega)
    rw [hpi] at h5
    exact pdiv_length_le h5 (hq _ (List.getElem_mem _))

/-- The multi-opening succeeds. -/
theorem mpProve_succeeds (hd : d.Ok) {ck : S.CK} {n : Nat} (hn : SupportsDegree S ck n)
    (hone : ∀ (p : LPoly F) (z z' : S.Z) cs, S.commit ck [p] z = .ok (cs, z') → cs.length = 1)
    {os : List (ProverOracle F)} {rands : List S.Rand} (hlen : os.length = rands.length) (hos : ∀ o ∈ os, o.poly.length ≤ n)
    {xi : F} (hrot : ∀ o ∈ os, (∀ r ∈ o.rotations, r.degree < d.size) ∧
        (o.rotations.map (fun r => xi * d.omega ^ r.signed)).Nodup) (t : S.T) (z : S.Z) :
    ∃ proof, mpProve S ck os rands xi d.size t z = .ok proof := by
  obtain ⟨⟨qs, f⟩, h1⟩ := (C35_prover_succeeds_iff hd os rands hlen xi (S.fsRand t).1 (S.fsRand (S.fsRand t).2).1).2 hrot
  obtain ⟨h2, h3⟩ := mpFirstRound_length hos h1
  obtain ⟨⟨fc, z'⟩, h4⟩ := hn.commit [⟨bytes "f_aggregated", f, true⟩] z (by simpa using h3)
  have h5 := hone _ _ _ _ h4
  obtain ⟨f0, rfl⟩ := List.length_eq_one_iff.1 h5
  unfold mpProve
  simp only [hd.new_self, Res.unwrap_some, Res.bind_ok, h1, Res.mapErr_ok, h4, Res.idx, List.getElem?_cons_zero]
  have h6 : ∀ x4 : F, ∃ out, mpThirdRound (S := S) qs f f0.2 x4 = .ok out ∧ out.1.length ≤ n := by
    intro x4
    obtain ⟨out, ho⟩ : ∃ out, mpThirdRound (S := S) qs f f0.2 x4 = .ok out := by
      unfold mpThirdRound
      refine Res.foldM_ok_of ?_ _
      rintro b ⟨q, i⟩ hq
      have hi : i < qs.length := by
        obtain ⟨hi, -⟩ := List.mem_zipIdx' hq
        exact hi
      simp only [Res.idx]
      rw [powersFrom_getElem?, if_pos hi]
      exact ⟨_, rfl⟩
    refine ⟨out, ho, ?_⟩
    unfold mpThirdRound at ho
    refine Res.foldM_inv (fun a : List F × S.Rand => a.1.length ≤ n) h3 ?_ ho
    rintro b q hq c hb h8
    simp only [Res.bind_eq_ok] at h8
    obtain ⟨x, -, h8⟩ := h8
    rw [← Res.ok.inj h8]
    exact dadd_length_le hb (dscale_length_le _ (h2 _ (List.fst_mem_of_mem_zipIdx hq)))
  obtain ⟨⟨fin, fr⟩, h7, h8⟩ := h6 (S.fsRand (S.absorbFs (S.fsRand (S.absorbComms (S.fsRand (S.fsRand t).2).2
    (List.map Prod.fst [f0]))).2 (qs.map (fun q => peval q.1 (S.fsRand (S.absorbComms (S.fsRand (S.fsRand t).2).2
    (List.map Prod.fst [f0]))).1)))).1
  obtain ⟨cs, h9⟩ := hn.commitPlain ⟨bytes "final_poly", fin, false⟩ h8
  obtain ⟨pf, h10⟩ := hn.open_ ⟨bytes "final_poly", fin, false⟩ cs (S.fsRand (S.absorbComms (S.fsRand (S.fsRand t).2).2
    (List.map Prod.fst [f0]))).1 fr h8 h9
  simp only [h7, Res.mapErr_ok, Res.bind_ok, h9, h10]
  exact ⟨_, rfl⟩

/-! ### Rotations -/

omit [LinearOrder F] in
/-- Rotations leading to different rows lead to different points. -/
theorem points_nodup (hd : d.Ok) {xi : F} (hxi : xi ≠ 0) {rs : List Rotation}
    (h : rs.Pairwise (fun r r' => ¬ r.signed ≡ r'.signed [ZMOD d.size])) :
    (rs.map (fun r => xi * d.omega ^ r.signed)).Nodup := by
  rw [List.Nodup, List.pairwise_map]
  refine h.imp ?_
  intro a b hab heq
  refine hab ?_
  have h1 := mul_left_cancel₀ hxi heq
  have h2 : d.omega ^ (a.signed - b.signed) = 1 := by
    rw [zpow_sub₀ hd.omega_ne_zero, h1, div_self (zpow_ne_zero _ hd.omega_ne_zero)]
  have h3 := (hd.prim.zpow_eq_one_iff_dvd _).1 h2
  exact (Int.modEq_iff_dvd.2 (by rw [← neg_sub, dvd_neg]; exact h3))

theorem plus_distinct {n : Nat} {rs : List Rotation} (hs : rs.Nodup) (h : ∀ r ∈ rs, r.sign = .plus ∧ r.degree < n) :
    rs.Pairwise (fun r r' => ¬ r.signed ≡ r'.signed [ZMOD n]) := by
  refine (List.pairwise_iff_forall_sublist.2 ?_)
  intro a b hab hc
  have ha := h a (hab.subset (by simp))
  have hb := h b (hab.subset (by simp))
  have hne := (List.nodup_iff_sublist.1 hs)
  refine hne a ?_
  obtain ⟨da, sa⟩ := a
  obtain ⟨db, sb⟩ := b
  simp only at ha hb
  obtain ⟨rfl, ha⟩ := ha
  obtain ⟨rfl, hb⟩ := hb
  simp only [Rotation.signed] at hc
  have : da = db := by
    have := Int.natCast_modEq_iff.1 hc
    exact Nat.ModEq.eq_of_lt_of_lt this ha hb
  subst this
  exact hab

/-! ### The prover -/

omit [LawfulFft F] [LinearOrder F] in
theorem Provable.extend (ext : Domain F) (h : Provable d index v sigmas qBlind vos) :
    Provable d index (v.extend ext) (sigmas.map (·.computeExtended ext)) (qBlind.computeExtended ext) vos where
  gates := h.gates
  usable := h.usable
  shape := by
    rintro ⟨o, ho, hsp⟩
    obtain ⟨o', ho', rfl⟩ := List.mem_map.1 ho
    have := h.shape ⟨o', ho', hsp⟩
    simp only [ProverView.extend, filter_extend, List.length_map]
    exact this
  lookups := h.lookups
  distinct := by
    intro o ho
    obtain ⟨o', ho', rfl⟩ : ∃ o' ∈ v.witness ++ v.fixed ++ v.table ++ sigmas ++ [qBlind], o'.computeExtended ext = o := by
      rw [← List.mem_map]
      simpa [ProverView.extend] using ho
    exact h.distinct o' ho'

/-- The first messages are determined. -/
theorem FirstMessages.unique {pk : ProverKey S} {z : S.Z} {theta beta gamma theta' beta' gamma' : F}
    (h : FirstMessages S pk v d z theta beta gamma) (h' : FirstMessages S pk v d z theta' beta' gamma') :
    theta = theta' ∧ beta = beta' ∧ gamma = gamma' := by
  obtain ⟨wc, z1, ls, z2, lc, z3, h1, h2, h3, rfl, rfl, rfl⟩ := h
  obtain ⟨wc', z1', ls', z2', lc', z3', h1', h2', h3', rfl, rfl, rfl⟩ := h'
  rw [h1] at h1'
  obtain ⟨rfl, rfl⟩ := Prod.mk.inj (Res.ok.inj h1')
  rw [h2] at h2'
  obtain ⟨rfl, rfl⟩ := Prod.mk.inj (Res.ok.inj h2')
  rw [h3] at h3'
  obtain ⟨rfl, rfl⟩ := Prod.mk.inj (Res.ok.inj h3')
  exact ⟨rfl, rfl, rfl⟩

theorem primes_mem {ls : List (LookupOracles (ProverOracle F))} {o : ProverOracle F} :
    o ∈ primes ls ↔ ∃ l ∈ ls, o = l.aPrime ∨ o = l.sPrime := by
  simp [primes]

/-- The first challenge is drawn. -/
theorem firstAnswer_exists {pk : ProverKey S} {ws is fixed table : List (ProverOracle F)}
    (hs : SupportedShape d pk.vk.index ⟨ws, is, fixed, table⟩ sigmas qBlind vos) (hn : SupportsDegree S pk.ck d.size) (z : S.Z) :
    ∃ theta, FirstAnswer S pk ⟨ws, is, fixed, table⟩ z theta := by
  have hH := hs.allHonest pk.vk.index.ext
  obtain ⟨⟨wc, z1⟩, c1⟩ := hn.commit (((⟨ws, is, fixed, table⟩ : ProverView F).extend pk.vk.index.ext).witness.map (·.toLabeled)) z (by
    intro p hpm
    obtain ⟨o, ho, rfl⟩ := List.mem_map.1 hpm
    exact (hH.witness o ho).2.1)
  exact ⟨_, wc, z1, c1, rfl⟩

/-- The prover reaches the evaluation challenge if the compressed lookups hold and the products are equal. -/
theorem proveRounds_succeeds_at {pk : ProverKey S} {ws is fixed table : List (ProverOracle F)} (hd : d.Ok)
    (he : pk.vk.index.ext.Ok) (hle : d.size ≤ pk.vk.index.ext.size) (h1 : 1 < d.size)
    (hs : SupportedShape d pk.vk.index ⟨ws, is, fixed, table⟩ sigmas qBlind vos)
    (hp : Provable d pk.vk.index ⟨ws, is, fixed, table⟩ sigmas qBlind vos)
    (hn : SupportsDegree S pk.ck d.size) {z : S.Z} {theta : F} (hth : FirstAnswer S pk ⟨ws, is, fixed, table⟩ z theta)
    (hl : CompressedLookups d.size pk.vk.index.usableRows ⟨ws, is, fixed, table⟩ pk.vk.index.lookups theta) :
    ∃ beta gamma, FirstMessages S pk ⟨ws, is, fixed, table⟩ d z theta beta gamma ∧
      (GoodDraw d pk.vk.index ⟨ws, is, fixed, table⟩ sigmas theta beta gamma →
        EqualProducts d pk.vk.index ⟨ws, is, fixed, table⟩ sigmas beta gamma →
        ∃ tr, proveRounds S pk (.new S fixed sigmas table qBlind pk.vk.index) ws is vos d.size z = .ok tr ∧
          tr.chal.theta = theta ∧ tr.chal.beta = beta ∧ tr.chal.gamma = gamma) := by
  set v : ProverView F := ⟨ws, is, fixed, table⟩ with hv
  set ext := pk.vk.index.ext with hext
  have hH := hs.allHonest ext
  have hs' := hs.extend ext
  have hp' := hp.extend ext
  have hl' := hl.extend ext
  obtain ⟨wc, z1, c1, htheta⟩ := hth
  obtain ⟨ls, z2, r1, hls⟩ := lookupRound_succeeds_at (S := S) hd he hle hH hs' hp' hl' z1
  have hprimes : ∀ o ∈ primes ls, o.poly.length ≤ d.size := by
    intro o ho
    obtain ⟨l, hlm, hc⟩ := primes_mem.1 ho
    obtain ⟨i, hi⟩ := List.mem_iff_getElem?.1 hlm
    obtain ⟨p, -, ⟨es, ts, -, -, hb⟩⟩ := Forall₂.right hls hi
    rcases hc with rfl | rfl
    · exact hb.aPrimeHonest.2.1
    · exact hb.sPrimeHonest.2.1
  obtain ⟨⟨lc, z3⟩, c2⟩ := hn.commit ((primes ls).map (·.toLabeled)) z2 (by
    intro p hpm
    obtain ⟨o, ho, rfl⟩ := List.mem_map.1 hpm
    exact hprimes o ho)
  obtain ⟨t2, ht2⟩ : ∃ x, x = S.absorbComms (S.fsRand (S.absorbComms (S.fsInit (bytes "TurboPlonk-0.0.1")) (wc.map Prod.fst))).2
    (lc.map Prod.fst) := ⟨_, rfl⟩
  refine ⟨(S.fsRand t2).1, (S.fsRand (S.fsRand t2).2).1, ⟨wc, z1, ls, z2, lc, z3, c1, r1, c2, htheta, ?_, ?_⟩, ?_⟩
  · rw [ht2]
  · rw [ht2]
  intro hgood heq
  generalize hbeta : (S.fsRand t2).1 = beta at hgood heq ⊢
  generalize hgamma : (S.fsRand (S.fsRand t2).2).1 = gamma at hgood heq ⊢
  obtain ⟨zs, z4, r2⟩ := (permutationRound_outcome (S := S) (ε := Err S.E) (beta := beta) (gamma := gamma) hs' hp'
    (by
      intro c
      have := hgood.1 (⟨c.1.1, lt_of_lt_of_eq c.1.2 (by
        show (List.filter _ (ws.map _)).length = _
        rw [filter_extend, List.length_map])⟩, c.2)
      unfold cell at this ⊢
      show colVal (List.filter _ (ws.map _)) _ _ + _ * colVal _ _ _ + _ ≠ 0
      rw [filter_extend, colVal_extend, colVal_extend]
      exact this) z3).1 ((EqualProducts.iff_extend ext).2 heq)
  have hran0 : ∀ lzs, (∃ z1 z2, subsetEqualityRound (S := S) (ε := Err S.E) pk.vk.index ls d beta gamma z1 = .ok (lzs, z2)) →
      RoundsRan S d pk.vk.index (v.extend ext) (sigmas.map (·.computeExtended ext)) theta beta gamma ⟨ls, zs, lzs⟩ :=
    fun lzs h => ⟨⟨_, _, r1⟩, ⟨_, _, r2⟩, h⟩
  have hlzs := subsetEqualityRound_succeeds (S := S) (ε := Err S.E) (beta := beta) (gamma := gamma) hd hH hs' hp' hls
    (fun l hlm es ts h2 h3 i hi vals => ⟨fun h => (hgood.2 l hlm es ts h2 h3 i hi vals).1 h.of_extend,
      fun h => (hgood.2 l hlm es ts h2 h3 i hi vals).2 h.of_extend⟩)
  obtain ⟨⟨zc, z5⟩, c3⟩ := hn.commit (zs.map (·.toLabeled)) z4 (by
    intro p hpm
    obtain ⟨o, ho, rfl⟩ := List.mem_map.1 hpm
    obtain ⟨lzs, z', h3⟩ := hlzs z4
    exact ((hran0 lzs ⟨_, _, h3⟩).zs_honest hd hH o ho).2.1)
  obtain ⟨lzs, z6, r3⟩ := hlzs z5
  have hran := hran0 lzs ⟨_, _, r3⟩
  obtain ⟨⟨lzc, z7⟩, c4⟩ := hn.commit (lzs.map (·.toLabeled)) z6 (by
    intro p hpm
    obtain ⟨o, ho, rfl⟩ := List.mem_map.1 hpm
    obtain ⟨i, hi⟩ := List.mem_iff_getElem?.1 ho
    have hlz := hran.lookupZ
    have hi' := getElem?_some_lt hi
    exact ((hlz.2 i _ o (List.getElem?_eq_getElem (by rw [← hlz.1]; exact hi')) hi).honest hd).2.1)
  obtain ⟨t3, ht3⟩ : ∃ x, x = S.absorbComms (S.absorbComms (S.fsRand (S.fsRand t2).2).2 (zc.map Prod.fst)) (lzc.map Prod.fst) := ⟨_, rfl⟩
  obtain ⟨qs, r4, hq⟩ := quotientRound_succeeds hd he hle hH hs' hp' h1 hran pk.vk.zhInverses (S.fsRand t3).1
  obtain ⟨⟨qc, z8⟩, c5⟩ := hn.commit (qs.map (·.toLabeled)) z7 (by
    intro p hpm
    obtain ⟨o, ho, rfl⟩ := List.mem_map.1 hpm
    exact (hq o ho).1)
  subst htheta hbeta hgamma
  subst ht2 ht3
  exact ⟨⟨v.extend ext, ⟨ls, zs, lzs⟩, qs, ⟨_, _, _, _, (S.fsRand (S.absorbComms (S.fsRand _).2 (qc.map Prod.fst))).1⟩, wc, lc, zc, lzc, qc,
    (S.fsRand (S.absorbComms (S.fsRand _).2 (qc.map Prod.fst))).2, z8⟩,
    Res.bind_eq_ok.2 ⟨(wc, z1), Res.mapErr_eq_ok.2 c1,
    Res.bind_eq_ok.2 ⟨d, Res.unwrap_eq_ok.2 hd.new_self,
    Res.bind_eq_ok.2 ⟨(ls, z2), Res.mapErr_eq_ok.2 r1,
    Res.bind_eq_ok.2 ⟨(lc, z3), Res.mapErr_eq_ok.2 c2,
    Res.bind_eq_ok.2 ⟨(zs, z4), r2,
    Res.bind_eq_ok.2 ⟨(zc, z5), Res.mapErr_eq_ok.2 c3,
    Res.bind_eq_ok.2 ⟨(lzs, z6), r3,
    Res.bind_eq_ok.2 ⟨(lzc, z7), Res.mapErr_eq_ok.2 c4,
    Res.bind_eq_ok.2 ⟨qs, Res.mapErr_eq_ok.2 r4,
    Res.bind_eq_ok.2 ⟨(qc, z8), Res.mapErr_eq_ok.2 c5, rfl⟩⟩⟩⟩⟩⟩⟩⟩⟩⟩, rfl, rfl, rfl⟩

/-- The prover reaches the evaluation challenge. -/
theorem proveRounds_succeeds {pk : ProverKey S} {ws is fixed table : List (ProverOracle F)} (hd : d.Ok)
    (he : pk.vk.index.ext.Ok) (hle : d.size ≤ pk.vk.index.ext.size) (h1 : 1 < d.size)
    (hs : SupportedShape d pk.vk.index ⟨ws, is, fixed, table⟩ sigmas qBlind vos)
    (hp : Provable d pk.vk.index ⟨ws, is, fixed, table⟩ sigmas qBlind vos)
    (hl : LookupsHold d.size pk.vk.index.usableRows ⟨ws, is, fixed, table⟩ pk.vk.index.lookups)
    {tau : Equiv.Perm (Fin (ws.filter (·.shouldPermute)).length × Fin pk.vk.index.perm.usableRows)}
    (henc : MadeFrom d pk.vk.index.perm.deltas sigmas tau) (hcop : CopiesHold ⟨ws, is, fixed, table⟩ tau)
    (hn : SupportsDegree S pk.ck d.size) (z : S.Z) :
    ∃ theta beta gamma, FirstMessages S pk ⟨ws, is, fixed, table⟩ d z theta beta gamma ∧
      (GoodDraw d pk.vk.index ⟨ws, is, fixed, table⟩ sigmas theta beta gamma →
        ∃ tr, proveRounds S pk (.new S fixed sigmas table qBlind pk.vk.index) ws is vos d.size z = .ok tr ∧
          tr.chal.theta = theta ∧ tr.chal.beta = beta ∧ tr.chal.gamma = gamma) := by
  obtain ⟨theta, hth⟩ := firstAnswer_exists hs hn z
  obtain ⟨beta, gamma, h2, h3⟩ := proveRounds_succeeds_at hd he hle h1 hs hp hn hth (hl.compressed theta)
  exact ⟨theta, beta, gamma, h2, fun h => h3 h (CopiesHold.equalProducts (v := ⟨ws, is, fixed, table⟩) henc hcop beta gamma)⟩

/-- The queries of a list of oracles are collected and answered. -/
theorem evaluations_succeed {ε : Type} (hd : d.Ok) (os : List (ProverOracle F)) (x : F)
    (h : ∀ o ∈ os, ∀ r ∈ o.rotations, r.degree < d.size) :
    ∃ qs es, getQuerySet (ε := ε) os xiLabel x d.elements = .ok qs ∧ evaluateQuerySet (ε := ε) os qs = .ok es := by
  obtain ⟨qs, h1, -, h2⟩ := getQuerySet_ok (ε := ε) hd os xiLabel x h
  refine ⟨qs, _, h1, evaluateQuerySet_ok os qs ?_⟩
  intro q hq
  obtain ⟨o, ho, r, -, rfl⟩ := (h2 q).1 hq
  cases hf : findOracle os (ofLex (queryOf d xiLabel x (ConcreteOracle.label o) r)).1 with
  | some o' => exact ⟨o', rfl⟩
  | none => exact absurd rfl (findOracle_eq_none.1 hf o ho)

/-- An oracle whose rotations are small and lead to different rows. -/
def GoodRotations (n : Nat) (o : ProverOracle F) : Prop :=
  (∀ r ∈ o.rotations, r.degree < n) ∧ o.rotations.Pairwise (fun r r' => ¬ r.signed ≡ r'.signed [ZMOD n])

theorem goodRotations_plus {n : Nat} {o : ProverOracle F} (hs : o.rotations.Pairwise (· < ·))
    (h : ∀ r ∈ o.rotations, r.sign = .plus ∧ r.degree < n) : GoodRotations n o :=
  ⟨fun r hr => (h r hr).2, plus_distinct (hs.imp (fun h => h.ne)) h⟩

theorem goodRotations_prev {n : Nat} (h1 : 1 < n) {o : ProverOracle F}
    (h : o.rotations = setExtend [] [Rotation.curr, Rotation.prev]) : GoodRotations n o := by
  have e : setExtend [] [Rotation.curr, Rotation.prev] = [Rotation.curr, Rotation.prev] ∨
      setExtend [] [Rotation.curr, Rotation.prev] = [Rotation.prev, Rotation.curr] := by decide
  have hc : ¬ Rotation.curr.signed ≡ Rotation.prev.signed [ZMOD n] := by
    rw [Int.modEq_iff_dvd]
    simp only [Rotation.signed, Rotation.curr, Rotation.prev]
    intro h
    have := Int.le_of_dvd (by norm_num) (by simpa using h : (n : ℤ) ∣ 1)
    omega
  unfold GoodRotations
  rw [h]
  refine ⟨?_, ?_⟩
  · intro r hr
    rw [mem_setExtend] at hr
    simp only [List.not_mem_nil, List.mem_cons, or_false, false_or] at hr
    rcases hr with rfl | rfl
    · exact Nat.lt_of_le_of_lt (Nat.zero_le _) h1
    · exact h1
  · rcases e with e | e
    · rw [e]; simpa using hc
    · rw [e]; simpa using fun h => hc h.symm

/-- What is opened, in order. -/
def ProverTrace.opened (tr : ProverTrace S) (pre : ProverPreprocessed S) : List (ProverOracle F) :=
  openingOrder tr.view.witness (primes tr.rounds.lookups) tr.rounds.lookupZs tr.quotient tr.rounds.zs pre.fixed pre.table
    pre.perm pre.qBlind

/-- After the evaluation challenge only the multi-opening can fail. -/
theorem prove_reaches {pk : ProverKey S} {com : F[X] → S.Rand → S.Comm} (hS : HomomorphicScheme S pk.ck pk.vk.vk com)
    {ws is fixed table : List (ProverOracle F)} (hd : d.Ok)
    (he : pk.vk.index.ext.Ok) (hle : d.size ≤ pk.vk.index.ext.size) (h1 : 1 < d.size)
    (hs : SupportedShape d pk.vk.index ⟨ws, is, fixed, table⟩ sigmas qBlind vos)
    (hp : Provable d pk.vk.index ⟨ws, is, fixed, table⟩ sigmas qBlind vos)
    {z : S.Z} {tr : ProverTrace S}
    (htr : proveRounds S pk (.new S fixed sigmas table qBlind pk.vk.index) ws is vos d.size z = .ok tr) :
    ∃ (pre : ProverPreprocessed S) (rands : List S.Rand) (k : MpProof S → TPProof S),
      pre = .new S fixed sigmas table qBlind pk.vk.index ∧
      tr.view = (⟨ws, is, fixed, table⟩ : ProverView F).extend pk.vk.index.ext ∧
      RoundsRan S d pk.vk.index tr.view pre.perm tr.chal.theta tr.chal.beta tr.chal.gamma tr.rounds ∧
      quotientRound tr.view vos pk.vk.index pk.vk.zhInverses pre.perm pre.qBlind tr.rounds d tr.chal.alpha tr.chal.beta
        tr.chal.gamma = .ok tr.quotient ∧
      (tr.opened pre).length = rands.length ∧
      (∀ o ∈ tr.opened pre, o.poly.length ≤ d.size ∧ GoodRotations d.size o) ∧
      prove S pk (.new S fixed sigmas table qBlind pk.vk.index) ws is vos d.size z
        = ((mpProve S pk.ck (tr.opened pre) rands tr.chal.xi d.size tr.t tr.z).mapErr Err.multiproof >>= fun mp => pure (k mp)) ∧
      ∀ mp, (k mp).multiopen = mp ∧ verifierChallenges S (k mp) = (tr.chal, tr.t) := by
  obtain ⟨d', R, hch⟩ := proveRounds_inv S htr
  obtain rfl : d = d' := Option.some.inj (hd.new_self.symm.trans R.dom)
  obtain ⟨pre, hpre⟩ : ∃ pre, pre = ProverPreprocessed.new S fixed sigmas table qBlind pk.vk.index := ⟨_, rfl⟩
  rw [← hpre] at R
  have hview : tr.view = (⟨ws, is, fixed, table⟩ : ProverView F).extend pk.vk.index.ext := by
    rw [R.view_eq, hpre]; rfl
  have hperm : pre.perm = sigmas.map (·.computeExtended pk.vk.index.ext) := by rw [hpre]; rfl
  have hqb : pre.qBlind = qBlind.computeExtended pk.vk.index.ext := by rw [hpre]; rfl
  have hfix : pre.fixed = tr.view.fixed := by rw [hview, hpre]; rfl
  have htab : pre.table = tr.view.table := by rw [hview, hpre]; rfl
  have hs' := hs.extend pk.vk.index.ext
  have hp' := hp.extend pk.vk.index.ext
  have hH := hs.allHonest pk.vk.index.ext
  rw [← hview, ← hperm, ← hqb] at hs' hH hp'
  have conv : ∀ {os : List (ProverOracle F)} {z z' cs}, S.commit pk.ck (os.map (·.toLabeled)) z = .ok (cs, z') →
      cs.length = os.length := by
    intro os z z' cs h
    simpa using (hS.commit _ _ _ _ h).length_eq.symm
  have hran : RoundsRan S d pk.vk.index tr.view pre.perm tr.chal.theta tr.chal.beta tr.chal.gamma tr.rounds := by
    obtain ⟨a1, a2, a3, a4, a5⟩ := R.lookups
    obtain ⟨b1, b2, b3, b4, b5⟩ := R.permutation
    obtain ⟨c1, c2, c3, c4, c5⟩ := R.subsetEquality
    exact ⟨⟨a1, a2, a4⟩, ⟨b1, b2, b4⟩, ⟨c1, c2, c4⟩⟩
  have hemp : pre.emptyRands.length = (pre.fixed ++ pre.table ++ pre.perm ++ [pre.qBlind]).length := by
    simp only [hpre, ProverPreprocessed.new, List.length_append, List.length_map, List.length_cons, List.length_nil,
      List.length_replicate]
    omega
  -- every oracle that is opened
  have hus := hp.usable
  have hzs : ∀ o ∈ tr.rounds.zs, GoodRotations d.size o := by
    intro o ho
    obtain ⟨i, hi⟩ := List.getElem?_of_mem ho
    obtain ⟨_, _, h2⟩ := hran.aggPoly hH hi
    have h3 := h2.rotations
    unfold aggRotations at h3
    refine goodRotations_plus ?_ ?_
    · rw [h3]
      split
      · exact setExtend_sorted List.Pairwise.nil
      · exact setInsert_sorted (setExtend_sorted List.Pairwise.nil)
    · intro r hr
      rw [h3] at hr
      have hr' : r = ⟨pk.vk.index.perm.usableRows, .plus⟩ ∨ r = Rotation.curr ∨ r = Rotation.next := by
        split at hr
        · rw [mem_setExtend] at hr
          simpa using Or.inr hr
        · rw [mem_setInsert, mem_setExtend] at hr
          simpa using hr
      rcases hr' with rfl | rfl | rfl
      · exact ⟨rfl, hus⟩
      · exact ⟨rfl, hd.size_pos⟩
      · exact ⟨rfl, h1⟩
  have hquot : ∀ o ∈ tr.quotient, o.poly.length ≤ d.size ∧ GoodRotations d.size o := by
    obtain ⟨qs, hq1, hq2⟩ := quotientRound_succeeds hd he hle hH hs' hp' h1 hran pk.vk.zhInverses tr.chal.alpha
    obtain rfl := Res.ok.inj (hq1.symm.trans R.quotient.1)
    intro o ho
    obtain ⟨h2, h3⟩ := hq2 o ho
    refine ⟨h2, goodRotations_plus (by rw [h3]; exact setExtend_sorted List.Pairwise.nil) ?_⟩
    intro r hr
    rw [h3, mem_setExtend] at hr
    obtain rfl : r = Rotation.curr := by simpa using hr
    exact ⟨rfl, hd.size_pos⟩
  have hlz : ∀ o ∈ tr.rounds.lookupZs, o.poly.length ≤ d.size ∧ GoodRotations d.size o := by
    intro o ho
    obtain ⟨i, hi⟩ := List.getElem?_of_mem ho
    have hi' := getElem?_some_lt hi
    have h2 := hran.lookupZ.2 i _ o (List.getElem?_eq_getElem (by rw [← hran.lookupZ.1]; exact hi')) hi
    refine ⟨(h2.honest hd).2.1, goodRotations_plus (by rw [h2.rotations]; exact setExtend_sorted List.Pairwise.nil) ?_⟩
    intro r hr
    rw [h2.rotations, mem_setExtend] at hr
    have hr' : r = Rotation.curr ∨ r = Rotation.next := by simpa using hr
    rcases hr' with rfl | rfl
    · exact ⟨rfl, hd.size_pos⟩
    · exact ⟨rfl, h1⟩
  have hprim : ∀ o ∈ primes tr.rounds.lookups, o.poly.length ≤ d.size ∧ GoodRotations d.size o := by
    intro o ho
    obtain ⟨l, hlm, hc⟩ := primes_mem.1 ho
    obtain ⟨i, hi⟩ := List.getElem?_of_mem hlm
    obtain ⟨A, T, hb⟩ := hran.built hd he hle hH hs' hi
    rcases hc with rfl | rfl
    · exact ⟨hb.aPrimeHonest.2.1, goodRotations_prev h1 hb.aPrimeRot⟩
    · refine ⟨hb.sPrimeHonest.2.1, goodRotations_plus (by rw [hb.sPrimeRot]; exact setExtend_sorted List.Pairwise.nil) ?_⟩
      intro r hr
      rw [hb.sPrimeRot, mem_setExtend] at hr
      obtain rfl : r = Rotation.curr := by simpa using hr
      exact ⟨rfl, hd.size_pos⟩
  have hcols : ∀ o ∈ tr.view.witness ++ tr.view.fixed ++ tr.view.table ++ pre.perm ++ [pre.qBlind],
      o.poly.length ≤ d.size ∧ GoodRotations d.size o := by
    intro o ho
    refine ⟨?_, ?_, hp'.distinct o ho⟩
    · rcases List.mem_append.1 ho with ho | ho
      · refine (hs'.columns o ?_).2
        simp only [List.mem_append] at ho ⊢
        tauto
      · obtain rfl := List.mem_singleton.1 ho
        exact hs'.selector
    · intro r hr
      rcases List.mem_append.1 (show o ∈ (tr.view.witness ++ tr.view.fixed ++ tr.view.table) ++ (pre.perm ++ [pre.qBlind]) by
        simpa only [List.append_assoc] using ho) with ho | ho
      · exact hs'.rotations o ho r hr
      · rw [hs'.unrotated o ho r hr]
        exact hd.size_pos
  have hall : ∀ o ∈ openingOrder tr.view.witness (primes tr.rounds.lookups) tr.rounds.lookupZs tr.quotient
      tr.rounds.zs pre.fixed pre.table pre.perm pre.qBlind, o.poly.length ≤ d.size ∧ GoodRotations d.size o := by
    intro o ho
    unfold openingOrder at ho
    simp only [List.mem_append, hfix, htab] at ho hcols
    rcases ho with ((((ho | ho) | ho) | ho) | ho) | ho
    · exact hcols o (by tauto)
    · exact hprim o ho
    · exact hlz o ho
    · exact hquot o ho
    · exact ⟨(hran.zs_honest hd hH o ho).2.1, hzs o ho⟩
    · exact hcols o (by tauto)
  obtain ⟨wq, we, w1, w2⟩ := evaluations_succeed (ε := Err S.E) hd tr.view.witness tr.chal.xi
    (fun o ho => (hcols o (by simp [ho])).2.1)
  obtain ⟨fq, fe, f1, f2⟩ := evaluations_succeed (ε := Err S.E) hd pre.fixed tr.chal.xi
    (fun o ho => (hcols o (by rw [hfix] at ho; simp [ho])).2.1)
  obtain ⟨tq, te, t1, t2⟩ := evaluations_succeed (ε := Err S.E) hd pre.table tr.chal.xi
    (fun o ho => (hcols o (by rw [htab] at ho; simp [ho])).2.1)
  obtain ⟨zq, ze, z1, z2⟩ := evaluations_succeed (ε := Err S.E) hd tr.rounds.zs tr.chal.xi (fun o ho => (hzs o ho).1)
  have hlen : (openingOrder tr.view.witness (primes tr.rounds.lookups) tr.rounds.lookupZs tr.quotient
      tr.rounds.zs pre.fixed pre.table pre.perm pre.qBlind).length
      = (tr.wc.map Prod.snd ++ tr.lc.map Prod.snd ++ tr.lzc.map Prod.snd ++ tr.qc.map Prod.snd
        ++ tr.zc.map Prod.snd ++ pre.emptyRands).length := by
    obtain ⟨_, hw⟩ := R.witness
    obtain ⟨_, _, _, _, hl'⟩ := R.lookups
    obtain ⟨_, _, _, _, hpm⟩ := R.permutation
    obtain ⟨_, _, _, _, hse⟩ := R.subsetEquality
    obtain ⟨_, _, _, hq⟩ := R.quotient
    unfold openingOrder
    rw [List.length_append (as := _ ++ tr.zc.map Prod.snd), hemp]
    simp only [List.length_append, List.length_map, conv hw, conv hl', conv hpm, conv hse, conv hq]
  have hom : d.element 1 ≠ 0 := pow_ne_zero _ hd.omega_ne_zero
  refine ⟨pre, _, fun mp => ⟨tr.wc.map Prod.fst, we, fe, te, pre.perm.map (·.query tr.chal.xi), peval pre.qBlind.poly tr.chal.xi,
    tr.lc.map Prod.fst, tr.lzc.map Prod.fst, lookupEvalsOf tr.rounds.lookups tr.chal.xi (d.element 1)⁻¹,
    lookupZEvalsOf tr.rounds.lookupZs tr.chal.xi (d.element 1), tr.zc.map Prod.fst, ze, tr.qc.map Prod.fst,
    tr.quotient.map (·.query tr.chal.xi), mp⟩, hpre, hview, hran, R.quotient.1, hlen, hall, ?_, fun mp => ⟨rfl, hch _ rfl rfl rfl rfl rfl⟩⟩
  rw [← hpre] at htr ⊢
  unfold prove
  simp only [htr, hd.new_self, Res.unwrap_some, Res.bind_ok, w1, w2, f1, f2, t1, t2, z1, z2, hom, ne_eq, not_false_eq_true,
    decide_true, Res.assert_true]
  rw [decide_eq_true hlen, Res.assert_true, Res.bind_ok]
  rfl

/-- The prover returns a proof. -/
theorem prove_succeeds {pk : ProverKey S} {com : F[X] → S.Rand → S.Comm} (hS : HomomorphicScheme S pk.ck pk.vk.vk com)
    {ws is fixed table : List (ProverOracle F)} (hd : d.Ok)
    (he : pk.vk.index.ext.Ok) (hle : d.size ≤ pk.vk.index.ext.size) (h1 : 1 < d.size)
    (hs : SupportedShape d pk.vk.index ⟨ws, is, fixed, table⟩ sigmas qBlind vos)
    (hp : Provable d pk.vk.index ⟨ws, is, fixed, table⟩ sigmas qBlind vos)
    (hn : SupportsDegree S pk.ck d.size) {z : S.Z} {tr : ProverTrace S}
    (htr : proveRounds S pk (.new S fixed sigmas table qBlind pk.vk.index) ws is vos d.size z = .ok tr)
    (hxi : tr.chal.xi ≠ 0) :
    ∃ proof, prove S pk (.new S fixed sigmas table qBlind pk.vk.index) ws is vos d.size z = .ok proof ∧
      verifierChallenges S proof = (tr.chal, tr.t) := by
  have hone : ∀ (p : LPoly F) (z z' : S.Z) cs, S.commit pk.ck [p] z = .ok (cs, z') → cs.length = 1 :=
    fun p z z' cs h => (hS.commit _ _ _ _ h).length_eq.symm
  obtain ⟨pre, rands, k, -, -, -, -, hlen, hall, h2, h3⟩ := prove_reaches hS hd he hle h1 hs hp htr
  obtain ⟨mp, hmp⟩ := mpProve_succeeds hd hn hone hlen (fun o ho => (hall o ho).1)
    (fun o ho => ⟨(hall o ho).2.1, points_nodup hd hxi (hall o ho).2.2⟩) tr.t tr.z
  rw [hmp] at h2
  exact ⟨k mp, h2, (h3 mp).2⟩

end
end
end ZK
