import Verif.Spec.NoBlinding
import Verif.Lemmas.Complete
/-! The lookup rounds without usable rows and with zeros for blinding. -/
set_option autoImplicit false
set_option linter.unusedSectionVars false
namespace ZK
open Polynomial

section
variable {F : Type} [Field F] [LinearOrder F] [FftParams F] [LawfulFft F]

theorem drawN_zeros {Z : Type} (m : Nat) (z : Z) : drawN (fun z => ((0 : F), z)) m z = (List.replicate m 0, z) := by
  induction m with
  | zero => rfl
  | succ m ih => simp only [drawN, ih, List.replicate_succ]

theorem drawPairs_zeros {Z : Type} (m : Nat) (z : Z) :
    drawPairs (fun z => ((0 : F), z)) m z = (List.replicate m 0, List.replicate m 0, z) := by
  induction m with
  | zero => rfl
  | succ m ih => simp only [drawPairs, ih, List.replicate_succ]

theorem permuteForLookup_nil : (permuteForLookup [] [] : Res PiopErr (List F × List F)) = .ok ([], []) := by
  rfl

/-- The permuted columns of a lookup without usable rows are zero. -/
theorem lookupConstruct_zeros {Z : Type} {v : ProverView F} {idx : Nat} {exprs : List (Expr F)} {tables : List OracleQuery}
    {theta : F} {d ext : Domain F} {z z' : Z} {l : LookupOracles (ProverOracle F)}
    (h : lookupConstruct (fun z => (0, z)) v 0 idx exprs tables theta d ext z = .ok (l, z')) :
    l.aPrime.evals = List.replicate d.size 0 ∧ l.sPrime.evals = List.replicate d.size 0 := by
  unfold lookupConstruct at h
  simp only [Res.bind_eq_ok, List.take_zero, permuteForLookup_nil, Res.ok.injEq] at h
  obtain ⟨_, _, _, _, _, _, _, _, _, _, _, _, _, _, _, _, _, _, p, rfl, _, _, _, _, h⟩ := h
  simp only [drawPairs_zeros, Nat.sub_zero, List.nil_append] at h
  obtain ⟨⟩ := Res.ok.inj h
  exact ⟨rfl, rfl⟩

/-- The grand product of a lookup without usable rows is one in the first row and zero in the others. -/
theorem seConstruct_zeros {Z ε : Type} {l : LookupOracles (ProverOracle F)} {beta gamma : F} {idx : Nat} {d ext : Domain F} {z z' : Z}
    {o : ProverOracle F} (h : (seConstruct (fun z => (0, z)) l beta gamma idx 0 d ext z : Res ε _) = .ok (o, z')) :
    o.evals = 1 :: List.replicate (d.size - 1) 0 := by
  unfold seConstruct at h
  simp only [Res.bind_eq_ok] at h
  obtain ⟨zs, h1, -, -, -, -, -, -, h⟩ := h
  obtain rfl : zs = [1] := (Res.ok.inj h1).symm
  simp only [drawN_zeros, Nat.sub_zero] at h
  obtain ⟨⟩ := Res.ok.inj h
  rfl

/-- Without usable rows the constraints of a lookup hold on every row. -/
theorem lookup_rows_zero_of_zeros {d ext : Domain F} (hd : d.Ok) {idx : Nat} {A S : F[X]}
    {l : LookupOracles (ProverOracle F)} {o : ProverOracle F} {beta gamma : F}
    (hb : LookupBuilt d ext 0 idx A S l) (ha : LookupAgg d ext 0 idx l beta gamma o)
    (h1 : l.aPrime.evals = List.replicate d.size 0) (h2 : l.sPrime.evals = List.replicate d.size 0)
    (h3 : o.evals = 1 :: List.replicate (d.size - 1) 0) {qBlind : F[X]} (hq : qBlind.eval (d.omega ^ 0) = 0)
    (hl : qBlind.eval (d.omega ^ (d.size - 1)) = 1)
    {i : Nat} (hi : i < d.size) :
    ∀ x ∈ lookupPolys d 0 qBlind beta gamma
      (⟨toPoly l.a.poly, toPoly l.s.poly, toPoly l.aPrime.poly, toPoly l.sPrime.poly⟩, toPoly o.poly),
      x.eval (d.omega ^ i) = 0 := by
  intro x hx
  have hx' := List.mem_map_of_mem (f := fun p : F[X] => p.eval (d.omega ^ i)) hx
  rw [eval_lookupPolys, rowPoly_eval hd hi hd.size_pos] at hx'
  have ea : (toPoly l.aPrime.poly).eval (d.omega ^ i) = 0 := by
    have h := hb.aPrimeHonest.1.2 i hi
    rw [h1, List.getElem?_replicate, if_pos hi] at h
    exact (Option.some.inj h).symm
  have es : (toPoly l.sPrime.poly).eval (d.omega ^ i) = 0 := by
    have h := hb.sPrimeHonest.1.2 i hi
    rw [h2, List.getElem?_replicate, if_pos hi] at h
    exact (Option.some.inj h).symm
  have ez : ∀ j < d.size, (toPoly o.poly).eval (d.omega ^ j) = if j = 0 then 1 else 0 := by
    intro j hj
    have h := (ha.honest hd).1.2 j hj
    rw [h3] at h
    rcases j with _ | j
    · exact (Option.some.inj h).symm
    · rw [List.getElem?_cons_succ, List.getElem?_replicate, if_pos (by omega)] at h
      rw [if_neg (by omega)]
      exact (Option.some.inj h).symm
  simp only [lookupConstraints, List.mem_cons, List.not_mem_nil, or_false] at hx'
  by_cases h0 : i = 0
  · subst h0
    rw [if_pos rfl, ea, es, ez 0 hi, if_pos rfl, hq] at hx'
    rcases hx' with h | h | h | h | h <;> rw [h] <;> ring
  · rw [if_neg h0, ea, es, ez i hi, if_neg h0] at hx'
    rcases hx' with h | h | h | h | h
    · rw [h]; ring
    · rw [h, ← pow_succ']
      by_cases hlast : i + 1 = d.size
      · rw [show i = d.size - 1 by omega, hl]; ring
      · rw [ez (i + 1) (by omega), if_neg (by omega)]; ring
    · rw [h]; ring
    · rw [h]; ring
    · rw [h]; ring

omit [LawfulFft F] [LinearOrder F] in
/-- The conditions on a circuit do not become stronger when no row of the lookups is usable. -/
theorem SupportedShape.withoutRows {d : Domain F} (hd : d.Ok) {index : Index F} {v : ProverView F} {sigmas : List (ProverOracle F)}
    {qBlind : ProverOracle F} {vos : List (GenericVO F)} (h : SupportedShape d index v sigmas qBlind vos) :
    SupportedShape d { index with usableRows := 0 } v sigmas qBlind vos :=
  ⟨h.columns, h.selector, h.labels, h.rotations, h.unrotated, h.gates, h.copied, h.lookups, h.blinding, fun _ => hd.size_pos⟩

variable {S : Scheme F} {d : Domain F} {index : Index F} {v : ProverView F} {sigmas : List (ProverOracle F)}
  {qBlind : ProverOracle F} {vos : List (GenericVO F)}

/-- Without usable rows, and with zeros for blinding, every run satisfies the lookup constraints on every row. -/
theorem lookupsVanish_unblinded (hd : d.Ok) (he : index.ext.Ok) (hle : d.size ≤ index.ext.size)
    (hH : AllHonest d index.ext v sigmas qBlind) (hs : SupportedShape d index v sigmas qBlind vos) (hu : index.perm.usableRows = 0)
    (hr : index.usableRows = 0) (hq : index.lookups ≠ [] → (toPoly qBlind.poly).eval (d.omega ^ 0) = 0 ∧
      (toPoly qBlind.poly).eval (d.omega ^ (d.size - 1)) = 1) :
    LookupsVanish S.unblinded d index v sigmas qBlind := by
  intro theta beta gamma r h i hi p hp
  obtain ⟨k, hk⟩ := List.getElem?_of_mem hp
  obtain ⟨l, o, h1, h2, rfl⟩ := List.getElem?_zipWith_eq_some.1 hk
  obtain ⟨A, T, hb⟩ := h.built hd he hle hH hs h1
  obtain ⟨hlen, hlk⟩ := h.lookup
  have hk' : k < index.lookups.length := by
    rw [← hlen]; exact getElem?_some_lt h1
  obtain ⟨es, ts, z, z', -, -, h3⟩ := hlk k l _ h1 (List.getElem?_eq_getElem hk')
  have ha := h.lookupZ.2 k l o h1 h2
  have hz := h.lookupZ_made.2 k l o h1 h2
  obtain ⟨z2, z3, h4⟩ := hz
  rw [hr] at hb ha h3 h4
  obtain ⟨e1, e2⟩ := lookupConstruct_zeros h3
  have hne : index.lookups ≠ [] := List.ne_nil_of_length_pos (by omega)
  rw [hu]
  exact lookup_rows_zero_of_zeros hd hb ha e1 e2 (seConstruct_zeros h4) (hq hne).1 (hq hne).2 hi

end
end ZK
