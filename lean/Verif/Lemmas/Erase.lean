import Verif.Properties.Malleable
/-! The polynomials in the multi-opening do not depend on the randomness of the commitments. -/
set_option autoImplicit false
set_option linter.unusedSectionVars false
namespace ZK

theorem Res.foldM_erase {ε A B A' B' : Type} {f : A → B → Res ε A} {f' : A' → B' → Res ε A'} {g : A → A'} {h : B → B'}
    (hf : ∀ a b, (f a b).map1 g = f' (g a) (h b)) (l : List B) (a : A) :
    (Res.foldM f a l).map1 g = Res.foldM f' (g a) (l.map h) := by
  induction l generalizing a with
  | nil => rfl
  | cons b l ih =>
    rw [List.map_cons, Res.foldM_cons, Res.foldM_cons, ← hf]
    cases f a b with
    | ok c => exact ih c
    | err e => rfl
    | panic => rfl

theorem Res.mapM_erase {ε A B A' B' : Type} {f : A → Res ε B} {f' : A' → Res ε B'} {g : B → B'} {h : A → A'}
    (hf : ∀ a, (f a).map1 g = f' (h a)) (l : List A) : (Res.mapM f l).map1 (List.map g) = Res.mapM f' (l.map h) := by
  induction l with
  | nil => rfl
  | cons b l ih =>
    rw [List.map_cons, Res.mapM_cons, Res.mapM_cons, ← hf, ← ih]
    cases f b with
    | ok c => cases Res.mapM f l <;> rfl
    | err e => rfl
    | panic => rfl

theorem Res.map1_id {ε A : Type} (x : Res ε A) : x.map1 id = x := by cases x <;> rfl

section
variable {F : Type} [Field F] [LinearOrder F]

/-- `mpProverSet` without randomness. -/
def mpPolySet (x1s : List F) (xi : F) (omegas : List F) (set : List Rotation × List (ProverOracle F)) :
    Res PiopErr (List F × List (F × F)) := do
  let q ← Res.foldM (fun (acc : List F) (o : ProverOracle F × Nat) => do
      let x ← Res.idx x1s o.2
      pure (dadd acc (dscale x o.1.poly))) [] set.2.zipIdx
  let es ← evalSet (fun (o : ProverOracle F) p => .ok (o.query p)) x1s set.2 xi omegas
    (fun r => .err (.repeatedRotation r)) set.1
  pure (q, es)

theorem aggQuery_fst {S : Scheme F} (x1s : List F) (os : List (OracleRand S)) (p : F) :
    aggQuery (fun (o : OracleRand S) p => .ok (o.1.query p)) x1s os p
      = aggQuery (fun (o : ProverOracle F) p => .ok (o.query p)) x1s (os.map Prod.fst) p := by
  unfold aggQuery
  rw [List.zipIdx_map]
  have := Res.foldM_erase (g := id) (h := Prod.map (Prod.fst (α := ProverOracle F) (β := S.Rand)) (id : Nat → Nat))
    (f := fun (acc : F) (o : OracleRand S × Nat) => (do
      let x ← Res.idx x1s o.2
      let v ← (Res.ok (o.1.1.query p) : Res PiopErr F)
      pure (acc + x * v) : Res PiopErr F))
    (f' := fun (acc : F) (o : ProverOracle F × Nat) => (do
      let x ← Res.idx x1s o.2
      let v ← (Res.ok (o.1.query p) : Res PiopErr F)
      pure (acc + x * v) : Res PiopErr F)) (fun a b => by
        show _ = (Res.idx x1s b.2 >>= _)
        cases (Res.idx x1s b.2 : Res PiopErr F) <;> rfl) os.zipIdx 0
  exact (Res.map1_id _).symm.trans this

theorem mpProverSet_erase {S : Scheme F} (x1s : List F) (xi : F) (omegas : List F) (set : List Rotation × List (OracleRand S)) :
    (mpProverSet (S := S) x1s xi omegas set).map1 (fun r => (r.1.1, r.2))
      = mpPolySet x1s xi omegas (set.1, set.2.map Prod.fst) := by
  unfold mpProverSet mpPolySet
  have e1 := Res.foldM_erase (g := (Prod.fst : List F × S.Rand → List F))
    (h := Prod.map (Prod.fst (α := ProverOracle F) (β := S.Rand)) (id : Nat → Nat))
    (f := fun (acc : List F × S.Rand) (o : OracleRand S × Nat) => (do
      let x ← Res.idx x1s o.2
      pure (dadd acc.1 (dscale x o.1.1.poly), S.addRand acc.2 (S.scaleRand o.1.2 x)) : Res PiopErr _))
    (f' := fun (acc : List F) (o : ProverOracle F × Nat) => (do
      let x ← Res.idx x1s o.2
      pure (dadd acc (dscale x o.1.poly)) : Res PiopErr _)) (fun a b => by
        show _ = (Res.idx x1s b.2 >>= _)
        cases (Res.idx x1s b.2 : Res PiopErr F) <;> rfl) set.2.zipIdx ([], S.emptyRand)
  rw [← List.zipIdx_map] at e1
  simp only at e1 ⊢
  rw [← e1]
  have e2 : evalSet (fun (o : OracleRand S) p => .ok (o.1.query p)) x1s set.2 xi omegas (fun r => .err (.repeatedRotation r)) set.1
      = evalSet (fun (o : ProverOracle F) p => .ok (o.query p)) x1s (set.2.map Prod.fst) xi omegas
          (fun r => .err (.repeatedRotation r)) set.1 := by
    unfold evalSet
    simp only [aggQuery_fst]
  rw [e2]
  cases Res.foldM (fun (acc : List F × S.Rand) (o : OracleRand S × Nat) => (do
      let x ← Res.idx x1s o.2
      pure (dadd acc.1 (dscale x o.1.1.poly), S.addRand acc.2 (S.scaleRand o.1.2 x)) : Res PiopErr _)) ([], S.emptyRand) set.2.zipIdx with
  | ok a =>
    show Res.map1 _ (evalSet _ x1s (set.2.map Prod.fst) xi omegas _ set.1 >>= _)
      = (evalSet _ x1s (set.2.map Prod.fst) xi omegas _ set.1 >>= _)
    cases evalSet (fun (o : ProverOracle F) p => .ok (o.query p)) x1s (set.2.map Prod.fst) xi omegas
          (fun r => .err (.repeatedRotation r)) set.1 <;> rfl
  | err e => rfl
  | panic => rfl

/-- `mpFirstRound` without randomness. -/
def mpPolyRound (sets : List (List Rotation × List (ProverOracle F))) (numOracles : Nat) (domain : Domain F) (xi x1 x2 : F) :
    Res PiopErr (List (List F) × List F) := do
  let x1s := powersFrom 1 x1 numOracles
  let qs ← Res.mapM (mpPolySet x1s xi domain.elements) sets
  let fs ← Res.mapM (fun (q : List F × List (F × F)) => pdiv q.1 (constructVanishing (q.2.map Prod.fst))) qs
  let x2s := powersFrom 1 x2 fs.length
  let f ← Res.foldM (fun (acc : List F) (p : List F × Nat) => do
      let x ← Res.idx x2s p.2
      pure (dadd acc (dscale x p.1))) [] fs.zipIdx
  pure (qs.map Prod.fst, f)

theorem mpFirstRound_erase {S : Scheme F} (sets : List (List Rotation × List (OracleRand S))) (numOracles : Nat) (d : Domain F)
    (xi x1 x2 : F) :
    (mpFirstRound sets numOracles d xi x1 x2).map1 (fun r => (r.1.map Prod.fst, r.2))
      = mpPolyRound (sets.map (fun s => (s.1, s.2.map Prod.fst))) numOracles d xi x1 x2 := by
  unfold mpFirstRound mpPolyRound
  simp only
  rw [← Res.mapM_erase (mpProverSet_erase (S := S) (powersFrom 1 x1 numOracles) xi d.elements) sets]
  cases Res.mapM (mpProverSet (S := S) (powersFrom 1 x1 numOracles) xi d.elements) sets with
  | err e => rfl
  | panic => rfl
  | ok qs =>
    show Res.map1 _ (Res.mapM _ qs >>= _) = (Res.mapM _ (qs.map _) >>= _)
    have e2 := Res.mapM_erase (ε := PiopErr) (g := id) (h := fun r : (List F × S.Rand) × List (F × F) => (r.1.1, r.2))
      (f := fun (q : (List F × S.Rand) × List (F × F)) => pdiv q.1.1 (constructVanishing (q.2.map Prod.fst)))
      (f' := fun (q : List F × List (F × F)) => pdiv q.1 (constructVanishing (q.2.map Prod.fst))) (fun a => by
        cases (pdiv a.1.1 (constructVanishing (a.2.map Prod.fst)) : Res PiopErr _) <;> rfl) qs
    rw [← e2]
    cases (Res.mapM (fun (q : (List F × S.Rand) × List (F × F)) => pdiv q.1.1 (constructVanishing (q.2.map Prod.fst))) qs
      : Res PiopErr _) with
    | err e => rfl
    | panic => rfl
    | ok fs =>
      show Res.map1 _ (Res.foldM _ [] fs.zipIdx >>= _) = (Res.foldM _ [] (fs.map id).zipIdx >>= _)
      rw [List.map_id]
      cases (Res.foldM (fun (acc : List F) (p : List F × Nat) => (do
        let x ← Res.idx (powersFrom 1 x2 fs.length) p.2
        pure (dadd acc (dscale x p.1)) : Res PiopErr _)) [] fs.zipIdx) with
      | err e => rfl
      | panic => rfl
      | ok f => exact congrArg Res.ok (by simp [Function.comp_def])

/-- `mpThirdRound` without randomness. -/
def mpPolyThird (qs : List (List F)) (f : List F) (x4 : F) : Res PiopErr (List F) :=
  Res.foldM (fun (acc : List F) (q : List F × Nat) => do
      let x ← Res.idx (powersFrom x4 x4 qs.length) q.2
      pure (dadd acc (dscale x q.1))) f qs.zipIdx

theorem mpThirdRound_erase {S : Scheme F} (qs : List (List F × S.Rand)) (f : List F) (fRand : S.Rand) (x4 : F) :
    (mpThirdRound (S := S) qs f fRand x4).map1 Prod.fst = mpPolyThird (qs.map Prod.fst) f x4 := by
  unfold mpThirdRound mpPolyThird
  rw [List.length_map, List.zipIdx_map]
  exact Res.foldM_erase (fun a b => by
    show _ = (Res.idx _ b.2 >>= _)
    cases (Res.idx (powersFrom x4 x4 qs.length) b.2 : Res PiopErr F) <;> rfl) _ _

end
end ZK
