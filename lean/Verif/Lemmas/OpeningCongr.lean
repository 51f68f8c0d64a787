import Verif.Properties.Multiopen
/-! The opening check depends on the verifier's oracles only through rotations, commitments and aggregated answers. -/
set_option autoImplicit false
set_option linter.unusedSectionVars false
namespace ZK
open Polynomial

section
variable {F : Type} [Field F] [LinearOrder F] [FftParams F] [LawfulFft F]
variable {S : Scheme F}

theorem Rotation.point_mem {d : Domain F} (hd : d.Ok) {xi : F} {rots : List Rotation} {r : Rotation} (hr : r ∈ rots) {p : F}
    (h : r.point (ε := PiopErr) xi d.elements = .ok p) : p ∈ points d xi rots := by
  by_cases hlt : r.degree < d.size
  · rw [Rotation.point_ok hd r xi hlt] at h
    exact List.mem_map.2 ⟨r, hr, Res.ok.inj h⟩
  · have := Rotation.point_oob (ε := PiopErr) d r xi (by have := hd.size_pos; omega) (by omega)
    rw [this] at h; simp at h

theorem commFold_congr {x1s : List F} {l m : List (VerifierOracle F S.Comm)}
    (h : List.Forall₂ (fun v w => w.getCommitment = v.getCommitment) l m) (k : Nat) (acc : S.Comm) :
    Res.foldM (ε := PiopErr) (fun (acc : S.Comm) (o : VerifierOracle F S.Comm × Nat) => do
      let c ← o.1.getCommitment
      let x ← Res.idx x1s o.2
      pure (S.add acc (S.scale c x))) acc (m.zipIdx k) = Res.foldM (ε := PiopErr) (fun (acc : S.Comm) (o : VerifierOracle F S.Comm × Nat) => do
      let c ← o.1.getCommitment
      let x ← Res.idx x1s o.2
      pure (S.add acc (S.scale c x))) acc (l.zipIdx k) := by
  induction h generalizing k acc with
  | nil => rfl
  | cons h _ ih =>
    simp only [List.zipIdx_cons, Res.foldM_cons, h]
    congr 1
    funext b
    exact ih (k + 1) b

theorem verifierSet_congr {d : Domain F} (hd : d.Ok) {x1s : List F} {xi : F}
    {s t : List Rotation × List (VerifierOracle F S.Comm)} (h1 : t.1 = s.1)
    (h2 : List.Forall₂ (fun v w => w.getCommitment = v.getCommitment) s.2 t.2)
    (h3 : ∀ p ∈ points d xi s.1, aggQuery (fun (o : VerifierOracle F S.Comm) p => o.query p) x1s t.2 p
      = aggQuery (fun (o : VerifierOracle F S.Comm) p => o.query p) x1s s.2 p) :
    mpVerifierSet (S := S) x1s xi d.elements t = mpVerifierSet (S := S) x1s xi d.elements s := by
  unfold mpVerifierSet
  have he : evalSet (fun (o : VerifierOracle F S.Comm) p => o.query p) x1s t.2 xi d.elements (fun _ => .panic) t.1
      = evalSet (fun (o : VerifierOracle F S.Comm) p => o.query p) x1s s.2 xi d.elements (fun _ => .panic) s.1 := by
    unfold evalSet
    rw [h1]
    apply Res.foldM_congr
    intro m r hr
    cases hp : r.point (ε := PiopErr) xi d.elements with
    | ok p => simp only [Res.bind_ok]; rw [h3 p (Rotation.point_mem hd hr hp)]
    | err e => rfl
    | panic => rfl
  rw [commFold_congr h2 0, he]

theorem zipEvalM_congr {ε α β γ δ : Type} {f : α → Res ε β} {g : β → γ → Res ε δ} {l m : List α} (c : List γ)
    (h : List.Forall₂ (fun a b => f b = f a) l m) : zipEvalM f g m c = zipEvalM f g l c := by
  induction h generalizing c with
  | nil => cases c <;> rfl
  | cons h _ ih =>
    cases c with
    | nil => simp only [zipEvalM, h]
    | cons c cs => simp only [zipEvalM, h, ih]

/-- Two lists of verifier oracles with the same rotations and commitments whose opening sets aggregate to the same answers
give the same outcome. -/
theorem mpVerifyWith_congr {d : Domain F} (hd : d.Ok) {vk : S.VK} {vs ws : List (VerifierOracle F S.Comm)} {xi x1 : F}
    (R : VerifierOracle F S.Comm → VerifierOracle F S.Comm → Prop)
    (hR : ∀ v w, R v w → w.rotations = v.rotations ∧ w.getCommitment = v.getCommitment) (h : List.Forall₂ R vs ws)
    (hagg : ∀ (s t : List Rotation × List (VerifierOracle F S.Comm)),
      s ∈ openingSets (fun (o : VerifierOracle F S.Comm) => o.rotations) vs →
      t ∈ openingSets (fun (o : VerifierOracle F S.Comm) => o.rotations) ws → t.1 = s.1 → List.Forall₂ R s.2 t.2 →
      ∀ p ∈ points d xi s.1,
      aggQuery (fun (o : VerifierOracle F S.Comm) p => o.query p) (powersFrom 1 x1 vs.length) t.2 p
      = aggQuery (fun (o : VerifierOracle F S.Comm) p => o.query p) (powersFrom 1 x1 vs.length) s.2 p)
    (proof : MpProof S) (x2 x3 x4 : F) :
    mpVerifyWith S vk proof ws xi d x1 x2 x3 x4 = mpVerifyWith S vk proof vs xi d x1 x2 x3 x4 := by
  have hsets := C39_agree (fun (o : VerifierOracle F S.Comm) => o.rotations) (fun (o : VerifierOracle F S.Comm) => o.rotations)
    R (fun a b h => (hR a b h).1) vs ws h
  have hl := h.length_eq
  have hf : List.Forall₂ (fun s t => mpVerifierSet (S := S) (powersFrom 1 x1 vs.length) xi d.elements t
      = mpVerifierSet (S := S) (powersFrom 1 x1 vs.length) xi d.elements s)
      (openingSets (fun (o : VerifierOracle F S.Comm) => o.rotations) vs)
      (openingSets (fun (o : VerifierOracle F S.Comm) => o.rotations) ws) := by
    rw [List.forall₂_iff_get] at hsets ⊢
    refine ⟨hsets.1, ?_⟩
    intro i h1 h2
    obtain ⟨g1, g2⟩ := hsets.2 i h1 h2
    exact verifierSet_congr hd g1 (g2.imp (fun v w h => (hR v w h).2)) (hagg _ _ (List.get_mem _ _) (List.get_mem _ _) g1 g2)
  unfold mpVerifyWith
  simp only [← hl]
  rw [zipEvalM_congr _ hf, zipEvalM_congr _ hf]

theorem aggQuery_congr {x1s : List F} {p : F} {l m : List (VerifierOracle F S.Comm)}
    (h : List.Forall₂ (fun v w => w.query p = v.query p) l m) :
    aggQuery (fun (o : VerifierOracle F S.Comm) p => o.query p) x1s m p
      = aggQuery (fun (o : VerifierOracle F S.Comm) p => o.query p) x1s l p := by
  unfold aggQuery
  have key : ∀ (k : Nat) (acc : F), Res.foldM (ε := PiopErr) (fun (acc : F) (o : VerifierOracle F S.Comm × Nat) => do
      let x ← Res.idx x1s o.2
      let v ← o.1.query p
      pure (acc + x * v)) acc (m.zipIdx k) = Res.foldM (ε := PiopErr) (fun (acc : F) (o : VerifierOracle F S.Comm × Nat) => do
      let x ← Res.idx x1s o.2
      let v ← o.1.query p
      pure (acc + x * v)) acc (l.zipIdx k) := by
    induction h with
    | nil => intro k acc; rfl
    | cons h _ ih =>
      intro k acc
      simp only [List.zipIdx_cons, Res.foldM_cons, h]
      congr 1
      funext b
      exact ih (k + 1) b
  exact key 0 0

/-- Two verifier oracles that the opening check cannot tell apart: same rotations, same commitment, and the same answer at each
of their own points. -/
structure SameOpened (d : Domain F) (xi : F) (v w : VerifierOracle F S.Comm) : Prop where
  rotations : w.rotations = v.rotations
  commitment : w.getCommitment = v.getCommitment
  evals : ∀ p ∈ points d xi v.rotations, w.query p = v.query p

theorem mpVerifyWith_sameOpened {d : Domain F} (hd : d.Ok) {vk : S.VK} {vs ws : List (VerifierOracle F S.Comm)} {xi : F}
    (h : List.Forall₂ (SameOpened d xi) vs ws) (proof : MpProof S) (x1 x2 x3 x4 : F) :
    mpVerifyWith S vk proof ws xi d x1 x2 x3 x4 = mpVerifyWith S vk proof vs xi d x1 x2 x3 x4 := by
  refine mpVerifyWith_congr hd (SameOpened d xi) (fun v w h => ⟨h.rotations, h.commitment⟩) h ?_ proof x2 x3 x4
  intro s t hs _ _ hst p hp
  apply aggQuery_congr
  have hpart := ((C39_partition (fun (o : VerifierOracle F S.Comm) => o.rotations) vs).2.1 s hs).1
  have hall : ∀ v ∈ s.2, v.rotations = s.1 := by
    intro v hv
    rw [hpart] at hv
    simpa using (List.mem_filter.1 hv).2
  rw [List.forall₂_iff_get] at hst ⊢
  refine ⟨hst.1, fun i h1 h2 => ?_⟩
  refine (hst.2 i h1 h2).evals p ?_
  rw [hall _ (List.get_mem _ _)]
  exact hp

end
end ZK
