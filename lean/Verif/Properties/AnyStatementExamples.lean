import Verif.Properties.AnyStatement
import Verif.Properties.AdjustExamples
import Verif.Properties.SuccessExamples
/-! C61 for a circuit without lookups, with copies, that no witness satisfies. -/
set_option autoImplicit false
set_option linter.unusedSectionVars false
namespace ZK
open Polynomial
namespace Toy

/-- The key of the unsatisfiable circuit without the lookup. -/
def keyFree : Res (Err Unit) (VerifierKey S) :=
  indexer (S := S) (fun o => o.shouldPermute) () vosBad [] witness inst fixed dom dom.vanishing info 2

/-- There is a key, the quotient has at least two parts, and the zero witness leads to an accepted proof. -/
def freeAccepted : Bool :=
  match keyFree with
  | .ok k => decide (dom.size < k.index.ext.size)
  | _ => false

theorem freeAccepted_eq : freeAccepted = true := by decide +kernel

theorem keyFree_ok : ∃ k, keyFree = .ok k ∧ dom.size < k.index.ext.size := by
  have h := freeAccepted_eq
  unfold freeAccepted at h
  split at h
  · rename_i k hk
    exact ⟨k, hk, of_decide_eq_true h⟩
  · simp at h

theorem supportedFree {k : VerifierKey S} (hk : keyFree = .ok k) : Supported dom k.index view sigma qBlind vosBad := by
  obtain ⟨k', -, hk', -⟩ := honest
  have h := supported hk'
  have hs := dom_size
  obtain ⟨-, -, -, -, -, -, -, -, -, hu, -, hl, hu', -⟩ := indexer_ok dom_Ok hk
  obtain ⟨-, -, -, -, -, -, -, -, -, hu0, -⟩ := indexer_ok dom_Ok hk'
  exact
    { columns := h.columns
      selector := h.selector
      labels := h.labels
      rotations := h.rotations
      unrotated := h.unrotated
      gates := by
        intro vo' hvo
        rw [hs]
        simp only [vosBad, List.mem_cons, List.not_mem_nil, or_false] at hvo
        rcases hvo with rfl | rfl | rfl
        · have := h.gates (vo gate) (by simp [vos])
          rwa [hs] at this
        · have := h.gates (vo gateNext) (by simp [vos])
          rwa [hs] at this
        · exact ⟨gateNext8, rfl, fun q hq => answerable_of (by
            simp only [gateNext8, Expr.queries, List.cons_append, List.nil_append, List.append_nil, List.mem_cons,
              List.not_mem_nil, or_false] at hq
            rcases hq with rfl | rfl <;> rfl)⟩
      copied := h.copied
      lookups := by rw [hl]; simp
      blinding := by
        intro hx
        have h0 := h.blinding hx
        rw [hu]
        rw [show k'.index.perm.usableRows = info.u from hu0] at h0
        exact h0
      unusable := fun hne => absurd hl hne
      usable := fun hne => absurd hl hne }

theorem maxColsFree {k : VerifierKey S} (hk : keyFree = .ok k) : 0 < k.index.perm.maxCols := by
  have : (match keyFree with | .ok k => decide (0 < k.index.perm.maxCols) | _ => false) = true := by decide +kernel
  rw [hk] at this
  exact of_decide_eq_true this

theorem provableFree {k : VerifierKey S} (hk : keyFree = .ok k) : Provable dom k.index view sigma qBlind vosBad := by
  obtain ⟨k', -, hk', -⟩ := honest
  have h := provable hk'
  have hs := dom_size
  obtain ⟨-, -, -, -, -, -, -, -, -, hu, hdl, hl, hu', -⟩ := indexer_ok dom_Ok hk
  obtain ⟨-, -, -, -, -, -, -, -, -, -, hdl', -⟩ := indexer_ok dom_Ok hk'
  exact
    { gates := by simp [vosBad]
      usable := by rw [hu, hs]; decide
      shape := fun hc => by
        obtain ⟨h1, h2, -⟩ := h.shape hc
        rw [hdl'] at h2
        rw [hdl]
        exact ⟨h1, h2, maxColsFree hk⟩
      lookups := by rw [hl]; simp
      distinct := h.distinct }

/-- All hypotheses of `C61_any_statement` are met by a circuit with contradictory gates and a copy constraint. -/
theorem anyStatement : ∃ k theta beta gamma, keyFree = .ok k ∧
    FirstMessages S ⟨k, ()⟩ ⟨witness.map (zeroColumn dom), inst, fixed, table⟩ dom () theta beta gamma := by
  obtain ⟨k, hk, hp⟩ := keyFree_ok
  obtain ⟨-, -, -, -, -, -, -, -, -, hu, hdl, -⟩ := indexer_ok dom_Ok hk
  obtain ⟨tau, henc, -⟩ := copiedOk k.index.perm.usableRows hu
  obtain ⟨theta, beta, gamma, h1, -⟩ := C61_any_statement (pk := ⟨k, ()⟩) (ideal_homomorphic _ _) dom_Ok
    (by rw [dom_size]; norm_num) (supports _) hk hp (supportedFree hk) (provableFree hk) (by rw [hdl]; exact henc.1) setUp ()
  exact ⟨k, theta, beta, gamma, hk, h1⟩

/-- The proof made from columns of zeros, adjusted. -/
def zeroProof (k : VerifierKey S) : Res (Err Unit) (TPProof S) :=
  prove S ⟨k, ()⟩ (pre k) (witness.map (zeroColumn dom)) inst vosBad 4 ()

def zeroAccepted : Bool :=
  match keyFree with
  | .ok k => match zeroProof k with
    | .ok p => decide (verifyBad k (adjustBad k p) = .ok () ∧ sets k (adjustBad k p) = some p.multiopen.qEvals.length)
    | _ => false
  | _ => false

/-- The verifier accepts it. -/
theorem zeroAccepted_eq : zeroAccepted = true := by decide +kernel

end Toy
end ZK
