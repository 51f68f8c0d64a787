import Verif.Properties.OneMoreRow
import Verif.Properties.CompletenessExamples
import Verif.Spec.Answering
/-! C66: a circuit whose proofs tell the two square roots of a value apart, although the column has as many random rows as it is opened
at points; and the values of a column with one more random row. -/
set_option autoImplicit false
set_option linter.unusedSectionVars false
namespace ZK
open Polynomial
namespace Root
open Toy (dom column dom_Ok dom_size column_isColumn)

/-- `s * (w(next row) - w^2)`, active in row 0. -/
def gate : Expr F97 :=
  .prod (.oracle ⟨[5], .curr, .fixed⟩) (.sum (.oracle ⟨[1], .next, .witness⟩)
    (.neg (.prod (.oracle ⟨[1], .curr, .witness⟩) (.oracle ⟨[1], .curr, .witness⟩))))
def vos : List (GenericVO F97) := [Toy.vo gate]

/-- The root in row 0, its square `25` in row 1 and two random rows. -/
def root (w r0 r1 : F97) : ProverOracle F97 := column .witness [1] [w, 25, r0, r1] [.curr, .next] false
def fixed : List (ProverOracle F97) := [column .fixed [5] [1, 0, 0, 0] [.curr] false]
def qBlind : ProverOracle F97 := column .fixed (bytes "q_blind") [0, 0, 0, 1] [.curr] false

def key (S : Scheme F97) (vk : S.VK) : Res (Err S.E) (VerifierKey S) :=
  indexer (S := S) (fun (o : ProverOracle F97) => o.shouldPermute) vk vos [] [root 0 0 0] ([] : List (ProverOracle F97))
    fixed dom dom.vanishing ⟨2, []⟩ 2

def proveFor (S : Scheme F97) (pk : ProverKey S) (w r0 r1 : F97) (z : S.Z) : Res (Err S.E) (TPProof S) :=
  prove S pk (.new S fixed [] [] qBlind pk.vk.index) [root w r0 r1] [] vos 4 z

/-- Whatever the random rows are, the values of a proof tell the roots `5` and `92 = -5` of `25` apart. -/
theorem reveals {S : Scheme F97} {pk : ProverKey S} {vk : S.VK} (hkey : key S vk = .ok pk.vk)
    (hone : ∀ (p : LPoly F97) (z z' : S.Z) cs, S.commit pk.ck [p] z = .ok (cs, z') → cs.length = 1)
    {r0 r1 r0' r1' : F97} {z z' : S.Z} {π π' : TPProof S} (hp : proveFor S pk 5 r0 r1 z = .ok π)
    (hp' : proveFor S pk 92 r0' r1' z' = .ok π')
    (hxi : (verifierChallenges S π').1.xi = (verifierChallenges S π).1.xi)
    (hx3 : (mpChallenges S π'.multiopen (verifierChallenges S π').2).2.2.1 = (mpChallenges S π.multiopen (verifierChallenges S π).2).2.2.1)
    (hn : (verifierChallenges S π).1.xi ^ 4 ≠ 1)
    (hn3 : (mpChallenges S π.multiopen (verifierChallenges S π).2).2.2.1 ^ 4 ≠ 1)
    (h0 : (mpChallenges S π.multiopen (verifierChallenges S π).2).2.2.1 ≠ (verifierChallenges S π).1.xi)
    (h1 : (mpChallenges S π.multiopen (verifierChallenges S π).2).2.2.1 ≠ (verifierChallenges S π).1.xi * dom.omega) :
    π.values ≠ π'.values := by
  have hs := dom_size
  obtain ⟨-, -, -, -, -, -, -, -, -, -, -, hlks, -, -⟩ := indexer_ok dom_Ok hkey
  replace hp : prove S pk (.new S fixed [] [] qBlind pk.vk.index) [root 5 r0 r1] [] vos dom.size z = .ok π := by rw [hs]; exact hp
  replace hp' : prove S pk (.new S fixed [] [] qBlind pk.vk.index) [root 92 r0' r1'] [] vos dom.size z' = .ok π' := by rw [hs]; exact hp'
  rw [← hs] at hn hn3
  refine C66_values_differ (c := 0) (w := root 5 r0 r1) (w' := root 92 r0' r1') (K := {2, 3}) (i0 := 0) dom_Ok hone hlks ?_ ?_ (by simp) rfl rfl
    (column_isColumn _ _ rfl _ _) (column_isColumn _ _ rfl _ _) ?_ ?_ ?_ ?_ (by rw [hs]; norm_num) (by decide) ?_ ?_ hp hp' rfl hxi rfl hx3 hn hn3 ?_
  · simp [root, column]
  · exact .cons ⟨rfl, rfl, rfl⟩ .nil
  · intro j o hj _
    match j with
    | 0 => rfl
    | j + 1 => simp at hj
  · simp only [root, column]; decide
  · intro o ho
    simp only [ProverPreprocessed.new, fixed, qBlind, List.map_cons, List.map_nil, List.append_nil, List.cons_append, List.nil_append,
      List.mem_cons, List.not_mem_nil, or_false] at ho
    rcases ho with rfl | rfl <;> simp [ProverOracle.computeExtended, root, column] 
  · simp [root, column]
  · intro i hi h2 h3
    rw [hs] at hi
    obtain rfl : i = 1 := by
      simp at h2
      omega
    simp [root, column]
  · simp only [root, column, List.getElem?_cons_zero, ne_eq, Option.some.injEq]; decide
  · intro r hr
    simp only [root, column, List.mem_cons, List.not_mem_nil, or_false] at hr
    rcases hr with rfl | rfl
    · simpa [Rotation.signed, Rotation.curr] using h0
    · simpa [Rotation.signed, Rotation.next] using h1

/-- The challenges `theta, beta, gamma, alpha, xi, x1, x2, x3, x4` of the example. -/
def cs : List F97 := [2, 3, 5, 7, 11, 13, 17, 19, 23]

/-- There are such proofs. -/
theorem differ : ∃ k π π', key (Toy.S.answering cs) () = .ok k ∧ proveFor (Toy.S.answering cs) ⟨k, ()⟩ 5 60 61 () = .ok π ∧
    proveFor (Toy.S.answering cs) ⟨k, ()⟩ 92 70 71 () = .ok π' ∧ π.values ≠ π'.values := by
  have h : (match key (Toy.S.answering cs) () with
    | .ok k => match proveFor (Toy.S.answering cs) ⟨k, ()⟩ 5 60 61 () with
      | .ok p => match proveFor (Toy.S.answering cs) ⟨k, ()⟩ 92 70 71 () with
        | .ok _ => true
        | _ => false
      | _ => false
    | _ => false) = true := by decide +kernel
  split at h
  · rename_i k hk
    split at h
    · rename_i p hp
      split at h
      · rename_i p' hp'
        have e : ∀ p : TPProof (Toy.S.answering cs), (verifierChallenges (Toy.S.answering cs) p).1.xi = 11 ∧
            (mpChallenges (Toy.S.answering cs) p.multiopen (verifierChallenges (Toy.S.answering cs) p).2).2.2.1 = 19 := fun p => ⟨rfl, rfl⟩
        refine ⟨k, p, p', hk, hp, hp', reveals (pk := ⟨k, ()⟩) hk ?_ hp hp' ?_ ?_ ?_ ?_ ?_ ?_⟩
        · intro q z z' l hl
          obtain ⟨rfl, -⟩ := Prod.mk.inj (Res.ok.inj hl)
          rfl
        · rw [(e p).1, (e p').1]
        · rw [(e p).2, (e p').2]
        · rw [(e p).1]; decide
        · rw [(e p).2]; decide
        · rw [(e p).1, (e p).2]; decide
        · rw [(e p).1, (e p).2]; decide +kernel
      · simp at h
    · simp at h
  · simp at h

/-- With three random rows the value `x3` is covered: two columns in one opening set, the first one opened at two points with three
random rows, the second one opened at the same points with two. -/
theorem covered : Uniform (fun r : (∀ c : Fin 2, Fin (![3, 2] c) → F97) =>
    ((fun c i => peval (trim (dom.ifft ((![[5], [6, 7]] : Fin 2 → List F97) c ++ List.ofFn (r c)))) ((![11, 11 * dom.omega] : Fin 2 → F97) i),
      fun j => ∑ c ∈ Finset.univ.filter (fun c => (fun _ : Fin 2 => (0 : Fin 1)) c = j), (![1, 13] : Fin 2 → F97) c *
        peval (trim (dom.ifft ((![[5], [6, 7]] : Fin 2 → List F97) c ++ List.ofFn (r c)))) 19) :
      (∀ _ : Fin 2, Fin 2 → F97) × (Fin 1 → F97))) := by
  have hs := dom_size
  refine C66_one_more_row_partial (rep := fun _ => 0) (k := fun _ => 2) (x := fun _ => ![11, 11 * dom.omega]) dom_Ok ?_ ?_ ?_ ?_ ?_ ?_ ?_ ?_ ?_
  · intro c; rw [hs]; fin_cases c <;> rfl
  · decide
  · intro j; simp
  · intro _; decide +kernel
  · intro _; decide +kernel
  · intro _; rw [hs]; decide +kernel
  · rw [hs]; decide +kernel
  · decide
  · decide

end Root
end ZK
