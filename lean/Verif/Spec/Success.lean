import Verif.Spec.Soundness
/-!
Vocabulary for the statement that the honest prover succeeds: what the commitment scheme has to support, which circuits
can be proved, and for which challenges a denominator vanishes.
-/
set_option autoImplicit false
set_option linter.unusedSectionVars false
namespace ZK
open Polynomial

section
variable {F : Type} [Field F]

/-- Polynomials with at most `n` coefficients can be committed to and opened. -/
structure SupportsDegree (S : Scheme F) (ck : S.CK) (n : Nat) : Prop where
  commit : ∀ ps z, (∀ p ∈ ps, p.poly.length ≤ n) → ∃ out, S.commit ck ps z = .ok out
  commitPlain : ∀ p, p.poly.length ≤ n → ∃ cs, S.commitPlain ck p = .ok cs
  open_ : ∀ p cs x r, p.poly.length ≤ n → S.commitPlain ck p = .ok cs → ∃ pf, S.open_ ck p cs x r = .ok pf

/-- What a circuit needs, beyond being `Supported`, for the prover to work. -/
structure Provable (d : Domain F) (index : Index F) (v : ProverView F) (sigmas : List (ProverOracle F))
    (qBlind : ProverOracle F) (vos : List (GenericVO F)) : Prop where
  /-- there is a gate -/
  gates : vos ≠ []
  /-- the last usable row exists -/
  usable : index.perm.usableRows < d.size
  /-- there are as many sigmas and cosets as copied columns, and a grand product can take a column -/
  shape : (∃ o ∈ v.witness, o.shouldPermute = true) →
    sigmas.length = (v.witness.filter (·.shouldPermute)).length ∧
    index.perm.deltas.length = (v.witness.filter (·.shouldPermute)).length ∧ 0 < index.perm.maxCols
  /-- as many expressions are looked up as the table has columns, and they are affine -/
  lookups : ∀ l ∈ index.lookups, ∀ es ts, l.getExpressions = .ok es → l.getTableQueries = .ok ts →
    es.length = ts.length ∧ ∀ e ∈ es, ∃ k ≤ 1, e.degree (fun _ => .ok 1) = .ok k
  /-- different rotations registered with a column lead to different rows -/
  distinct : ∀ o ∈ v.witness ++ v.fixed ++ v.table ++ sigmas ++ [qBlind],
    o.rotations.Pairwise (fun r r' => ¬ r.signed ≡ r'.signed [ZMOD d.size])

/-- The values of the looked-up expressions in row `i`. -/
def InputRow (n : Nat) (v : ProverView F) (es : List (Expr F)) (i : Nat) (vals : List F) : Prop :=
  List.Forall₂ (fun (e : Expr F) x => ∃ y : OracleQuery → F,
    (∀ q ∈ e.queries, ReadsCell n v i q (y q)) ∧ x = e.denote id y) es vals

/-- The cells of the table columns in row `i`. -/
def TableRow (v : ProverView F) (ts : List OracleQuery) (i : Nat) (vals : List F) : Prop :=
  List.Forall₂ (fun (t : OracleQuery) x => ∃ o, Resolves v.table t.label o ∧ o.evals[i]? = some x) ts vals

/-- For every lookup and every usable row, the values of the looked-up expressions, compressed with `theta`, are the compressed
cells of the table columns in some usable row. -/
def CompressedLookups (n u : Nat) (v : ProverView F) (lookups : List (GenericLookupVO F)) (theta : F) : Prop :=
  ∀ l ∈ lookups, ∀ es ts, l.getExpressions = .ok es → l.getTableQueries = .ok ts → ∀ i < u, ∃ j < u, ∃ a s,
    InputRow n v es i a ∧ TableRow v ts j s ∧ compress theta a = compress theta s

/-- Over all copied cells, the product of `w + beta * id + gamma` is the product of `w + beta * sigma + gamma`. -/
def EqualProducts (d : Domain F) (index : Index F) (v : ProverView F) (sigmas : List (ProverOracle F)) (beta gamma : F) : Prop :=
  ∏ c : Fin (v.witness.filter (·.shouldPermute)).length × Fin index.perm.usableRows,
      (cell (v.witness.filter (·.shouldPermute)) c + beta * cellId d index.perm.deltas c + gamma) =
    ∏ c : Fin (v.witness.filter (·.shouldPermute)).length × Fin index.perm.usableRows,
      (cell (v.witness.filter (·.shouldPermute)) c + beta * cell sigmas c + gamma)

/-- No denominator of a grand product vanishes for the challenges `theta`, `beta`, `gamma`: neither
`w + beta * sigma + gamma` for a copied cell, nor `a + beta` for a compressed input, nor `s + gamma` for a compressed
table row. -/
def GoodDraw (d : Domain F) (index : Index F) (v : ProverView F) (sigmas : List (ProverOracle F))
    (theta beta gamma : F) : Prop :=
  (∀ c : Fin (v.witness.filter (·.shouldPermute)).length × Fin index.perm.usableRows,
    cell (v.witness.filter (·.shouldPermute)) c + beta * cell sigmas c + gamma ≠ 0) ∧
  ∀ l ∈ index.lookups, ∀ es ts, l.getExpressions = .ok es → l.getTableQueries = .ok ts →
    ∀ i < index.usableRows, ∀ vals,
      (InputRow d.size v es i vals → compress theta vals + beta ≠ 0) ∧
      (TableRow v ts i vals → compress theta vals + gamma ≠ 0)

/-- The first answer of the transcript: `theta` is drawn after the commitments to the witness columns have been absorbed. -/
def FirstAnswer (S : Scheme F) [FftParams F] (pk : ProverKey S) (v : ProverView F) (z : S.Z) (theta : F) : Prop :=
  ∃ wc z1, S.commit pk.ck ((v.extend pk.vk.index.ext).witness.map (·.toLabeled)) z = .ok (wc, z1) ∧
    theta = (S.fsRand (S.absorbComms (S.fsInit (bytes "TurboPlonk-0.0.1")) (wc.map Prod.fst))).1

/-- The first messages of the prover and the answers of the transcript: `theta` is drawn after the commitments to the
witness columns have been absorbed, `beta` and `gamma` after the commitments to the permuted columns of the lookups. -/
def FirstMessages (S : Scheme F) [LinearOrder F] [FftParams F] (pk : ProverKey S) (v : ProverView F) (d : Domain F)
    (z : S.Z) (theta beta gamma : F) : Prop :=
  ∃ wc z1 ls z2 lc z3,
    S.commit pk.ck ((v.extend pk.vk.index.ext).witness.map (·.toLabeled)) z = .ok (wc, z1) ∧
    lookupRound (S := S) (v.extend pk.vk.index.ext) pk.vk.index d theta z1 = .ok (ls, z2) ∧
    S.commit pk.ck ((primes ls).map (·.toLabeled)) z2 = .ok (lc, z3) ∧
    let t1 := S.absorbComms (S.fsInit (bytes "TurboPlonk-0.0.1")) (wc.map Prod.fst)
    let t2 := S.absorbComms (S.fsRand t1).2 (lc.map Prod.fst)
    theta = (S.fsRand t1).1 ∧ beta = (S.fsRand t2).1 ∧ gamma = (S.fsRand (S.fsRand t2).2).1

end
end ZK
