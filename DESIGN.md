# Formal model of zero-over-k in Lean 4

Source: `/repo` (zero-over-k, Rust) read as text; nothing there is built or run.
Lean project: `/verif/lean`, modules under `Verif/`.

    Verif/Model/*       executable transcription of the Rust code, one comment with file+lines per definition
    Verif/Spec/*        small independent specifications used in theorem statements
    Verif/Lemmas/*      helper lemmas
    Verif/Properties/*  property theorems (one section per property id) with non-vacuity examples

## Modelling conventions

* Rust outcomes: `Res e a = ok a | err e | panic`. `?` is monadic bind, `unwrap`/`assert!`/index out of
  range/`usize` underflow is `panic`. Arithmetic closures on `Result` are strict in both arguments, so a panic in
  either argument wins over an error, exactly as in Rust's evaluation order.
* `usize`, `u64`, `i64` are `Nat`/`Int` without upper bound. Overflow is not modelled, underflow is.
* `F: PrimeField` is an arbitrary Mathlib `Field` with decidable equality (a `LinearOrder` where the code relies on
  `Ord`, e.g. `BTreeMap<F, _>` and sorting), plus a class `FftParams` with the two-adic root of unity and the
  multiplicative generator.
* `DensePolynomial` is a coefficient list, low degree first; `from_coefficients_*` trims trailing zeros. `fft`,
  `ifft`, `coset_fft`, `coset_ifft` (arkworks) are given by their defining sums, including the resize (truncation)
  arkworks performs first. Only radix-2 domains are modelled (`GeneralEvaluationDomain` picks radix-2 whenever one
  exists for the requested size).
* Labels are byte lists (`String` compares by bytes). `BTreeSet`/`BTreeMap` are sorted duplicate-free lists where the
  iteration order is observable, and last-wins association lists where only `get` is used.
* The commitment scheme is a structure of functions with laws stated as hypotheses (correctness and homomorphism);
  an ideal scheme instantiates them, so the hypotheses are satisfiable. The hash, seeding and sampling of the
  Fiat-Shamir generator are parameters. `zk_rng` is a state with a `next` function.
* Prover, verifier oracles: the three Rust structs per side have the same implementation except for the error
  constructor; they are one Lean structure with a `kind` field.
* Where a property as written is false of the code, the negation is proved with a concrete witness, the true part is
  proved as `_partial` and the disagreement is listed in section "Findings".

## Trusted base

* Lean 4 kernel, Mathlib definitions of `Field`, `Polynomial`, `List`, `Nat`.
* Axioms: at most `propext`, `Classical.choice`, `Quot.sound` (checked with `#print axioms`). No other axioms, no
  `sorry`, no `native_decide`, no `bv_decide`.
* The transcription from Rust to Lean in `Verif/Model` (by hand, with citations).
* Assumed from memory about dependencies whose source is not available here: arkworks `fft` resizes its input to the
  domain size; `Domain::new(k)` rounds up to a power of two and fails above the two-adicity; `to_bytes!` of a vector
  concatenates the elements without a length prefix; a `LabeledCommitment` serialises as its commitment only.
* `Verif/Model/Commitment.lean` models the KZG10 wrapper over an arbitrary module with a bilinear pairing; the
  behaviour of `ark_poly_commit`'s `KZG10::setup/commit/open/check`, `SonicKZG10::trim` and of the multi-scalar multiplication is taken from its
  published description.
* `derive(CanonicalSerialize)` writes the fields in the order of declaration, a `Vec` as its length in eight bytes (least
  significant first) and its elements; reading is the same in reverse. The encodings of field elements, commitments and
  openings are parameters. Reading leaves bytes after a proof alone.
* C67, C68 and the other statements with a `randomOracle` (in C36, C82, C87, C91, C92) replace the Fiat-Shamir generator by a uniformly
  random function of the history of the transcript (`Spec/RandomOracle`). That the real generator behaves like one is an idealisation, not a
  theorem.
* Not modelled: the text around the numbers of `Proof::info`, elliptic curve and pairing arithmetic, performance,
  `concrete_oracle.rs` (commented out), `vo/precompiled/arith.rs` (not part of the module tree). All tests of the crate are modelled with
  their random values as parameters: the single-gate program (`Model/GateTest`) and the tests of the gates that call it (`Model/GateInputs`),
  the permutation argument (`Model/ArgumentTest`, `Model/ProductTest`), the lookup argument (`Model/LookupTest`), the multi-point opening
  (`Model/OpeningTest`), the short tests of single functions (`Model/SmallTests`) and the programs of
  `test_full_circuit_simple_lookup` and `copy_plonk` (`Model/CircuitTest`; their inputs are in `Model/TestInputs`, the field with its
  parameters as in ark-bls12-381 in `Lemmas/Fr381`).

## Code and model

| Rust file | Lean | not modelled |
|-----------|------|--------------|
| `oracles/rotation.rs`, `query.rs`, `traits.rs`, `fixed.rs`, `instance.rs`, `witness.rs` | `Model/Oracle`, `Model/Domain` | `Clone`, `Debug`, field accessors, `FixedVerifierOracle::from_*` conversions (same fields) |
| `vo/expression.rs`, `virtual_expression.rs`, `query.rs`, `generic_vo.rs`, `generic_lookup_vo.rs`, `error.rs` | `Model/Expression` | - |
| `vo/precompiled/*.rs`, `vo/precompiled_lookups/*.rs` | `Model/Precompiled` | `arith.rs` (not in the module tree) |
| `util.rs`, `indexer.rs` | `Model/Indexer`, `Model/Domain` | - |
| `data_structures.rs` | `Model/Indexer`, `Model/Permutation`, `Model/TurboPlonk` | `VerifierPreprocessedInput::new` (a constructor; the model builds the structure), `from_ck_and_vk` |
| `permutation/mod.rs`, `grand_product.rs` | `Model/Permutation` | - |
| `lookup/mod.rs`, `permute.rs`, `subset_equality.rs` | `Model/Lookup` | - |
| `piop/mod.rs`, `prover.rs`, `verifier.rs`, `error.rs` | `Model/TurboPlonk`, `Model/Lookup` | message structs are tuples |
| `multiproof/mod.rs`, `poly.rs`, `piop/*.rs`, `error.rs` | `Model/Multiopen` | - |
| `commitment.rs` | `Model/Scheme` (interface), `Model/Commitment` (KZG10) | curve arithmetic |
| `rng.rs` | `Model/Scheme` | the digest, the seeded generator (parameters) |
| `turbo_plonk.rs` | `Model/TurboPlonk`, `Model/Info`, `Model/Setup`, `Model/Serialize` | text printed by `info`; the commented-out chunk check of `verify` (717-731) |
| `mock_prover.rs` | `Model/TurboPlonk` (`mockRun`, `mockProve`, `mockVerify`) | its `universal_setup` and `prepare_keys` (85-101), which repeat those of `turbo_plonk.rs` word for word |
| `vo/precompiled/tests.rs`, `mul.rs` tests | `Model/GateTest` | random assignments and seeds (parameters) |
| `permute.rs`, `piop/prover.rs`, `simple_3_arith.rs`, `tests/simple.rs` tests, `x_in_coset` | `Model/SmallTests` | random values (parameters) |
| `plonk_arith.rs`, `logic.rs`, `rescue.rs` tests | `Model/GateInputs` | random values (parameters) |
| `permutation/grand_product.rs` (`test_product_argument`) | `Model/ProductTest` | the random values (parameters) |
| `multiproof/piop/mod.rs` (`test_halo2_book_example`) | `Model/OpeningTest` | the random polynomials (parameters) |
| `lookup/subset_equality.rs` (`test_subset_equality_argument`), `lookup/mod.rs` (`simple_lookup`) | `Model/LookupTest` | random values (parameters); values and shuffles of the usable rows of the first test |
| `tests/with_copy.rs` (`copy_simple`), `permutation/mod.rs` (`test_chunked_permutation`) | `Model/ArgumentTest` | random values (parameters), the check of the gates in `copy_simple` |
| `tests/with_lookup.rs`, `tests/with_copy.rs` (`copy_plonk`) | `Model/CircuitTest`, `Model/TestInputs` | random assignments and seeds (parameters) |
| `concrete_oracle.rs` | - | all (commented out) |

## Plan per property

| id | model | proof |
|----|-------|-------|
| C01 | `queryInCoset`, `cosetFft`, `Domain` | index arithmetic modulo the extended size, `omega_ext^ratio = omega`, evaluation of coset list |
| C02 | `queryAtOmega`, `ifft` | index arithmetic modulo n, interpolation lemma |
| C03 | `Rotation.evalPoint` | primitive root: `omega^a = omega^b` iff congruent mod n |
| C04 | `Expression.evaluate` | structural induction; ring homomorphism `eval` |
| C05 | `Expression.degree` | structural induction over `natDegree` |
| C06 | `VirtualExpression.toExpression`, `GenericVO` | structural induction, index of last label |
| C07 | `GenericVO.configure` | induction over the query list; set extensionality |
| C08 | `GenericLookupVO.configure` | induction over table queries |
| C09-C13 | precompiled gates | evaluation by unfolding, field reasoning; induction over rows for the accumulator |
| C14 | precompiled gates | membership of each query of the expression in the list |
| C15 | `ifft`/`fft`/coset variants | geometric sums of primitive roots |
| C16 | `computeZhEvals` | three cases against polynomial evaluation |
| C17 | `proverQuotientRound` | divisibility by vanishing polynomial, interpolation on the coset, chunk recombination |
| C18 | `index` | degree arithmetic; counterexample at powers of two |
| C19 | `index` | case analysis into an independent classification |
| C20 | `numberOfZPolys`, `numberOfAlphas`, `constructAggPolys` | ceiling division vs chunk count |
| C21 | `constructAggPolys`, instantiate | telescoping products, invariant over rows and chunks |
| C22 | permutation constraints | telescoping in the other direction, then counting roots of a bivariate product identity |
| C23 | `constructAggPolys` | product over concatenated chunks |
| C24 | `permuteForLookup` | counts/multisets by induction over the sorted list |
| C25 | lookup rows | induction over rows |
| C26 | lookup constraints | telescoping + counting; counterexample when the final row is not the usable row |
| C27 | theta compression | root counting |
| C28 | verifier's `a`,`s` | structural induction; counterexample for rotated fixed queries |
| C29 | prover's lookup round | counterexample for a non-linear expression; partial for low degree ones |
| C30 | alpha powers | root counting in alpha; shared power analysis |
| C31 | verify identity | evaluation of the polynomial identity |
| C32 | verify identity | root counting in xi and alpha |
| C33 | verify | case analysis on list lengths |
| C34 | query sets | determinism of the ordered set, last-wins maps |
| C35 | multiopen prove/verify | division with remainder, homomorphism laws |
| C36, C37 | multiopen verify | concrete attacks (negations) + conditional positive statements |
| C38 | multiopen verify | root counting for x1..x4 |
| C39 | grouping | induction over the oracle list |
| C40 | transcript | same absorb/squeeze trace on both sides |
| C41 | transcript | non-interference theorem (negation) |
| C42 | transcript | induction over histories, collision extraction |
| C43 | mock prover | induction over rows and gates |
| C44 | KZG wrapper | module laws |
| C45 | prove | length bookkeeping |
| C46 | prove + verify | composition of C17, C21, C24, C31, C34, C35, C40 |
| C47 | verify | frame reasoning; counterexample with stale commitments |
| C48 | verify | counterexample for `new_wo_blind`; positive for registered rotations |
| C49 | permutation/lookup constraints | constraints on rows marked by the blinding selector vanish identically |
| C50 | label maps | last index lemma |
| C51 | verify | composition of C22, C26, C27, C32, C38 over the rounds, interactive order |
| C52 | prove | each round returns .ok: table lookup finds a row, grand products close, openings succeed; then C46 |
| C53 | lookup, permutation and subset equality rounds | rows = fixed prefix ++ draws; adding a polynomial that vanishes on the prefix permutes the draws |
| C54 | KZG wrapper, third round of the multi-opening | shifting one or two coefficients of the blinding polynomial |
| C55 | `PermutationInfo`, `indexer` | roots of unity are powers of a primitive one; counterexample with equal separators |
| C56 | verify, KZG wrapper | C51 for the scheme of representations; the verifier is parametric in the commitments (`Lemmas/Related`) |
| C57 | verify, challenge rounds | counting tuples one challenge after the other (`Lemmas/Tuples`) over the exceptional sets of C51; the number of opened columns and points is bounded by the configuration |
| C58 | TPProof::info, cumulative_info, prove, indexer | inversion of a run (C40, C46) and counting: query sets, chunks of the quotient, rotation sets of every kind of oracle |
| C59 | universal_setup, prepare_keys | computation of the trimmed keys; C44 and C52 then apply; the first commitment fails for large degrees |
| C60 | evaluations of a proof, quotient parts | values of the parts are read off the quotient; a circuit where they form an invertible system; joint uniformity by fixing the witness rows first (C53) and counting |
| C61 | turbo_plonk verify, multiopen transcript | shift two claimed evaluations along the kernel of the combination with powers of x1; the identity value moves by a nonzero multiple |
| C62 | derived serialisation of proofs | reading inverts writing field by field; little-endian lengths; sizes by C58 |
| C63 | whole prover with KZG commitments, honest verifier | positions of every drawn element in the run; shifting the blinding polynomials maps draws for one list of group elements injectively to draws for another; counting fibres |
| C64 | whole protocol, honest verifier | bad challenges are roots of factors of the grand products, zero and powers of the root of unity times xi; counting tuples one challenge at a time |
| C65 | verifier, arbitrary proofs | the verifier returns or panics at one of its length checks; after registration every query it makes is answered, by interpolating the claimed values the existing value of the check applies; false as written |
| C66 | values sent by the opening argument | a column alone in its opening set is sent at x3 in the clear; a polynomial with as many roots as coefficients vanishes; masks with prescribed values at the points and at x3; false as written |
| C67 | whole protocol, random oracle | the histories asked are determined by the earlier answers and differ in the number of messages or draws, so their answers are independent and uniform; the three ways to fail of C64, each a union over tuples of answers |
| C68 | whole protocol, random oracle | a forger is a decision tree; the exceptional sets of C51 are functions of the messages and earlier challenges; swapping the answers at one place of the tree shows that each place is exceptional with probability `e / |F|`, and at most `Q + 4` places are looked at |
| C69 | whole protocol, wrong witness | the quotient round is a pointwise division on the coset, so its chunks satisfy the identity at these points even when the vanishing polynomial does not divide; registration and openings do not depend on the gates |
| C70 | whole protocol, honest prover | the converse of every exception in C52: the rounds of the grand products never return an error and succeed only when no denominator vanishes; the first round of the multi-opening can only fail with a repeated rotation; the verifier can only fail at the division by the vanishing polynomial of an opening set |
| C71 | turbo_plonk verify | zero commitments open to zero everywhere, public columns to their true values, so the opening argument of a proof with any number of parts succeeds; two parts are enough to shift the identity value as in C61 |
| C72 | mock_prover prove, turbo_plonk prove and verify | the mock prover evaluates the gates in every row (C43), which is `GatesHold` for `X^n - 1`; then C52 |
| C73 | construct_agg_polys, construct_a_and_s_polys_prover, turbo_plonk prove and verify | the rounds succeed exactly if the compressed rows match and the products are equal; polynomial identities in theta and in (beta, gamma) bound the exceptions |
| C74 | configure of gates and lookups, index, prove and verify | columns keep everything but their rotations; different labels make label and index lookup agree; C52 for the configured circuit |
| C75 | configure of gates and lookups, index, verify | the configured circuit meets the conditions of C57, degrees carry over from virtual expressions |
| C76 | configure, index, prove and verify | the indexer reads labels and degrees only; the degree arithmetic of C18 in closed form; C74 for the resulting key |
| C77 | the single-gate test program | its columns meet the conditions of C76 without copies and lookups; degrees and queries of the six gates by computation |
| C78 | the two tests of whole circuits | the lists of the test are columns that meet the conditions of C76; queries at the current row read the list; the false lookup is computed |
| C79 | the single-gate tests with the mock prover | C72 for the circuit made from the columns; the mock prover reads polynomials only; the cells of a fitting gate exist |
| C80 | no usable rows of the permutation argument | the rounds of the honest prover with zeros for blinding and no usable rows: the columns of the lookups are zero except in the rows that the constraints do not look at |
| C81 | `receive`: `deserialize` and `verify` | C62 (round trip, canonical) and C65; the message has a quotient part without evaluation |
| C82 | the tests `copy_plonk` and `test_full_circuit_simple_lookup` with their inputs, over the scalar field of BLS12-381 | C67 for clients (C76) and test programs (C78); Pratt certificates for the field in `Lemmas/Fr381` |
| C83 | the verifier program of a test, false witness columns | C75 with the key of C76 and the circuit of C78; the sets of rotations of `copy_plonk` by computation |
| C84 | the verifier program of a test with KZG commitments and keys from the setup, algebraic prover | C83 for the representations; for rejected representations an equation of degree at most `n + 2` at the secret (C56); the handles of both schemes correspond |
| C85 | the tests of the permutation argument on its own | the constraints vanish on all rows (C21), so the quotient is exact; its degree fits the extended domain because a chunk has `scaling - 1` columns; instantiated and opened values are those of one polynomial |
| C86 | the tests of the lookup argument on its own | the grand product ends in one exactly when the products agree; then the constraints vanish on all rows, so both divisions are exact; two pairs of monic products agree at few points unless they are the same polynomials |
| C87 | the test of the multi-point opening | the prover succeeds for distinct points; the verifier divides by the vanishing polynomial of the points at the third challenge and accepts or panics; the probability from both sides, for passing and for failing |
| C88 | the test of one grand product | the product computed by hand closes exactly under the stated condition; then the constructed product meets the constraint on all rows, so the interpolated numerator is divisible and equals the opening |
| C89 | the tests of the precompiled gates | C79 for the columns of each test; the values of the gates row by row; two-bit values by an identity over the integers |
| C90 | the remaining short tests | C24 for the padded input; the pairing equation of an opening made with the wrong randomness; a geometric sum |
| C91 | the verifier program of a test, proofs without content | C36 for the key and the oracles of the test; the verifier is ready by C74 and C76 |
| C92 | both programs of a test, a proof of the prover with two numbers changed | C61 for columns that satisfy copies and lookups, counted as in C67 with two more bad events: `xi` a root of the vanishing polynomial and `x1 = xi^n` |
| C93 | the prover of a test, `info`, `cumulative_info`, the serialised proof | the key of C76 fixes the number of quotient parts and of columns per grand product; then C58 and C62; the rotations of the configured columns are computed |
| C94 | the verifier program of a test of a single gate, proofs without content | C36 as in C91; the selector is `new_wo_blind`, whose commitment is that of the zero polynomial |
| C95 | the verifier program of a test of a single gate, interactive provers | C75 with one gate, no copies and no lookups; the number of values `q` is assumed because the code does not check it (C94) |
| C96 | the verifier program of a test of a single gate with KZG commitments, algebraic prover | C95 for the representations; for rejected representations the equation of C84, with the zero commitment of `new_wo_blind` as the selector |
| C97 | the prover program of a test of a single gate, `info` and the serialised proof | C58 and C62 with the key of C76; the rotations of the columns of `test_simple_mul` by computation |

## Findings (code versus property)

Every item names the theorem that shows it. Where a property as written is false, the manifest says `partial`, the
true part is proved and the failure is a theorem with a concrete witness.

Soundness

* **Universal forgery.** `Multiopen::verify` zips `proof.q_evals` with the opening sets and never compares their
  numbers. A proof with no `q_evals` and `f_commit = 0` skips every opening, so the claimed evaluations are free and
  any statement can be proved: `C36_universal_forgery`, `C36_false`, `C36_empty_proof_accepted`, `C38_false`. For
  every circuit, satisfiable or not, zero commitments and zero evaluations with one chosen value of the quotient are accepted, also with
  KZG and with a random oracle (`C36_accepted_for_every_circuit`, `C36_accepted_for_every_circuit_kzg`,
  `C36_accepted_with_random_oracle`, `Toy.acceptedFalse`). In this
  situation missing witness commitments go unnoticed as well (`C33_missing_commitments_accepted`). The prover always
  sends one value per opening set (`C36_prover_length_partial`), so a length check would be complete; with it the
  opening check is sound with explicit bounds for evaluations that do not depend on the challenges of the opening
  (`C38_soundness_partial`).
* **A length check alone does not repair it.** The claimed evaluations are not absorbed before `x1`. Changing two claimed
  evaluations of the quotient by `-x1 * b` and `b` keeps every value the opening checks and moves the identity value, so it
  can be made zero: `C61_adjusted`. For every key with at least two parts of the quotient, the proof the prover returns for a
  witness that violates the gates becomes an accepted one with all `q_evals` (`C61_gates_not_enforced`, `C61_false`).
  Without lookups columns of zeros will do, so every statement can be proved (`C61_any_statement`). The evaluations have to
  be absorbed before `x1` is drawn.
* **Unopened blinding selector.** `VerifierPreprocessedInput::new_wo_blind` creates `q_blind` with no rotation, so it is
  in an opening set without points and `q_blind_eval` is whatever the prover says (`C48_blind_unopened`). Choosing it as
  `1 - lu(xi)` switches off the permutation and lookup constraints: `C48_false` is an accepted proof for a witness that
  breaks a copy constraint and a lookup. The same holds for permutation polynomials made with
  `FixedVerifierOracle::new` (`C48_perm_unopened`).
* **Nothing but commitments is absorbed.** Evaluations, the verification key and the public inputs never enter the
  transcript: `C41_challenges_ignore_evaluations`, `C41_public_inputs_chosen_afterwards`, `C41_false`. The claimed
  evaluations can be changed after `x1` is known: `C37_malleable`, `Toy.C37_false`.
* **Row of the last-row selector.** `lu` is taken at `permutation_argument.usable_rows`, the lookups use
  `index.usable_rows`. With `PermutationInfo::empty`/`dummy` (`u = 0`) the lookup argument is unsound:
  `C26_selector_at_row_zero_unsound`; see also `C49_no_usable_rows`.
* **Custom vanishing polynomial.** The permutation and lookup constraints are divided by the same polynomial as the gates.
  If a custom polynomial does not vanish on the rows up to the last usable one, they are not enforced on the others. C51
  asks for this in `Enforced.blinding`; the indexer does not check it. With a polynomial of rows 0 and 1
  and two usable rows, columns that violate a copy are accepted: `C51_custom_vanishing`.
* **Separators of the copied columns.** The `deltas` of `PermutationInfo` are used without any check. If the quotient of
  two of them is a root of unity of the domain, cells share an identity and copies between them are not enforced
  (`C55_same_identity`); `Toy.C55_equal_separators` is an accepted violation with equal separators.
  `C55_separators_check` is a complete check the indexer could make.
* **Malformed proofs panic.** The verifier checks the lengths of the lists of a proof with `assert!` and by indexing, not by returning an error. A proof with one evaluation too few or too many terminates the process that verifies it (`C65_malformed_proof_panics`, `C65_false`). No other proof does, except with challenges that are zero or coincide (`C65_no_panic_partial`).
* **One message stops every verifier.** A proof with empty lists and one part of the quotient, written as bytes, is read by `deserialize` and makes the verifier of every circuit panic (`C81_one_message_stops_all`). Exactly the messages with a list of a wrong length do (`C81_stopped_iff`).
* **Unlucky honest runs.** An honest run does not end in an error when it is unlucky: for a draw with a vanishing denominator `prove` panics, and when `x3` is an opening point `verify` panics on an honest proof; only `xi = 0` gives an error (`C70_honest_outcome`; all four outcomes are computed in `Toy.outcomes`).
* **Number of parts.** The number of quotient commitments is never compared with the key; the comparison in src/turbo_plonk.rs is commented out and its error is never constructed. A prover may choose the number, so two parts are always available for the attack of C61, and every circuit with any gates, lookups and copies has an accepted proof with as many `q_evals` as opening sets (`C71_every_circuit`; three and five instead of four parts in `C71_false`).
* **Mock prover.** The mock prover looks at the gates only. For a witness that violates a copy it succeeds, while the prover panics by the assertion in src/permutation/mod.rs 141; and it checks every row even when the vanishing polynomial of the key covers some rows only, so it panics for a witness whose proof is accepted (`Toy.mock_differs`).
* **Wrong witness.** The prover does not return an error for a witness that violates a copy or a lookup: it panics (`C73_wrong_witness_panics`). With `beta = 0`, which neither prover nor verifier excludes, both products are equal for every witness, and a proof for a witness that violates a copy is accepted (`C73_zero_beta`, `Toy.wrong_outcomes`).
* **The verifier of the lookup test accepts values that are not in the table.** `test_full_circuit_simple_lookup` passes
  `PermutationInfo::dummy()`, so `u` is zero and the lookup constraints take row zero for the last usable row. A prover with a generator
  of zeros and zero usable rows is accepted although no value is in the table (`Toy8.C78_lookup_test_unsound`; the reason is
  `C26_selector_at_row_zero_unsound`). This holds for every table and every column, and with `u = 0` the copies are not enforced either:
  only the gates are (`C80_only_gates`, `C80_lookup_test`). A circuit with lookups must pass the number of usable rows as `u` even if nothing is copied.
* **The tests of the precompiled gates cannot fail in `run_verifier`.** They use the mock prover, whose verifier ignores its input. All that they
  check is that `run_prover` does not panic, that is, that the gate is zero on every row (`C79_mock_prover`, `C79_mock_verifier`).
* **A row of `test_plonk_arith` is not tested.** The comment gives row 2 the selector `qo = 1`, so that the row would check `c[2] = pi[2]`.
  The code leaves `qo[2]` zero, and the row only checks that `pi` and `qpi` cancel. The test passes with every value in `c[2]`. With the
  selector of the comment it would panic for every public input other than zero, because `pi`, `qpi` and `c` would add up to `pi`
  (`C89_plonk_arith_comment`).
* **The tests' verifiers accept an empty proof** (`C91_copy_plonk`, `C91_simple_lookup`, `C91_unsatisfiable`). The missing check of C36 is
  reachable in the programs of the tests: with the keys they make, zero commitments, zero evaluations and one computed value for the quotient
  are accepted except with probability `17 / r`, for all witness columns and even if the gate says `1 = 0`.
* **The tests' verifiers accept complete proofs of false gates** (`C92_copy_plonk`, `C92_simple_lookup`, `C92_unsatisfiable`). A check of the
  number of `q` evaluations would stop the proof of C91 but not this one: the evaluations are not absorbed before `x1` is drawn, so the prover
  runs on columns that violate the gates and then changes two evaluations of the quotient. For `copy_plonk` this fails with probability at
  most `58 / r`.
* **The verifiers of the tests of single gates accept an empty proof** (`C94_gate`, `C94_mul`, `C94_false_gate`). This includes a gate that is
  one in every row.
* **Used verifier oracles.** `verify` mutates its oracles and never clears them. A proof without witness commitments,
  rejected by fresh oracles, is accepted after an earlier verification: `C47_false`.
* `PlonkArith4` uses one wire twice (`Gates.C10_four_wires_false`); `DeltaXorAnd` does not force the product
  (`Gates.C12_product_not_forced`).
* `SimpleHashFiatShamirRng` does not bind long initial messages (`SimpleHash.C42_long_initial_message`).
* `MockProver` checks gates only, and its `verify` accepts everything (`C43_mock_prover`, `C43_mock_verify`).

Zero knowledge

* **Number of blinding rows.** The grand products and permuted columns are hidden when they have at least as many random
  rows as points at which they are opened (C53); neither the indexer nor the prover checks this. `Toy.C53_unchecked` is a
  key with one random row for a grand product that is opened at three points (`C53_too_few_rows`).
* **One more row than opened points.** The opening argument also sends one value at `x3` for every opening set. With as many random
  rows as opened points these values are not covered: two columns that differ in a single row, apart from the random ones, never have the
  same values in their proofs when the column is alone in its opening set (`C66_values_differ`, `Root.differ`). One more random row
  in one column of every opening set is enough for the witness columns (`C66_one_more_row_partial`).
* **Parts of the quotient.** The quotient is cut into parts of `n` coefficients and each part is evaluated at `xi` and sent
  unmasked. The blinding rows do not cover these values: every part after the first is one more functional of the
  witness (`C60_quotient_values`). `Leak.C60_false` is a circuit where the evaluations of every proof determine the whole
  witness column, blinding rows included, for every commitment scheme, and `Leak.leaks` an accepted proof of this kind.
  The usual remedy adds a random multiple of `X^n` to one part and subtracts it from the next.
  The group elements are not at fault: given the values, they carry no information (`C63_group_elements_uniform`,
  `C63_same_distribution`). So hiding the values would be enough for an honest verifier.

Completeness and panics

* **Extended domain too small by one.** When the quotient degree is a power of two not below the domain size, the
  quotient has one coefficient more than the extended domain has points (`C18_off_by_one`) and honest proofs of
  satisfying witnesses are rejected (`OffByOne.C46_off_by_one`).
* Lookup expressions of degree above one make the prover panic (`C29_nonlinear_panics`).
* The verifier ignores rotations of fixed and instance queries inside lookup expressions
  (`LookupExample.C28_rotated_queries_false`); rotations of table queries are ignored by both sides.
* A custom vanishing polynomial with more coefficients than the extended domain has points is truncated
  (`C16_truncated`).
* Rotations by a full turn index out of bounds (`C01_full_turn_panics`).
* A permuted witness oracle that is not registered at the current row makes the verifier report a missing evaluation;
  of two oracles with the same label only the last receives evaluations (`C50_last_wins`).
* The verifier panics when `x3` is an opening point (`C35_x3_never_an_opening_point` describes the exception).
* Circuits whose gates are all linear underflow in `compute_quotient_degree` (`C19_indexer_outcome`).

Harmless, but surprising

* The last permutation constraint and the first lookup constraint share a power of `alpha` (`C30_alpha_separates`
  shows that this does not matter).
* The lookup constraint of the first row reads the last (blinding) row
  (`BlindingExample.C49_first_row_looks_back`); the `l0` constraint makes it irrelevant (`C49_lookup`).
* The last value of a grand product may be 0 instead of 1 (`z^2 = z`); the bounds of C22 and C26 account for it.
