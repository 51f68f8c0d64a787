{"id": "C01", "title": "Coset query equals polynomial at rotated point", "statement": "Asking a prover oracle for its i-th value over the extended coset under a rotation returns exactly the value of the oracle's polynomial at the i-th coset point multiplied by omega^(+/-degree), where omega generates the original domain; the query never reads out of range when degree < n.", "quantifier": "every polynomial with at most as many coefficients as the extended domain, every original domain size n, every extension ratio, every coset index, every rotation degree below n and both signs", "why_tests_cant": "Tests use one polynomial, one ratio and the rotations curr/next; the negative branch is marked 'TODO: test negative rotations' in the source and wrap-around depends on every index/degree combination.", "anchors": ["src/oracles/traits.rs: Instantiable::query_in_coset", "src/oracles/witness.rs: compute_extended_evals", "src/oracles/fixed.rs: ", "src/oracles/instance.rs: "]}
{"id": "C02", "title": "Row query equals polynomial at rotated domain point", "statement": "Asking a prover oracle for its value at row i under a rotation returns the value of the interpolated polynomial at omega^(i +/- degree), i.e. the cell in the row reached by cyclically moving degree rows forward or backward.", "quantifier": "every list of row values of length n, every row index below n, every rotation degree below n and both signs", "why_tests_cant": "Wrap-around at both ends must be right for every row and degree; tests never exercise negative rotations.", "anchors": ["src/oracles/traits.rs: Instantiable::query_at_omega_in_original_domain"]}
{"id": "C03", "title": "Rotated evaluation points", "statement": "The evaluation point computed for a rotation is the challenge times omega^(+/-degree); moving forward then back returns to the start; it panics exactly when 0 < degree and degree is at least the domain size; for a non-zero challenge two in-range rotations give the same point exactly when their signed degrees agree modulo n.", "quantifier": "every field, every domain, every non-zero challenge, every pair of rotations", "why_tests_cant": "The set of rotations that collide is infinite and field dependent; unit tests only see a few.", "anchors": ["src/oracles/rotation.rs: Rotation::compute_evaluation_point", "src/oracles/rotation.rs: Rotation::get_point_info"]}
{"id": "C04", "title": "Expression evaluation is compositional", "statement": "Evaluating an expression over the polynomials behind its oracles and then at a point gives the same field element as evaluating the expression directly over the oracle values at that point, whatever the expression shape; operators -, +, *, scalar * and sub build expressions with the corresponding meaning.", "quantifier": "every expression tree, every assignment of polynomials to oracle queries, every point", "why_tests_cant": "Expression trees are unbounded; the prover evaluates over coset rows, the verifier at one challenge, the mock prover at rows, and all must agree.", "anchors": ["src/vo/expression.rs: Expression::evaluate", "src/vo/expression.rs: Expression"]}
{"id": "C05", "title": "Expression degree is an upper bound", "statement": "If the reported degree of an expression is d, the polynomial obtained by substituting polynomials of at most the per-oracle reported degree has degree at most d; degree reporting fails exactly when some queried oracle is unknown.", "quantifier": "every expression tree, every oracle degree function, every polynomial assignment respecting it", "why_tests_cant": "The quotient domain size is derived from it; a missing case would only show for particular expression shapes.", "anchors": ["src/vo/expression.rs: Expression::degree", "src/oracles/traits.rs: get_degree"]}
{"id": "C06", "title": "Configured expression means the virtual expression", "statement": "After configure, the expression of a virtual oracle evaluates to the value of the virtual expression where query (type, index, rotation) is answered by the oracle stored at that index of the list of that type, provided labels inside each list are distinct; before configure, asking for the expression fails with UninitializedExpr.", "quantifier": "every virtual expression, every three oracle lists with distinct labels, every evaluation environment", "why_tests_cant": "Index-to-label-to-index resolution goes through strings; tests use fixed orders and labels.", "anchors": ["src/vo/virtual_expression.rs: to_expression", "src/vo/generic_vo.rs: GenericVO::configure", "src/vo/generic_vo.rs: get_expression"]}
{"id": "C07", "title": "configure registers exactly the listed rotations", "statement": "configure adds to each oracle exactly the rotations listed for it in the query list, removes none, leaves labels, polynomials, evaluations and unrelated oracles untouched, is idempotent, does not depend on the order of the query list or on the order in which several virtual oracles are configured; it panics exactly when an index is out of range.", "quantifier": "every query list, every oracle lists, every order of configuration", "why_tests_cant": "Registered rotations determine what gets opened; the property is about all orders and all lists.", "anchors": ["src/vo/generic_vo.rs: GenericVO::configure", "src/oracles/witness.rs: register_rotation"]}
{"id": "C08", "title": "Lookup configuration rejects non-fixed tables", "statement": "Configuring a lookup succeeds exactly when every table query refers to a fixed oracle (and indices are in range); otherwise it returns WitnessTableNotAllowed or InstanceTableNotAllowed for the first offending query and the lookup stays unconfigured, so its expressions and table queries cannot be obtained.", "quantifier": "every list of expressions, queries and table queries and every oracle lists", "why_tests_cant": "Error selection depends on the position of the first offending query in an arbitrary list.", "anchors": ["src/vo/generic_lookup_vo.rs: GenericLookupVO::configure", "src/vo/generic_lookup_vo.rs: get_expressions", "src/vo/generic_lookup_vo.rs: get_table_queries"]}
{"id": "C09", "title": "PLONK arithmetic gate meaning", "statement": "The precompiled PLONK gate is zero at a row exactly when qm*a*b + ql*a + qr*b + qo*c + qc + PI = 0 for the cells of that row.", "quantifier": "every field and every value of the nine cells", "why_tests_cant": "A swapped selector shows only on inputs where the selectors differ.", "anchors": ["src/vo/precompiled/plonk_arith.rs: PrecompiledPlonkArith"]}
{"id": "C10", "title": "Four-wire PLONK gate meaning", "statement": "The four-wire gate is zero at a row exactly when qm*a*b + ql*a + qr*b + q4*d + qo*c + qc + PI = 0 for four independent wires a, b, c, d.", "quantifier": "every field and every value of the cells, including a fourth witness wire", "why_tests_cant": "The documented fourth wire must be a separate oracle for all assignments; any test with c = d hides the defect.", "anchors": ["src/vo/precompiled/plonk_arith.rs: PlonkArith4"]}
{"id": "C11", "title": "Delta gate enforces 2-bit accumulation", "statement": "Where the row is not marked last, the Delta gate is zero exactly when next - 4*current is one of 0,1,2,3; hence a column satisfying it on rows 0..m-1 with a first cell in 0..3 holds an accumulator of m+1 base-4 digits; rows marked last impose nothing.", "quantifier": "every field of characteristic other than 2 and 3, every column, every number of rows", "why_tests_cant": "The accumulated value claim is by induction over the number of rows.", "anchors": ["src/vo/precompiled/logic.rs: Delta"]}
{"id": "C12", "title": "XOR/AND gate meaning", "statement": "For 2-bit inputs a, b with c = a*b, the DeltaXorAnd gate is zero with selector 1 exactly when d = a AND b and with selector -1 exactly when d = a XOR b. Because the doc comment presents c as required to be the product, the gate alone should also force it.", "quantifier": "all 2-bit inputs in every field of large enough characteristic, every value of the result wire d, every value of the helper wire c", "why_tests_cant": "The result wire ranges over the whole field and the identity must hold in all characteristics; whether c is enforced is a for-all statement.", "anchors": ["src/vo/precompiled/logic.rs: DeltaXorAnd"]}
{"id": "C13", "title": "Rescue and multiplication gate meaning", "statement": "The Rescue gate is zero exactly when q1*w1^5+q2*w2^5+q3*w3^5+q4*w4^5 = w5; the multiplication gate is zero exactly when a*b equals the instance cell.", "quantifier": "every field and every value of the cells", "why_tests_cant": "Equality must hold for all cell values.", "anchors": ["src/vo/precompiled/rescue.rs: PrecompiledRescue", "src/vo/precompiled/mul.rs: PrecompiledMul"]}
{"id": "C14", "title": "Precompiled gates list every query they use", "statement": "For each precompiled gate and lookup, every (type, index, rotation) occurring in the expression occurs in the returned query list, so after configure every value the verifier needs has been registered for opening; and conversely nothing else is registered.", "quantifier": "every oracle lists large enough for the gate, and every query inside the expression", "why_tests_cant": "A missing query yields MissingConcreteEval only for particular compositions of gates.", "anchors": ["src/vo/precompiled/logic.rs: ", "src/vo/precompiled/mul.rs: ", "src/vo/precompiled/plonk_arith.rs: ", "src/vo/precompiled/rescue.rs: ", "src/vo/precompiled_lookups/simple_1_arith.rs: ", "src/vo/precompiled_lookups/simple_3_arith.rs: "]}
{"id": "C15", "title": "Evaluation/interpolation round trips", "statement": "Interpolating row values and evaluating at the i-th domain point returns the i-th value; evaluating over the extended coset and interpolating back returns the polynomial; constructing a fixed oracle from row values yields coset values that agree with its polynomial.", "quantifier": "every list of n values, every polynomial fitting the domain, every domain with a primitive root and a non-zero coset shift", "why_tests_cant": "Statement over all values and sizes.", "anchors": ["src/oracles/fixed.rs: from_evals_and_domains", "src/indexer.rs: ", "src/piop/prover.rs: prover_quotient_round"]}
{"id": "C16", "title": "Stored vanishing inverses are correct", "statement": "The verifier key's i-th stored value is the inverse of the chosen vanishing polynomial at the i-th coset point, in all three cases (same size domain, larger domain with X^n-1, custom vanishing polynomial without zeros on the coset).", "quantifier": "every domain size, extension ratio, custom vanishing polynomial, coset index", "why_tests_cant": "Each branch uses a different formula; correctness is needed for all indices and sizes.", "anchors": ["src/indexer.rs: compute_zh_evals", "src/util.rs: compute_vanishing_poly_over_coset"]}
{"id": "C17", "title": "Quotient chunks recombine to the constraint", "statement": "When every aggregated constraint vanishes wherever the vanishing polynomial does, and the extended domain is big enough, the polynomials the prover commits to as quotient chunks satisfy sum_i x^(n*i) * chunk_i(x) * z_H(x) = aggregated constraint(x) for every x, and each chunk has fewer than n coefficients or is the tail.", "quantifier": "every circuit, witness and challenges satisfying the constraints, every point x", "why_tests_cant": "Identity of polynomials, not of samples.", "anchors": ["src/piop/prover.rs: prover_quotient_round"]}
{"id": "C18", "title": "Extended domain is large enough for the quotient", "statement": "The extended domain chosen by the indexer has at least as many points as the quotient polynomial has coefficients, for the user's gates, for the permutation argument and for lookups.", "quantifier": "every list of gate degrees, every domain size and every custom vanishing degree accepted by the indexer", "why_tests_cant": "Off-by-one at powers of two is invisible on typical sizes.", "anchors": ["src/indexer.rs: compute_quotient_degree", "src/indexer.rs: index"]}
{"id": "C19", "title": "Indexer outcome classification", "statement": "Indexing returns a key exactly when all gates are configured, all queried labels exist, the maximal gate degree is at least the vanishing degree and the resulting domain is not smaller than the original; otherwise it returns the specific error (uninitialised expression, missing oracle, QuotientTooSmall) or panics on a gate degree below the vanishing degree; it never returns a key with a domain smaller than the original.", "quantifier": "every list of gates, oracles, domain sizes and vanishing polynomials", "why_tests_cant": "Decision logic across all inputs.", "anchors": ["src/indexer.rs: index", "src/indexer.rs: compute_quotient_degree"]}
{"id": "C20", "title": "Grand product and challenge counts agree", "statement": "The number of permutation aggregation polynomials the prover builds equals the number the verifier expects, equals the number of column chunks, covers every column once, and the number of alpha powers requested equals the number of constraints instantiated.", "quantifier": "every number of copied columns and every scaling factor at least 2", "why_tests_cant": "Rounding division must agree with chunking for every size.", "anchors": ["src/permutation/mod.rs: number_of_z_polys", "src/permutation/mod.rs: number_of_alphas", "src/permutation/mod.rs: construct_agg_polys"]}
{"id": "C21", "title": "Permutation argument completeness", "statement": "If the copied columns respect the copy constraints on the usable rows (each cell equals the cell its sigma points to) and no denominator vanishes, the aggregation polynomials are constructed without panic, satisfy every permutation constraint at every row, whatever values fill the blinding rows, and their last usable value is 1.", "quantifier": "every number of columns, rows, chunk size, permutation of cells, witness respecting it, challenges beta and gamma outside the bad set, and blinding values", "why_tests_cant": "Quantifies over all permutations and challenges.", "anchors": ["src/permutation/mod.rs: construct_agg_polys", "src/permutation/grand_product.rs: construct_agg_poly"]}
{"id": "C22", "title": "Permutation argument soundness", "statement": "If polynomials satisfy every permutation constraint on every row for more than a stated number of beta/gamma values, the witness respects the copy constraint: cells joined by the permutation hold equal values.", "quantifier": "every witness, permutation, and every choice of aggregation polynomials depending on the challenges", "why_tests_cant": "It is a statement about all cheating aggregation polynomials.", "anchors": ["src/permutation/mod.rs: instantiate_argument_at_omega_i", "src/permutation/mod.rs: open_argument"]}
{"id": "C23", "title": "Splitting columns into chunks does not change the argument", "statement": "The value of the last aggregation polynomial at the last usable row equals the full product over all columns and rows, independent of how columns are split in chunks, because each chunk starts where the previous ended.", "quantifier": "every number of columns and every chunk size at least one", "why_tests_cant": "All chunkings.", "anchors": ["src/permutation/mod.rs: construct_agg_polys"]}
{"id": "C24", "title": "Lookup permutation routine specification", "statement": "The routine that permutes input and table succeeds exactly when both have the same length and every input value occurs in the table; its outputs are permutations of input and table, the first rows agree, and each later row's input equals the table value in the same row or the previous input.", "quantifier": "every pair of lists over every linearly ordered field", "why_tests_cant": "Multiset claims over all lists; panics for all bad lists.", "anchors": ["src/lookup/permute.rs: permute_for_lookup"]}
{"id": "C25", "title": "Lookup row constraints force membership", "statement": "If the permuted columns agree in the first row and each later row's input equals the table value or the previous input, then every permuted input value occurs in the permuted table.", "quantifier": "every pair of columns of any length", "why_tests_cant": "Induction over the number of rows.", "anchors": ["src/lookup/mod.rs: instantiate_argument_at_omega_i"]}
{"id": "C26", "title": "Lookup argument soundness", "statement": "If the committed polynomials satisfy every lookup constraint on every row for more than a stated number of beta/gamma values, every input value on a usable row occurs in the table on a usable row.", "quantifier": "every input, table, permuted columns and aggregation polynomial, all configurations of usable rows accepted by the API", "why_tests_cant": "All cheating provers; depends on which row carries the final check.", "anchors": ["src/lookup/mod.rs: ", "src/lookup/subset_equality.rs: ", "src/piop/prover.rs: lu", "src/turbo_plonk.rs: verify"]}
{"id": "C27", "title": "Compression of lookup tuples", "statement": "Two different tuples of expression values collide under the theta compression for fewer theta values than the tuple length, so membership of the compressed value implies membership of the tuple except for a bounded number of theta.", "quantifier": "every pair of tuples, tables of every size, every field", "why_tests_cant": "Counting roots, not sampling.", "anchors": ["src/lookup/mod.rs: construct_a_and_s_polys_prover"]}
{"id": "C28", "title": "Verifier's lookup value equals the prover's polynomial", "statement": "The compressed input and table values the verifier recomputes at the challenge equal the values of the prover's compressed polynomials at that challenge, for every expression including rotated witness, instance and fixed queries and rotated table queries.", "quantifier": "every lookup expression, every rotation, every challenge", "why_tests_cant": "A mismatch shows only for lookup expressions with rotated non-witness queries.", "anchors": ["src/lookup/mod.rs: construct_a_and_s_unpermuted_polys_verifier", "src/lookup/mod.rs: construct_a_and_s_polys_prover"]}
{"id": "C29", "title": "Lookup proving does not panic on honest inputs", "statement": "For any configured lookup whose compressed inputs are all in the table on the usable rows, the lookup round produces permuted columns rather than panicking.", "quantifier": "every lookup expression (linear or not), every witness in the table", "why_tests_cant": "Internal sanity assertions only fire for non-linear expressions.", "anchors": ["src/lookup/mod.rs: construct_a_and_s_polys_prover"]}
{"id": "C30", "title": "Alpha separation", "statement": "If the alpha-weighted sum of all constraints vanishes on the domain for more alpha values than the number of weights minus one, then each constraint vanishes on the domain; gate, permutation and lookup constraints are all covered by distinct weights or by weights shared only between constraints that cannot cancel.", "quantifier": "every number of gates, columns and lookups, every constraint values", "why_tests_cant": "Sum of arbitrary many constraints; cancellation is adversarial.", "anchors": ["src/piop/prover.rs: prover_quotient_round", "src/turbo_plonk.rs: verify"]}
{"id": "C31", "title": "Quotient check accepts honest evaluations", "statement": "For polynomials satisfying all gate constraints on the domain, the verifier's identity check passes for honestly computed evaluations at every challenge, so QuotientNotZero is never returned to an honest prover.", "quantifier": "every circuit, satisfying witness, challenge alpha and evaluation point", "why_tests_cant": "For all points and circuits.", "anchors": ["src/turbo_plonk.rs: verify", "src/piop/prover.rs: prover_quotient_round"]}
{"id": "C32", "title": "Quotient check rejects violated constraints", "statement": "If some gate constraint fails at some row, then for any quotient chunk polynomials at most a stated number of evaluation points and alpha values let the verifier's identity check pass with true evaluations.", "quantifier": "every circuit, every non-satisfying witness, every quotient chunks of bounded degree", "why_tests_cant": "Adversarially chosen quotient.", "anchors": ["src/turbo_plonk.rs: verify"]}
{"id": "C33", "title": "Malformed proofs are not accepted", "statement": "A proof whose witness, fixed, table, permutation or lookup evaluation lists have the wrong length is never accepted; a list with too few witness commitments is rejected when the verifier oracles are fresh.", "quantifier": "every proof object with any wrong list length", "why_tests_cant": "All shapes of malformed proofs.", "anchors": ["src/turbo_plonk.rs: verify"]}
{"id": "C34", "title": "Each evaluation reaches the right oracle and point", "statement": "The list of evaluations produced by the prover, read back by the verifier, registers for every oracle and every registered rotation exactly the value of that oracle's polynomial at that rotated point, regardless of label ordering.", "quantifier": "every set of oracles with distinct labels, every set of registered rotations, every challenge", "why_tests_cant": "Ordering goes through string-ordered sets; e.g. omega_10 sorts before omega_2.", "anchors": ["src/util.rs: evaluate_query_set", "src/oracles/traits.rs: get_query_set", "src/turbo_plonk.rs: prove", "src/turbo_plonk.rs: verify"]}
{"id": "C35", "title": "Multi-point opening completeness", "statement": "A multi-point opening proof produced for any oracles is accepted by the corresponding verification with honest evaluations and commitments, except when the challenge x3 hits an opening point or two rotated points coincide.", "quantifier": "every list of oracles, rotation sets, polynomials, challenges, and any correct homomorphic commitment scheme", "why_tests_cant": "Quantifies over all polynomials and groupings.", "anchors": ["src/multiproof/piop/mod.rs: prove", "src/multiproof/piop/mod.rs: verify", "src/multiproof/piop/prover.rs: "]}
{"id": "C36", "title": "Multi-point opening checks every opening set", "statement": "Verification fails (or errors) unless the proof supplies exactly one q evaluation for each opening set.", "quantifier": "every proof, every number of opening sets", "why_tests_cant": "A truncation attack is a for-all-proofs statement.", "anchors": ["src/multiproof/piop/mod.rs: verify"]}
{"id": "C37", "title": "Claimed evaluations are bound by the challenges", "statement": "Changing any claimed evaluation in a proof changes the transcript so that the opening check with the same remaining proof is not satisfied by construction; two different lists of claimed evaluations never both verify with the same opening proof.", "quantifier": "every accepted proof and every modification of the claimed evaluations", "why_tests_cant": "Adversarial modifications.", "anchors": ["src/turbo_plonk.rs: prove", "src/turbo_plonk.rs: verify", "src/multiproof/piop/mod.rs: "]}
{"id": "C38", "title": "Multi-point opening soundness", "statement": "If a claimed evaluation differs from the committed polynomial's value, then for any f polynomial and q evaluations fixed before the respective challenges, the number of challenge values (x1, x2, x3, x4) for which the final identity holds is bounded by the stated root counts.", "quantifier": "every set of polynomials, false claims and adversarial f, q", "why_tests_cant": "Adversarial strategy quantification.", "anchors": ["src/multiproof/piop/mod.rs: verify", "src/multiproof/poly.rs: "]}
{"id": "C39", "title": "Opening sets agree and partition the oracles", "statement": "Prover and verifier group oracles into the same opening sets in the same order, every oracle lies in exactly one set, sets have pairwise different rotation sets, and inside a set the order of oracles is the input order.", "quantifier": "every list of oracles and rotation sets", "why_tests_cant": "All groupings.", "anchors": ["src/multiproof/piop/prover.rs: init_prover", "src/multiproof/piop/mod.rs: verify"]}
{"id": "C40", "title": "Prover and verifier derive the same challenges", "statement": "For a proof made by prove, verify derives exactly the same theta, beta, gamma, alpha, xi, x1..x4 as prove did.", "quantifier": "every circuit, witness and randomness, any hash and sampler", "why_tests_cant": "Any difference in absorb order shows only as a rejected proof for some configurations.", "anchors": ["src/rng.rs: ", "src/turbo_plonk.rs: prove", "src/turbo_plonk.rs: verify", "src/piop/verifier.rs: ", "src/multiproof/piop/verifier.rs: "]}
{"id": "C41", "title": "Challenges bind the statement", "statement": "The challenges depend on the public inputs, the preprocessed circuit and the claimed evaluations: two runs that differ in any of them absorb different data.", "quantifier": "every pair of statements", "why_tests_cant": "Requires comparing all pairs of runs.", "anchors": ["src/turbo_plonk.rs: prove", "src/turbo_plonk.rs: verify"]}
{"id": "C42", "title": "Transcript binds the absorbed messages", "statement": "Two sequences of absorbed messages that lead to the same final seed are equal, or a hash collision exists; challenges depend only on the initial message and the sequence of absorbed messages.", "quantifier": "every pair of absorb histories of the same number of steps, every hash with fixed output length", "why_tests_cant": "Histories are unbounded.", "anchors": ["src/rng.rs: SimpleHashFiatShamirRng"]}
{"id": "C43", "title": "Mock prover accepts exactly satisfying assignments", "statement": "The mock prover returns a proof exactly when every gate evaluates to zero on every row (it panics naming the first failing row and gate otherwise); it ignores copy constraints and lookups; its verify always accepts.", "quantifier": "every circuit and assignment", "why_tests_cant": "All rows and gates.", "anchors": ["src/mock_prover.rs: prove", "src/mock_prover.rs: verify"]}
{"id": "C44", "title": "Commitment wrapper is a homomorphism", "statement": "Combining commitments with add, scale, negate and multi-scalar multiplication gives the commitment of the same combination of polynomials with the same combination of randomness.", "quantifier": "every list of polynomials, randomness and scalars, every commitment key", "why_tests_cant": "Algebraic laws over all inputs.", "anchors": ["src/commitment.rs: "]}
{"id": "C45", "title": "Randomness list is aligned with oracle list", "statement": "The list of commitment randomness the prover passes to the opening has the same length and order as the list of oracles opened, so no oracle is silently dropped by the pairing of the two lists.", "quantifier": "every number of witness, lookup, quotient, permutation, fixed and table oracles", "why_tests_cant": "zip truncates silently; all counts matter.", "anchors": ["src/turbo_plonk.rs: prove", "src/data_structures.rs: empty_rands_for_fixed", "src/multiproof/piop/prover.rs: init_prover"]}
{"id": "C46", "title": "End-to-end completeness", "statement": "A proof produced by prove for a satisfying witness is accepted by verify with fresh verifier oracles configured the same way, outside explicitly listed bad challenge events.", "quantifier": "every circuit within the supported fragment, satisfying witness, randomness, correct commitment scheme, any transcript", "why_tests_cant": "For all circuits, witnesses and challenges.", "anchors": ["src/turbo_plonk.rs: prove", "src/turbo_plonk.rs: verify"]}
{"id": "C47", "title": "Verifier state reuse", "statement": "Verifying a proof gives the same outcome with fresh verifier oracles and with oracles already used for earlier verifications.", "quantifier": "every history of earlier verifications", "why_tests_cant": "Histories are unbounded.", "anchors": ["src/oracles/witness.rs: WitnessVerifierOracle", "src/turbo_plonk.rs: verify"]}
{"id": "C48", "title": "Every evaluation the verifier uses is opened", "statement": "Every proof-supplied evaluation that enters the verifier's identity check, including the blinding selector and the permutation polynomials, is covered by an opening set containing its point.", "quantifier": "every verifier preprocessed input the public constructors can build", "why_tests_cant": "Depends on how the preprocessed input was constructed.", "anchors": ["src/data_structures.rs: VerifierPreprocessedInput::new", "src/data_structures.rs: new_wo_blind", "src/turbo_plonk.rs: verify", "src/multiproof/piop/mod.rs: verify"]}
{"id": "C49", "title": "Blinding rows do not influence acceptance", "statement": "Values placed in the blinding rows after the last usable row never affect whether the permutation and lookup constraints hold when the blinding selector marks exactly these rows.", "quantifier": "every choice of blinding values", "why_tests_cant": "All random choices.", "anchors": ["src/permutation/grand_product.rs: ", "src/lookup/subset_equality.rs: ", "src/lookup/mod.rs: "]}
{"id": "C50", "title": "Label lookup is last-wins and total on known labels", "statement": "Resolving a label to an oracle returns the last oracle with that label; a label not present gives the corresponding missing-oracle error for its type (prover, verifier and indexer alike).", "quantifier": "every oracle list, with or without duplicates, every expression", "why_tests_cant": "All lists with duplicates.", "anchors": ["src/indexer.rs: ", "src/piop/prover.rs: init_prover", "src/turbo_plonk.rs: verify"]}
{"id": "C51", "title": "Soundness of the whole argument", "statement": "Let the commitment scheme be homomorphic and binding and let the prover commit to polynomials of bounded degree. If the committed witness columns violate a gate on a required row, or a copy constraint, or a lookup, then whatever the prover sends in the later rounds, for all but an explicitly bounded number of values of each challenge drawn after the corresponding message, the verifier does not accept.", "quantifier": "every circuit of the modelled shape, every false witness, every later message of the prover, all challenges outside the exceptional sets", "why_tests_cant": "Tests run an honest prover or a few modified proofs; the claim is about every strategy.", "anchors": ["src/turbo_plonk.rs: verify", "src/multiproof/piop/mod.rs: verify", "src/permutation/mod.rs: ", "src/lookup/mod.rs: "]}
{"id": "C52", "title": "The honest prover succeeds", "statement": "If the witness satisfies the gates, the copy constraints and the lookups of a supported circuit and the commitment scheme can handle polynomials with as many coefficients as the domain has rows, then prove returns a proof, and verify accepts it, unless the transcript answers with challenges from a small exceptional set: values of beta and gamma for which a denominator of a grand product vanishes, an evaluation challenge equal to zero, or a multi-opening challenge x3 that is a queried point. For every theta, of the t^2 pairs (beta, gamma) from t field elements at most (m*u + 2*l*u)*t are exceptional, where m is the number of copied columns, u the number of usable rows and l the number of lookups.", "quantifier": "every supported circuit with at least one gate and affine lookups, every satisfying witness, every random state of the prover, every transcript, every homomorphic scheme that supports the degree", "why_tests_cant": "Tests run the prover on a few circuits with one transcript; none of them meets a vanishing denominator, and they cannot show that no other error or panic is reachable.", "anchors": ["src/turbo_plonk.rs: prove", "src/lookup/mod.rs: ", "src/permutation/mod.rs: ", "src/lookup/subset_equality.rs: ", "src/piop/prover.rs: ", "src/multiproof/piop/mod.rs: prove"]}
{"id": "C53", "title": "Blinding rows hide the columns the prover builds", "statement": "For fixed challenges theta, beta, gamma, the permuted columns of the lookups and the grand products depend on the random generator only through the elements drawn for their blinding rows, and as a function of these elements the values of all these columns at points outside of the domain are jointly uniformly distributed, whatever the witness is, provided no column is evaluated at more points than it has blinding rows.", "quantifier": "every circuit, witness and choice of challenges for which the rounds succeed, every state of the generator, all points outside of the domain", "why_tests_cant": "A distribution over all random choices, for every witness, cannot be observed in a finite number of runs.", "anchors": ["src/permutation/grand_product.rs: construct_agg_poly", "src/permutation/mod.rs: construct_agg_polys", "src/lookup/mod.rs: construct_a_and_s_polys_prover", "src/lookup/subset_equality.rs: construct_agg_poly", "src/piop/prover.rs: "]}
{"id": "C54", "title": "Commitments and the final opening hide the polynomials", "statement": "With a correctly generated key whose blinding generator generates the group, the commitments to polynomials with a hiding bound are jointly uniformly distributed, whatever the polynomials are. In the multi-opening the commitment to f and the value of the blinding polynomial at x3 are jointly uniformly distributed given everything sent before, unless x3 is the secret, and the remaining component of the opening is determined by them and by what the verifier knows.", "quantifier": "all polynomials, all keys, all states of the generator, all challenges x3 other than the secret", "why_tests_cant": "A distribution over all random choices, for every witness, cannot be observed in a finite number of runs.", "anchors": ["src/commitment.rs: ", "src/multiproof/piop/mod.rs: prove", "src/multiproof/piop/prover.rs: ", "src/oracles/witness.rs: "]}
{"id": "C55", "title": "Separators of the copied columns", "statement": "Distinct cells of the copied columns have distinct identities exactly if no separator passed to the indexer is zero and the n-th powers of the separators are pairwise different, where n is the number of rows. A key whose separators fail this check does not enforce copy constraints between cells with the same identity; the library is expected to refuse it.", "quantifier": "every domain with at least two rows and every list of separators; every permutation of the cells", "why_tests_cant": "Tests use the separators 1 and 13 in one field; whether a list of separators is sound depends on the field, the domain size and every pair of separators.", "anchors": ["src/data_structures.rs: PermutationInfo", "src/permutation/mod.rs: PermutationArgument", "src/permutation/mod.rs: new", "src/indexer.rs: index"]}
{"id": "C56", "title": "Soundness of the whole argument with KZG commitments", "statement": "Let the commitments be the KZG commitments of the wrapper and let the prover know for every group element it sends how it is made from the elements of the key. If the committed witness columns violate a gate on a required row, a copy constraint or a lookup, then for all challenges outside the exceptional sets of C51 an accepted proof determines an equation P(s) g + Q(s) gamma_g = 0 for the secret s of the key, with explicit polynomials P and Q of bounded degree that are not both zero and do not depend on the key; only few keys satisfy it.", "quantifier": "every circuit of the modelled shape, every false witness, every algebraic prover, every group with a pairing and every key, all challenges outside the exceptional sets", "why_tests_cant": "Tests run an honest prover with one key; the claim is about every strategy and every key.", "anchors": ["src/turbo_plonk.rs: verify", "src/multiproof/piop/mod.rs: verify", "src/commitment.rs: HomomorphicCommitment", "src/commitment.rs: KZG10"]}
{"id": "C57", "title": "Soundness error of the interactive argument", "statement": "Let the commitment scheme be homomorphic and binding and let the committed witness columns violate the circuit. Against every prover whose messages depend on the challenges received so far, that sends polynomials of bounded degree, a bounded number of quotient parts and a q evaluation for every opening set, the verifier accepts for at most e * t^8 of the t^9 tuples of challenges from a set of t field elements, where e is an explicit number computed from the circuit: the sum of the exceptional values of all nine challenges.", "quantifier": "every circuit of the modelled shape, every false witness, every prover strategy, every finite set of challenges", "why_tests_cant": "Tests run the honest prover with a few transcripts; the claim counts all challenge tuples against all strategies.", "anchors": ["src/turbo_plonk.rs: verify", "src/multiproof/piop/mod.rs: verify", "src/piop/verifier.rs: verifier_first_round", "src/piop/verifier.rs: verifier_second_round", "src/multiproof/piop/verifier.rs: verifier_first_round"]}
{"id": "C58", "title": "Size of a proof", "statement": "For a key made by the indexer and a supported circuit, every proof returned by prove has the same fourteen counts: with c copied columns, L lookups, at most m copied columns per grand product and s = m + 1, it has one commitment per witness column, 2L permuted lookup columns, L lookup grand products, s quotient parts, ceil(c/m) grand products and one more, plus one evaluation per label and rotation and one q evaluation per different rotation set. These are the numbers shown by info and cumulative_info. s is at most max(4, 2 * degree of the gates), so the size does not depend on the number of rows.", "quantifier": "every homomorphic scheme, every circuit, witness, randomness and transcript", "why_tests_cant": "A test prints the statistics of one circuit; the claim is a formula for all circuits and all witnesses.", "anchors": ["src/turbo_plonk.rs: TPProof::info", "src/turbo_plonk.rs: cumulative_info", "src/turbo_plonk.rs: prove", "src/indexer.rs: index"]}
{"id": "C59", "title": "From the universal setup to an accepted proof", "statement": "universal_setup fails exactly for degree zero; otherwise prepare_keys returns correctly generated keys with the powers up to the requested degree and the three blinding powers that hiding bound 1 needs. With such keys for a degree of at least n - 1, the indexer's key of a supported circuit of n rows and a satisfying witness, the prover returns a proof which the verifier accepts, except for challenges that make a denominator vanish, a zero evaluation challenge, or a collision of x3 with an opening point. A witness column of larger degree makes prove return the commitment error.", "quantifier": "every secret, generators, pairing, circuit, witness, randomness and transcript", "why_tests_cant": "Tests run one size with one random setup.", "anchors": ["src/turbo_plonk.rs: universal_setup", "src/turbo_plonk.rs: prepare_keys", "src/turbo_plonk.rs: prove", "src/turbo_plonk.rs: verify", "src/commitment.rs: HomomorphicCommitment"]}
{"id": "C60", "title": "The evaluations in a proof hide the witness", "statement": "If the last rows of every witness column are drawn uniformly, at least as many as the points at which the column is opened, the joint distribution of the evaluations in a proof does not depend on the other rows of the witness.", "quantifier": "every circuit, satisfying witness, commitment scheme, randomness and transcript", "why_tests_cant": "A test compares values for single runs; hiding is a statement about the distribution over all draws and every witness.", "anchors": ["src/piop/prover.rs: prover_quotient_round", "src/piop/prover.rs: prover_lookup_round", "src/piop/prover.rs: prover_permutation_round", "src/turbo_plonk.rs: prove"]}
{"id": "C61", "title": "Soundness with one q evaluation per opening set", "statement": "If the verifier also checked that a proof has one q evaluation for each opening set, an accepted proof would show that the gates hold for the committed polynomials, except for few challenges.", "quantifier": "every circuit, commitment scheme, proof object and transcript", "why_tests_cant": "The proofs that break it are not returned by the prover; a test with honest or randomly damaged proofs does not meet them, and the claim is about all proof objects.", "anchors": ["src/turbo_plonk.rs: prove", "src/turbo_plonk.rs: verify", "src/multiproof/piop/mod.rs: verify"]}
{"id": "C62", "title": "Serialised proofs", "statement": "A proof that is serialised is read back unchanged, whatever bytes follow; no proof has two encodings and no proper prefix of an encoding is read as a proof; the number of bytes is given by the counts of cumulative_info and is the same for all proofs of a circuit.", "quantifier": "every proof object whose vectors have fewer than 2^64 entries, every encoding of field elements, commitments and openings that is read back", "why_tests_cant": "A test serialises single proofs; the claim is about all proof objects, byte strings and lengths.", "anchors": ["src/turbo_plonk.rs: TPProof", "src/multiproof/mod.rs: Proof", "src/turbo_plonk.rs: cumulative_info"]}
{"id": "C63", "title": "Group elements of a proof reveal nothing beyond the values", "statement": "With an honest verifier and SonicKZG10 commitments, among the draws of the prover that give a proof with given values of the polynomials, every list of commitments together with every blinding value of the opening occurs equally often, and the remaining group element is determined by the verifier's check. So if the values have the same distribution for two witnesses, the whole proofs have.", "quantifier": "every circuit, witness, key from a setup, list of challenges with x3 different from the secret, number of drawn elements not below what the prover reads, and every possible list of values and group elements", "why_tests_cant": "A test sees single proofs; the claim compares the numbers of draws for all possible proofs.", "anchors": ["src/turbo_plonk.rs: prove", "src/multiproof/piop/mod.rs: prove", "src/commitment.rs: KZG10", "src/piop/prover.rs: PIOPforPolyIdentity"]}
{"id": "C64", "title": "Completeness error of the interactive argument", "statement": "For a circuit the code supports and a witness that satisfies it, with an honest verifier that draws the nine challenges from any finite set T, the prover returns a proof and the verifier accepts it for all but at most (m*u + 2*l*u' + 1 + n) * |T|^8 of the |T|^9 tuples of challenges. Here m copied columns with u rows, l lookups with u' rows and n rows of the circuit.", "quantifier": "every commitment scheme with homomorphic commitments, supported circuit, satisfying witness, key, state of the prover's random source and finite set of challenges", "why_tests_cant": "The bad challenges are a vanishing fraction of a large field; random tests never meet them, so no test bounds their number.", "anchors": ["src/turbo_plonk.rs: prove", "src/turbo_plonk.rs: verify", "src/permutation/grand_product.rs: construct_agg_poly", "src/lookup/subset_equality.rs: construct_agg_poly"]}
{"id": "C65", "title": "The verifier does not panic on untrusted proofs", "statement": "A verifier that has been set up for a circuit returns acceptance or an error for every proof it is given; it never panics, whatever the proof contains.", "quantifier": "every commitment scheme, circuit, set-up verifier, proof and answers of the transcript", "why_tests_cant": "A proof comes from an adversary; tests feed the verifier proofs made by the prover, never the unbounded set of lists of all lengths.", "anchors": ["src/turbo_plonk.rs: verify", "src/piop/verifier.rs: VerifierState", "src/multiproof/piop/mod.rs: verify", "src/lookup/mod.rs: construct_a_and_s_unpermuted_polys_verifier", "src/permutation/mod.rs: open_argument"]}
{"id": "C66", "title": "Random rows cover the values sent by the opening argument", "statement": "When every witness column has at least as many random rows as points at which it is opened, the values of a proof do not tell two witnesses apart.", "quantifier": "every commitment scheme, circuit, pair of witnesses, random rows, random draws of the prover and challenges", "why_tests_cant": "Whether values of a proof depend on the witness is a statement about the distribution over all random rows; a test sees single proofs.", "anchors": ["src/multiproof/piop/mod.rs: prove", "src/multiproof/piop/prover.rs: prover_third_round", "src/turbo_plonk.rs: prove", "src/indexer.rs: index"]}
{"id": "C67", "title": "Completeness error of the non-interactive argument with an ideal hash function", "statement": "For a circuit the code supports and a witness that satisfies it, when the Fiat-Shamir generator is a random oracle, a uniformly random function from the history of the transcript to the field, the probability that the prover returns no proof or one the verifier rejects is at most (m*u + 2*l*u' + 1 + n) / |F|. Here m copied columns with u rows, l lookups with u' rows and n rows of the circuit.", "quantifier": "every finite field, commitment scheme with homomorphic commitments, supported circuit, satisfying witness, key and state of the prover's random source", "why_tests_cant": "The challenges depend on the commitments, which depend on earlier challenges; a failing transcript is too rare to be met by a test in a large field.", "anchors": ["src/turbo_plonk.rs: prove", "src/turbo_plonk.rs: verify", "src/rng.rs: absorb", "src/multiproof/piop/mod.rs: prove"]}
{"id": "C68", "title": "Soundness of the non-interactive argument with an ideal hash function, given true evaluations", "statement": "Let the Fiat-Shamir generator be a random oracle, and let a forger with unlimited computing power ask it at most Q questions, choosing the witness and all messages adaptively. The probability that the forger outputs a proof the verifier accepts, whose witness commitments are to columns that violate a gate, a copy constraint or a lookup, whose other commitments are to polynomials of bounded degree and whose claimed evaluations are those of the committed polynomials, is at most (Q + 4) * e / |F|, where e is the largest number of exceptional values of one challenge.", "quantifier": "every finite field, circuit, key, public input, commitment scheme whose commitments determine the polynomial and are encoded uniquely, forger and number of questions", "why_tests_cant": "It is a statement about all adaptive strategies against a random function; the transcript order and what is absorbed before each challenge decide whether it holds, and no run shows it.", "anchors": ["src/turbo_plonk.rs: verify", "src/rng.rs: absorb", "src/rng.rs: initialize"]}
{"id": "C69", "title": "The prover does not notice a violated gate, and the verifier accepts the proof for every evaluation challenge on the coset", "statement": "Let the key be made by the indexer for a supported circuit, and let the prover return a proof for any witness, whether it satisfies the gates or not. Then the commitments of the proof are to the witness columns and to polynomials with at most n coefficients, and all its evaluations are true. Unless x3 is one of the points opened, the verifier accepts the proof or rejects it with the error of the quotient check; and it accepts it whenever the evaluation challenge is one of the points of the coset on which the prover divided by the vanishing polynomial.", "quantifier": "every field, domain, circuit, key, witness, public input, seed and homomorphic scheme with determined commitments", "why_tests_cant": "A test draws one challenge for one wrong witness and sees a rejection; that the prover never fails at the division and that the exceptional challenges include the whole coset holds for all of them at once.", "anchors": ["src/turbo_plonk.rs: prove", "src/turbo_plonk.rs: verify", "src/piop/prover.rs: prover_quotient_round"]}
{"id": "C70", "title": "Exactly what happens in an honest run", "statement": "For a satisfying witness and a commitment scheme that works, the prover panics exactly when theta, beta and gamma make a denominator of a grand product vanish. Otherwise it returns the error RepeatedRotation exactly when the evaluation challenge is zero and some opened column has two rotations. Otherwise it returns a proof, and the verifier panics exactly when x3 is one of the points at which a column is opened. Otherwise the verifier accepts. In the interactive argument an honest run succeeds exactly for the challenges outside these three conditions.", "quantifier": "every field, domain, supported circuit, key made by the indexer, satisfying witness, public input, seed, transcript and homomorphic scheme", "why_tests_cant": "The exceptional challenges are few among very many, so random tests do not meet them, and that nothing else can go wrong is a statement about all challenges.", "anchors": ["src/turbo_plonk.rs: prove", "src/turbo_plonk.rs: verify", "src/piop/prover.rs: prover_permutation_round", "src/piop/prover.rs: prover_lookup_subset_equality_round", "src/multiproof/piop/prover.rs: prover_first_round", "src/multiproof/piop/mod.rs: verify"]}
{"id": "C71", "title": "The number of parts of the quotient is fixed by the key", "statement": "The verifier accepts only proofs with as many quotient commitments as the key prescribes, which is the size of the extended domain divided by the size of the domain.", "quantifier": "every field, domain, key, public input, proof, transcript and commitment scheme", "why_tests_cant": "The prover of the crate always sends the prescribed number, so no test with honest proofs meets another one; the consequence for all circuits is a statement about proofs nobody in the tests would build.", "anchors": ["src/turbo_plonk.rs: verify", "src/turbo_plonk.rs: prove", "src/error.rs: WrongNumberOfChunks"]}
{"id": "C72", "title": "The mock prover predicts the protocol", "statement": "For a supported circuit the mock prover succeeds exactly when every gate holds on every row of the domain, and panics otherwise. When it succeeds and the copies and lookups hold as well, the prover returns a proof that the verifier accepts, for every vanishing polynomial of the key that divides X^n - 1, apart from the challenges excluded in C52.", "quantifier": "every field, domain, supported circuit, key made by the indexer, witness, public input, seed, transcript and homomorphic scheme", "why_tests_cant": "A test runs the mock prover and the protocol on one witness; that the two always agree on the gates is a statement about all circuits and witnesses.", "anchors": ["src/mock_prover.rs: prove", "src/turbo_plonk.rs: prove", "src/turbo_plonk.rs: verify"]}
{"id": "C73", "title": "What the prover does with a witness that violates copies or lookups", "statement": "For a witness whose gates hold the outcome of a run is exactly this. The prover panics if some compressed input of a lookup is not a compressed table row, if a denominator vanishes, or if the two products over the copied cells differ; otherwise the run ends as an honest run does. If a lookup of at most K columns is violated, at most u(K-1) values of theta avoid the panic. If a copy is violated, few pairs (beta, gamma) avoid it: at most m*u*|T| of the pairs over any finite set T, for m columns and u usable rows. With beta = 0 the copies have no influence on whether the proof is accepted.", "quantifier": "every field, domain, supported circuit, key made by the indexer, witness, permutation, seed, transcript, challenges and homomorphic scheme", "why_tests_cant": "A test runs the prover on one wrong witness with one transcript; the exceptional challenges are far too rare to be met, and counting them requires a statement about all challenges.", "anchors": ["src/permutation/mod.rs: construct_agg_polys", "src/lookup/mod.rs: construct_a_and_s_polys_prover", "src/piop/prover.rs: prover_lookup_round", "src/piop/prover.rs: prover_permutation_round", "src/turbo_plonk.rs: prove"]}
{"id": "C74", "title": "From columns and calls of configure to an accepted proof", "statement": "A client has columns without rotations and with different labels, gates and lookups that name columns by index, and a permutation of the copied cells. A sequence of calls of configure succeeds exactly when all indices are in range and all tables are fixed columns. The prover makes the calls on its columns and the verifier makes the same calls on its handles: both succeed or both fail, they end with the same gates and lookups, and the verifier is set up for the prover's circuit. The configured gates and lookups hold exactly when those of the client hold. If they and the copies hold, and every copied column is queried at the current row, the prover returns a proof that the verifier accepts, unless the challenges make a denominator vanish or hit the evaluation points.", "quantifier": "every field, domain, list of columns, sequence of calls, key made by the indexer, permutation, seed, transcript and homomorphic scheme", "why_tests_cant": "The tests configure two fixed circuits; that labels, indices and registered rotations fit together for every sequence of calls is a statement about all circuits.", "anchors": ["src/vo/generic_vo.rs: configure", "src/vo/generic_lookup_vo.rs: configure", "src/indexer.rs: index", "src/turbo_plonk.rs: prove", "src/turbo_plonk.rs: verify"]}
{"id": "C75", "title": "Soundness for a circuit made with configure", "statement": "The verifier makes its calls of configure on handles without rotations, and the indexer makes the key from the resulting gates and lookups. If a gate, a lookup or a copy fails on the client's columns, read by index, then a prover that commits to these columns, whatever it does afterwards within the rules of C57, is accepted by an honest verifier for a bounded part of the challenges only. The bound depends on the degrees of the client's expressions.", "quantifier": "every field, domain, list of columns, sequence of calls, key made by the indexer, permutation, strategy, set of challenges and binding homomorphic scheme", "why_tests_cant": "A test shows one rejected proof; the statement counts challenges over all strategies, and it excludes that configure drops or changes a constraint of any circuit.", "anchors": ["src/vo/generic_vo.rs: configure", "src/vo/generic_lookup_vo.rs: configure", "src/indexer.rs: index", "src/turbo_plonk.rs: verify"]}
{"id": "C76", "title": "A client's circuit is configured, indexed, proved and accepted", "statement": "The key made by the indexer depends on the labels of the columns and on how many are copied, not on their contents, so prover and verifier get the same key. For a circuit with columns of n rows, at least one gate of the highest degree m that n does not divide and with more than n / 2 points needed for a quotient of degree m (n - 1) - n (so for 2 <= m < n and n at least 8, and for degrees 3, 5, 6 and 7 with 4 rows), and a field with domains of 4 n and of m n points, the indexer succeeds with quotient degree m (n - 1) - n. Configuring, indexing, proving and verifying such a circuit, with gates, lookups and copies that hold, all succeed and the proof is accepted, except for the events of C52. Without copies and lookups the blinding selector may be left empty as in the tests of the crate, and no denominator can vanish.", "quantifier": "every field, domain, list of columns, sequence of calls of configure, permutation, seed, transcript and homomorphic scheme", "why_tests_cant": "The tests index a handful of circuits with fixed sizes; that no step fails for any circuit within the stated sizes is a statement about all of them.", "anchors": ["src/indexer.rs: index", "src/indexer.rs: compute_quotient_degree", "src/data_structures.rs: new_wo_blind", "src/vo/generic_vo.rs: configure", "src/turbo_plonk.rs: prove", "src/turbo_plonk.rs: verify"]}
{"id": "C77", "title": "The single-gate test program succeeds on all inputs", "statement": "The program that the tests of the precompiled gates run (run_prover and run_verifier) is run with any columns of n rows on which the gate holds, and any gate with a degree that fits n as in C76 whose queries are listed. The prover's rounds succeed; if the evaluation challenge is not zero the prover returns a proof; and if the opening point of the multi-opening is not one of the rotated evaluation points the verifier accepts it. All six precompiled gates fit. With KZG keys made by universal_setup and prepare_keys and columns a, b and a * b this is test_simple_mul for every size from 8 rows that the setup covers.", "quantifier": "every field, domain, list of columns, gate, setup, seed and transcript", "why_tests_cant": "Each test runs one gate on one random assignment with sixteen rows and one seed.", "anchors": ["src/vo/precompiled/tests.rs: run_prover", "src/vo/precompiled/tests.rs: run_verifier", "src/vo/precompiled/mul.rs: test_simple_mul", "src/vo/precompiled/rescue.rs: get_expr_and_queries", "src/turbo_plonk.rs: universal_setup"]}
{"id": "C78", "title": "The tests of whole circuits succeed on all inputs, and what the lookup test does not check", "statement": "The programs of test_full_circuit_simple_lookup and copy_plonk are run with any columns of n rows that satisfy their circuits: for the lookup test q * (a * b - c) = 0 on all rows and a in the table on all usable rows; for the copy test the plonk gate on all rows and equal values in the cells that the sigmas permute. More generally any circuit of gates, lookups and copies is allowed. The key is made; if the first challenges make no denominator zero the prover's rounds succeed; if the evaluation challenge is not zero the prover returns a proof; if the opening point of the multi-opening is not one of the rotated evaluation points the verifier accepts it. The verifier does not read the number of usable rows, which the lookup test gets as zero on the verifier's side. The lookup test passes PermutationInfo::dummy, so that row zero is taken for the last usable row, and its verifier accepts looked-up values that are not in the table.", "quantifier": "every field, domain of at least eight rows, list of columns, permutation, number of usable rows, setup, seed and transcript", "why_tests_cant": "Each test runs one circuit on one assignment with sixteen rows and one seed, and neither runs a prover whose values are not in the table.", "anchors": ["src/tests/with_lookup.rs: test_full_circuit_simple_lookup", "src/tests/with_lookup.rs: get_lookup_expressions_and_queries", "src/tests/with_copy.rs: copy_plonk", "src/data_structures.rs: dummy", "src/indexer.rs: index", "src/turbo_plonk.rs: verify"]}
{"id": "C79", "title": "The single-gate tests with the mock prover", "statement": "The single-gate test program is run with the mock prover, as the tests of the precompiled gates do. For any gate that fits and any columns of n rows, run_prover succeeds exactly if the gate is zero on every row, read by index, and panics otherwise; it never returns an error. run_verifier succeeds for all columns, so that the assertion of the tests on its result cannot fail. Whenever run_prover succeeds with the mock prover, the same program with TurboPlonk in place of the mock prover succeeds and accepts, except for the challenges of C77.", "quantifier": "every field, domain of at least eight rows, list of columns, gate and commitment scheme", "why_tests_cant": "Each test runs one satisfying assignment; that the program distinguishes all satisfying from all other assignments, for every gate, needs a proof.", "anchors": ["src/vo/precompiled/tests.rs: run_prover", "src/vo/precompiled/tests.rs: run_verifier", "src/mock_prover.rs: prove", "src/mock_prover.rs: verify"]}
{"id": "C80", "title": "Without usable rows of the permutation argument only the gates are enforced", "statement": "The permutation argument of a key has no usable rows (u = 0, as in PermutationInfo::dummy), and if there are lookups the blinding selector is zero in the first row and one in the last. Then for all columns that satisfy the gates, whatever is to be looked up or copied, there is a prover whose proof the verifier accepts unless the evaluation challenge is zero or x3 meets an opening point: it is the prover of the crate with zeros for blinding and no usable rows for the lookups. In particular the verifier of the crate's lookup test, with KZG keys, accepts for every column a and every table, provided q * (a * b - c) is zero on every row.", "quantifier": "every field, domain, commitment scheme that is homomorphic, circuit, key made by the indexer, columns and randomness; for the lookup test every column, table, secret of the setup and number of usable rows", "why_tests_cant": "The tests run the honest prover on values in the table; they do not ask what else the verifier accepts.", "anchors": ["src/data_structures.rs: dummy", "src/tests/with_lookup.rs: test_full_circuit_simple_lookup", "src/indexer.rs: index", "src/lookup/subset_equality.rs: open_argument", "src/turbo_plonk.rs: verify"]}
{"id": "C81", "title": "Which bytes stop the verifier", "statement": "A verifier receives bytes, reads a proof with deserialize and calls verify. There is one message of constant length (fourteen lengths, one field element, two commitments and an opening) that makes the verifier of every circuit panic, whatever its key, columns and gates; it depends on nothing secret or specific. More exactly, the bytes that make a verifier panic are those that begin with the encoding of a proof in which some list has a wrong number of entries, unless the evaluation challenge is zero, x3 meets an opening point or the commitment scheme panics.", "quantifier": "every byte string, field, commitment scheme, encoding of field elements, commitments and openings that reads back what it writes, key, circuit and verifier that is ready", "why_tests_cant": "Tests verify proofs made by the prover; no test feeds bytes to the verifier.", "anchors": ["src/turbo_plonk.rs: TPProof", "src/turbo_plonk.rs: verify", "src/multiproof/mod.rs: Proof"]}
{"id": "C82", "title": "How often the crate's own tests of whole circuits fail", "statement": "A client whose columns satisfy its gates, lookups and copies runs prover and verifier; the challenges come from a random oracle. The probability that this does not end in acceptance is at most (copied columns * u + 2 * lookups * usable rows + 1 + n) divided by the number of field elements. For copy_plonk with the inputs of the source, over the scalar field of BLS12-381 and with KZG keys from universal_setup, this is 41/r, for test_full_circuit_simple_lookup 37/r, both below 2^-249, whatever the setup's secret, the blinding rows and the prover's randomness are. The circuit of copy_plonk means what its comment says: columns with x in the first cell satisfy gates and copies for some rest exactly if x^3 + 2x + 12 = 0. Its separators 1, 7, 13 give different identities to all cells.", "quantifier": "every field, domain, test of a whole circuit, homomorphic commitment scheme and source of randomness for the general bound; every secret, generators, pairing, blinding and random source for the two tests of the source", "why_tests_cant": "The tests run with one seed. A failure for one challenge in 2^249 cannot be observed, and that there are no more needs a proof.", "anchors": ["src/tests/with_copy.rs: copy_plonk", "src/tests/with_lookup.rs: test_full_circuit_simple_lookup", "src/turbo_plonk.rs: prove", "src/turbo_plonk.rs: verify"]}
{"id": "C83", "title": "What acceptance means for a test of a whole circuit", "statement": "If the values in the witness columns of a test of a whole circuit violate a gate, a lookup or a copy, then no strategy that commits to these columns makes the verifier program of the test accept, except for at most the fraction soundnessError / |T| of the challenges from a set T. All hypotheses are about the circuit, its columns as lists of values and the commitment scheme; that configure, the indexer and the handles of the verifier program are right is proved. For copy_plonk over the scalar field of BLS12-381: if the first cell is not a root of x^3 + 2x + 12, a proof with a quotient of at most Q parts is accepted for at most the fraction (99 + Q + max 60 (16 (Q - 1) + 31)) / |T|, which is 161 / |T| for the two parts of the honest prover.", "quantifier": "every field, domain, test, false witness, binding homomorphic commitment scheme, prover strategy and set of challenges", "why_tests_cant": "The tests only run honest provers; no test has a witness that violates the circuit, let alone all strategies.", "anchors": ["src/tests/with_copy.rs: copy_plonk", "src/turbo_plonk.rs: verify", "src/indexer.rs: index"]}
{"id": "C84", "title": "Soundness of a test of a whole circuit with KZG commitments", "statement": "If the values in the witness columns of a test of a whole circuit violate a gate, a lookup or a copy, then a prover that makes all its group elements from the published powers of the key (all of them, also those prepare_keys drops) makes the verifier program of the test accept for at most the fraction (soundnessError + n + 2) / |T| of the challenges and keys, where n is the number of rows. The key is made by universal_setup for degree n - 1 and prepare_keys, from a secret and a blinding generator whose discrete logarithm is drawn from T like the challenges. The coefficients of the prover may depend on the challenges, not on the secret or the discrete logarithm. For copy_plonk over the scalar field of BLS12-381 and a quotient of two parts the fraction is 179 / |T|.", "quantifier": "every field, domain, test, false witness, nondegenerate pairing, algebraic prover strategy and set of challenges and secrets", "why_tests_cant": "It counts over all challenges, secrets and provers. The tests run one honest prover with one key.", "anchors": ["src/tests/with_copy.rs: copy_plonk", "src/turbo_plonk.rs: universal_setup", "src/turbo_plonk.rs: prepare_keys", "src/turbo_plonk.rs: verify", "src/commitment.rs: KZG10"]}
{"id": "C85", "title": "Outcome of the tests of the permutation argument", "statement": "The program of copy_simple and test_chunked_permutation (construct the grand products, evaluate the argument on the extended coset, divide by the vanishing polynomial, compare with open_argument at a random point) passes exactly when the product of w + beta * sigma + gamma over all cells is not zero and equals the product of w + beta * delta * omega^row + gamma, and panics otherwise, whatever alpha, the point and the blinds are. If all copies hold it passes for all pairs (beta, gamma) but one gamma per cell and beta. If a copy does not hold and the cells have different names it panics for all but few pairs. The two tests themselves fail for at most 24 and 10 of every t pairs in a row.", "quantifier": "every field, domain, number of columns and rows, scaling factor, columns, sigmas, challenges, points and blinds", "why_tests_cant": "The tests run one seed on one assignment with two or three columns. A passing run neither bounds how often they fail nor shows that they would notice a broken copy.", "anchors": ["src/tests/with_copy.rs: copy_simple", "src/permutation/mod.rs: test_chunked_permutation", "src/permutation/mod.rs: construct_agg_polys", "src/permutation/mod.rs: instantiate_argument_at_omega_i", "src/permutation/mod.rs: open_argument"]}
{"id": "C86", "title": "Outcome of the tests of the lookup argument", "statement": "The program of test_subset_equality_argument, on any four columns, passes exactly when the product of (a' + beta)(s' + gamma) over the usable rows is not zero and equals the product of (a + beta)(s + gamma), and panics otherwise, whatever alpha, the point and the blinds are. For shuffled columns it passes for all but few pairs (beta, gamma); for columns that are not shuffles it passes for few pairs only. The program of simple_lookup, on any input and table of the same length, passes exactly when every input value is in the table, no input value is -beta and no table value is -gamma, and panics otherwise. With the values of the source it fails for six values of beta and eight of gamma.", "quantifier": "every field, domain, number of usable rows, scaling factor from four on, columns, challenges, points and blinds", "why_tests_cant": "Each test runs one seed on one set of columns. Neither shows that wrong columns would be noticed, and neither says for which challenges a correct run would panic.", "anchors": ["src/lookup/subset_equality.rs: test_subset_equality_argument", "src/lookup/mod.rs: simple_lookup", "src/lookup/permute.rs: permute_for_lookup", "src/lookup/subset_equality.rs: construct_agg_poly", "src/lookup/subset_equality.rs: open_argument", "src/lookup/mod.rs: open_argument"]}
{"id": "C87", "title": "Outcome of the test of the multi-point opening", "statement": "The program of test_halo2_book_example, on any polynomials within the supported degree and any rotations that lead to different points, passes if the third challenge is none of the opened points and panics otherwise. If two rotations of a polynomial lead to the same point, it always panics. With an ideal hash function the probability of failure is exactly the number of opened points divided by the size of the field; for the data of the source, over the scalar field of BLS12-381, it is exactly 2 / r.", "quantifier": "every homomorphic commitment scheme, domain, list of polynomials, rotations, point, state of the random source; every hash function", "why_tests_cant": "The test runs four random polynomials at one point. A failure needs a challenge that equals an opened point, which no run will meet, and the verifier then panics instead of returning an error.", "anchors": ["src/multiproof/piop/mod.rs: test_halo2_book_example", "src/multiproof/piop/mod.rs: prove", "src/multiproof/piop/mod.rs: verify", "src/oracles/witness.rs: to_labeled"]}
{"id": "C88", "title": "Outcome of the test of one grand product", "statement": "The program of test_product_argument, on any columns, sigmas and deltas, with an extended domain at least two more than the number of columns times as large, passes exactly when the product over the cells with the sigmas is not zero and equals the product with the names of the cells, and panics otherwise. This is the outcome of the tests of the whole permutation argument on the same data. If all copies hold, at most one pair (beta, gamma) per cell and per element makes it fail; if a copy is broken, at most as many make it pass. For the data of the source this is ten pairs per element.", "quantifier": "every field with FFT parameters, domain, columns, sigmas, deltas, usable rows, state of the random source", "why_tests_cant": "The test runs one random witness at one pair of challenges. It says nothing about a broken copy or a vanishing denominator, and nothing about other numbers of columns.", "anchors": ["src/permutation/grand_product.rs: test_product_argument", "src/permutation/grand_product.rs: construct_agg_poly", "src/permutation/grand_product.rs: instantiate_argument_at_omega_i", "src/permutation/grand_product.rs: open_argument"]}
{"id": "C89", "title": "Outcome of the tests of the precompiled gates", "statement": "The programs of test_plonk_arith, test_delta, test_delta_xor_and and test_rescue_gate, with their own assertions, the mock prover and the verifier, pass for all random values they draw, on every domain of at least four rows (32 for the third, which has no random values). With an arbitrary column in test_delta the program passes exactly when every value is four times the one before plus 0, 1, 2 or 3, and panics otherwise; with an arbitrary last column test_rescue_gate passes if the values are the sums of the fifth powers and panics otherwise; test_delta_xor_and passes with any two-bit values. In row 2 of test_plonk_arith the code leaves the selector of c zero although the comment says one: the test passes whatever c is there, and it would panic with the comment's selector.", "quantifier": "every field with FFT parameters, domain, commitment scheme, random column, digit sequence and public input", "why_tests_cant": "The tests run once with one seed and one number of rows, and only with data that satisfy the gates. They cannot show that a wrong column is caught or that a row is not constrained.", "anchors": ["src/vo/precompiled/plonk_arith.rs: test_plonk_arith", "src/vo/precompiled/logic.rs: test_delta", "src/vo/precompiled/logic.rs: test_delta_xor_and", "src/vo/precompiled/rescue.rs: test_rescue_gate", "src/vo/precompiled/tests.rs: test_init"]}
{"id": "C90", "title": "Outcome of the remaining short tests", "statement": "test_stitches passes exactly when the input is shorter than the table and all input values and the dummy value are in the table, and panics otherwise; with the values of the test it passes over every field. test_rands_homomorphism passes exactly when the setup has a positive degree that bounds the degrees of both polynomials, for all secrets, pairings, polynomials and random values; with an injective pairing its check accepts only the value of the combined polynomial, and it accepts randomness combined with another factor only if the blinding polynomial of the second polynomial is zero at the secret of the setup. test_simple_lookup_configuration passes exactly with at least three witness columns and three tables, and the lookup then queries the first three of each. x_in_coset prints the same lines in its last two loops, and works prints the value of the Lagrange polynomial.", "quantifier": "every field, list of inputs and tables, number of oracles, setup, bilinear pairing, pair of polynomials and sequence of random values", "why_tests_cant": "Each test runs on one input. It cannot show which inputs make it fail, and so what a passing run says; two of the tests assert nothing.", "anchors": ["src/lookup/permute.rs: test_stitches", "src/lookup/permute.rs: permute_for_lookup", "src/piop/prover.rs: test_rands_homomorphism", "src/commitment.rs: add_rands", "src/commitment.rs: scale_rand", "src/vo/precompiled_lookups/simple_3_arith.rs: test_simple_lookup_configuration", "src/permutation/grand_product.rs: x_in_coset", "src/tests/simple.rs: works"]}
{"id": "C91", "title": "The verifiers of the crate's circuit tests accept a proof without content", "statement": "For every circuit test with fitting columns, calls, copies and lookups, and with KZG keys made by universal_setup and prepare_keys from any secret, the test's verifier accepts a proof in which all commitments, the opening and all evaluations except that of the quotient are zero and no evaluation for the opening sets is given; with a random oracle the probability that there is no such accepted proof is at most (n + 1) / |F|, which is 17 / r for copy_plonk and test_full_circuit_simple_lookup. The verifier's program reads only the labels of the witness columns. This includes circuits that no witness satisfies.", "quantifier": "every circuit test with fitting inputs, every setup, every pairing, all witness columns", "why_tests_cant": "The tests give the verifier honest proofs only, so none of them would notice that it also accepts a proof made from public data alone.", "anchors": ["src/tests/with_copy.rs: copy_plonk", "src/tests/with_lookup.rs: test_full_circuit_simple_lookup", "src/multiproof/piop/mod.rs: verify", "src/turbo_plonk.rs: verify"]}
{"id": "C92", "title": "Two changed numbers make the tests' verifiers accept a complete proof of a false gate", "statement": "For every circuit test with fitting columns that copies columns or has lookups, and whose columns satisfy the copies and the lookups, whatever its gates say: with KZG keys made by universal_setup and prepare_keys, the test's verifier accepts the proof the test's own prover returns after the first two claimed evaluations of the quotient are replaced and nothing else is changed. With m copied columns of u rows, l lookups of u' rows and n rows, a random oracle and any random source of the prover, the probability that this fails is at most (m u + 2 l u' + 2 n + 2) / |F|, which is 58 / r for copy_plonk. The proof keeps one evaluation for each opening set. This includes a circuit that no witness satisfies.", "quantifier": "every circuit test with fitting inputs whose copies and lookups hold, every setup, every pairing, every state of the prover's random source", "why_tests_cant": "The tests hand the prover's proof to the verifier unchanged and only for columns that satisfy the gates, so the missing absorption of the evaluations is never exercised.", "anchors": ["src/tests/with_copy.rs: copy_plonk", "src/tests/with_lookup.rs: test_full_circuit_simple_lookup", "src/multiproof/piop/mod.rs: verify", "src/turbo_plonk.rs: verify"]}
{"id": "C93", "title": "The proofs of the circuit tests have one size, whatever is in the columns", "statement": "Every proof the prover of a test of a whole circuit returns has the numbers of commitments and evaluations that the shape of the circuit determines: the numbers of columns, sigmas and lookups, the degree of the gates and the rotations. For `test_full_circuit_simple_lookup` these are eleven commitments and eighteen field elements, which is what the test prints with `cumulative_info`; for `copy_plonk` nine commitments and twenty-five field elements. A serialised proof has 112 + 11 kc + 18 kf and 112 + 9 kc + 25 kf bytes besides the opening proof, and is read back.", "quantifier": "all homomorphic commitment schemes, keys, generators and states of them, all values of the columns (also those that do not satisfy the circuit), all domains of at least eight rows, all numbers of usable rows (two or more for copy_plonk), all codecs that read back what they write", "why_tests_cant": "The lookup test prints the numbers for one run without checking them; that no witness, randomness or challenge changes them is a statement about all runs.", "anchors": ["src/turbo_plonk.rs: cumulative_info", "src/turbo_plonk.rs: info", "src/tests/with_lookup.rs: test_full_circuit_simple_lookup", "src/tests/with_copy.rs: copy_plonk"]}
{"id": "C94", "title": "The verifiers of the tests of single gates accept a proof without content", "statement": "For every gate and all columns that fit, and with KZG keys made by universal_setup and prepare_keys from any secret, the verifier of the test of a single gate (test_simple_mul, and run_verifier with TurboPlonk in place of the mock prover) accepts a proof in which all commitments, the opening and all evaluations except that of the quotient are zero and no evaluation for the opening sets is given; with a random oracle the probability that there is no such accepted proof is at most (n + 1) / |F|. This includes a gate that is one in every row whatever the witness columns are.", "quantifier": "every gate that fits its columns, every number of rows of a domain, every setup, every pairing, all columns", "why_tests_cant": "The tests give the verifier honest proofs or the mock prover's empty ones; none of them gives TurboPlonk's verifier a proof that was not made by its prover.", "anchors": ["src/vo/precompiled/mul.rs: test_simple_mul", "src/vo/precompiled/tests.rs: run_verifier", "src/multiproof/piop/mod.rs: verify", "src/turbo_plonk.rs: verify"]}
{"id": "C95", "title": "Soundness of the tests of single gates", "statement": "If the gate of a test of a single gate is not zero on some row of the test's columns, then a prover that commits to the witness columns, keeps to the degree bounds and gives as many values q as there are opening sets makes the test's verifier accept for at most a fraction of the challenges that the shape of the test determines. For `test_simple_mul` with n rows and a quotient of at most Q parts the fraction is (n + Q + 14 + max(4 (n - 1), n (Q - 1) + 2 n - 1)) / |T|, which is 91 / |T| for the sixteen rows of the test and one part.", "quantifier": "all binding homomorphic commitment schemes, every gate that fits its columns, all domains and columns, all strategies of the prover that may depend on the challenges sent so far, all finite sets T of challenges", "why_tests_cant": "The tests run the verifier on honest proofs only; a bound on all provers and all challenges is not the outcome of any run.", "anchors": ["src/vo/precompiled/mul.rs: test_simple_mul", "src/vo/precompiled/tests.rs: run_verifier", "src/multiproof/piop/mod.rs: verify", "src/turbo_plonk.rs: verify"]}
{"id": "C96", "title": "Soundness of the tests of single gates with KZG commitments", "statement": "If the gate of a test of a single gate is not zero on some row of the test's columns, then a prover that combines the published powers of the setup, commits to the witness columns and gives as many values q as there are opening sets makes the test's verifier accept only for few challenges and keys; keys are made by universal_setup and prepare_keys for as many coefficients as there are rows. For `test_simple_mul` with n rows and a quotient of at most Q parts the fraction is (2 n + Q + 16 + max(4 (n - 1), n (Q - 1) + 2 n - 1)) / |T|, which is 109 / |T| for the sixteen rows of the test and one part.", "quantifier": "all nondegenerate pairings and generators, every gate that fits its columns, all domains and columns, all algebraic strategies whose coefficients do not depend on the secret, all finite sets T of challenges and secrets", "why_tests_cant": "The tests run the verifier on honest proofs with one key; a bound on all provers, challenges and secrets is not the outcome of any run.", "anchors": ["src/vo/precompiled/mul.rs: test_simple_mul", "src/vo/precompiled/tests.rs: run_verifier", "src/multiproof/piop/mod.rs: verify", "src/turbo_plonk.rs: verify"]}
{"id": "C97", "title": "The proofs of the tests of single gates have one size, whatever is in the columns", "statement": "Every proof the prover of a test of a single gate returns has the numbers of commitments and evaluations that the numbers of columns, the degree of the gate and its rotations determine, also when the gate is not zero on the columns. For `test_simple_mul` with eight rows or more these are four commitments and six field elements, one of which is for the empty set of rotations at which the selector is opened. A serialised proof has 112 + 4 kc + 6 kf bytes besides the opening proof, and is read back.", "quantifier": "all homomorphic commitment schemes, keys, generators and states of them, every gate that fits its columns, all values of the columns, all domains, all codecs that read back what they write", "why_tests_cant": "The test makes one proof and does not look at its size; that no witness, randomness or challenge changes it is a statement about all runs.", "anchors": ["src/vo/precompiled/mul.rs: test_simple_mul", "src/vo/precompiled/tests.rs: run_prover", "src/turbo_plonk.rs: cumulative_info", "src/turbo_plonk.rs: info"]}
