{"claims": [
{"property": "C01", "status": "proved", "theorems": ["ZK.C01_coset_query", "ZK.C01_full_turn_panics"], "note": ""},
{"property": "C02", "status": "proved", "theorems": ["ZK.C02_row_query"], "note": ""},
{"property": "C03", "status": "proved", "theorems": ["ZK.C03_rotated_points"], "note": ""},
{"property": "C04", "status": "proved", "theorems": ["ZK.C04_expression_compositional"], "note": ""},
{"property": "C05", "status": "proved", "theorems": ["ZK.C05_degree_bound"], "note": ""},
{"property": "C06", "status": "proved", "theorems": ["ZK.C06_configured_expression"], "note": ""},
{"property": "C07", "status": "proved", "theorems": ["ZK.C07_configure_registers"], "note": ""},
{"property": "C08", "status": "proved", "theorems": ["ZK.C08_lookup_configure"], "note": ""},
{"property": "C09", "status": "proved", "theorems": ["ZK.Gates.C09_plonk_gate"], "note": ""},
{"property": "C10", "status": "partial", "theorems": ["ZK.Gates.C10_four_wire_gate_partial", "ZK.Gates.C10_four_wires_false"], "note": "The gate uses the same wire twice; the intended equation is refuted."},
{"property": "C11", "status": "proved", "theorems": ["ZK.Gates.C11_delta_gate"], "note": ""},
{"property": "C12", "status": "partial", "theorems": ["ZK.Gates.C12_xor_and_gate_partial", "ZK.Gates.C12_product_not_forced"], "note": "The gate does not force the product cell."},
{"property": "C13", "status": "proved", "theorems": ["ZK.Gates.C13_rescue_and_mul"], "note": ""},
{"property": "C14", "status": "proved", "theorems": ["ZK.Gates.C14_queries_listed"], "note": ""},
{"property": "C15", "status": "proved", "theorems": ["ZK.C15_round_trips", "ZK.C15_evals_form", "ZK.C15_evals_form_of_evals"], "note": ""},
{"property": "C16", "status": "partial", "theorems": ["ZK.C16_vanishing_inverses_partial", "ZK.C16_row_set", "ZK.C16_truncated"], "note": "False for a custom vanishing polynomial with more coefficients than the extended domain has points; proved otherwise."},
{"property": "C17", "status": "proved", "theorems": ["ZK.C17_quotient_chunks"], "note": "The quotient round of the prover for honest oracles; the chunks recombine to the exact quotient polynomial."},
{"property": "C18", "status": "partial", "theorems": ["ZK.C18_extended_domain_partial", "ZK.C18_off_by_one"], "note": "False when the quotient degree equals the size of the extended domain; proved otherwise."},
{"property": "C19", "status": "proved", "theorems": ["ZK.C19_indexer_outcome"], "note": ""},
{"property": "C20", "status": "proved", "theorems": ["ZK.C20_counts", "ZK.C20_chunk_size"], "note": ""},
{"property": "C21", "status": "proved", "theorems": ["ZK.C21_permutation_complete"], "note": "Constraints are checked through the verifier function open_argument on oracles answering with the prover polynomials, at every row and for all weights."},
{"property": "C22", "status": "proved", "theorems": ["ZK.C22_permutation_sound"], "note": "At most 2*N*|S| of the |S|^2 challenge pairs."},
{"property": "C23", "status": "proved", "theorems": ["ZK.C23_construct_iff_full_product", "ZK.C23_values"], "note": ""},
{"property": "C24", "status": "proved", "theorems": ["ZK.C24_permute_for_lookup"], "note": ""},
{"property": "C25", "status": "proved", "theorems": ["ZK.C25_membership"], "note": ""},
{"property": "C26", "status": "partial", "theorems": ["ZK.C26_lookup_sound_partial", "ZK.C26_selector_at_row_zero_unsound"], "note": "Holds when the last-row selector sits at the lookup's last usable row; false (proved) when the permutation argument has no usable rows. Bound 4*u*|S| of |S|^2 pairs."},
{"property": "C27", "status": "proved", "theorems": ["ZK.C27_collisions", "ZK.C27_membership"], "note": ""},
{"property": "C28", "status": "partial", "theorems": ["ZK.C28_verifier_values_partial", "ZK.LookupExample.C28_rotated_queries_false"], "note": "Holds when fixed and instance queries are not rotated; false (proved) for rotated ones."},
{"property": "C29", "status": "partial", "theorems": ["ZK.C29_lookup_round_partial", "ZK.C29_nonlinear_panics", "ZK.C29_succeeds_iff"], "note": "Holds for expressions of degree at most one; for others the prover panics (proved). C29_succeeds_iff says exactly when the round succeeds: the compressed input has degree below the number of rows and its values on usable rows are in the table; otherwise it panics."},
{"property": "C30", "status": "proved", "theorems": ["ZK.C30_alpha_separates"], "note": "Holds although the last permutation constraint and the first lookup constraint share a power of alpha."},
{"property": "C31", "status": "proved", "theorems": ["ZK.C31_identity_check_passes", "ZK.C31_identity_check_iff"], "note": "For every evaluation challenge at which the verifier oracles answer with the values of the committed polynomials."},
{"property": "C32", "status": "proved", "theorems": ["ZK.C32_failing_row_caught"], "note": "The bounds are explicit: fewer than the number of weights bad alphas, and the degree of the identity for the evaluation point."},
{"property": "C33", "status": "partial", "theorems": ["ZK.C33_lengths", "ZK.C33_commitments_partial", "ZK.C33_missing_commitments_accepted"], "note": "All evaluation-list lengths are proved. Rejection of too few witness commitments holds only for proofs with one q evaluation per opening set; without it the claim is false and the counterexample is a theorem."},
{"property": "C34", "status": "proved", "theorems": ["ZK.C34_evaluations", "ZK.C34_lookup_evaluations"], "note": "For every accepted registration the value the verifier registers for a query is the prover evaluation of that query; Toy example beside it."},
{"property": "C35", "status": "proved", "theorems": ["ZK.C35_completeness", "ZK.C35_prover_succeeds_iff", "ZK.C35_x3_never_an_opening_point"], "note": "For every correct homomorphic scheme; the two exceptions are shown to be exact."},
{"property": "C36", "status": "partial", "theorems": ["ZK.C36_prover_length_partial", "ZK.C36_extra_evaluations_ignored", "ZK.C36_empty_proof_accepted", "ZK.C36_universal_forgery", "ZK.C36_false", "ZK.C36_accepted_for_every_circuit", "ZK.C36_accepted_for_every_circuit_kzg", "ZK.C36_accepted_with_random_oracle", "ZK.Toy.acceptedFalse", "ZK.Toy.acceptedFalseRandomOracle"], "note": "False for the code: a proof with no q evaluations is accepted, which gives a universal forgery. For every circuit a proof made of zero commitments and zero evaluations with one chosen quotient value is accepted, except with probability (deg Z + 1)/|F| over a random oracle. Proved: the prover supplies exactly one per set."},
{"property": "C37", "status": "partial", "theorems": ["ZK.C37_bound_partial", "ZK.C37_malleable", "ZK.Toy.C37_false"], "note": "False as stated: evaluations are not absorbed before x1, so they can be changed as long as the x1-combinations and the identity agree; C37_malleable shows this in general and C37_false on an accepted proof. C37_bound_partial: claims fixed before the challenges are bound up to the stated root counts."},
{"property": "C38", "status": "partial", "theorems": ["ZK.C38_soundness_partial", "ZK.Toy.C38_false"], "note": "Proved with the root counts when at least one q evaluation per opening set is given. The code does not check that, and without it the statement is false (C38_false)."},
{"property": "C39", "status": "proved", "theorems": ["ZK.C39_partition", "ZK.C39_agree"], "note": ""},
{"property": "C40", "status": "proved", "theorems": ["ZK.C40_same_challenges"], "note": "For any scheme and transcript; hypothesis: committing to one polynomial returns one commitment. Every round, evaluation and opening of a successful prove run is shown to use the challenges that verify derives from the proof."},
{"property": "C41", "status": "partial", "theorems": ["ZK.C41_challenges_ignore_evaluations", "ZK.C41_public_inputs_chosen_afterwards", "ZK.C41_false", "ZK.C41_commitments_bound_partial"], "note": "The claim is false: evaluations, public inputs and keys are never absorbed. Proved: the negation with a concrete accepted forged statement, and that the commitments are bound."},
{"property": "C42", "status": "proved", "theorems": ["ZK.SimpleHash.C42_binding", "ZK.SimpleHash.C42_dependence", "ZK.SimpleHash.C42_long_initial_message"], "note": "Any lengths of histories. Initial message shorter than a seed (16 < 32 in the crate); challenges also depend on the number of draws since the last absorb."},
{"property": "C43", "status": "proved", "theorems": ["ZK.C43_mock_prover", "ZK.C43_first_failure", "ZK.C43_mock_panics", "ZK.C43_mock_verify"], "note": "C43_first_failure says which gate and row the panic names. The texts of the other panics are not modelled."},
{"property": "C44", "status": "proved", "theorems": ["ZK.C44_add", "ZK.C44_scale", "ZK.C44_neg", "ZK.C44_msm", "ZK.C44_zero", "ZK.C44_homomorphic"], "note": "Stated against commitments computed by a model of KZG10 over an arbitrary module; C44_homomorphic also discharges the laws assumed of the scheme in C35 and C46 for KZG."},
{"property": "C45", "status": "proved", "theorems": ["ZK.C45_aligned"], "note": ""},
{"property": "C46", "status": "proved", "theorems": ["ZK.C46_completeness", "ZK.verify_of_prove", "ZK.OffByOne.C46_off_by_one", "ZK.Toy.complete"], "note": "A proof returned by prove is accepted by verify for every key made by the indexer, every supported circuit (Supported), every witness satisfying the gates, every homomorphic commitment scheme, transcript and randomness. The only bad event is the challenge x3 of the multi-opening meeting the evaluation challenge times a power of the generator. Excluded from the fragment and shown necessary by C46_off_by_one: a quotient degree equal to the extended domain size. Also excluded: copied columns with a vanishing polynomial of very low degree. Copies and lookups are not hypotheses: prove returns no proof when they are violated. That prove returns a proof is not part of the claim."},
{"property": "C47", "status": "partial", "theorems": ["ZK.C47_reuse_partial", "ZK.C47_accepted_partial", "ZK.C47_history", "ZK.C47_false"], "note": "The outcome with used oracles is the outcome with fresh ones for every history, unless the fresh verification reports a missing evaluation or commitment (and the proof has a q evaluation per opening set). In the excepted case the claim is false: C47_false exhibits a proof without witness commitments that is rejected with fresh oracles and accepted after an earlier verification."},
{"property": "C48", "status": "partial", "theorems": ["ZK.C48_opened_partial", "ZK.C48_blind_unopened", "ZK.C48_perm_unopened", "ZK.C48_false"], "note": "Proved for preprocessed inputs whose blinding selector and permutation polynomials are registered at the current row (and distinct labels). False for new_wo_blind and for permutation oracles registered at no rotation: their claimed evaluations do not influence the opening check (C48_blind_unopened, C48_perm_unopened), and C48_false exhibits an accepted proof for a witness breaking a copy constraint and a lookup."},
{"property": "C49", "status": "proved", "theorems": ["ZK.C49_permutation", "ZK.C49_lookup", "ZK.C49_no_usable_rows", "ZK.BlindingExample.C49_first_row_looks_back"], "note": "Columns may change from row u on, grand products after row u. With no usable row the lookup argument constrains the first row (C49_no_usable_rows), so there the first row is kept."},
{"property": "C50", "status": "proved", "theorems": ["ZK.C50_last_wins", "ZK.C50_prover", "ZK.C50_verifier", "ZK.C50_indexer"], "note": ""},
{"property": "C51", "status": "partial", "theorems": ["ZK.C51_soundness_partial", "ZK.verify_eq_verifyAt", "ZK.Toy.sound_example", "ZK.C51_custom_vanishing"], "note": "Holds for an algebraic prover in the interactive order: each message is fixed before the next challenge. The hypotheses ask for perfect binding and for a key polynomial that vanishes on the usable rows whenever something is copied or looked up; without the latter the claim fails (C51_custom_vanishing). Missing, as in C38: the proof has to carry at least as many values q as there are opening sets, which the code does not check. The transcript of the code does not absorb the evaluations (C37), so the statement does not carry over to the Fiat-Shamir version as implemented."},
{"property": "C52", "status": "proved", "theorems": ["ZK.C52_honest_prover_succeeds", "ZK.C52_few_bad_draws", "ZK.C52_kzg_supports"], "note": "Total correctness of prove for satisfying witnesses, together with acceptance (through C46). The exceptional challenges are explicit; C52_few_bad_draws counts the pairs (beta, gamma). C52_kzg_supports shows that SonicKZG10 with a long enough key meets the hypothesis on the scheme. Lookup expressions must be affine, as in C29 and C46. Instances: Toy.succeeds, Toy.complete."},
{"property": "C53", "status": "proved", "theorems": ["ZK.C53_blinded_evaluations_uniform", "ZK.C53_opened_points", "ZK.C53_too_few_rows", "ZK.Toy.C53_unchecked"], "note": "Uniform means that every result is produced by the same number of draws. C53_opened_points shows that four blinding rows suffice for the grand products; the code does not check that there are enough (C53_too_few_rows, Toy.C53_unchecked). Witness columns are made by the caller, so their blinding is up to the caller. Instance: Toy.blinded."},
{"property": "C54", "status": "proved", "theorems": ["ZK.C54_commitments_uniform", "ZK.C54_opening_uniform", "ZK.C54_witness_determined"], "note": "About the model of SonicKZG10 with hiding bound 1. Instance: kzg_blinds."},
{"property": "C55", "status": "partial", "theorems": ["ZK.C55_separators_check", "ZK.C55_usable_rows", "ZK.C55_same_identity", "ZK.Toy.C55_equal_separators"], "note": "The characterisation and its consequence are proved in full. The last sentence is false: the indexer accepts equal separators, and the honest prover then has a witness accepted that violates a copy constraint (Toy.C55_equal_separators)."},
{"property": "C56", "status": "partial", "theorems": ["ZK.C56_soundness_kzg_partial", "ZK.C56_few_secrets"], "note": "As in C51 and C38, at least as many q evaluations have to be sent as there are opening sets, which the code does not check; without this the property is false."},
{"property": "C57", "status": "proved", "theorems": ["ZK.C57_soundness_error", "ZK.C57_honest_verifier", "ZK.verify_answering", "ZK.Toy.error_example"], "note": "The challenges are drawn independently of the messages (interactive version). C57_honest_verifier states it for verify itself, with the transcript replaced by a verifier that draws the challenges. The code does not check the number of q evaluations (C38) nor the number of quotient parts; both appear as conditions on the prover. For the toy circuit the bound is 70/97."},
{"property": "C58", "status": "proved", "theorems": ["ZK.C58_proof_size", "ZK.C58_quotient_parts", "ZK.Toy.size", "ZK.Toy.size_example"], "note": "The text around the numbers is not modelled. The toy circuit has 12 commitments and 24 field elements for all witnesses."},
{"property": "C59", "status": "proved", "theorems": ["ZK.C59_keys", "ZK.C59_end_to_end", "ZK.C59_setup_too_small", "ZK.Toy.end_to_end"], "note": "KZG10::setup and SonicKZG10::trim are modelled from the published description of ark_poly_commit 0.3. The exceptional challenges are counted in C52."},
{"property": "C60", "status": "partial", "theorems": ["ZK.C60_evaluations_uniform_partial", "ZK.C60_rounds_succeed", "ZK.Toy.jointly_uniform", "ZK.C60_quotient_values", "ZK.Leak.C60_false", "ZK.Leak.leaks"], "note": "False as stated: the parts of the quotient are evaluated one by one without masking, and Leak.C60_false is a circuit where the evaluations of every proof determine the whole witness column. C60_quotient_values says what these evaluations are. Proved for the evaluations of the witness columns, the permuted columns and the grand products."},
{"property": "C61", "status": "partial", "theorems": ["ZK.C61_adjusted", "ZK.C61_gates_not_enforced", "ZK.C61_any_statement", "ZK.C61_false", "ZK.Toy.zeroAccepted_eq", "ZK.C71_every_circuit"], "note": "False as stated: the evaluations are not absorbed, so two of them can be chosen after the challenge x1 of the opening. C61_gates_not_enforced does this for every indexer key with two parts of the quotient, every homomorphic scheme and any witness the prover accepts; C61_any_statement shows that columns of zeros always work when there are no lookups; C71_every_circuit removes this restriction and the one on the number of parts; C61_false is a circuit without satisfying witness. What remains true is the statement for evaluations fixed before x1: C37, C38, C51."},
{"property": "C62", "status": "proved", "theorems": ["ZK.C62_round_trip", "ZK.C62_canonical", "ZK.C62_truncated", "ZK.C62_bytes", "ZK.C62_circuit"], "note": "The derived implementations are modelled after ark-serialize 0.3. How field elements, commitments and opening proofs are written is a parameter."},
{"property": "C63", "status": "proved", "theorems": ["ZK.C63_group_elements_uniform", "ZK.C63_opening_determined", "ZK.C63_same_distribution"], "note": "Honest-verifier setting: the challenges are fixed in advance. Acceptance of honest proofs (C46) is a hypothesis of the third theorem. The distribution of the values themselves is the subject of C60."},
{"property": "C64", "status": "proved", "theorems": ["ZK.C64_completeness_error"], "note": "Honest-verifier setting: the challenges do not depend on the messages. Hypotheses on circuit and key are those of C52."},
{"property": "C65", "status": "partial", "theorems": ["ZK.C65_malformed_proof_panics", "ZK.C65_no_panic_partial", "ZK.Toy.C65_false", "ZK.Ready.of_setUp"], "note": "False as written: a proof with a list of unexpected length always makes the verifier panic (C65_malformed_proof_panics), the toy proof without its last witness evaluation is an instance (C65_false). The partial theorem shows that these are the only ones: a proof whose lists have the expected lengths never makes it panic, provided xi is not zero, x3 is not a rotation of xi and the commitment scheme does not panic. Ready.of_setUp derives the hypothesis from those of completeness."},
{"property": "C66", "status": "partial", "theorems": ["ZK.C66_values_differ", "ZK.C66_one_more_row_partial", "ZK.Root.reveals", "ZK.Root.differ", "ZK.Root.covered"], "note": "False as written: the opening argument also sends the value of every opening set at x3. A column that is alone in its opening set and has as many random rows as opened points is told apart from any other column that differs from it in one further row (C66_values_differ, for every scheme and all random rows; Root.differ has two proofs). The partial theorem shows that one more random row in one column of every opening set is enough: the values of all witness columns and their combinations at x3 are jointly uniform. Missing: the values of the parts of the quotient, for which the claim fails (C60)."},
{"property": "C67", "status": "proved", "theorems": ["ZK.C67_completeness_error_random_oracle", "ZK.randomOracle_le", "ZK.randomOracle_univ", "ZK.Toy.randomOracleError"], "note": "The generator of src/rng.rs is replaced by a random function of the history of the transcript: the initial message, the absorbed messages and the number of draws since the last one. C42 shows that the real generator depends on nothing else. For the toy circuit the bound is 13/97."},
{"property": "C68", "status": "proved", "theorems": ["ZK.C68_random_oracle_soundness", "ZK.forger_game", "ZK.true_claims_caught", "ZK.Toy.fiatShamir"], "note": "The hypothesis that the evaluations in the proof are true is what the multi-point opening is for; C36 and C61 show that the code does not enforce it. So the transcript of the first five challenges is sound, and the missing checks of the opening are the only gap. For the toy circuit and one question the bound is 75/97."},
{"property": "C69", "status": "proved", "theorems": ["ZK.C69_any_witness", "ZK.quotient_on_coset", "ZK.Toy.wrong_gates", "ZK.Toy.anyWitness"], "note": "A lower bound to C51: for columns that violate a gate at least as many evaluation challenges are exceptional as the extended domain has points. The toy example has one witness that violates a gate and whose proof is accepted, and one whose proof is rejected."},
{"property": "C70", "status": "proved", "theorems": ["ZK.C70_honest_outcome", "ZK.C70_interactive", "ZK.Toy.interactive", "ZK.Toy.outcomes"], "note": "Sharpens C52 and C46 to an equivalence: the exceptions named there are the only ones, each is described exactly, and its outcome (panic or error) is stated."},
{"property": "C71", "status": "partial", "theorems": ["ZK.C71_every_circuit", "ZK.C71_false", "ZK.Toy.everyNumber"], "note": "False as written: the verifier takes the number of parts from the proof. C71_every_circuit shows more than that: for every circuit, every homomorphic scheme and every number of parts from two on there is an accepted proof, except for few challenges. C71_false has proofs with three and with five parts where the key prescribes four. What remains true is that the identity is checked for the parts that are sent (C57)."},
{"property": "C72", "status": "proved", "theorems": ["ZK.C72_mock_gates", "ZK.C72_mock_then_accepted", "ZK.Toy.mock_then_accepted", "ZK.Toy.mock_differs"], "note": "C72_mock_gates is the equivalence, C72_mock_then_accepted the consequence for the protocol; the toy circuit meets the hypotheses. Toy.mock_differs shows that copies have to be assumed and that the converse fails for a vanishing polynomial other than X^n - 1."},
{"property": "C73", "status": "proved", "theorems": ["ZK.C73_every_run", "ZK.C73_interactive", "ZK.C73_wrong_lookups", "ZK.C73_wrong_copies", "ZK.C73_wrong_witness_panics", "ZK.C73_zero_beta", "ZK.Toy.wrong_witness", "ZK.Toy.wrong_outcomes"], "note": "C73_every_run is the exact outcome for a fixed transcript, C73_interactive for given challenges; C73_wrong_lookups and C73_wrong_copies bound the exceptional challenges, C73_wrong_witness_panics draws the consequence without assuming the gates, C73_zero_beta is the case beta = 0. Toy.wrong_witness meets the hypotheses, Toy.wrong_outcomes runs a panicking and an accepted case."},
{"property": "C74", "status": "proved", "theorems": ["ZK.C74_configure_succeeds", "ZK.C74_same_gates", "ZK.C74_meaning", "ZK.C74_set_up", "ZK.C74_supported", "ZK.C74_end_to_end", "ZK.Toy.configured_and_proved"], "note": "configureAll (Spec/Configure.lean) is the sequence of calls as in src/tests/with_lookup.rs. C74_end_to_end uses C52 for the configured circuit. Toy.configured_and_proved meets the hypotheses with two gates, a lookup and a copy."},
{"property": "C75", "status": "proved", "theorems": ["ZK.C75_enforced", "ZK.C75_degrees", "ZK.C75_soundness", "ZK.Toy.configured_error"], "note": "The argument is that of C57, with an honest verifier that draws its challenges, for the circuit that configure makes. Toy.configured_error meets the hypotheses; the bound there is 70/97."},
{"property": "C76", "status": "proved", "theorems": ["ZK.C76_same_key", "ZK.C76_both_sides", "ZK.C76_key", "ZK.C76_client", "ZK.C76_gates_only", "ZK.Toy8.client"], "note": "GateDegrees and InRange (Spec/Client.lean) replace the hypotheses of C74 on the key. Toy8.client meets the hypotheses with eight rows, a gate, a lookup and a copy."},
{"property": "C77", "status": "proved", "theorems": ["ZK.C77_gate", "ZK.C77_precompiled", "ZK.C77_kzg", "ZK.C77_mul", "ZK.Toy8.mul_runs"], "note": "runProver and runVerifier (Model/GateTest.lean) are the test program. Toy8.mul_runs runs it on eight rows, and with a wrong product."},
{"property": "C78", "status": "proved", "theorems": ["ZK.C78_circuit", "ZK.C78_kzg", "ZK.C78_lookup", "ZK.C78_copy", "ZK.C78_verifier_ignores_rows", "ZK.Toy8.look_runs", "ZK.Toy8.copy_runs", "ZK.Toy8.C78_lookup_test_unsound"], "note": "runCircuitProver and runCircuitVerifier (Model/CircuitTest.lean) are the test programs. Toy8.look_runs and Toy8.copy_runs run them on eight rows; C78_lookup_test_unsound is a run in which no looked-up value is in the table."},
{"property": "C79", "status": "proved", "theorems": ["ZK.C79_mock_prover", "ZK.C79_mock_verifier", "ZK.C79_mock_then_accepted", "ZK.Toy8.mock_mul_runs"], "note": "runMockProver and runMockVerifier (Model/GateTest.lean) are the test program with MockProver. Toy8.mock_mul_runs runs it on eight rows, and with a wrong product."},
{"property": "C80", "status": "proved", "theorems": ["ZK.C80_only_gates", "ZK.C80_circuit", "ZK.C80_lookup_test"], "note": "Scheme.unblinded, ProverKey.withoutRows and TPProof.ofUnblinded are in Spec/NoBlinding.lean. Properties/NoRowsExamples.lean meets the hypotheses with eight rows and values outside the table."},
{"property": "C81", "status": "proved", "theorems": ["ZK.C81_one_message_stops_all", "ZK.C81_stopped_iff", "ZK.Toy.square_ready"], "note": "receive and the message are in Spec/Bytes.lean. Properties/BytesExamples.lean meets the hypotheses of both theorems."},
{"property": "C82", "status": "proved", "theorems": ["ZK.C82_client", "ZK.C82_circuit", "ZK.C82_kzg", "ZK.C82_copy_plonk", "ZK.C82_copy_plonk_source", "ZK.C82_simple_lookup", "ZK.C82_copy_plonk_meaning", "ZK.C82_separators", "ZK.C82_negligible"], "note": "lookupCount, copiedCount and Succeeds are in Spec/ClientError.lean, the inputs in Model/TestInputs.lean. Properties/RealTestExamples.lean meets the hypotheses for all groups."},
{"property": "C83", "status": "proved", "theorems": ["ZK.C83_circuit", "ZK.C83_copy_plonk"], "note": "gateCount, scale, products, degreeBound and EncodesCopies are in Spec/TestSound.lean. Lookups are covered if info.u is the number of usable rows, as C80 shows to be necessary. Properties/RealSoundExamples.lean meets the hypotheses."},
{"property": "C84", "status": "proved", "theorems": ["ZK.C84_circuit", "ZK.C84_copy_plonk"], "note": "algCom and KzgSrs.key are in Spec/KzgError.lean, algScheme, elements and Within in Spec/Algebraic.lean. Algebraic group model: the prover gives a representation of each group element by the published powers, and its choice does not depend on the secret. Properties/KzgErrorExamples.lean meets the hypotheses with a concrete pairing and a prover."},
{"property": "C85", "status": "proved", "theorems": ["ZK.C85_permutation_test", "ZK.C85_copies_pass", "ZK.C85_broken_copy_fails", "ZK.C85_chunked_permutation", "ZK.C85_copy_simple"], "note": "PermutationTest.Wellformed, idProduct, sigmaProduct, Encodes, Copies and Named are in Spec/ArgumentTest.lean. Properties/ArgumentTestExamples.lean runs test_chunked_permutation over the field of 97 elements, with correct values and with a broken copy."},
{"property": "C86", "status": "proved", "theorems": ["ZK.C86_subset_test", "ZK.C86_shuffles_pass", "ZK.C86_others_fail", "ZK.C86_lookup_test", "ZK.C86_simple_lookup"], "note": "shiftedProduct and SubsetTest.Wellformed are in Spec/LookupTest.lean. Properties/LookupTestExamples.lean runs both programs over the field of 97 elements, with correct and with wrong columns, and instantiates C86_simple_lookup for the field of the source."},
{"property": "C87", "status": "proved", "theorems": ["ZK.C87_outcome", "ZK.C87_repeated", "ZK.C87_probability", "ZK.C87_halo2_book"], "note": "OpeningTest.opened, Wellformed and Separated are in Spec/OpeningTest.lean. Properties/OpeningTestExamples.lean shows a hash function for which the test of the source passes, one for which it panics, and the panic at zero."},
{"property": "C88", "status": "proved", "theorems": ["ZK.C88_product_test", "ZK.C88_same_as_C85", "ZK.C88_copies_pass", "ZK.C88_broken_copy_fails", "ZK.C88_product_argument"], "note": "Same specification as C85 (Spec/ArgumentTest.lean). Properties/ProductTestExamples.lean shows passing and panicking runs, and that the test panics with the smaller coset of test_chunked_permutation."},
{"property": "C89", "status": "proved", "theorems": ["ZK.C89_plonk_arith_rows", "ZK.C89_plonk_arith", "ZK.C89_plonk_arith_comment", "ZK.C89_delta_column", "ZK.C89_delta", "ZK.C89_rescue_column", "ZK.C89_rescue", "ZK.C89_xor_and_values", "ZK.C89_xor_and", "ZK.C89_tests", "ZK.C89_kzg", "ZK.Toy8.gate_tests_run"], "note": "Model/GateInputs.lean has the four programs; random values are arguments. Toy8.gate_tests_run shows passing and panicking runs."},
{"property": "C90", "status": "proved", "theorems": ["ZK.C90_stitches", "ZK.C90_stitches_test", "ZK.C90_x_in_coset", "ZK.C90_works", "ZK.C90_works_test", "ZK.C90_configuration_panics", "ZK.C90_configuration", "ZK.C90_configuration_test", "ZK.C90_rands_detects", "ZK.C90_rands_exact", "ZK.C90_rands"], "note": "Model/SmallTests.lean has the five programs. With these all tests of the crate are modelled."},
{"property": "C91", "status": "proved", "theorems": ["ZK.C91_witness_not_read", "ZK.C91_circuit", "ZK.C91_kzg", "ZK.C91_copy_plonk", "ZK.C91_simple_lookup", "ZK.C91_unsatisfiable"], "note": "Spec/BlankProof.lean says what a proof without content is. The verifier program is that of C78, the forgery that of C36. The examples apply the theorems to columns of a wrong root and to a circuit without a solution."},
{"property": "C92", "status": "proved", "theorems": ["ZK.C92_adjusted_random_oracle", "ZK.C92_circuit", "ZK.C92_kzg", "ZK.C92_copy_plonk", "ZK.C92_unsatisfiable", "ZK.C92_simple_lookup"], "note": "Spec/Adjusted.lean says which columns are meant and what is changed in the proof. The programs are those of C78, the change is that of C61. The examples apply the theorems to columns of a wrong root, to a circuit without a solution and to a false gate with a lookup."},
{"property": "C93", "status": "proved", "theorems": ["ZK.C93_circuit", "ZK.C93_lookup", "ZK.C93_copy"], "note": "`infoCounts`, `numCommitments` and `numFieldElements` are the numbers of `info` and `cumulative_info` (Model/Info.lean), the bytes are those of Model/Serialize.lean. The hypotheses say that the prover returned a proof, not that the columns satisfy the circuit. The examples give a proof for a true and one for a false gate."},
{"property": "C94", "status": "proved", "theorems": ["ZK.C94_gate", "ZK.C94_kzg", "ZK.C94_mul", "ZK.C94_false_gate"], "note": "Spec/BlankProof.lean says what a proof without content is. The verifier program is that of C77, the forgery that of C36."},
{"property": "C95", "status": "proved", "theorems": ["ZK.C95_gate", "ZK.C95_mul"], "note": "Interactive soundness with a binding scheme, as in C83. That the prover gives as many values q as there are opening sets is part of Strategy.Legal; C94 shows that the verifier accepts false gates without it."},
{"property": "C96", "status": "proved", "theorems": ["ZK.C96_gate", "ZK.C96_mul"], "note": "Algebraic group model as in C84. Properties/GateKzgExamples.lean gives a pairing, false columns and a prover that meet the hypotheses. As in C95 the number of values q is assumed."},
{"property": "C97", "status": "proved", "theorems": ["ZK.C97_gate", "ZK.C97_mul"], "note": "Properties/GateSizeExamples.lean has proofs for right and for wrong products with these sizes."}
]}
