{
 "claims": [
  {
   "property": "C01",
   "status": "proved",
   "theorems": [
    "OpenZKP.Props.C01_add_sub_neg",
    "OpenZKP.Props.C01_limb_helpers",
    "OpenZKP.Props.C01_carry"
   ],
   "note": ""
  },
  {
   "property": "C02",
   "status": "proved",
   "theorems": [
    "OpenZKP.Props.C02_mul",
    "OpenZKP.Props.C02_square_eq"
   ],
   "note": ""
  },
  {
   "property": "C03",
   "status": "partial",
   "theorems": [
    "OpenZKP.Props.C03_div_rem_u64",
    "OpenZKP.Props.C03_div_rem_partial",
    "OpenZKP.Props.C03_violated",
    "OpenZKP.Props.C03_div_rem_ops_partial",
    "OpenZKP.Props.C03_exact"
   ],
   "note": "Fully proved for 64-bit divisors. For 256-bit divisors proved in both profiles for every SafeDiv pair (all divisors not having exactly three limbs, and all three-limb ones whose partial remainder does not share its two top limbs with the divisor); debug panic proved on all other pairs; C03_violated exhibits a wrong release quotient. C03_exact: whenever the divisor divides the dividend the result is right."
  },
  {
   "property": "C04",
   "status": "partial",
   "theorems": [
    "OpenZKP.Props.C04_mulmod_partial",
    "OpenZKP.Props.C04_violated"
   ],
   "note": "Proved for every SafeDiv (product, modulus) and for modulus zero; C04_violated exhibits a wrong release result / debug panic outside."
  },
  {
   "property": "C05",
   "status": "proved",
   "theorems": [
    "OpenZKP.Props.C05_cmp",
    "OpenZKP.Props.C05_bit",
    "OpenZKP.Props.C05_shift",
    "OpenZKP.Props.C05_leading_zeros",
    "OpenZKP.Props.C05_bits",
    "OpenZKP.Props.C05_msb",
    "OpenZKP.Props.C05_trailing_zeros",
    "OpenZKP.Props.C05_bitwise"
   ],
   "note": ""
  },
  {
   "property": "C06",
   "status": "proved",
   "theorems": [
    "OpenZKP.Props.C06_to_bytes",
    "OpenZKP.Props.C06_roundtrip_value",
    "OpenZKP.Props.C06_roundtrip_bytes"
   ],
   "note": ""
  },
  {
   "property": "C07",
   "status": "partial",
   "theorems": [
    "OpenZKP.Props.C07_print",
    "OpenZKP.Props.C07_parse_partial",
    "OpenZKP.Props.C07_parse_in_range",
    "OpenZKP.Props.C07_round_trip",
    "OpenZKP.Props.C07_accepts_only_digits",
    "OpenZKP.Props.C07_violated"
   ],
   "note": "Printing, round trip, and parsing of every in-range digit string are proved in full, and overflow is reported for every digit string without a proper prefix equal to ceil(2^256/10). For the remaining strings the code is wrong (C07_violated: 2^256+4 parses as 4)."
  },
  {
   "property": "C08",
   "status": "partial",
   "theorems": [
    "OpenZKP.Props.C08_gcd_partial",
    "OpenZKP.Props.C08_gcd_extended_partial",
    "OpenZKP.Props.C08_inv_mod_partial",
    "OpenZKP.Props.C08_small",
    "OpenZKP.Props.C08_violated",
    "OpenZKP.Props.C08_gcd_safe",
    "OpenZKP.Props.C08_gcd_extended_safe",
    "OpenZKP.Props.C08_inv_mod_safe",
    "OpenZKP.Props.C08_in_range"
   ],
   "note": "For all inputs: the debug build panics in the division step, or both builds return the correct result (gcd, Bezout data, inverse). No panic and the correct result when the division is right on the steps of Euclid's algorithm (C08_gcd_safe, C08_gcd_extended_safe, C08_inv_mod_safe), so for all operands below 2^192 and whenever one is below 2^128 (C08_in_range). C08_violated gives a field-sized operand on which the release build returns a wrong inverse (Knuth division defect of C03)."
  },
  {
   "property": "C09",
   "status": "proved",
   "theorems": [
    "OpenZKP.Props.C09_inv"
   ],
   "note": ""
  },
  {
   "property": "C10",
   "status": "proved",
   "theorems": [
    "OpenZKP.Props.C10_redc",
    "OpenZKP.Props.C10_mul_redc",
    "OpenZKP.Props.C10_square_redc",
    "OpenZKP.Props.C10_proth_eq_generic",
    "OpenZKP.Props.C10_convert",
    "OpenZKP.Props.C10_to_montgomery_const",
    "OpenZKP.Props.C10_proth_constants",
    "OpenZKP.Props.C10_order_constants",
    "OpenZKP.Props.C10_range_needed"
   ],
   "note": "For every odd modulus of at most 255 bits; C10_range_needed shows the bound cannot be dropped."
  },
  {
   "property": "C11",
   "status": "partial",
   "theorems": [
    "OpenZKP.Props.C11_field_pow",
    "OpenZKP.Props.C11_powI_nonneg",
    "OpenZKP.Props.C11_powI_neg_partial",
    "OpenZKP.Props.C11_u256_pow"
   ],
   "note": "U256 powers and field powers for usize, U256 and non-negative isize exponents proved; negative exponents proved except where inversion panics in the debug build (C14)."
  },
  {
   "property": "C12",
   "status": "partial",
   "theorems": [
    "OpenZKP.Props.C12_product",
    "OpenZKP.Props.C12_sum_actual",
    "OpenZKP.Props.C12_sum_violated"
   ],
   "note": "product proved; sum folds from ONE, so the property is false: C12_sum_actual gives the exact behaviour and C12_sum_violated the witness."
  },
  {
   "property": "C13",
   "status": "proved",
   "theorems": [
    "OpenZKP.Props.C13_convert",
    "OpenZKP.Props.C13_add",
    "OpenZKP.Props.C13_sub",
    "OpenZKP.Props.C13_mul",
    "OpenZKP.Props.C13_eq",
    "OpenZKP.Props.C13_sum_product",
    "OpenZKP.Props.C13_from_int",
    "OpenZKP.Props.C13_to_primitive",
    "OpenZKP.Props.C13_field_iso",
    "OpenZKP.Props.C13_instances"
   ],
   "note": ""
  },
  {
   "property": "C14",
   "status": "partial",
   "theorems": [
    "OpenZKP.Props.C14_inv_partial",
    "OpenZKP.Props.C14_div_partial",
    "OpenZKP.Props.C14_violated",
    "OpenZKP.Props.C14_inv_safe"
   ],
   "note": "For every element: the debug build panics, or both builds return the correct inverse; the correct inverse whenever the division is right on the steps of Euclid's algorithm on the modulus and the Montgomery form (C14_inv_safe). C14_violated gives an element whose release-build inverse is wrong (Knuth division defect)."
  },
  {
   "property": "C15",
   "status": "partial",
   "theorems": [
    "OpenZKP.Props.C15_root",
    "OpenZKP.Props.C15_root_zero",
    "OpenZKP.Props.C15_rootU_partial",
    "OpenZKP.Props.C15_generator",
    "OpenZKP.Props.C15_rootU",
    "OpenZKP.Props.C15_rootU_zero",
    "OpenZKP.Props.C15_violated"
   ],
   "note": "C15_root for machine-word orders is complete; for orders given as U256 every divisor of p-1 is proved (C15_rootU), but for some other orders the debug build panics instead of returning None (C15_violated, the division defect of C03)."
  },
  {
   "property": "C16",
   "status": "partial",
   "theorems": [
    "OpenZKP.Props.C16_is_quadratic_residue",
    "OpenZKP.Props.C16_square_root_partial"
   ],
   "note": "Complete except for elements whose inversion panics in the debug build (C14)."
  },
  {
   "property": "C17",
   "status": "proved",
   "theorems": [
    "OpenZKP.Props.C17_invert_batch"
   ],
   "note": ""
  },
  {
   "property": "C18",
   "status": "partial",
   "theorems": [
    "OpenZKP.Props.C18_items",
    "OpenZKP.Props.C18_take_skip",
    "OpenZKP.Props.C18_step_by_partial",
    "OpenZKP.Props.C18_step_by_zero",
    "OpenZKP.Props.C18_series",
    "OpenZKP.Props.C18_step_by_violated",
    "OpenZKP.Props.C18_skip_violated"
   ],
   "note": "Items, at, take and skip proved; step_by truncates and skip past the end misbehaves (C18_step_by_violated, C18_skip_violated)."
  },
  {
   "property": "C19",
   "status": "proved",
   "theorems": [
    "OpenZKP.Props.C19_permute_index",
    "OpenZKP.Props.C19_permute"
   ],
   "note": ""
  },
  {
   "property": "C20",
   "status": "proved",
   "theorems": [
    "OpenZKP.Props.C20_fft",
    "OpenZKP.Props.C20_fft_root",
    "OpenZKP.Props.C20_radix_sqrt",
    "OpenZKP.Props.C20_fft_cofactor",
    "OpenZKP.Props.C20_clone_shifted",
    "OpenZKP.Props.C20_no_root",
    "OpenZKP.Props.C20_base_field",
    "OpenZKP.Props.FFTSmall.C20_radix_2",
    "OpenZKP.Props.FFTSmall.C20_radix_4",
    "OpenZKP.Props.FFTSmall.C20_radix_8"
   ],
   "note": "Over any field with a root function (C15); C20_base_field instantiates it."
  },
  {
   "property": "C21",
   "status": "partial",
   "theorems": [
    "OpenZKP.Props.C21_ifft",
    "OpenZKP.Props.C21_ifft_fft",
    "OpenZKP.Props.C21_fft_ifft",
    "OpenZKP.Props.C21_ifft_cofactor_partial",
    "OpenZKP.Props.C21_ifft_cofactor_violated"
   ],
   "note": "ifft inverts fft in both directions for every power-of-two length. The cofactor variant ifft_cofactor does not invert fft_cofactor (C21_ifft_cofactor_violated)."
  },
  {
   "property": "C22",
   "status": "proved",
   "theorems": [
    "OpenZKP.Props.C22_transpose",
    "OpenZKP.Props.C22_transpose_twice",
    "OpenZKP.Props.C22_panics"
   ],
   "note": ""
  },
  {
   "property": "C23",
   "status": "proved",
   "theorems": [
    "OpenZKP.Props.C23_on_curve",
    "OpenZKP.Props.C23_group_law",
    "OpenZKP.Props.C23_concrete"
   ],
   "note": "Over any field of characteristic other than 2, against the group of points of Mathlib; C23_concrete instantiates it for the curve of the code."
  },
  {
   "property": "C24",
   "status": "partial",
   "theorems": [
    "OpenZKP.Props.C24_representatives",
    "OpenZKP.Props.C24_group_law",
    "OpenZKP.Props.C24_eq",
    "OpenZKP.Props.C24_mixed_partial",
    "OpenZKP.Props.C24_mixed_exceptional",
    "OpenZKP.Props.C24_violated"
   ],
   "note": "Conversions, doubling, negation, Jacobian addition and comparison proved for all representatives. Mixed addition (Jacobian += Affine) is proved except when the points are equal or opposite, where the code is wrong (C24_violated, exact behaviour in C24_mixed_exceptional)."
  },
  {
   "property": "C25",
   "status": "proved",
   "theorems": [
    "OpenZKP.Props.C25_naf"
   ],
   "note": ""
  },
  {
   "property": "C26",
   "status": "partial",
   "theorems": [
    "OpenZKP.Props.C26_mul",
    "OpenZKP.Props.C26_batch_convert",
    "OpenZKP.Props.C26_window_table",
    "OpenZKP.Props.C26_double_mul_partial",
    "OpenZKP.Props.C26_double_base_mul_partial",
    "OpenZKP.Props.C26_base_mul_partial",
    "OpenZKP.Props.C26_base_mul_violated",
    "OpenZKP.Props.C26_double_mul_violated"
   ],
   "note": "Double-and-add (affine, Jacobian), windowed multiplication, tables and batch conversion proved for every scalar and point. base_mul is right for every scalar below n except n-94, where it returns zero (C26_base_mul_violated). double_base_mul proved when no exceptional mixed addition occurs; double_mul proved under a sign condition and wrong otherwise (C26_double_mul_violated)."
  },
  {
   "property": "C27",
   "status": "partial",
   "theorems": [
    "OpenZKP.Props.C27_public_key_partial",
    "OpenZKP.Props.C27_sign_returns",
    "OpenZKP.Props.C27_equation",
    "OpenZKP.Props.C27_sign_verify_partial",
    "OpenZKP.Props.C27_violated"
   ],
   "note": "Every signature returned by sign satisfies the verification equation (C27_equation), and sign returns exactly when a nonce is usable (C27_sign_returns); verify accepts it unless it meets an exceptional addition. The key n-94 has the zero public key and its verification panics (C27_violated)."
  },
  {
   "property": "C28",
   "status": "partial",
   "theorems": [
    "OpenZKP.Props.C28_verify_partial",
    "OpenZKP.Props.C28_panics",
    "OpenZKP.Props.C28_zero_key",
    "OpenZKP.Props.C28_violated"
   ],
   "note": "verify accepts exactly the signatures satisfying the equation when no exceptional addition is met; a valid signature can be rejected (C28_violated), and verify panics instead of rejecting for r = 0, w = 0, keys off the curve and the zero key (C28_panics, C28_zero_key)."
  },
  {
   "property": "C29",
   "status": "partial",
   "theorems": [
    "OpenZKP.Props.C29_iter_layer",
    "OpenZKP.Props.C29_layer_range",
    "OpenZKP.Props.C29_concat_partial",
    "OpenZKP.Props.C29_concat_root",
    "OpenZKP.Props.C29_concat_violated",
    "OpenZKP.Props.C29_from_size_offset",
    "OpenZKP.Props.C29_from_size_offset_errors",
    "OpenZKP.Props.C29_from_depth_offset",
    "OpenZKP.Props.C29_bijection",
    "OpenZKP.Props.C29_parent_sibling",
    "OpenZKP.Props.C29_children",
    "OpenZKP.Props.C29_neighbors",
    "OpenZKP.Props.C29_lca_partial",
    "OpenZKP.Props.C29_lca_violated",
    "OpenZKP.Props.C29_right_most_violated"
   ],
   "note": "Construction, depth/offset, parent, sibling, children and neighbours proved for every index (the last index 2^64-1 has no right neighbour because the addition overflows). The last common ancestor is proved for nodes not on each other's path; for equal nodes and node/ancestor pairs the code is wrong (C29_lca_violated)."
  },
  {
   "property": "C30",
   "status": "proved",
   "theorems": [
    "OpenZKP.Props.C30_open_verify",
    "OpenZKP.Props.C30_empty_tree",
    "OpenZKP.Props.C30_rejects"
   ],
   "note": ""
  },
  {
   "property": "C31",
   "status": "proved",
   "theorems": [
    "OpenZKP.Props.C31_proof_size"
   ],
   "note": ""
  },
  {
   "property": "C32",
   "status": "proved",
   "theorems": [
    "OpenZKP.Props.C32_binding",
    "OpenZKP.Props.C32_trace",
    "OpenZKP.Props.C32_tree",
    "OpenZKP.Props.C32_collision_free"
   ],
   "note": "The collision is found among the node-hash inputs of the two verify runs."
  },
  {
   "property": "C33",
   "status": "proved",
   "theorems": [
    "OpenZKP.Props.C33_skip_layers",
    "OpenZKP.Props.C33_root"
   ],
   "note": ""
  },
  {
   "property": "C34",
   "status": "proved",
   "theorems": [
    "OpenZKP.Props.C34_agreement",
    "OpenZKP.Props.C34_proof_bytes"
   ],
   "note": "Abstract 32-byte hash; every message and draw type of channel.rs; both build profiles."
  },
  {
   "property": "C35",
   "status": "proved",
   "theorems": [
    "OpenZKP.Props.C35_first_candidate",
    "OpenZKP.Props.C35_returns",
    "OpenZKP.Props.C35_uniform",
    "OpenZKP.Props.C35_uniform_count"
   ],
   "note": "First acceptable block, canonical, counter advanced just past it; each value has exactly 16 preimages."
  },
  {
   "property": "C36",
   "status": "proved",
   "theorems": [
    "OpenZKP.Props.C36_verify",
    "OpenZKP.Props.C36_parallel",
    "OpenZKP.Props.C36_sequential",
    "OpenZKP.Props.C36_no_deadlock",
    "OpenZKP.Props.C36_progress"
   ],
   "note": "Small-step semantics with stale relaxed reads and spurious CAS failures, any number of threads; assumes some 64-bit nonce is valid. Termination: a measure decreases on all steps but a failing compare-exchange (overflow-checked build)."
  },
  {
   "property": "C37",
   "status": "partial",
   "theorems": [
    "OpenZKP.Props.C37_evaluate",
    "OpenZKP.Props.C37_degree",
    "OpenZKP.Props.C37_divide_out_partial",
    "OpenZKP.Props.C37_divide_out_violated",
    "OpenZKP.Props.C37_divide_out_longer",
    "OpenZKP.Props.C37_divide_out_shorter"
   ],
   "note": "Evaluation and degree proved. Division proved for targets of the same length, which is how the library calls it; violated for targets of another length (C37_divide_out_violated), where the exact effect is proved (C37_divide_out_longer, C37_divide_out_shorter)."
  },
  {
   "property": "C38",
   "status": "proved",
   "theorems": [
    "OpenZKP.Props.C38_low_degree_extension",
    "OpenZKP.Props.C38_base_field"
   ],
   "note": ""
  },
  {
   "property": "C39",
   "status": "proved",
   "theorems": [
    "OpenZKP.Props.C39_fold",
    "OpenZKP.Props.C39_degree",
    "OpenZKP.Props.C39_layer",
    "OpenZKP.Props.C39_verifier",
    "OpenZKP.Props.C39_final"
   ],
   "note": ""
  },
  {
   "property": "C40",
   "status": "proved",
   "theorems": [
    "OpenZKP.Props.C40_indices"
   ],
   "note": "Domain sizes below 2^64; the transcript counter must not overflow 64 bits."
  },
  {
   "property": "C41",
   "status": "partial",
   "theorems": [
    "OpenZKP.Props.Degree.C41_trace_degree",
    "OpenZKP.Props.C41_degree_partial",
    "OpenZKP.Props.C41_violated"
   ],
   "note": "Proved when polynomials are applied only to arguments with denominator degree at most numerator degree; otherwise violated (C41_violated)."
  },
  {
   "property": "C42",
   "status": "proved",
   "theorems": [
    "OpenZKP.Props.C42_map",
    "OpenZKP.Props.C42_map_total",
    "OpenZKP.Props.C42_substitute",
    "OpenZKP.Props.C42_substitute_defined",
    "OpenZKP.Props.C42_arguments",
    "OpenZKP.Props.C42_arguments_suffice",
    "OpenZKP.Props.C42_arguments_needed"
   ],
   "note": ""
  },
  {
   "property": "C43",
   "status": "proved",
   "theorems": [
    "OpenZKP.Props.C43_evaluate",
    "OpenZKP.Props.C43_degree",
    "OpenZKP.Props.C43_defined",
    "OpenZKP.Props.Degree.C43_degree_is",
    "OpenZKP.Props.Degree.C43_enough"
   ],
   "note": "Overflow-checked arithmetic."
  },
  {
   "property": "C44",
   "status": "partial",
   "theorems": [
    "OpenZKP.Props.C44_accepts",
    "OpenZKP.Props.C44_power_of_two_partial",
    "OpenZKP.Props.C44_violated",
    "OpenZKP.Props.C44_rejects",
    "OpenZKP.Props.C44_detailed",
    "OpenZKP.Props.C44_layout"
   ],
   "note": "Accepts exactly 0 and the divisors of p-1, which is more than the powers of two (C44_violated). The layout part holds."
  },
  {
   "property": "C45",
   "status": "partial",
   "theorems": [
    "OpenZKP.Props.C45_size_partial",
    "OpenZKP.Props.C45_panics",
    "OpenZKP.Props.C45_violated_default",
    "OpenZKP.Props.C45_violated"
   ],
   "note": "the claim is false of the code: C45_violated gives a proof that prove returns and verify accepts, longer than max_proof_size; C45_violated_default: for the default FRI layout max_proof_size panics for every trace of at most 256 rows; C45_panics says exactly when it panics; C45_size_partial proves, for every accepted proof, lower and upper bounds that do hold"
  },
  {
   "property": "C46",
   "status": "proved",
   "theorems": [
    "OpenZKP.Props.C46_cells",
    "OpenZKP.Props.C46_row_column",
    "OpenZKP.Props.C46_interpolate"
   ],
   "note": "cells, rows, columns of TraceTable, and interpolation on the trace domain; column iteration for tables with at least one row"
  },
  {
   "property": "C47",
   "status": "partial",
   "theorems": [
    "OpenZKP.Props.C47_horizontal_fits",
    "OpenZKP.Props.C47_horizontal_cells",
    "OpenZKP.Props.C47_vertical_fits",
    "OpenZKP.Props.C47_vertical_new",
    "OpenZKP.Props.C47_vertical_cells",
    "OpenZKP.Props.C47_map_up",
    "OpenZKP.Props.C47_fold_fits",
    "OpenZKP.Props.C47_fold_cells",
    "OpenZKP.Props.C47_empty",
    "OpenZKP.Props.C47_horizontal_constraints",
    "OpenZKP.Props.C47_horizontal_satisfied",
    "OpenZKP.Props.C47_fold_constraints",
    "OpenZKP.Props.C47_fold_satisfied_partial",
    "OpenZKP.Props.C47_vertical_constraints_partial",
    "OpenZKP.Props.C47_vertical_satisfied_partial",
    "OpenZKP.Props.C47_vertical_violated",
    "OpenZKP.Props.C47_fold_violated"
   ],
   "note": "cells and constraint values proved for fold, horizontal and vertical; horizontal satisfaction proved; fold needs no poles outside the inner trace domain, vertical needs constraints that do not look over the end of a copy and do not depend on the claim (both violated otherwise)"
  },
  {
   "property": "C48",
   "status": "partial",
   "theorems": [
    "OpenZKP.Props.C48_check_partial",
    "OpenZKP.Props.C48_constraints_partial",
    "OpenZKP.Props.C48_specific_partial",
    "OpenZKP.Props.C48_violated",
    "OpenZKP.Props.C48_specific_violated"
   ],
   "note": "proved for sums of products of division-free expressions and their inverses, with error = first offending pair; violated for inverses inside sums under an inverse (check returns the value instead of its inverse) and check_specific_constraint uses the previous row for X"
  },
  {
   "property": "C49",
   "status": "proved",
   "theorems": [
    "OpenZKP.Props.C49_evaluate",
    "OpenZKP.Props.C49_merge_needed",
    "OpenZKP.Props.C49_far_offset"
   ],
   "note": "C49_evaluate: for every expression, table, coset size 2^k and hash functions, the graph (hash-consing, simplification, periods, lookup tables, tree shaking, row-chunk evaluation, parallel chunks of 65536 rows) yields exactly the value of the expression on each row and never fails; hypotheses as in the statement. C49_merge_needed shows the merge hypothesis cannot be dropped, C49_far_offset that offsets further back panic."
  },
  {
   "property": "C50",
   "status": "proved",
   "theorems": [
    "OpenZKP.Props.C50_reaches_queries",
    "OpenZKP.Props.C50_total",
    "OpenZKP.Props.C50_complete",
    "OpenZKP.Props.C50_accepted",
    "OpenZKP.Props.C50_no_reduction",
    "OpenZKP.Props.C50_quotient"
   ],
   "note": "C50_accepted is the literal statement; C50_complete is its substance: for every well-formed system, satisfying trace, hash function and run that reaches the queries with an out-of-domain point outside the evaluation coset and an evaluation graph whose hashes do not identify different values, prove returns a proof and verify accepts it; C50_quotient gives the usual sufficient condition for \"satisfies\"; C50_no_reduction: with an empty FRI layout (default for one row) nothing is accepted, so prove panics. Field inversion is exact (C14 not propagated); C50_total: the prover never fails, for every such system, when the coin yields field elements and the proof-of-work search succeeds"
  },
  {
   "property": "C51",
   "status": "partial",
   "theorems": [
    "OpenZKP.Props.C51_whole_partial",
    "OpenZKP.Props.C51_violated"
   ],
   "note": "an accepted string is consumed whole: no accepted string is a prefix of another, longer ones are rejected as too long; \"never panics\" is violated: every string shorter than 32 bytes and every truncation of an accepted proof makes the verifier panic, for every constraint system"
  },
  {
   "property": "C52",
   "status": "partial",
   "theorems": [
    "OpenZKP.Props.C52_eq_partial",
    "OpenZKP.Props.C52_eq_iff",
    "OpenZKP.Props.C52_violated"
   ],
   "note": "Equal polynomials compare equal; whatever the comparison point, different polynomials compare equal too (C52_violated)."
  },
  {
   "property": "C53",
   "status": "proved",
   "theorems": [
    "OpenZKP.Props.C53_history",
    "OpenZKP.Props.C53_history_zero",
    "OpenZKP.Props.C53_eq"
   ],
   "note": "every history of operations gives the outputs of an ordinary vector bounded by the capacity"
  },
  {
   "property": "C54",
   "status": "partial",
   "theorems": [
    "OpenZKP.Props.C54_counts",
    "OpenZKP.Props.C54_peak_partial",
    "OpenZKP.Props.C54_peak_live_partial",
    "OpenZKP.Props.C54_violated"
   ],
   "note": "number, total, live bytes and largest request proved for every interleaving; the peak is proved to be the largest value before an allocation; that it covers the allocation itself is violated (one allocation leaves the peak at 0)"
  },
  {
   "property": "C55",
   "status": "proved",
   "theorems": [
    "OpenZKP.Props.C55_macro_convert"
   ],
   "note": ""
  },
  {
   "property": "C56",
   "status": "partial",
   "theorems": [
    "OpenZKP.Props.C56_from_hex_partial",
    "OpenZKP.Props.C56_round_trip",
    "OpenZKP.Props.C56_other_strings",
    "OpenZKP.Props.C56_violated"
   ],
   "note": "Strings of at most 64 hexadecimal digits, with or without 0x, and the round trip are proved; the behaviour on all other strings is characterised. Longer strings are not always rejected (C56_violated)."
  },
  {
   "property": "C57",
   "status": "proved",
   "theorems": [
    "OpenZKP.Props.C57_base_prime",
    "OpenZKP.Props.C57_scalar_prime"
   ],
   "note": ""
  },
  {
   "property": "C58",
   "status": "proved",
   "theorems": [
    "OpenZKP.Props.C58_half_open",
    "OpenZKP.Props.C58_inclusive",
    "OpenZKP.Props.C58_in_range",
    "OpenZKP.Props.C58_empty_range"
   ],
   "note": "Both samplers are uniform on their range for every non-empty range; an empty range never terminates (C58_empty_range)."
  },
  {
   "property": "C59",
   "status": "proved",
   "theorems": [
    "OpenZKP.Props.C59_from_unsigned",
    "OpenZKP.Props.C59_from_signed",
    "OpenZKP.Props.C59_as_unsigned",
    "OpenZKP.Props.C59_as_signed",
    "OpenZKP.Props.C59_round_trip"
   ],
   "note": ""
  },
  {
   "property": "C60",
   "status": "partial",
   "theorems": [
    "OpenZKP.Props.C60_security_partial",
    "OpenZKP.Props.C60_violated"
   ],
   "note": "The code reports (log2(blowup)+1)*(queries/2)+pow_bits (C60_violated)."
  },
  {
   "property": "C61",
   "status": "proved",
   "theorems": [
    "OpenZKP.Props.C61_test_component",
    "OpenZKP.Props.C61_test_compositions"
   ],
   "note": ""
  },
  {
   "property": "C62",
   "status": "partial",
   "theorems": [
    "OpenZKP.Props.C62_account",
    "OpenZKP.Props.C62_cut_last_partial",
    "OpenZKP.Props.C62_violated",
    "OpenZKP.Props.C62_drops_partial"
   ],
   "note": "Exact account for all histories (C62_account): destructor runs plus values in memory are the values given plus, a second time, those cut off by truncate or clear. At most one destructor run per value proved where nothing is added after the first truncation (C62_cut_last_partial). Violated otherwise: a push after a truncation destroys the truncated value again."
  },
  {
   "property": "C63",
   "status": "proved",
   "theorems": [
    "OpenZKP.Props.C63_accepts",
    "OpenZKP.Props.C63_committed"
   ],
   "note": "C63_accepts: verify accepts only strings of the shape Accepts (specification in Stark/AcceptSpec.lean, independent of the control flow of the verifier); C63_committed: with the roots of arbitrary tables, a hash collision between the listed hash inputs, or every queried position is consistent in the tables (Stark/SoundSpec.lean). Parameters: hash, representation of field elements, roots of unity, binary_search correct on sorted lists"
  },
  {
   "property": "C64",
   "status": "proved",
   "theorems": [
    "OpenZKP.Props.C64_sound",
    "OpenZKP.Props.C64_bad_fold",
    "OpenZKP.Props.C64_bad_mix",
    "OpenZKP.Props.C64_bad_coefficient",
    "OpenZKP.Props.C64_bad_point",
    "OpenZKP.Props.C64_bad_queries"
   ],
   "note": "C64_sound: from acceptance to a satisfying trace, or a collision, or a bad challenge (specification in Stark/BadSpec.lean). C64_bad_fold, C64_bad_mix, C64_bad_coefficient, C64_bad_point, C64_bad_queries bound the number of bad values of each challenge, given what is committed before it. Not modelled: probability; that the hash behaves like independent random challenges (the random oracle heuristic) and that roots are roots of tables the prover knows are outside of the statement"
  },
  {
   "property": "C65",
   "status": "partial",
   "theorems": [
    "OpenZKP.Props.C65_reduce_1",
    "OpenZKP.Props.C65_full_mul",
    "OpenZKP.Props.C65_mul",
    "OpenZKP.Props.C65_proth_redc",
    "OpenZKP.Props.C65_mul_redc_partial",
    "OpenZKP.Props.C65_violated",
    "OpenZKP.Props.C65_mul_redc_value",
    "OpenZKP.Props.C65_mul_redc_exact"
   ],
   "note": "C65_reduce_1 (the only routine called by the library), C65_mul, C65_full_mul (full_mul_asm and full_mul_asm2), C65_proth_redc: equal to the portable code for all operands and entry states. C65_violated: mul_redc in assembly loses a carry. C65_mul_redc_exact: it agrees with the portable code exactly if the first round loses no carry (for moduli of at least 193 bits); C65_mul_redc_value: what it returns for all operands."
  },
  {
   "property": "C66",
   "status": "proved",
   "theorems": [
    "OpenZKP.Props.C66_binding",
    "OpenZKP.Props.C66_state",
    "OpenZKP.Props.C66_challenge",
    "OpenZKP.Props.C66_lengths_matter",
    "OpenZKP.Props.C66_no_separation",
    "OpenZKP.Props.Transcript.C66_interactions",
    "OpenZKP.Props.Transcript.C66_protocol",
    "OpenZKP.Props.Transcript.C66_fresh"
   ],
   "note": "C66_interactions, C66_protocol, C66_fresh: on interactions of the prover channel. C66_challenge, C66_binding, C66_state. C66_lengths_matter: the number of messages must be known; C66_no_separation: draws and messages are not separated by a domain tag"
  },
  {
   "property": "C67",
   "status": "partial",
   "theorems": [
    "OpenZKP.Props.C67_bytes",
    "OpenZKP.Props.C67_decode",
    "OpenZKP.Props.C67_number",
    "OpenZKP.Props.C67_field",
    "OpenZKP.Props.C67_field_decode_partial",
    "OpenZKP.Props.C67_serde",
    "OpenZKP.Props.C67_structures",
    "OpenZKP.Props.C67_canonical_partial",
    "OpenZKP.Props.C67_serde_decode",
    "OpenZKP.Props.C67_violated",
    "OpenZKP.Props.C67_layout"
   ],
   "note": "C67_bytes, C67_decode, C67_number, C67_field, C67_serde, C67_structures, C67_layout: layout and round trips. C67_violated: field decoders accept non-canonical encodings in release builds and panic in debug builds, and points off the curve are decoded; C67_field_decode_partial says exactly what the field decoder does on every input. Not modelled: serde derives of structures"
  },
  {
   "property": "C68",
   "status": "partial",
   "theorems": [
    "OpenZKP.Props.C68_system_partial",
    "OpenZKP.Props.C68_accepted_partial",
    "OpenZKP.Props.C68_check_partial",
    "OpenZKP.Props.C68_prove_partial",
    "OpenZKP.Props.C68_violated"
   ],
   "note": "C68_system_partial, C68_accepted_partial, C68_check_partial, C68_prove_partial for every index that is not a power of two; C68_violated: for an index 2^k the system says value = 1"
  },
  {
   "property": "C69",
   "status": "proved",
   "theorems": [
    "OpenZKP.Props.C69_mimc",
    "OpenZKP.Props.C69_sponge",
    "OpenZKP.Props.C69_cubic",
    "OpenZKP.Props.C69_quadratic",
    "OpenZKP.Props.C69_hash",
    "OpenZKP.Props.C69_accepted",
    "OpenZKP.Props.C69_hash_accepted",
    "OpenZKP.Props.C69_prove",
    "OpenZKP.Props.C69_hash_prove"
   ],
   "note": "C69_cubic, C69_quadratic, C69_hash (meaning of the systems), C69_mimc, C69_sponge (the functions of the code are the sequence and the sponge), C69_accepted, C69_hash_accepted, C69_prove, C69_hash_prove"
  },
  {
   "property": "C70",
   "status": "partial",
   "theorems": [
    "OpenZKP.Props.C70_system",
    "OpenZKP.Props.C70_accepted_partial",
    "OpenZKP.Props.C70_violated",
    "OpenZKP.Props.C70_prove"
   ],
   "note": "C70_system says exactly what the system means; C70_accepted_partial is the claim for height one; C70_prove is completeness for every height; C70_violated: for greater heights the blocks are not linked and the claim is false"
  },
  {
   "property": "C71",
   "status": "partial",
   "theorems": [
    "OpenZKP.Props.C71_system_partial",
    "OpenZKP.Props.C71_accepted_partial",
    "OpenZKP.Props.C71_prove_partial",
    "OpenZKP.Props.C71_violated"
   ],
   "note": "C71_violated: the step of the example is not the cube; C71_system_partial, C71_accepted_partial, C71_prove_partial show the claim for the step as it is"
  },
  {
   "property": "C72",
   "status": "partial",
   "theorems": [
    "OpenZKP.Props.EvmField.C72_constants",
    "OpenZKP.Props.EvmField.C72_arithmetic",
    "OpenZKP.Props.EvmField.C72_fsub_partial",
    "OpenZKP.Props.EvmField.C72_roots",
    "OpenZKP.Props.EvmField.C72_horner_partial",
    "OpenZKP.Props.EvmField.C72_batch_invert_partial",
    "OpenZKP.Props.EvmField.C72_violated"
   ],
   "note": "C72_constants, C72_arithmetic, C72_roots for all words; C72_fsub_partial, C72_horner_partial, C72_batch_invert_partial for reduced words and non-empty arrays without zeros; C72_violated shows the exceptions"
  },
  {
   "property": "C73",
   "status": "partial",
   "theorems": [
    "OpenZKP.Props.EvmUtils.C73_bit_reverse",
    "OpenZKP.Props.EvmUtils.C73_bit_reverse2_partial",
    "OpenZKP.Props.EvmUtils.C73_permute_index",
    "OpenZKP.Props.EvmUtils.C73_num_bits",
    "OpenZKP.Props.EvmUtils.C73_sort",
    "OpenZKP.Props.EvmUtils.C73_arrays",
    "OpenZKP.Props.EvmUtils.C73_violated"
   ],
   "note": "C73_bit_reverse, C73_permute_index, C73_num_bits, C73_sort, C73_arrays; C73_bit_reverse2_partial up to 40 bits; C73_violated beyond and for num_bits(0)"
  },
  {
   "property": "C74",
   "status": "partial",
   "theorems": [
    "OpenZKP.Props.EvmCoin.C74_write",
    "OpenZKP.Props.EvmCoin.C74_read_bytes",
    "OpenZKP.Props.EvmCoin.C74_read_fields",
    "OpenZKP.Props.EvmCoin.C74_read_fields_conversely",
    "OpenZKP.Props.EvmCoin.C74_proof_of_work",
    "OpenZKP.Props.EvmCoin.C74_queries",
    "OpenZKP.Props.EvmCoin.C74_violated"
   ],
   "note": "C74_write, C74_read_bytes, C74_read_fields, C74_read_fields_conversely, C74_proof_of_work, C74_queries; C74_violated: read_many_bytes32 returns nothing and one extra block may be drawn"
  },
  {
   "property": "C75",
   "status": "partial",
   "theorems": [
    "OpenZKP.Props.C75_sound",
    "OpenZKP.Props.C75_binding",
    "OpenZKP.Props.C75_complete_partial",
    "OpenZKP.Props.C75_leaf_hash",
    "OpenZKP.Props.C75_violated"
   ],
   "note": "C75_sound, C75_binding, C75_leaf_hash for distinct ascending positions; C75_complete_partial for at least two of them; C75_violated for repeated positions and a single leaf"
  },
  {
   "property": "C76",
   "status": "partial",
   "theorems": [
    "OpenZKP.Props.C76_words",
    "OpenZKP.Props.C76_sound",
    "OpenZKP.Props.C76_complete_partial",
    "OpenZKP.Props.C76_violated"
   ],
   "note": "Soundness for all contexts with reduced words, distinct ascending queries and layers that fold; completeness for layouts with 1 to 3 and queries in two cosets of the last layer. Violated for other layouts and for words that are not reduced (C76_violated)."
  },
  {
   "property": "C77",
   "status": "partial",
   "theorems": [
    "OpenZKP.Props.EvmDefaultCs.C77_points_partial",
    "OpenZKP.Props.EvmDefaultCs.C77_violated",
    "OpenZKP.Props.EvmDefaultCs.C77_layout",
    "OpenZKP.Props.EvmDefaultCs.C77_recurrence"
   ],
   "note": "For reduced words, arrays of the right lengths, blowup 16 and no zero denominator; a zero denominator makes all points zero (C77_violated)."
  },
  {
   "property": "C78",
   "status": "partial",
   "theorems": [
    "OpenZKP.Props.EvmRecurrence.C78_parameters_partial",
    "OpenZKP.Props.EvmRecurrence.C78_calculations_partial",
    "OpenZKP.Props.EvmRecurrence.C78_violated",
    "OpenZKP.Props.C78_system",
    "OpenZKP.Props.C78_accepted",
    "OpenZKP.Props.C78_check",
    "OpenZKP.Props.C78_prove"
   ],
   "note": "The Rust system: C78_system, C78_accepted, C78_check, C78_prove (exponent at most 16). The contract: parameters for index below 2^63, calculations for reduced words and point^rows not 1. Queries and proof of work differ from the Rust system (C78_violated)."
  },
  {
   "property": "C79",
   "status": "partial",
   "theorems": [
    "OpenZKP.Props.EvmVerifier.C79_violated",
    "OpenZKP.Props.EvmVerifier.C79_accepts_partial",
    "OpenZKP.Props.EvmVerifier.C79_complete_partial",
    "OpenZKP.Props.EvmVerifier.C79_returns",
    "OpenZKP.Props.EvmVerifier.C79_sound_partial"
   ],
   "note": "C79_accepts_partial and C79_sound_partial assume arrays of the right lengths, reduced words and regular challenges (no zero denominator). C79_complete_partial: a proof meeting the specification passes with enough gas, if the queries are distinct and meet two cosets of the last layer. Too many out-of-domain values forge any claim (C79_violated); an accepted proof returns false (C79_returns)."
  },
  {
   "property": "C80",
   "status": "partial",
   "theorems": [
    "OpenZKP.Props.EvmGenerate.C80_evaluates_partial",
    "OpenZKP.Props.EvmGenerate.C80_layout_partial",
    "OpenZKP.Props.EvmGenerate.C80_violated_nested",
    "OpenZKP.Props.EvmGenerate.C80_violated_hash",
    "OpenZKP.Props.EvmGenerate.C80_violated_degree",
    "OpenZKP.Props.EvmGenerate.C80_panics"
   ],
   "note": "For systems without hash clashes and without denominators in denominators, on which the generator does not panic; these exceptions are real (C80_violated_nested, C80_violated_hash, C80_panics), as is the degree (C80_violated_degree)."
  },
  {
   "property": "C81",
   "status": "proved",
   "theorems": [
    "OpenZKP.Props.VerifierErrors.C81_errors"
   ],
   "note": "all errors but those of the Merkle library; the search is a parameter that returns positions of what it is asked for"
  },
  {
   "property": "C82",
   "status": "proved",
   "theorems": [
    "OpenZKP.Props.C82_accepts",
    "OpenZKP.Props.C82_converse",
    "OpenZKP.Props.C82_distinct",
    "OpenZKP.Props.C82_unique"
   ],
   "note": "the search is a parameter that returns positions of what it is asked for, the roots of unity are compatible (C18)"
  },
  {
   "property": "C83",
   "status": "partial",
   "theorems": [
    "OpenZKP.Props.C83_json_partial",
    "OpenZKP.Props.C83_violated",
    "OpenZKP.Props.C83_serializes",
    "OpenZKP.Props.C83_nested_violated",
    "OpenZKP.Props.C83_contract"
   ],
   "note": "C83_json_partial: JSON if no array is empty (C83_violated, C83_nested_violated). What a failing call leaves in the string is not modelled."
  },
  {
   "property": "C84",
   "status": "partial",
   "theorems": [
    "OpenZKP.Props.PedersenMerkle.C84_constants",
    "OpenZKP.Props.PedersenMerkle.C84_violated",
    "OpenZKP.Props.PedersenMerkle.C84_system",
    "OpenZKP.Props.PedersenMerkle.C84_accepted_partial",
    "OpenZKP.Props.PedersenMerkle.C84_table",
    "OpenZKP.Props.PedersenMerkle.C84_prove"
   ],
   "note": "C84_accepted_partial: a path, or an input that is not the least integer with its residue, or a hash in which a point is added to itself or its opposite. The second case is real (C84_violated). C84_prove: the trace of a path without such additions is checked and proved; C84_table: so is that of any integers whose hashes lead to the root. C84_constants: the constants of the repository meet the hypotheses."
  },
  {
   "property": "C85",
   "status": "partial",
   "theorems": [
    "OpenZKP.Props.ClaimBinding.C85_systems",
    "OpenZKP.Props.ClaimBinding.C85_claims_partial",
    "OpenZKP.Props.ClaimBinding.C85_second_leaf_violated",
    "OpenZKP.Props.ClaimBinding.C85_every_leaf_violated",
    "OpenZKP.Props.ClaimBinding.C85_leaves_partial",
    "OpenZKP.Props.ClaimBinding.C85_violated"
   ],
   "note": "C85_claims_partial: exactly which claims a proof is accepted for, given one (an equation between leaf and root whose coefficients are challenges); C85_leaves_partial: at most two leaves under a root, unless the challenges satisfy an equation. The property is violated: C85_second_leaf_violated, C85_every_leaf_violated, C85_violated."
  },
  {
   "property": "C86",
   "status": "proved",
   "theorems": [
    "OpenZKP.Props.Literals.C86_hex",
    "OpenZKP.Props.Literals.C86_u256h",
    "OpenZKP.Props.Literals.C86_field_element"
   ],
   "note": "Exactly which strings compile and the value of the constant, for every string; `hex::decode` is modelled, token handling (syn, quote) is not."
  },
  {
   "property": "C87",
   "status": "partial",
   "theorems": [
    "OpenZKP.Props.NumTraits.C87_bit_counts",
    "OpenZKP.Props.NumTraits.C87_arithmetic",
    "OpenZKP.Props.NumTraits.C87_violated"
   ],
   "note": "C87_bit_counts and C87_arithmetic are complete; rotations and from_str_radix are unimplemented in the code and panic (C87_violated)."
  },
  {
   "property": "C88",
   "status": "proved",
   "theorems": [
    "OpenZKP.Props.Schedule.C88_fft",
    "OpenZKP.Props.Schedule.C88_fft_root",
    "OpenZKP.Props.Schedule.C88_clone_shifted",
    "OpenZKP.Props.Schedule.C88_merkle_tree",
    "OpenZKP.Props.Schedule.C88_constraints"
   ],
   "note": "Every interleaving of the element accesses of the five parallel loops (two in radix_sqrt, clone_shifted, the layers of the Merkle tree, the chunks of the constraint evaluation) ends, without a panic, in the result of the sequential model; clone_shifted for every number of threads and any two lengths."
  },
  {
   "property": "C89",
   "status": "proved",
   "theorems": [
    "OpenZKP.Props.Equality.C89_equal",
    "OpenZKP.Props.Equality.C89_no_meaning",
    "OpenZKP.Props.Equality.C89_different",
    "OpenZKP.Props.Equality.C89_degree",
    "OpenZKP.Props.Equality.C89_returns",
    "OpenZKP.Props.Equality.C89_different_no_trace",
    "OpenZKP.Props.Equality.C89_equal_hash",
    "OpenZKP.Props.Equality.C89_cells_distinct"
   ],
   "note": "for every expression; the degree bound is the one the library reports wherever that is right (C89_degree, C41). Cell values are counted as independent field elements: the hash is idealised there, and not needed for expressions in X alone (C89_different_no_trace)."
  },
  {
   "property": "C90",
   "status": "proved",
   "theorems": [
    "OpenZKP.Props.Constant.C90_system",
    "OpenZKP.Props.Constant.C90_accepted",
    "OpenZKP.Props.Constant.C90_prove"
   ],
   "note": "accepted proofs are read with the soundness theorem of C64 (Shows), proofs exist under the run conditions of C50 (Provable); an accepted proof over the field of 65537 elements is exhibited."
  },
  {
   "property": "C91",
   "status": "proved",
   "theorems": [
    "OpenZKP.Props.FieldRandom.C91_uniform",
    "OpenZKP.Props.FieldRandom.C91_ends"
   ],
   "note": "for every prime of the library's parameter range (FieldOK), both profiles."
  },
  {
   "property": "C92",
   "status": "partial",
   "theorems": [
    "OpenZKP.Props.C92_forms",
    "OpenZKP.Props.C92_malleable",
    "OpenZKP.Props.C92_unique_partial",
    "OpenZKP.Props.C92_at_most_four",
    "OpenZKP.Props.C92_forgery",
    "OpenZKP.Props.C92_reuse",
    "OpenZKP.Props.C92_nonce",
    "OpenZKP.Props.C92_violated"
   ],
   "note": "The code violates it (C92_violated, C92_malleable, C92_forgery). Proved: the exact form of all signatures of a digest, uniqueness up to the sign of w, at most four values of w in any case, what a reused nonce reveals, and that sign reuses one only on a SHA3 collision modulo the order. Stated for the verification equation, which verify tests outside of exceptional additions (C28). Not expressed: that finding a nonce k with given x(kG) without the key is hard."
  },
  {
   "property": "C93",
   "status": "proved",
   "theorems": [
    "OpenZKP.Props.PedersenCollision.C93_value",
    "OpenZKP.Props.PedersenCollision.C93_exact",
    "OpenZKP.Props.PedersenCollision.C93_collision",
    "OpenZKP.Props.PedersenCollision.C93_paths",
    "OpenZKP.Props.PedersenCollision.C93_example"
   ],
   "note": "the relation is given by its coefficients (bits of the inputs), because the mere existence of a relation follows by counting"
  },
  {
   "property": "C94",
   "status": "partial",
   "theorems": [
    "OpenZKP.Props.MimcPermutation.C94_permutation_partial",
    "OpenZKP.Props.MimcPermutation.C94_inverse",
    "OpenZKP.Props.MimcPermutation.C94_violated",
    "OpenZKP.Props.MimcPermutation.C94_not_onto_violated",
    "OpenZKP.Props.MimcPermutation.C94_with_factor"
   ],
   "note": "the cubic and quadratic examples are permutations (with the inverse); the round of the hash is not (C94_violated): a factor is missing in the code; with it the round is a permutation (C94_with_factor)"
  },
  {
   "property": "C95",
   "status": "partial",
   "theorems": [
    "OpenZKP.Props.ReleaseBuild.C95_same_partial",
    "OpenZKP.Props.ReleaseBuild.C95_violated",
    "OpenZKP.Props.ReleaseBuild.C95_violated_run"
   ],
   "note": "unless an assertion of the debug build fails the verdicts are the same (C95_same_partial); a proof with a word that is not reduced makes the release build accept a false claim (C95_violated, C95_violated_run)"
  },
  {
   "property": "C96",
   "status": "partial",
   "theorems": [
    "OpenZKP.Props.SizeBytes.C96_float",
    "OpenZKP.Props.SizeBytes.C96_shown_partial",
    "OpenZKP.Props.SizeBytes.C96_rounded_partial",
    "OpenZKP.Props.SizeBytes.C96_violated"
   ],
   "note": "The code violates the property: with a correctly rounded logarithm, showing any number of bytes from 999999000 to 999999967 panics (C96_violated), also in alloc and log_statistics. Proved: every size outside narrow windows below 10^6, 10^9 and 10^12 is shown with three digits, for every logarithm with error at most 2^-20 (C96_shown_partial) and with windows below 10^9 and 10^12 only for the correctly rounded one (C96_rounded_partial); the conversion to f32 is the nearest number (C96_float). The digits written by the formatter are not modelled."
  },
  {
   "property": "C97",
   "status": "partial",
   "theorems": [
    "OpenZKP.Props.FieldInts.C97_u256_to",
    "OpenZKP.Props.FieldInts.C97_from_unsigned",
    "OpenZKP.Props.FieldInts.C97_from_signed_partial",
    "OpenZKP.Props.FieldInts.C97_to_64",
    "OpenZKP.Props.FieldInts.C97_to_128_partial",
    "OpenZKP.Props.FieldInts.C97_roundtrip_partial",
    "OpenZKP.Props.FieldInts.C97_to_i128_violated",
    "OpenZKP.Props.FieldInts.C97_violated"
   ],
   "note": "The code violates the property at the least integer of each signed type: its conversion panics with overflow checks and gives the wrong element without them (C97_violated), and the element of the least i128 is not converted to it (C97_to_i128_violated). Proved for all other integers of all types, both directions and the round trip, and for U256 to the machine integers (C97_u256_to)."
  },
  {
   "property": "C98",
   "status": "partial",
   "theorems": [
    "OpenZKP.Props.CurveGadgets.C98_double",
    "OpenZKP.Props.CurveGadgets.C98_add_partial",
    "OpenZKP.Props.CurveGadgets.C98_add_violated",
    "OpenZKP.Props.CurveGadgets.C98_conditional",
    "OpenZKP.Props.CurveGadgets.C98_bits_partial",
    "OpenZKP.Props.CurveGadgets.C98_bits_violated",
    "OpenZKP.Props.CurveGadgets.C98_scalar_mult_partial",
    "OpenZKP.Props.CurveGadgets.C98_last_row_partial",
    "OpenZKP.Props.CurveGadgets.C98_last_row_violated"
   ],
   "note": "The code violates the property: the addition constraints hold for every output if both inputs are the same point (C98_add_violated), the bit constraints for entries that are not bits (C98_bits_violated), and the last row of the table of a scalar with bit 255 lacks that bit (C98_last_row_violated). Proved: doubling and conditions in full (C98_double, C98_conditional), addition of different points (C98_add_partial), bits if the entries are 0 or 1 (C98_bits_partial), and the table for every scalar if no exceptional point is met (C98_scalar_mult_partial, C98_last_row_partial)."
  },
  {
   "property": "C99",
   "status": "partial",
   "theorems": [
    "OpenZKP.Props.GroupSignature.C99_system",
    "OpenZKP.Props.GroupSignature.C99_step_partial",
    "OpenZKP.Props.GroupSignature.C99_trace_partial",
    "OpenZKP.Props.GroupSignature.C99_violated"
   ],
   "note": "The code violates the property: one table satisfies the systems of all claims and can be proved for each (C99_violated; SigRun.forged is a run). Proved: exactly what the system says of a table (C99_system, C99_step_partial), and that the trace of a signature satisfies it and can be proved, if no exceptional point is met (C99_trace_partial)."
  },
  {
   "property": "C100",
   "status": "proved",
   "theorems": [
    "OpenZKP.Props.C100_value",
    "OpenZKP.Props.C100_trace",
    "OpenZKP.Props.C100_system",
    "OpenZKP.Props.C100_accepted",
    "OpenZKP.Props.C100_prove"
   ],
   "note": "For lists of equal length and an order of at most the index; the exponents are at most 16 for the honest proof (the blowup of the system)."
  },
  {
   "property": "C101",
   "status": "partial",
   "theorems": [
    "OpenZKP.Props.Seeds.C101_fib_partial",
    "OpenZKP.Props.Seeds.C101_mimc_partial",
    "OpenZKP.Props.Seeds.C101_hash_partial",
    "OpenZKP.Props.Seeds.C101_vdf_partial",
    "OpenZKP.Props.Seeds.C101_constant_partial",
    "OpenZKP.Props.Seeds.C101_signature_partial",
    "OpenZKP.Props.Seeds.C101_recurrence_partial",
    "OpenZKP.Props.Seeds.C101_recurrence2_partial",
    "OpenZKP.Props.Seeds.C101_tree_partial",
    "OpenZKP.Props.Seeds.C101_violated",
    "OpenZKP.Props.Seeds.C101_sides_partial",
    "OpenZKP.Props.Seeds.C101_every_leaf_violated",
    "OpenZKP.Props.Seeds.C101_other_seed",
    "OpenZKP.Props.Seeds.C101_forged_violated"
   ],
   "note": "The code violates the property: the seed of the MiMC tree does not have the side of the leaf (C101_violated), and a proof can be made for every element under a known root by choosing the side last (C101_every_leaf_violated, C101_other_seed; C101_forged_violated is a run). Proved for all other claims, and for the MiMC tree which sides a proof is accepted for (C101_sides_partial)."
  },
  {
   "property": "C102",
   "status": "proved",
   "theorems": [
    "OpenZKP.Props.EvmIterator.C102_history",
    "OpenZKP.Props.EvmIterator.C102_drain"
   ],
   "note": "Arrays have fewer than 2^256 elements, as every array in memory."
  },
  {
   "property": "C103",
   "status": "partial",
   "theorems": [
    "OpenZKP.Props.EvmInputs.C103_recurrence_partial",
    "OpenZKP.Props.EvmInputs.C103_trivial_violated",
    "OpenZKP.Props.EvmInputs.C103_accepted_violated"
   ],
   "note": "The contract TrivialFib, made for tests, violates the property (C103_trivial_violated, C103_accepted_violated). Proved for Recurrence: the coin determines the public input up to collisions of the hash (C103_recurrence_partial)."
  },
  {
   "property": "C104",
   "status": "proved",
   "theorems": [
    "OpenZKP.Props.C104_nests",
    "OpenZKP.Props.C104_counts",
    "OpenZKP.Props.C104_fri"
   ],
   "note": "C104_fri ties the numbers of turns of the loops of the folding to the modelled folding (C76). The gas and the memory in an event are not modelled."
  }
 ]
}