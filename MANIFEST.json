{
 "claims": [
  {
   "property": "C01",
   "status": "proved",
   "theorems": [
    "Verif.Ser.C01_roundtrip",
    "Verif.Ser.C01_serialize_result",
    "Verif.Ser.C01_large_enum_not_roundtrip",
    "Verif.Ser.C01_oracleId_truncates",
    "Verif.Ser.C01_oracleId"
   ],
   "note": "Universe of type codes covering integers, usize, bool, strings, options, vectors, pairs, byte arrays, small fields, AES fields, derived structs and enums. Findings: enums with more than 256 variants and OracleId do not round-trip."
  },
  {
   "property": "C02",
   "status": "proved",
   "theorems": [
    "Verif.Ser.C02_truncated",
    "Verif.Ser.C02_injective",
    "Verif.Ser.C02_any_input",
    "Verif.Ser.C02_bool_malleable"
   ],
   "note": ""
  },
  {
   "property": "C03",
   "status": "proved",
   "theorems": [
    "Verif.Sorting.C03_stable_sort",
    "Verif.Sorting.C03_unsort",
    "Verif.Sorting.C03_unsort_stable_sort",
    "Verif.Sorting.C03_is_sorted_ascending"
   ],
   "note": "Rust's stable sort is modelled by Lean's stable merge sort."
  },
  {
   "property": "C04",
   "status": "proved",
   "theorems": [
    "Verif.Graph.C04_least",
    "Verif.Graph.C04_same_label"
   ],
   "note": "Union-find with path compression and union by rank, including termination of find."
  },
  {
   "property": "C05",
   "status": "proved",
   "theorems": [
    "Verif.Strided.C05_without_stride",
    "Verif.Strided.C05_cells_distinct",
    "Verif.Strided.C05_strides_valid",
    "Verif.Strided.C05_disjoint",
    "Verif.Strided.C05_cover",
    "Verif.Strided.C05_column",
    "Verif.Strided.C05_wrapping_unsound"
   ],
   "note": "Finding: without overflow checks the dimension check can wrap."
  },
  {
   "property": "C06",
   "status": "proved",
   "theorems": [
    "Verif.Field.C06_field",
    "Verif.Field.C06_invert",
    "Verif.Field.C06_square",
    "Verif.Field.C06_tower_relation"
   ],
   "note": "Field axioms of the model's scalar arithmetic at every tower level, unbounded in the level."
  },
  {
   "property": "C07",
   "status": "proved",
   "theorems": [
    "Verif.Field.C07_get",
    "Verif.Field.C07_ext",
    "Verif.Field.C07_arith",
    "Verif.Field.C07_strategies",
    "Verif.Field.C07_set",
    "Verif.Field.C07_construct",
    "Verif.Field.C07_spread",
    "Verif.Field.C07_transform"
   ],
   "note": "All lane widths and underlier sizes; portable strategies only (SIMD back-ends are not modelled)."
  },
  {
   "property": "C08",
   "status": "proved",
   "theorems": [
    "Verif.Field.C08_mul4b",
    "Verif.Field.C08_mul8b",
    "Verif.Field.C08_square_invert8b",
    "Verif.Field.C08_mulAlpha8b",
    "Verif.Field.Aes.C08_aes_bytes",
    "Verif.Field.Aes.C08_aes_bijection",
    "Verif.Field.Aes.C08_aes_isomorphism",
    "Verif.Field.Aes.C08_isAesTower_always_true"
   ],
   "note": "Whole tables by kernel evaluation lifted to all inputs; AES tower isomorphism by induction on the level. is_aes_tower is always true (finding)."
  },
  {
   "property": "C09",
   "status": "proved",
   "theorems": [
    "Verif.Field.C09_embed_value",
    "Verif.Field.C09_embed_hom",
    "Verif.Field.C09_embed_inv",
    "Verif.Field.C09_tryFrom_iff",
    "Verif.Field.C09_tryFrom_isSome",
    "Verif.Field.C09_basis_isSome",
    "Verif.Field.C09_decompose",
    "Verif.Field.C09_tower_basis",
    "Verif.Field.C09_coordinates_unique",
    "Verif.Field.C09_fromBases_roundtrip",
    "Verif.Field.C09_fromBasesSparse_overflow_unreported",
    "Verif.Field.C09_mulSub",
    "Verif.Field.C09_mulBit",
    "Verif.Field.C09_mulPrimitive",
    "Verif.Field.C09_minTowerLevel"
   ],
   "note": "Includes the negative result that from_bases_sparse does not report an overflowing stride."
  },
  {
   "property": "C10",
   "status": "proved",
   "theorems": [
    "Verif.Field.C10_order",
    "Verif.Field.C10_generates",
    "Verif.Field.Aes.C10_aes_order"
   ],
   "note": "Canonical and AES towers. Pratt-style order certificates checked by the kernel."
  },
  {
   "property": "C11",
   "status": "proved",
   "theorems": [
    "Verif.Field.C11_interleave",
    "Verif.Field.C11_interleave_involutive",
    "Verif.Field.C11_unzip",
    "Verif.Field.C11_squareTranspose",
    "Verif.Field.C11_squareTranspose_involutive"
   ],
   "note": ""
  },
  {
   "property": "C12",
   "status": "proved",
   "theorems": [
    "Verif.Field.C12_packed_pow",
    "Verif.Field.C12_pow"
   ],
   "note": ""
  },
  {
   "property": "C13",
   "status": "proved",
   "theorems": [
    "Verif.NTT.C13_construct",
    "Verif.NTT.C13_forward",
    "Verif.NTT.C13_inverse_forward",
    "Verif.NTT.C13_forward_inverse",
    "Verif.NTT.C13_errors",
    "Verif.NTT.C13_subspace",
    "Verif.NTT.C13_subspace_zero_panics",
    "Verif.NTT.C13_get_subspace_eval",
    "Verif.NTT.C13_get_subspace_eval_not_basis",
    "Verif.NTT.C13_coset"
   ],
   "note": "Both directions, both table kinds, every width/shape/coset/skip; errors exactly outside the accepted parameters; subspaces, twiddle cosets; findings: subspace(0) panics, get_subspace_eval is not the documented basis element."
  },
  {
   "property": "C14",
   "status": "proved",
   "theorems": [
    "Verif.NTT.C14_forward",
    "Verif.NTT.C14_inverse",
    "Verif.NTT.C14_schedulable",
    "Verif.NTT.C14_errors",
    "Verif.NTT.C14_narrow_panics"
   ],
   "note": "Every schedule: any interleaving of the butterflies of the column tasks (one butterfly is atomic) and any order of the row tasks; equal data, equal errors, and a schedule exists for every accepted call. Finding: for two packed elements holding at most one packed element of data the multithreaded transforms panic (C14_narrow_panics) while the single-threaded ones succeed; this case is excluded from C14_forward/C14_inverse."
  },
  {
   "property": "C15",
   "status": "partial",
   "theorems": [
    "Verif.Code.C15_construct",
    "Verif.Code.C15_encode_partial",
    "Verif.Code.C15_linear_partial",
    "Verif.Code.C15_injective_partial",
    "Verif.Code.C15_short_message_wrong",
    "Verif.Code.C15_errors",
    "Verif.Code.C15_ext_partial"
   ],
   "note": "Every width, batch size, dimension and rate except the short messages described next: the codeword is the evaluation of the message polynomial over the whole domain, encoding is linear and injective, and the same for extension-field symbols. Missing: ld+lb < w <= 2^ld+lb with redundancy, where the claim is false of the code (C15_short_message_wrong): the repetition test compares the message length instead of its logarithm."
  },
  {
   "property": "C16",
   "status": "partial",
   "theorems": [
    "Verif.NTT.C16_pair",
    "Verif.NTT.C16_chunk",
    "Verif.NTT.C16_chunk_any",
    "Verif.NTT.C16_interleaved_partial",
    "Verif.NTT.C16_narrow_batch_panics",
    "Verif.NTT.C16_narrow_chunk_unwritten"
   ],
   "note": "Pairs, chunks (codewords and arbitrary words) and interleaved codewords, whatever the scratch buffers hold (every schedule). Missing for interleaved codewords: packings wider than the batch or than the chunk, where the claim is false of the code (C16_narrow_batch_panics, C16_narrow_chunk_unwritten)."
  },
  {
   "property": "C17",
   "status": "proved",
   "theorems": [
    "Verif.Tensor.C17_tensor_prod",
    "Verif.Tensor.C17_expand",
    "Verif.Tensor.C17_update",
    "Verif.Tensor.C17_with_capacity",
    "Verif.Tensor.C17_with_expansion",
    "Verif.Tensor.C17_evaluate",
    "Verif.Tensor.C17_evaluate_panics",
    "Verif.Tensor.C17_hypercube",
    "Verif.Tensor.C17_multilinear"
   ],
   "note": "All packing widths and points. C17_evaluate needs query packing at most 64 times the table packing; C17_evaluate_panics proves the panic otherwise."
  },
  {
   "property": "C18",
   "status": "partial",
   "theorems": [
    "Verif.Fold.C18_fold_right",
    "Verif.Fold.C18_fold_left",
    "Verif.Fold.C18_fold_middle",
    "Verif.Fold.C18_fold_refuses",
    "Verif.Fold.C18_fold_right_lerp",
    "Verif.Fold.C18_fold_left_lerp_partial",
    "Verif.Fold.C18_fold_left_lerp_suffix_lost",
    "Verif.Fold.C18_fold_left_lerp_inplace",
    "Verif.Fold.C18_evaluate_partial_low",
    "Verif.Fold.C18_evaluate_partial_high",
    "Verif.Fold.C18_evaluate_partial",
    "Verif.Fold.C18_zero_pad_partial",
    "Verif.Fold.C18_zero_pad_loses_values",
    "Verif.Fold.C18_zero_pad_index_unchecked",
    "Verif.Fold.C18_fold_right_onebit_out_of_bounds"
   ],
   "note": "All code paths of fold_right/left/middle, lerp variants and partial evaluation. Partial: zero_pad on tables smaller than a packed element and fold_left_lerp with non-zero suffix are refuted by C18_zero_pad_loses_values and C18_fold_left_lerp_suffix_lost."
  },
  {
   "property": "C19",
   "status": "proved",
   "theorems": [
    "Verif.Univariate.C19_from_points",
    "Verif.Univariate.C19_extrapolate",
    "Verif.Univariate.C19_interpolate",
    "Verif.Univariate.C19_unique",
    "Verif.Univariate.C19_refuses",
    "Verif.Univariate.C19_evaluate_univariate",
    "Verif.Univariate.C19_extrapolate_line"
   ],
   "note": "Domains with and without the point at infinity; extrapolation and interpolation against Mathlib polynomials; refusal cases."
  },
  {
   "property": "C20",
   "status": "proved",
   "theorems": [
    "Verif.Matrix.C20_inverse",
    "Verif.Matrix.C20_ok_iff",
    "Verif.Matrix.C20_shapes",
    "Verif.Matrix.C20_mul"
   ],
   "note": "Gaussian elimination with partial pivoting over any field: succeeds exactly on invertible matrices and returns the inverse."
  },
  {
   "property": "C21",
   "status": "proved",
   "theorems": [
    "Verif.Arith.C21_operators",
    "Verif.Arith.C21_leaves",
    "Verif.Arith.C21_sum_product",
    "Verif.Arith.C21_evaluate_total",
    "Verif.Arith.C21_optimize_constants",
    "Verif.Arith.C21_optimize",
    "Verif.Arith.C21_no_overflow",
    "Verif.Arith.C21_optimize_overflow",
    "Verif.Arith.C21_remap_vars",
    "Verif.Arith.C21_const_subst",
    "Verif.Arith.C21_convert_field",
    "Verif.Arith.C21_try_convert_field",
    "Verif.Arith.C21_get_constant",
    "Verif.Arith.C21_eq",
    "Verif.Arith.C21_of_expr",
    "Verif.Arith.C21_to_expr",
    "Verif.Arith.C21_degree",
    "Verif.Arith.C21_leading_term",
    "Verif.Arith.C21_linear_normal_form",
    "Verif.Arith.C21_eval_cost_panics"
   ],
   "note": "All circuits the API builds (operators, or expressions with shared nodes). optimize is proved up to 64-bit overflow of nested exponents; the overflow itself is a proved finding, as is the cost estimate's panic on a zeroth power."
  },
  {
   "property": "C22",
   "status": "proved",
   "theorems": [
    "Verif.Piecewise.C22_piecewise",
    "Verif.Piecewise.C22_empty_panics"
   ],
   "note": "Any number of pieces in descending size. Finding: an empty list of pieces panics."
  },
  {
   "property": "C23",
   "status": "proved",
   "theorems": [
    "Verif.Subspace.C23_get",
    "Verif.Subspace.C23_get_xor",
    "Verif.Subspace.C23_injective",
    "Verif.Subspace.C23_span",
    "Verif.Subspace.C23_iter",
    "Verif.Subspace.C23_reduce_dim",
    "Verif.Subspace.C23_isomorphic",
    "Verif.Subspace.C23_get_checked",
    "Verif.Subspace.C23_get_checked_large",
    "Verif.Subspace.C23_with_dim",
    "Verif.Subspace.C23_create_domain"
   ],
   "note": "Dimensions up to 64 (indices are usize). Finding: checked access panics or refuses valid indices for the 64- and 128-dimensional subspaces."
  },
  {
   "property": "C24",
   "status": "proved",
   "theorems": [
    "Verif.Merkle.C24_complete",
    "Verif.Merkle.C24_errors",
    "Verif.Merkle.C24_optimal_layer",
    "Verif.Merkle.C24_proof_size",
    "Verif.Merkle.C24_verify_total"
   ],
   "note": "Every tree height, batch size, layer and index; nothing depends on uninitialised memory; refusals; the chosen layer minimises the proof. Findings: proof_size understates the proof by one digest per query and underflows at the leaf layer; verify_opening panics for a layer below the leaves."
  },
  {
   "property": "C25",
   "status": "proved",
   "theorems": [
    "Verif.Merkle.C25_opening",
    "Verif.Merkle.C25_layer",
    "Verif.Merkle.C25_vector",
    "Verif.Merkle.C25_committed"
   ],
   "note": "For arbitrary hash and compression functions: two accepted openings (layers, vectors) agree or an explicit extractor finds a collision in them; openings against a commitment give the committed batch or such a collision."
  },
  {
   "property": "C26",
   "status": "proved",
   "theorems": [
    "Verif.Transcript.C26_sync",
    "Verif.Transcript.C26_truncated",
    "Verif.Transcript.C26_sample_bits",
    "Verif.Transcript.C26_sample_total",
    "Verif.Transcript.C26_sample_byte_panics",
    "Verif.Transcript.C26_debug_flags_differ"
   ],
   "note": "All histories of the listed transcript operations; the buffer room of BytesMut and the way a serializer cuts a value into single writes are arbitrary. Findings: sampling a field of at most 8 bits right after a message panics (C26_sample_byte_panics); debug marks make proofs of a debug prover unreadable for a release verifier (C26_debug_flags_differ); sample_bits silently caps at 32 bits (C26_sample_bits)."
  },
  {
   "property": "C27",
   "status": "proved",
   "theorems": [
    "Verif.Transcript.C27_chunking",
    "Verif.Transcript.C27_stream",
    "Verif.Transcript.C27_readers",
    "Verif.Transcript.C27_get_u8_panics"
   ],
   "note": "Exact state equality for every re-chunking, and a closed description of the sampled stream. Finding: the sampler shows an empty chunk with remaining = usize::MAX, so get_u8 panics (C27_get_u8_panics)."
  },
  {
   "property": "C28",
   "status": "partial",
   "theorems": [
    "Verif.Sumcheck.C28_consistent_partial",
    "Verif.Sumcheck.C28_empty_message",
    "Verif.Sumcheck.C28_honest_recovered"
   ],
   "note": "Proved for every round message with at least one coefficient; C28_empty_message shows the degree-0 case fails."
  },
  {
   "property": "C29",
   "status": "partial",
   "theorems": [
    "Verif.Sumcheck.C29_soundness_partial",
    "Verif.Sumcheck.C29_completeness_partial",
    "Verif.Sumcheck.C29_honest_exists",
    "Verif.Sumcheck.C29_claim_new",
    "Verif.Sumcheck.C29_out_of_order",
    "Verif.Sumcheck.C29_constant_unsound",
    "Verif.Sumcheck.C29_constant_incomplete"
   ],
   "note": "Soundness (counting challenge vectors, arbitrary adaptive prover) and completeness of batch_verify/batch_prove for claims where one of the largest has degree at least 1; C29_constant_unsound and C29_constant_incomplete show that constant compositions break both. The provers' internal evaluators are not modelled, only their documented contract (Honest)."
  },
  {
   "property": "C30",
   "status": "partial",
   "theorems": [
    "Verif.Transparent.C30_constant",
    "Verif.Transparent.C30_disjoint_product",
    "Verif.Transparent.C30_eq_ind",
    "Verif.Transparent.C30_select_row",
    "Verif.Transparent.C30_step_down",
    "Verif.Transparent.C30_step_up",
    "Verif.Transparent.C30_powers_partial",
    "Verif.Transparent.C30_powers_table_wrong",
    "Verif.Transparent.C30_tower_basis",
    "Verif.Transparent.C30_table_agrees"
   ],
   "note": "Every transparent polynomial: construction checks, evaluate at every point is the extension of its table, and the table built for any packed width. Powers tables are right only while the vector fits one chunk or for width-1 packings; C30_powers_table_wrong is the counterexample, so the claim is partial. C30_tower_basis also shows that the table is refused when the vector is shorter than a packed element. Rayon parallelism is modelled as the sequential loop."
  },
  {
   "property": "C31",
   "status": "proved",
   "theorems": [
    "Verif.Transparent.C31_construct",
    "Verif.Transparent.C31_evaluate",
    "Verif.Transparent.C31_table",
    "Verif.Transparent.C31_shifted"
   ],
   "note": "Proved for every block size, offset, variant, packed width and point over fields of characteristic two (all fields of the code base)."
  },
  {
   "property": "C32",
   "status": "partial",
   "theorems": [
    "Verif.Channel.C32_accepts_iff_partial",
    "Verif.Channel.C32_rejects_widths",
    "Verif.Channel.C32_rejects_unbalanced",
    "Verif.Channel.C32_rejects_boundary_id",
    "Verif.Channel.C32_rejects_flush_id",
    "Verif.Channel.C32_overflow_accepts_unbalanced",
    "Verif.Channel.C32_overflow_panics",
    "Verif.Channel.C32_constant_flush_panics",
    "Verif.Channel.C32_no_channel_panics"
   ],
   "note": "Exact acceptance condition (well-formed parameters, one width per channel, equal counts) while the multiplicities of all sent tuples add up to less than 2^63. Partial because the i64 counters break the claim beyond that: C32_overflow_accepts_unbalanced (release build), C32_overflow_panics (debug build). C32_constant_flush_panics and C32_no_channel_panics are further panics on meaningful input."
  },
  {
   "property": "C33",
   "status": "proved",
   "theorems": [
    "Verif.Balance.C33_accepts_iff",
    "Verif.Balance.C33_complete",
    "Verif.Balance.C33_sound",
    "Verif.Balance.C33_balanced_of_accepts",
    "Verif.Balance.C33_boundaries_unchecked",
    "Verif.Balance.C33_boundaries_unchecked_witness",
    "Verif.Balance.C33_width_confusion"
   ],
   "note": "The preparation of the flushes, the step-down selectors, the flush oracles and verify_channels_balance are modelled; the grand products given to the check are the true ones (the GKR argument that proves them is separate). Completeness for all challenges; soundness as a bound on the number of accepted pairs of challenges for an unbalanced channel. Proved negative results: a channel without a flush on a non-empty table is never checked, and tuples that differ by trailing zeros are confused."
  },
  {
   "property": "C34",
   "status": "proved",
   "theorems": [
    "Verif.Evalcheck.C34_sound",
    "Verif.Evalcheck.C34_extends",
    "Verif.Evalcheck.C34_terminates",
    "Verif.Evalcheck.C34_build_one",
    "Verif.Evalcheck.C34_tower",
    "Verif.Evalcheck.C34_subclaim_index_panics",
    "Verif.Evalcheck.C34_structured_panics",
    "Verif.Evalcheck.C34_zero_padded_refused"
   ],
   "note": "Soundness of the evalcheck verifier for every prover (arbitrary reader of messages), every well-formed oracle set and every list of fitting claims: all variants (committed, transparent, structured, repeating, projected, shifted, packed, linear combination, zero padded, composite) and duplicate hints; the emitted sets are those returned by the take functions. The recursion terminates. The hypothesis on tower bases is proved of the tower fields (C34_tower). Negative results: unchecked duplicate index, structured underflow, refused padded oracles."
  },
  {
   "property": "C35",
   "status": "partial",
   "theorems": [
    "Verif.Oracle.C35_leaves",
    "Verif.Oracle.C35_committed_multiple",
    "Verif.Oracle.C35_repeating",
    "Verif.Oracle.C35_shifted",
    "Verif.Oracle.C35_packed",
    "Verif.Oracle.C35_projected",
    "Verif.Oracle.C35_projected_last_vars",
    "Verif.Oracle.C35_linear_combination",
    "Verif.Oracle.C35_composite",
    "Verif.Oracle.C35_zero_padded_partial",
    "Verif.Oracle.C35_tables",
    "Verif.Oracle.C35_evaluate",
    "Verif.Oracle.C35_evaluate_leaves",
    "Verif.Oracle.C35_zero_padded_out_of_range",
    "Verif.Oracle.C35_structured_not_multilinear",
    "Verif.Oracle.C35_skipped_panics"
   ],
   "note": "Acceptance of every oracle constructor characterised exactly; accepted oracles keep the set well formed; tables exist, are unique, and their multilinear extensions reduce to those of the inner oracles. Partial because zero_padded accepts the block index 2^n_pad_vars, one past the last block (C35_zero_padded_out_of_range), and structured circuits are not checked to be multilinear (C35_structured_not_multilinear)."
  },
  {
   "property": "C36",
   "status": "proved",
   "theorems": [
    "Verif.Gkr.C36_refused_iff",
    "Verif.Gkr.C36_layers",
    "Verif.Gkr.C36_product"
   ],
   "note": "Witness of the grand product circuit with packed elements of any width: refusals, child relation between layers, the product of the padded input. The GKR protocol over these layers is not part of this property."
  },
  {
   "property": "C37",
   "status": "proved",
   "theorems": [
    "Verif.Gkr.C37_static_refused",
    "Verif.Gkr.C37_static",
    "Verif.Gkr.C37_dynamic_refused",
    "Verif.Gkr.C37_dynamic",
    "Verif.Gkr.C37_composition",
    "Verif.Gkr.C37_degree",
    "Verif.Gkr.C37_static_relation",
    "Verif.Gkr.C37_dynamic_relation",
    "Verif.Gkr.C37_static_finish",
    "Verif.Gkr.C37_static_last",
    "Verif.Gkr.C37_dynamic_finish",
    "Verif.Gkr.C37_base_one",
    "Verif.Gkr.C37_wide_panics",
    "Verif.Gkr.C37_wide_wrong",
    "Verif.Gkr.C37_no_bits_panics"
   ],
   "note": "Witness and compositions for static and dynamic base, every width; the claims the verifiers make per layer are true exactly when the values sent are. The static verifier is right only for exponents of at most 64 bits and a base other than one (C37_wide_panics, C37_wide_wrong, C37_base_one); the sumcheck run inside a layer is C28/C52."
  },
  {
   "property": "C38",
   "status": "proved",
   "theorems": [
    "Verif.Piop.C38_bijection",
    "Verif.Piop.C38_ranges",
    "Verif.Piop.C38_total_vars",
    "Verif.Piop.C38_collect",
    "Verif.Piop.C38_collect_missing",
    "Verif.Piop.C38_with_vars"
   ],
   "note": "Whole property for every oracle set. usize arithmetic exact."
  },
  {
   "property": "C39",
   "status": "partial",
   "theorems": [
    "Verif.Compute.C39_disjoint",
    "Verif.Compute.C39_alloc",
    "Verif.Compute.C39_alloc_panics",
    "Verif.Compute.C39_split_half",
    "Verif.Compute.C39_slice",
    "Verif.Compute.C39_slice_cpu",
    "Verif.Compute.C39_slice_out_of_range",
    "Verif.Compute.C39_slice_inclusive",
    "Verif.Compute.C39_slice_power_of_two",
    "Verif.Compute.C39_slice_power_of_two_panics",
    "Verif.Compute.C39_slice_chunks",
    "Verif.Compute.C39_views",
    "Verif.Compute.C39_reborrow_partial",
    "Verif.Compute.C39_reborrow_lost"
   ],
   "note": "Allocation histories with scopes; slicing, chunks, power-of-two prefixes; packed memory refines plain memory over all histories of splits, writes and drops. Partial: writes through a reborrowed handle (to_owned_mut) are right only at offset 0; C39_reborrow_lost proves they are lost for the second half of a packed element. Negative: alloc(0) and other sizes panic, an out-of-range range is accepted, inclusive ends step by the width, slice_power_of_two_mut panics."
  },
  {
   "property": "C40",
   "status": "proved",
   "theorems": [
    "Verif.Balance.C40_accepts_iff",
    "Verif.Balance.C40_error"
   ],
   "note": "Exact acceptance condition and which table an error names."
  },
  {
   "property": "C41",
   "status": "proved",
   "theorems": [
    "Verif.M3.C41_u32_add",
    "Verif.M3.C41_u32_add_stacked"
   ],
   "note": "U32Add (every setting of the carry-in, committed-output and final-carry flags) and U32AddStacked (every cell width): the constructor does not panic, every row satisfying the table has the integer sum and carry, and populate satisfies the table whenever the row satisfied it before. The model is per row; the compilation of a table to oracles is not modelled here."
  },
  {
   "property": "C42",
   "status": "proved",
   "theorems": [
    "Verif.M3.C42_u32_sub"
   ],
   "note": "U32Sub with every setting of the borrow-in, committed-output and final-borrow flags: constructor does not panic, every satisfying row has the integer difference and borrow, populate satisfies the table."
  },
  {
   "property": "C43",
   "status": "partial",
   "theorems": [
    "Verif.M3.C43_wide_add_carry_in",
    "Verif.M3.C43_wide_add_partial",
    "Verif.M3.C43_wide_add_unsound",
    "Verif.M3.C43_wide_add_populate_carry",
    "Verif.M3.C43_incr"
   ],
   "note": "Incr is proved in full for every width, and WideAdd with a carry-in column is sound. The property fails for WideAdd without a carry-in: the first carry is unconstrained and every row extends to one with output x+y+1 (C43_wide_add_unsound). With a carry-in, populate takes the wrong carry bit (C43_wide_add_populate_carry is an iff). The partial theorem gives what does hold."
  },
  {
   "property": "C44",
   "status": "partial",
   "theorems": [
    "Verif.M3.C44_wide_sub_partial",
    "Verif.M3.C44_wide_sub_unsound",
    "Verif.M3.C44_wide_sub_populate_borrow"
   ],
   "note": "The property fails: WideSub has no constraint on its borrows, and every row extends to one with any chosen output bits after the first (C44_wide_sub_unsound). The partial theorem gives what holds: the first bit, and that populate without a borrow-in yields the difference and satisfies the table; with a borrow-in populate reads a column it never fills (C44_wide_sub_populate_borrow)."
  },
  {
   "property": "C45",
   "status": "proved",
   "theorems": [
    "Verif.M3.C45_barrel_shifter"
   ],
   "note": "For every well formed table, every three shift kinds and every filled row: the table has the barrel shifter's constraints, every satisfying row has the shifted word, and populate satisfies the table."
  },
  {
   "property": "C46",
   "status": "proved",
   "theorems": [
    "Verif.M3.C46_mul_with_inputs",
    "Verif.M3.C46_mul_new",
    "Verif.M3.C46_square_not_populated",
    "Verif.M3.C46_new_then_populate_fails"
   ],
   "note": "Soundness for every satisfying row and completeness of populate for the 32- and 64-bit multipliers over every tower with a generator of the double width field. C46_square_not_populated: squaring cannot be populated. C46_new_then_populate_fails: the call the documentation of new asks for leaves the inputs unfilled."
  },
  {
   "property": "C47",
   "status": "proved",
   "theorems": [
    "Verif.M3.C47_twos_complement",
    "Verif.M3.C47_sign_converter"
   ],
   "note": "Soundness and completeness of the gadgets that negate a number and that negate it according to a bit, for every width and every input columns: every satisfying row has the negation modulo 2^n, and the populated row satisfies the constraints."
  },
  {
   "property": "C48",
   "status": "partial",
   "theorems": [
    "Verif.M3.C48_div_ss_partial",
    "Verif.M3.C48_div_ss_unsound",
    "Verif.M3.C48_div_ss_incomplete",
    "Verif.M3.C48_div_uu_partial",
    "Verif.M3.C48_div_uu_unsound",
    "Verif.M3.C48_mul_ss_with_input_partial",
    "Verif.M3.C48_mul_ss_new_partial",
    "Verif.M3.C48_mul_ss_unsound",
    "Verif.M3.C48_mul_su_partial",
    "Verif.M3.C48_mul_su_unsound"
   ],
   "note": "Multipliers: constructors do not panic, populated witness satisfies the constraints with the signed product; only the 33 low bits of the output are forced when a factor is negative, because the subtractors do not constrain their borrows, and the soundness part of the claim is refuted (C48_mul_ss_unsound, C48_mul_su_unsound). DivUU32 accepts exactly p = q*d + r or q*d + r + 1 with q != 0 (C48_div_uu_partial), which is unsound (C48_div_uu_unsound) but complete. DivSS32 accepts exactly the rows described in C48_div_ss_partial; it is unsound (the first carry of its adder is free, C48_div_ss_unsound) and incomplete (negative dividend with remainder zero, C48_div_ss_incomplete)."
  },
  {
   "property": "C49",
   "status": "proved",
   "theorems": [
    "Verif.M3.Emulate.C49_balanced",
    "Verif.M3.Emulate.C49_report"
   ],
   "note": "The channel of trace emulation after any history of pushes and pulls: it balances just when every value was pushed as often as pulled, and a report names exactly the values that do not balance with the right net count."
  },
  {
   "property": "C50",
   "status": "partial",
   "theorems": [
    "Verif.M3.C50_bitand_table",
    "Verif.M3.C50_incr_table",
    "Verif.M3.C50_lookup_sound",
    "Verif.M3.C50_bitand_sound",
    "Verif.M3.C50_incr_sound",
    "Verif.M3.C50_tally",
    "Verif.M3.C50_tally_total",
    "Verif.M3.C50_lookup_complete",
    "Verif.M3.C50_tally_ignores_multiplicity",
    "Verif.M3.C50_bitand_populate_partial",
    "Verif.M3.C50_bitand_populate_wide",
    "Verif.M3.C50_incr_populate",
    "Verif.M3.C50_bitand_complete",
    "Verif.M3.C50_incr_complete"
   ],
   "note": "Both lookup tables are bijective and their circuits give the entries; any balanced system reads only entries, so the gadgets compute AND and increment for every witness; tally counts the reads and the filled table balances all channels. Partial: BitAnd::populate is right for one value per row only; C50_bitand_populate_wide proves that with more it leaves values unfilled. Negative: tally ignores multiplicities (C50_tally_ignores_multiplicity) and panics on selectors (C50_tally_total)."
  },
  {
   "property": "C51",
   "status": "proved",
   "theorems": [
    "Verif.Transcript.C51_binding",
    "Verif.Transcript.C51_empty_sample_ambiguous"
   ],
   "note": "Reduction to an explicit hash collision. Samples of zero bytes are excluded; C51_empty_sample_ambiguous shows why."
  },
  {
   "property": "C52",
   "status": "partial",
   "theorems": [
    "Verif.Sumcheck.C52_prebatched_soundness_partial",
    "Verif.Sumcheck.C52_soundness_partial",
    "Verif.Sumcheck.C52_completeness_partial",
    "Verif.Sumcheck.C52_construct",
    "Verif.Sumcheck.C52_finish",
    "Verif.Sumcheck.C52_receive_refused",
    "Verif.Sumcheck.C52_constant_unsound"
   ],
   "note": "Soundness and completeness for claims where one of the largest has degree at least 1; C52_constant_unsound shows the constant case fails. Provers are represented by their documented contract (Honest)."
  },
  {
   "property": "C53",
   "status": "proved",
   "theorems": [
    "Verif.Piop.C53_grouped",
    "Verif.Piop.C53_unsorted",
    "Verif.Piop.C53_mismatch",
    "Verif.Piop.C53_too_many_vars_panics",
    "Verif.Piop.C53_large_transparent_panics"
   ],
   "note": "Whole property; with the two panics for claims or transparents larger than every committed polynomial."
  },
  {
   "property": "C54",
   "status": "proved",
   "theorems": [
    "Verif.M3.C54_committed",
    "Verif.M3.C54_selected",
    "Verif.M3.C54_selected_block",
    "Verif.M3.C54_selected_block_unchecked",
    "Verif.M3.C54_zero_pad",
    "Verif.M3.C54_zero_pad_upcast",
    "Verif.M3.C54_constant",
    "Verif.M3.C54_packed",
    "Verif.M3.C54_shifted",
    "Verif.M3.C54_static_exp",
    "Verif.M3.C54_dynamic_exp",
    "Verif.M3.C54_computed",
    "Verif.M3.C54_assertions"
   ],
   "note": "One theorem per builder method. C54_selected_block_unchecked: add_selected_block does not check its index (finding). The field conditions of constants are hypotheses (they follow from the Rust types). Compilation of columns to oracles is stated by the specification of tables (SpecTable)."
  },
  {
   "property": "C55",
   "status": "proved",
   "theorems": [
    "Verif.Sumcheck.C55_claim_new",
    "Verif.Sumcheck.C55_reduce",
    "Verif.Sumcheck.C55_outputs",
    "Verif.Sumcheck.C55_soundness",
    "Verif.Sumcheck.C55_completeness"
   ],
   "note": "Composed with the front-loaded batch verifier (C52). Claims of different sizes only when the last variable is bound first, the only way the code uses them; the code does not check this."
  },
  {
   "property": "C56",
   "status": "proved",
   "theorems": [
    "Verif.Gkr.C56_soundness",
    "Verif.Gkr.C56_completeness",
    "Verif.Gkr.C56_builder_exists",
    "Verif.Gkr.C56_prover_refuses",
    "Verif.Gkr.C56_index_composition"
   ],
   "note": "The sumcheck prover of each layer (EqIndSumcheckProverBuilder) is a parameter, assumed to follow the SumcheckProver documentation; C56_builder_exists shows the assumption can be met."
  },
  {
   "property": "C57",
   "status": "proved",
   "theorems": [
    "Verif.Sumcheck.C57_claim_new",
    "Verif.Sumcheck.C57_soundness",
    "Verif.Sumcheck.C57_completeness",
    "Verif.Sumcheck.C57_honest_exists",
    "Verif.Sumcheck.C57_builder_exists",
    "Verif.Sumcheck.C57_eval_claims"
   ],
   "note": "The provers of single claims (ZerocheckProver, RegularSumcheckProver) are parameters, assumed to follow their documentation; C57_honest_exists and C57_builder_exists show the assumptions can be met."
  },
  {
   "property": "C58",
   "status": "proved",
   "theorems": [
    "Verif.Fri.C58_completeness",
    "Verif.Fri.C58_first_arity_too_small",
    "Verif.Fri.C58_first_arity_zero",
    "Verif.Fri.C58_constant_arity",
    "Verif.Fri.C58_fast_fallback_panics"
   ],
   "note": "For packed folds the arities are at least the packing width (C16). The number of queries is a parameter; its floating-point estimate is not modelled."
  },
  {
   "property": "C59",
   "status": "proved",
   "theorems": [
    "Verif.Fri.C59_consistency",
    "Verif.Fri.C59_count"
   ],
   "note": "Consistency with the committed words at the queries and its counting corollary. That mostly consistent words are close to codewords (proximity gaps) is not part of the property and not proved."
  },
  {
   "property": "C60",
   "status": "proved",
   "theorems": [
    "Verif.RingSwitch.C60_system",
    "Verif.RingSwitch.C60_soundness",
    "Verif.RingSwitch.C60_completeness",
    "Verif.RingSwitch.C60_fits",
    "Verif.RingSwitch.C60_transparent",
    "Verif.RingSwitch.C60_levels",
    "Verif.RingSwitch.C60_stale_memory",
    "Verif.RingSwitch.C60_reported_kappa"
   ],
   "note": "Over BinaryField128b. Completeness assumes the memory given to the CPU layer is zeroed (C60_stale_memory shows why); C60_fits assumes points of the length of their oracles, which the code does not check."
  },
  {
   "property": "C61",
   "status": "proved",
   "theorems": [
    "Verif.Gkr.C61_soundness",
    "Verif.Gkr.C61_shape",
    "Verif.Gkr.C61_completeness",
    "Verif.Gkr.C61_builder_exists",
    "Verif.Gkr.C61_static_witness",
    "Verif.Gkr.C61_dynamic_witness",
    "Verif.Gkr.C61_eval_claims",
    "Verif.Gkr.C61_construct",
    "Verif.Gkr.C61_base_one",
    "Verif.Gkr.C61_no_bits",
    "Verif.Gkr.C61_mixed_no_bits"
   ],
   "note": "Static bases other than one with at most 64 bits (C61_base_one and C37_wide_panics show why). Completeness is for sumcheck provers that follow the documentation of SumcheckProver, which exist (C61_builder_exists)."
  },
  {
   "property": "C62",
   "status": "proved",
   "theorems": [
    "Verif.Piop.C62_soundness",
    "Verif.Piop.C62_completeness",
    "Verif.Piop.C62_no_committed_panics"
   ],
   "note": "FRI is a parameter: soundness holds for any FRI verifier and is stated as acceptance with a correct final value; completeness assumes FRI prover and verifier fit together (FriComplete)."
  },
  {
   "property": "C63",
   "status": "proved",
   "theorems": [
    "Verif.Sumcheck.C63_honest",
    "Verif.Sumcheck.C63_finish_any_coeff",
    "Verif.Sumcheck.C63_refuses",
    "Verif.Sumcheck.C63_execute_no_vars_panics"
   ],
   "note": "Characteristic two, as the prover adds where it means to subtract."
  },
  {
   "property": "C64",
   "status": "proved",
   "theorems": [
    "Verif.Piop.C64_reverse_index_bits",
    "Verif.Piop.C64_reverse_index_bits_twice",
    "Verif.Piop.C64_reverse_index_bits_panics",
    "Verif.Piop.C64_commit_message",
    "Verif.Piop.C64_commit_unsorted",
    "Verif.Piop.C64_commit_too_long",
    "Verif.Piop.C64_commit_missing",
    "Verif.Piop.C64_commit_lengths"
   ],
   "note": "The encoding and the Merkle tree of the message are C58."
  },
  {
   "property": "C65",
   "status": "partial",
   "theorems": [
    "Verif.Arith.C65_evaluate_partial",
    "Verif.Arith.C65_with_n_vars_partial",
    "Verif.Arith.C65_batch_evaluate_partial",
    "Verif.Arith.C65_no_sharing",
    "Verif.Arith.C65_shared_accumulator_wrong",
    "Verif.Arith.C65_shared_odd_power_wrong",
    "Verif.Arith.C65_power_zero_panics"
   ],
   "note": "Partial because the code violates the claim (see C65_shared_accumulator_wrong, C65_shared_odd_power_wrong): the proved theorems ask that the optimized circuit is Safe, i.e. exponents at least two, and odd powers and computed values to which a product is added are used in one place only; C65_no_sharing shows this for every circuit without shared computed values. Batch evaluation also asks that no product of two constants is left after optimization."
  },
  {
   "property": "C66",
   "status": "proved",
   "theorems": [
    "Verif.Sumcheck.C66_honest",
    "Verif.Sumcheck.C66_finish_any_coeff",
    "Verif.Sumcheck.C66_out_of_turn",
    "Verif.Sumcheck.C66_no_variables_panics",
    "Verif.Sumcheck.C66_constant_never_succeeds",
    "Verif.Sumcheck.C66_constant_accepted"
   ],
   "note": "Compositions of degree zero are excluded because the prover panics on them (C66_constant_never_succeeds). Parallelism is modelled as the sum over the subcubes in order; the scratch buffers hold arbitrary values where the code does not fill them."
  },
  {
   "property": "C67",
   "status": "proved",
   "theorems": [
    "Verif.Sumcheck.C67_honest",
    "Verif.Sumcheck.C67_with_switchover",
    "Verif.Sumcheck.C67_without_switchover",
    "Verif.Sumcheck.C67_with_const_suffixes",
    "Verif.Sumcheck.C67_refuses",
    "Verif.Sumcheck.C67_coordinate_one",
    "Verif.Sumcheck.C67_empty_suffix"
   ],
   "note": "Characteristic 2 is assumed, as everywhere in the code base: determine_const_eval_suffixes takes sv + sv for the difference of two equal values. Points with a coordinate one are excluded because the prover is wrong on them (C67_coordinate_one); nested exponents whose product reaches 2^64 are excluded because optimize_constants overflows."
  },
  {
   "property": "C68",
   "status": "proved",
   "theorems": [
    "Verif.M3.C68_constants",
    "Verif.M3.C68_sha256",
    "Verif.M3.C68_stale_row",
    "Verif.M3.C68_missing_block",
    "Verif.M3.C68_too_many_blocks"
   ],
   "note": "Completeness is for as many blocks as rows and zeroed memory, because populate fails otherwise (C68_stale_row, C68_missing_block). The gadget always starts from the initial value: it hashes one block, and blocks cannot be chained."
  },
  {
   "property": "C69",
   "status": "proved",
   "theorems": [
    "Verif.Field.Polyval.C69_field",
    "Verif.Field.Polyval.C69_polynomials",
    "Verif.Field.Polyval.C69_dot",
    "Verif.Field.Polyval.C69_canonical",
    "Verif.Field.Polyval.C69_aes",
    "Verif.Field.Polyval.C69_generator",
    "Verif.Field.Polyval.C69_bits"
   ],
   "note": "Portable arithmetic; the versions with carry-less multiplication instructions are not modelled."
  },
  {
   "property": "C70",
   "status": "partial",
   "theorems": [
    "Verif.Field.Polyval.C70_from_bases_partial",
    "Verif.Field.Polyval.C70_from_bases_fails",
    "Verif.Field.Polyval.C70_iter_bases_not_coordinates",
    "Verif.Field.Polyval.C70_basis"
   ],
   "note": "The code violates the claim: C70_iter_bases_not_coordinates and C70_from_bases_fails. Proved: recombining the bits of the polynomial form with stride 7 gives the element, and basis(i) is x^i with a checked index."
  },
  {
   "property": "C71",
   "status": "proved",
   "theorems": [
    "Verif.Sumcheck.C71_honest",
    "Verif.Sumcheck.C71_rounds",
    "Verif.Sumcheck.C71_device_memory",
    "Verif.Sumcheck.C71_new",
    "Verif.Sumcheck.C71_refuses",
    "Verif.Sumcheck.C71_panics",
    "Verif.Sumcheck.C71_no_sums",
    "Verif.Sumcheck.C71_coordinate_one"
   ],
   "note": "Characteristic 2 is assumed, as in the code base. The memory claim is false of the code when the expanded indicator is given (C71_device_memory with C71_rounds); points with a coordinate one and claims without sums are excluded because the prover is wrong on them (C71_coordinate_one, C71_no_sums)."
  },
  {
   "property": "C72",
   "status": "proved",
   "theorems": [
    "Verif.M3.Keccak.C72_keccakf",
    "Verif.M3.Keccak.C72_stale_row",
    "Verif.M3.Keccak.C72_too_many_states"
   ],
   "note": "The new cells of a row are assumed to be zero before populate, as the witness allocator gives them; C72_stale_row shows the assumption is needed."
  },
  {
   "property": "C73",
   "status": "partial",
   "theorems": [
    "Verif.Hash.C73_hasher",
    "Verif.Hash.C73_compress",
    "Verif.Hash.C73_output_length",
    "Verif.Hash.C73_padding_injective",
    "Verif.Hash.C73_padding_blocks",
    "Verif.Hash.C73_sliced",
    "Verif.Hash.C73_sliced_reset",
    "Verif.Hash.C73_parallel",
    "Verif.Hash.C73_parallel_rest_partial",
    "Verif.Hash.C73_parallel_panics",
    "Verif.Hash.C73_parallel_digest",
    "Verif.Hash.C73_buffer",
    "Verif.Hash.C73_hash_serialize",
    "Verif.Hash.C73_vision"
   ],
   "note": "All parts hold except the parallel digest of a number of strings that is not a multiple of 32: C73_parallel_panics shows a panic that depends on the schedule, C73_parallel_rest_partial says when there is none. The Vision permutation is a parameter."
  },
  {
   "property": "C74",
   "status": "proved",
   "theorems": [
    "Verif.NTT.C74_interpolate",
    "Verif.NTT.C74_full_domain",
    "Verif.NTT.C74_errors",
    "Verif.NTT.C74_other_points"
   ],
   "note": "The points are those of the NTT's evaluation domain of dimension coset_bits + ell; C74_full_domain says when they are the ones in the documentation, C74_other_points that they need not be."
  },
  {
   "property": "C75",
   "status": "partial",
   "theorems": [
    "Verif.Compute.Kernel.C75_chunks",
    "Verif.Compute.Kernel.C75_accumulate_partial",
    "Verif.Compute.Kernel.C75_thread_count",
    "Verif.Compute.Kernel.C75_map_partial",
    "Verif.Compute.Kernel.C75_bad_mappings",
    "Verif.Compute.Kernel.C75_scratch_not_zero",
    "Verif.Compute.Kernel.C75_map_drops_errors"
   ],
   "note": "Missing from the full claim: scratchpads are not zeroed (C75_scratch_not_zero), so the theorems are for kernels that do not depend on their initial contents; the CPU layer's map_kernels drops errors (C75_map_drops_errors)."
  },
  {
   "property": "C76",
   "status": "partial",
   "theorems": [
    "Verif.Compute.Ops.C76_inner_product",
    "Verif.Compute.Ops.C76_fold_left",
    "Verif.Compute.Ops.C76_fold_right",
    "Verif.Compute.Ops.C76_fold_panics",
    "Verif.Compute.Ops.C76_extrapolate_line",
    "Verif.Compute.Ops.C76_pairwise_product",
    "Verif.Compute.Ops.C76_compute_composite",
    "Verif.Compute.Ops.C76_fast_composite_partial",
    "Verif.Compute.Ops.C76_composite_panics",
    "Verif.Compute.Ops.C76_sum_composition",
    "Verif.Compute.Ops.C76_add",
    "Verif.Compute.Ops.C76_map",
    "Verif.Compute.Ops.C76_launch"
   ],
   "note": "Missing from the full claim: the fast compute_composite panics for some numbers of threads and lengths (C76_composite_panics), so its theorem has conditions on them; the folds panic instead of returning an error on some shapes (C76_fold_panics). Folds and inner products of the fast layer are not modelled."
  },
  {
   "property": "C77",
   "status": "partial",
   "theorems": [
    "Verif.M3.Merkle.C77_tree",
    "Verif.M3.Merkle.C77_verify_path",
    "Verif.M3.Merkle.C77_validate_sound",
    "Verif.M3.Merkle.C77_compress",
    "Verif.M3.Merkle.C77_tables_sound_partial",
    "Verif.M3.Merkle.C77_depth_wraps",
    "Verif.M3.Merkle.C77_generate",
    "Verif.M3.Merkle.C77_generate_mixed_lengths",
    "Verif.M3.Merkle.C77_tables_complete"
   ],
   "note": "Missing from the full claim: soundness of the tables is proved for witnesses in which no depth overflows a byte; without that it is false (C77_depth_wraps). The permutation gadget is a parameter here; C80 puts that of Groestl in its place."
  },
  {
   "property": "C78",
   "status": "partial",
   "theorems": [
    "Verif.Hash.Groestl.C78_permutations",
    "Verif.Hash.Groestl.C78_compress",
    "Verif.Hash.Groestl.C78_state_bytes",
    "Verif.Hash.Groestl.C78_compress_digests",
    "Verif.Hash.Groestl.C78_hasher",
    "Verif.Hash.Groestl.C78_digest",
    "Verif.Hash.Groestl.C78_output_length",
    "Verif.Hash.Groestl.C78_padding_blocks",
    "Verif.Hash.Groestl.C78_padding_injective",
    "Verif.Hash.Groestl.C78_multi",
    "Verif.Hash.Groestl.C78_multi_panics",
    "Verif.Hash.Groestl.C78_parallel",
    "Verif.Hash.Groestl.C78_multi_reset_partial",
    "Verif.Hash.Groestl.C78_multi_reset"
   ],
   "note": "Missing from the full claim: a hasher of four strings that is reset after it has read or finalized anything gives wrong digests (C78_multi_reset). The vector instructions of the hasher of four strings are not modelled: it is over any compression function. The buffer of the crates digest and block-buffer is modelled from its documentation."
  },
  {
   "property": "C79",
   "status": "proved",
   "theorems": [
    "Verif.M3.Groestl.C79_represents",
    "Verif.M3.Groestl.C79_sound",
    "Verif.M3.Groestl.C79_complete",
    "Verif.M3.Groestl.C79_sbox",
    "Verif.M3.Groestl.C79_unique",
    "Verif.M3.Groestl.C79_bytes",
    "Verif.M3.Groestl.C79_read_state_outs"
   ],
   "note": "C79_read_state_outs records that the tests' reader stops after log_size rows; it is not part of the claim."
  },
  {
   "property": "C80",
   "status": "partial",
   "theorems": [
    "Verif.M3.Merkle.C80_compress",
    "Verif.M3.Merkle.C80_row",
    "Verif.M3.Merkle.C80_sound_partial",
    "Verif.M3.Merkle.C80_complete"
   ],
   "note": "C80_sound_partial needs that no depth is 255, which the constraints do not exclude (C77_depth_wraps)."
  },
  {
   "property": "C81",
   "status": "proved",
   "theorems": [
    "Verif.Containers.C81_map",
    "Verif.Containers.C81_iter",
    "Verif.Containers.C81_from_iter"
   ],
   "note": ""
  },
  {
   "property": "C82",
   "status": "proved",
   "theorems": [
    "Verif.Containers.C82_read_write",
    "Verif.Containers.C82_new",
    "Verif.Containers.C82_rows",
    "Verif.Containers.C82_reshape",
    "Verif.Containers.C82_sum_rows",
    "Verif.Containers.C82_out_of_shape",
    "Verif.Containers.C82_subrange",
    "Verif.Containers.C82_subrange_nested"
   ],
   "note": "C82_out_of_shape records that a column index out of the shape is not rejected; it is not part of the claim."
  },
  {
   "property": "C83",
   "status": "partial",
   "theorems": [
    "Verif.RowsBatch.C83_rows",
    "Verif.RowsBatch.C83_default_partial",
    "Verif.RowsBatch.C83_index_partial",
    "Verif.RowsBatch.C83_index_of",
    "Verif.RowsBatch.C83_offset_ignored"
   ],
   "note": "The evaluation claim is proved for batches that start at the first column; C83_offset_ignored proves that it is false for ranges of columns with an offset."
  },
  {
   "property": "C84",
   "status": "partial",
   "theorems": [
    "Verif.TransparentMle.C84_roundtrip_partial",
    "Verif.TransparentMle.C84_small_field_changed",
    "Verif.TransparentMle.C84_few_values_changed"
   ],
   "note": "The round trip is proved for values in the field of 128 bits when there are enough of them to fill an underlier; C84_small_field_changed and C84_few_values_changed prove that it fails otherwise. Polynomials made by from_values_and_mu with fewer variables than an underlier has are not covered."
  },
  {
   "property": "C85",
   "status": "proved",
   "theorems": [
    "Verif.Registry.C85_roundtrip",
    "Verif.Registry.C85_refused",
    "Verif.Registry.C85_order",
    "Verif.Registry.C85_circuit_not_read"
   ],
   "note": "C85_circuit_not_read proves that circuits used as transparent polynomials, which are written without a name, are not read back; the claim is about the types that write one."
  },
  {
   "property": "C86",
   "status": "partial",
   "theorems": [
    "Verif.Composite.C86_adapter",
    "Verif.Composite.C86_new",
    "Verif.Composite.C86_evaluate",
    "Verif.Composite.C86_partial_low"
   ],
   "note": "For a composite without multilinears, sizes that do not fit are not errors: evaluation accepts them and C86_partial_low shows the panic."
  }
 ]
}