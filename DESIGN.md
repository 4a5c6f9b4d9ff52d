# Formal model of binius: design

The code in `/repo` (IrreducibleOSS/binius, Rust) is modelled by hand in Lean 4, function by
function, and the properties of `properties.jsonl` are proved about that model.

## Trusted base

* Lean 4.33.0's kernel, with the axioms `propext`, `Classical.choice`, `Quot.sound` only.
  No axiom of our own, no `sorry`, no `native_decide`, no `bv_decide`.
* The reading of the Rust source. Every definition of the model cites the file and the lines it
  transcribes, and says where it simplifies.
* General simplifications, used everywhere unless a definition says otherwise:
  * `usize`/`u64` values that are only used as indices or sizes are `Nat`; where wrap-around,
    truncation or an overflow panic is part of the behaviour it is modelled explicitly.
  * A panic (`assert!`, slice index, `unwrap`, subtraction overflow) is the value `none` or an
    `Except` error, whenever the property depends on it.
  * Parallel iterators are modelled by a sequential map, except in the properties that are about
    schedules.
  * Code generic over a field is modelled over an arbitrary Lean `Field` (with characteristic two
    where used); the concrete binary tower is modelled separately and proved to be such a field.
* Not modelled: SIMD back-ends (`arch/x86_64`, `arch/aarch64`), concrete hash functions other than
  Groestl-256 and those of the gadgets (they are parameters), memory layout and unsafe casts, tracing,
  performance, random number generation.

## Layout

* `lean/Verif/<Area>/Model*.lean`   transcription of the code (definitions only)
* `lean/Verif/<Area>/Spec*.lean`    small independent specifications, when not expressible by Mathlib notions
* `lean/Verif/<Area>/Lemmas*.lean`  helper lemmas
* `lean/Verif/<Area>/Props*.lean`   the property theorems, each with a non-vacuity `example`

## Plan per property

| id | model | proof |
|----|-------|-------|
| C01, C02 | byte codec combinators as in `serialization.rs` and the derive macro; buffer = byte list | round-trip law with arbitrary suffix by structural induction on values of a universe of types; strict prefixes fail |
| C03 | `stable_sort`, `unsort` on lists (merge sort = Rust's stable sort, by specification) | permutation, sortedness, stability; unsort is left inverse |
| C04 | union-find with path compression and union by rank on arrays | invariant by induction on unions: roots represent the equivalence closure of the groups |
| C05 | index arithmetic of strided views | injectivity of the (view, row, col) -> cell map |
| C06 | recursive tower `T(n+1) = T(n) x T(n)` with the code's mul/square/invert/mul_alpha | induction on the level; trace argument for irreducibility; `Field` instance at every level |
| C07 | underlier as bit vector of width 2^L, packed algorithms with masks | induction on tower height, bit extensionality |
| C08 | tables as literal arrays | complete finite check by the kernel, lifted to the tower definition |
| C09 | embeddings, `try_from`, bases | induction on levels |
| C10 | constants of `binary_field.rs` | kernel computation of g^((2^n-1)/p) for each prime factor p, `orderOf` criterion |
| C11 | `interleave`, `square_transpose` loops on matrices of scalars | loop invariant on index bits |
| C12 | `pow` loop | induction on bits |
| C13 | NTT as butterflies over twiddles of subspace polynomials | induction on the number of rounds; novel basis as specification |
| C14 | the two-phase schedule of the multithreaded code | butterflies of a layer commute; equality with the sequential order |
| C15, C16 | encode = pad + NTT; fold_pair = inverse butterfly + line extrapolation | C13 and linear algebra |
| C17, C18 | tensor expansion loop, evaluate, folds | induction on the number of variables |
| C19 | Lagrange/barycentric code | Mathlib `Lagrange` |
| C20 | Gauss-Jordan elimination loop | row-operation invariant |
| C21 | circuits as step lists | simulation: value of every step preserved |
| C22 | the piecewise evaluation loop | induction on levels |
| C23 | `BinarySubspace` | xor linearity |
| C24, C25 | flattened tree arrays, generic hash | invariant of the build loop; collision extraction by induction on the branch |
| C26, C27 | hasher challenger as state machine with generic hash | bisimulation prover/verifier; chunking by induction on bytes |
| C28, C29 | round proof recovery and verifier fold | polynomial identity; chain of claims |
| C52 | front-loaded BatchVerifier, BatchProver | soundness error of the verifier tree; prover and verifier in step |
| C30, C31 | evaluate functions | induction on variables against MLE of the table |
| C32, C33 | multiplicity maps, product check | invariant: map = signed count; polynomial identity |
| C34, C35 | oracle DAG, recursive verifier | induction on fuel/DAG order with claim-dedup invariant |
| C36, C37 | layer construction | induction on layers |
| C38 | two-pass index | counting argument |
| C39 | allocator state machine | invariant over histories |
| C40 | size check | decision logic |
| C41-C48 | gadget constraints as equations over bits (columns are functions of the row) | carry-chain induction; group order of the generator for multipliers |
| C49, C50 | channel map; lookup encodings | history induction; bijection on finite tables |
| C53 | `make_sumcheck_claim_descs` on lists of claims | induction on the claims; every polynomial ends up in the group of its size |
| C54 | `TableBuilder` methods, with the meaning the compiled constraint system gives to each column definition | the rows that satisfy the extended table are the rows of the old one that satisfy the documented equation |
| C55 | `eq_ind.rs`, composed with the front-loaded batch verifier of C52 | reduction to C52 through the evaluation of the equality indicator |
| C56 | `gkr_gpa` verifier and prover, layer by layer on the eq-ind sumcheck of C55; the sumcheck prover of a layer is a parameter assumed honest | errors of the layers add up; loop invariant: a finished or a pending claim is false. Completeness: both loops run in step |
| C57 | zerocheck verifier and batch prover: univariate round over a binary subspace, eq-ind sumcheck of C55, univariatizing reduction; `make_zerocheck_eval_claims`. The provers of the single claims are a parameter assumed honest | soundness: a non-vanishing composite survives the challenges (multilinear Schwartz-Zippel), the univariate round by the degree of the Lagrange interpolant, then C55 and C29. Completeness: both sides run in step |
| C58 | FRI parameters, commitment, folder, query prover and verifier; `fri_fold` of both compute layers; the decommitment as a list of field elements and digests; Merkle trees of C24 | folding of words is specified pointwise (`SpecFri`); each algorithm computes it, codewords fold to codewords (C16), prover and verifier run in step |
| C59 | the same verifier, against committed words that are not codewords | inversion of an accepting run; each opening gives the committed coset or a collision (C25). Proximity (that consistent words are near codewords) is not proved |
| C60 | tensor algebra, claim system, ring-switch verifier and prover, `tensor_expand` and `fold_right` of the CPU layer; coordinates over the subfields as functions with laws, met by the tower of C12 | the tensor element received must be the true one but for the mixing challenges, its fold the true one but for the row challenges (Schwartz-Zippel); prover and verifier run in step |
| C61 | `batch_verify` and `batch_prove` of gkr_exp with their grouping by points, the claims about oracles | each layer is a batched zerocheck of C52 with the equality indicator; a false claim of a layer leaves a false claim of the next or of an exponent bit but for few challenges, by induction over the layers; prover and verifier run in step |
| C62 | `piop::verify` and `piop::prove` with the interleaving of the sumcheck rounds and the commitments of FRI; FRI itself is a parameter of the model (it is C58) | a wrong evaluation of a committed polynomial stays a wrong residue of the concatenation but for one challenge per round, so the last check fails unless FRI ends in a wrong value; prover and verifier run in step, the commitments falling in the same rounds |
| C63 | `BivariateSumcheckProver` as a state machine over tables | invariant by induction over the rounds: the tables are the folded ones and the batched sum is the sum of the products of the folded tables |
| C64 | `commit` up to the message handed to the encoder, `merge_multilins` with its parallel pieces in sequence, `reverse_index_bits` with 64-bit reversal | the swaps are an involution by an invariant over the loop; the pieces are written end to end by induction over the list, with the small ones padded inside a packed element |
| C65 | `convert_circuit_steps` with its two-way cache, the two interpreters with uninitialised slots; packed values as a ring with an embedding of the constants | invariant over the recursion: which slot holds the value of which step, which steps were compiled, and that a value that is overwritten, or cached wrongly, has no other user. Partial: the code miscompiles some circuits with shared subexpressions, so the theorem asks that odd powers and accumulators are used once (always so without sharing) and that exponents are at least two |
| C66 | `ProverState` with transparent and folded multilinears, tensor query, constant suffixes, the folding and the round evaluation of the CPU backend subcube by subcube with reused buffers, `RegularSumcheckProver` | invariant over the rounds: each multilinear, in either representation, stands for the table folded by the challenges so far; the round polynomial of a composition as a univariate polynomial built line by line, its value at infinity being its leading coefficient; interpolation by C19, batching by powers |
| C67 | `EqIndSumcheckProverBuilder` with all its options, the determination of constant suffixes of the composites by substitution and constant folding (C21), `EqIndSumcheckProver` on the `ProverState` of C66, `fold_partial_eq_ind` | invariant over the rounds: the buffer holds the indicator of the remaining variables, the prefix the indicator of the bound ones, a declared suffix of a composite is one of its lines; the sum of the indicator over a suffix is the step-up polynomial of C30; the product with the linear factor coefficient by coefficient |
| C68 | `Sha256::new` and `populate` with `Round`, the four functions on bits, `compute_message_schedule`, and the constant tables, on the tables of C41 | each part is a stage: it extends the table, is sound, and its `populate` completes a row; the stages compose; the schedule by strong induction; the constants by computing the roots in the kernel over the whole tables, and uniqueness of the first bits of a root |
| C69 | `montgomery_multiply` with `bmul64` and `rev64`, `new`, `from_montgomery`, `pow_2_2_n`, `invert_or_zero` with the nibble tables, the four linear transformations, conversion of bits | the combs of `bmul64` by a bound on the carries; reduction as polynomial identities evaluated at a root; the isomorphism to the tower of C01 by showing that the root and its powers are the columns of the transformation (kernel check of all columns); the tables by checking every entry; inversion as the power `2^128 - 2` |
| C70 | `basis_checked`, `from_bases_sparse`, `from_bases`, `iter_bases` | the claim is false; the negations by computation, the partial theorem by recombining bits |
| C71 | `BivariateMLEcheckProver` as a state machine over tables with the memory it allocates | the invariant of C67 for products: the tables are the folded ones, the buffer is the indicator of the remaining coordinates but one, the prefix the indicator of the bound ones; value at zero from the claim |
| C72 | the stacked `Keccakf` gadget: traces, columns, constraints, `populate` | the constraints of a track say its round trace; the linking constraints chain the eight tracks into 24 rounds; the rounds refine the bitwise step mappings of FIPS 202; `populate` writes the trace and nothing else |
| C73 | the Vision hashers (one and 32 rows), `ParallelMultidigestImpl`, `ParallelDigest`, `HashBuffer`, `hash_serialize`; the permutation is a parameter | invariant: state and buffer stand for the string read so far; every operation keeps it; the schedule is a function that tells at which chunk a run starts |
| C74 | `OddInterpolate` and `novel_vandermonde` over the single-threaded NTT | the entries of the matrix are values of the novel basis; a polynomial of degree less than n with n roots is zero, so the matrix is regular; the novel basis splits along cosets |
| C75 | `KernelMemMap`, and `process_kernels_chunks`, `accumulate_kernels` and `map_kernels` of both layers, with scratchpads from the bump allocator of C71; a kernel is a function of its buffers, a schedule an order of chunks with a thread each, a reduction any tree | invariant over the kernels run so far: each chunk of memory is as the kernel left it or as before; the total of results does not depend on the tree; halving chunks does not change the total |
| C76 | `inner_product`, `fold_left`, `fold_right`, `extrapolate_line`, `compute_composite`, `pairwise_product_reduce`, `sum_composition_evals`, `add` and `add_assign` of the CPU layer; `compute_composite`, `sum_composition_evals` and `map` of the fast layer; a composition is a function of a point, evaluated lane by lane as C65 proves | each operation equals a sum or product over indices given in a separate specification; batches of packed elements are summed by induction on their number; rounds of products commute with taking aligned runs; a launch of sums of compositions splits in halves, so that C75_thread_count applies |
| C77 | `MerkleTree`, `MerkleTreeTrace::generate` and `validate`, the rows, channels, boundaries and filling of `MerkleTreeCS` with the increment gadget as C50 proves it; the permutation gadget is a parameter that forces its output (C80 puts in that of Groestl) | soundness by induction on the depth: a pushed token is pulled by a row, whose parent is pushed one level up; completeness by an invariant on the map of visited nodes, from which pushes and pulls are the same set without repetitions |
| C78 | the table, rounds, permutations and compression of `compress512.rs`, `GroestlShortVarCore` with the documented buffer of the crate `digest`, `Groestl256ByteCompression`, and `Groestl256Multi` over any compression function, whose vector instructions are not modelled | the specification is that of the Groestl document (S-box as inversion and affine map, circulant MixBytes); all 2048 entries of the table are compared with it by the kernel, rounds by linearity of bytes under xor; the hashers by an invariant on the blocks read |
| C79 | one row of the Groestl permutation gadget: committed bits, computed, shifted and constant columns and zero constraints of `SBox`, `PermutationRound` and `Permutation`, and what `populate` writes; elements of `B8` with the tower arithmetic of C01; the storage of columns is left to C35 | the two constraints force the inverse in the field; the conversion from the AES field is shown multiplicative (Horner's rule) and the converted affine map is compared on all bytes; rounds by linearity, ten rounds by induction |
| C80 | rows of `NodesTable` with the columns of the permutation gadget (C77 and C79 put together), and the compression of the trace over the portable permutation (C78) | C77 over the permutation that C79 forces; conversion of bytes and the layout of digests are shown to commute with the compression and with climbing a path |
| C81 | `SparseIndex` as the vector of options that it is, with its entries and iterators | refinement to partial maps, one operation at a time, by induction on the history |
| C82 | `Array2D` by its flat data and shape; sequences with unchecked accesses, where undefined behaviour is an error value, and subranges of them; no overflow of numbers | arithmetic of row-major positions; induction on rows |
| C83 | `RowsBatch`/`RowsBatchRef`, the default `batch_evaluate` and that of `IndexComposition` with its constructors; the evaluation at a point is any partial function | slices of lists, one column at a time |
| C84 | `MultilinearExtensionTransparent` as the elements of 128 bits of its packed values, for underliers of any size from 128 bits on; what is written is a list of elements (its bytes: C01) | the arm of the deserializer that is taken; digits of packed elements |
| C85 | the registry of deserializers as a partial map that is built from the entries in any order; `erased_serialize` and `deserialize` on the bytes of C01 | the registry by the deserializers with a name, by induction on the entries |
| C86 | `MultilinearComposite` and `CompositionScalarAdapter`, with the operations on single multilinears as C17 and C18 prove them (under their side conditions) and packed values by their lanes | list maps with errors; multilinear extensions at joined points |
| C51 | challenger hash chain | injectivity of the hashed messages by induction on the history, reduction to an explicit collision |

Deviations found while modelling are listed at the end of this file ("Findings"), each with the
theorem that proves the negation.

## What is modelled

* `utils`: serialization and its derive macro, sorting, graph components, strided views, the sparse index, two-dimensional arrays, subranges of sequences, `strict_log_2`.
* `field`: the recursive tower (all levels), packed portable arithmetic, table arithmetic, AES and tower embeddings,
  generators, transposition, `pow`, the POLYVAL field (portable version).
* `math`: tensor expansion, multilinear queries and extensions, folds, univariate domains, matrices, arithmetic circuits
  (construction, conversion, optimisation, linear form), piecewise multilinears, subspaces.
* `ntt`: twiddles, single- and multithreaded transforms, FRI folding, odd interpolation.
* `hash`: Groestl-256 (the portable permutations, the hasher, the compression of digests, the hasher of four strings), the Vision hashers over any permutation, parallel digests, hashing of serialized items; elsewhere a hash is a parameter. `core`: Reed-Solomon, Merkle trees, transcript and challenger, sumcheck verifier and regular
  batch prover, front-loaded batches, equality-indicator sumchecks, transparent polynomials, shift indicator, oracles, channel validation, the channel
  balance check of the verifier, evalcheck verifier, grand product and exponentiation witnesses, the grand
  product argument (verifier and prover, the layer sumcheck provers being a parameter), the batched zerocheck
  (verifier and batch prover, the provers of the single claims being a parameter), FRI (parameters, prover and
  verifier; not the estimate of the number of queries), ring switching, the batched exponentiation, the reduction of the polynomial commitment, its message and its bivariate sumcheck provers (with and without an equality indicator), the compilation and evaluation of compositions, the general sumcheck prover with its state and CPU backend, the sumcheck prover with an equality indicator, commit index, claim
  grouping, table sizes.
* `compute`, `fast_compute`: memory handles and the bump allocator, `fri_fold`, `tensor_expand` of the CPU layer, the launch of kernels on both layers, the other operations of the CPU executor, and `compute_composite`, `sum_composition_evals` and `map` of the fast one (its `pairwise_product_reduce` is `todo!()`).
* `m3`: table builder, all arithmetic gadgets (`add`, `sub`, `mul`, `div`, `barrel_shifter`), indexed lookups, the SHA-256, the stacked Keccak-f, the Groestl permutation and the Merkle tree gadgets, trace
  emulation.

Not modelled: provers other than those named, SIMD code (with it the permutations of Groestl other than the portable ones), the Vision permutation, the rest of the `compute` layers, `m3` hash gadgets other than these,
witness memory layout, command line and tracing code.

## Findings

Places where the code does not do what its documentation or its callers expect. Each is proved as a theorem about the
model, with a concrete witness where the property is an existence statement.

| theorem | finding |
|---------|---------|
| C01_large_enum_not_roundtrip | a derived enum with more than 256 variants does not round-trip |
| C01_oracleId_truncates | `OracleId` is serialized as `u32`, larger ids are truncated |
| C02_bool_malleable | every non-zero byte decodes to `true` |
| C05_wrapping_unsound | `without_stride` checks its length with a wrapping product |
| C08_isAesTower_always_true | `is_aes_tower` is true for every tower |
| C09_fromBasesSparse_overflow_unreported | `from_bases_sparse` accepts too many elements |
| C13_subspace_zero_panics, C13_get_subspace_eval_not_basis, C13_construct | `subspace(0)` panics; `get_subspace_eval` is not the evaluation on the basis; a dependent basis panics |
| C14_narrow_panics | multithreaded transform of fewer scalars than a packed element underflows |
| C15_short_message_wrong | messages shorter than a packed element are encoded wrongly |
| C16_narrow_batch_panics, C16_narrow_chunk_unwritten | `fold_interleaved` panics or leaves zeros for narrow input |
| C17_evaluate_panics | `evaluate` panics in `inner_product_par` for some packed lengths |
| C18_zero_pad_loses_values, C18_zero_pad_index_unchecked, C18_fold_left_lerp_suffix_lost, C18_fold_right_onebit_out_of_bounds | four defects of padding and folding |
| C21_optimize_overflow, C21_eval_cost_panics | nested powers overflow; cost of a zeroth power panics |
| C22_empty_panics | no polynomial panics |
| C23_get_checked_large | `get_checked` panics for large subspaces |
| C24_proof_size, C24_verify_total | `proof_size` differs from the proof written; `verify_opening` can panic |
| C26_sample_byte_panics, C26_debug_flags_differ, C26_sample_bits, C27_get_u8_panics | challenger defects |
| C28_empty_message | recovering a round proof from no coefficients |
| C29_constant_unsound, C29_constant_incomplete, C52_constant_unsound | constant compositions break sumcheck |
| C30_powers_table_wrong, C30_tower_basis | the tables of `Powers` and `TowerBasis` differ from their evaluation |
| C32_overflow_accepts_unbalanced, C32_overflow_panics, C32_constant_flush_panics, C32_no_channel_panics | channel validation |
| C33_boundaries_unchecked, C33_width_confusion | the verifier does not check boundary channels; trailing zeros are not distinguished |
| C34_subclaim_index_panics, C34_structured_panics, C34_zero_padded_refused | evalcheck panics; no claim about a padded oracle is acceptable |
| C35_zero_padded_out_of_range, C35_structured_not_multilinear, C35_skipped_panics, C35_projected_last_vars, C35_composite | oracle set construction |
| C37_base_one, C37_wide_panics, C37_wide_wrong, C37_no_bits_panics | exponentiation witnesses |
| C39_reborrow_lost, C39_slice_out_of_range, C39_slice_inclusive, C39_alloc_panics, C39_slice_power_of_two_panics | memory handles: writes through a reborrowed handle are lost |
| C43_wide_add_unsound, C43_wide_add_populate_carry | `WideAdd` without carry-in leaves the first carry free; its filler reads the wrong carry bit |
| C44_wide_sub_unsound, C44_wide_sub_populate_borrow | `WideSub` does not constrain its borrows |
| C46_new_then_populate_fails, C46_square_not_populated | `Mul::new` followed by `populate` leaves the input bits unfilled |
| C48_mul_ss_unsound, C48_mul_su_unsound | the high 31 bits of a signed product are free for a negative factor |
| C48_div_uu_unsound, C48_div_ss_unsound, C48_div_ss_incomplete | the dividers accept wrong quotients, and refuse a right one |
| C50_bitand_populate_wide | `BitAnd::populate` with several values per row fills only part of them |
| C50_tally_ignores_multiplicity | `tally` counts a read of multiplicity `m` once |
| C51_empty_sample_ambiguous | samples of zero bytes are not bound |
| C53_too_many_vars_panics, C53_large_transparent_panics | claim grouping panics |
| C54_selected_block_unchecked | `add_selected_block` does not check its index |
| C58_first_arity_too_small, C58_first_arity_zero | `FRIParams::new` accepts arities with which the prover panics, or its proofs are refused; the errors meant for them are never returned |
| C58_constant_arity | `choose_with_constant_fold_arity` returns an error when the arity divides the logarithm of the message length and there are few queries |
| C58_fast_fallback_panics | `fri_fold` of the packed compute layer folds its output buffer when the packed field cannot be seen as scalars |
| C65_shared_accumulator_wrong | `ArithCircuitPoly` evaluates `m * (m + x2 * x3)`, with `m = x0 * x1`, to `(m + x2 * x3)^2`: the sum is accumulated in the slot of `m` although it is used again |
| C65_shared_odd_power_wrong | the second use of a shared odd power such as `x^3` reads the slot of its last squaring, here `x^2` |
| C65_power_zero_panics | a power with exponent zero, which the circuit API evaluates to one, panics in compilation |
| C66_constant_never_succeeds, C66_constant_accepted | `RegularSumcheckProver::new` accepts a claim with a constant composition, but its `execute` panics at `round_evals[0]` |
| C66_no_variables_panics | `execute` on a prover for no variables panics instead of returning an error |
| C67_coordinate_one | if a coordinate of the point is one, `EqIndSumcheckProver` divides by zero (`invert_or_zero`), takes zero for the value at zero and sends a wrong round polynomial without an error |
| C67_empty_suffix | `with_const_suffixes` with a suffix of length 0 on a folded multilinear that has been cut short replaces the values cut off by the suffix value |
| C68_stale_row | `Sha256::populate` writes 48, 55, 63 and 50 of the 64 words of four shifted columns (and 48 of the selector) and relies on zeros in the rest; the witness allocator does not zero its memory (builder/witness.rs:374-380), so a row over memory that was used before does not satisfy the constraints |
| C68_missing_block | rows beyond the last message block are left without constants, schedule and sums of the initial state; they do not satisfy the constraints, also when `fill_constant_cols` is called afterwards |
| C70_iter_bases_not_coordinates, C70_from_bases_fails | for `BinaryField128bPolyval`, `basis(i)` is the polynomial basis but `iter_bases` lists the bits of the Montgomery form, so the coordinates are wrong; `from_bases` passes stride 0 and `from_bases_sparse` accepts only stride 7, so it fails on every input (the code carries a REVIEW comment). Also, the head of polyval.rs states the modulus without `X^121`; the arithmetic is that of RFC 8452 (`C69_polynomials`) |
| C71_device_memory | `BivariateMLEcheckProver::required_device_memory` with the expanded indicator given says half of every table, but folding the indicator allocates a quarter of a table more from the second round on (`C71_rounds`); without it, the answer is enough. With no variables it underflows |
| C71_no_sums | without sums, `BivariateMLEcheckProver` sends four coefficients where the claim has degree 0 and `BivariateSumcheckProver` sends none |
| C71_coordinate_one | like C67_coordinate_one: with a coordinate one the prover divides by zero (`invert_or_zero`) and sends a wrong round polynomial |
| C71_panics | `new` does not look at the length of the point; a point that is too short makes the first `execute` panic, as does `execute` with no variables left |
| C72_stale_row | `Keccakf::populate` never writes the eighth entry of the columns for the next states, which the constraints make zero; a row whose memory held something else there does not satisfy them |
| C73_parallel_panics | the parallel digest of a number of strings that 32 does not divide panics (with strings of 64 bytes or more) if the scheduler starts a run at the last, incomplete chunk: the buffers without a string are then empty. Otherwise leftovers of the chunk before have the right length and there is no panic. So the outcome depends on the schedule; with fewer than 32 strings it is always a panic |
| C74_other_points | the documentation of `OddInterpolate::inverse_transform` says the values are those at the first elements of the field in binary counting order; when the NTT has a larger domain than `coset_bits + ell`, the points are the images of others under a subspace polynomial |
| C75_scratch_not_zero | scratchpads are documented as initialized with zeros; on both layers a kernel sees what the kernel before it on the same thread left, on the fast layer also across calls |
| C75_map_drops_errors | `map_kernels` of the CPU layer returns `Ok` when kernels fail; the fast layer returns the error |
| C76_fold_panics | `fold_left` and `fold_right` of the CPU layer are documented to return an error for slices that do not fit; they panic on empty slices and on a vector longer than the matrix |
| C76_composite_panics | `compute_composite` of the fast layer panics on rows shorter than a packed element, and whenever a packed element has more than twice as many lanes as there are threads (rounded to a power of two): the chunk size counts scalars, the rows count packed elements |
| C77_depth_wraps | the depth of a node in the Merkle tree gadget is a byte and the carry of its increment is not constrained, so a chain of 256 rows proves that any digest is at depth 0 (is the root) while the root is 256 steps above it; `fill` itself cannot make such rows |
| C77_generate_mixed_lengths | valid paths of different lengths under one root can make a trace that does not validate |
| C78_multi_reset | `Groestl256Multi::reset` and `finalize_into_reset` keep the number of blocks and of unfinished bytes, so the next digests are wrong |
| C79_read_state_outs | `Permutation::read_state_outs` (used by tests only) iterates over the logarithm of the number of rows, so the tests of 256 permutations compare 8 outputs |
| C82_out_of_shape | indexing an `Array2D` with a column out of range reads an element of a later row instead of panicking; `rows()` of an array without columns panics |
| C82_sum_rows | `sum_rows` is documented as the sum of the elements in each row but gives those of the columns |
| C83_offset_ignored | `RowsBatchRef::iter` and `map` ignore the offset, so the default `batch_evaluate` and that of `IndexComposition` evaluate other columns on a batch made by `columns_subrange` (the callers in the fast compute layer pass compiled circuits, which use `row`) |
| C84_small_field_changed | a transparent polynomial over a smaller field (as constant columns have) is written as elements of the extension that hold several values, so that another polynomial is read: of those in 7 variables over bits, all but two get another number of variables |
| C84_few_values_changed | values that all lie in a small field are filled up with zeros to an underlier when they are read, so that every polynomial with fewer values than that gets more variables |
| C85_circuit_not_read | an `ArithCircuit` used as a transparent polynomial is serialized without the name of its type, so it is never read back: its first steps are taken for a name |
| C86_partial_low | fixing more coordinates than a composite has is an error, but panics (underflow) for one without multilinears; such a composite also accepts points of any length |
| C62_no_committed_panics | without committed polynomials `piop::verify` panics after FRI has accepted |
| C63_execute_no_vars_panics | `execute` of the bivariate prover with no variables left panics instead of returning an error |
| C61_base_one | a claim on powers of the static base one with a single bit is accepted whatever its value, and a true one leads to a false claim |
| C61_no_bits, C61_mixed_no_bits | `batch_verify` accepts claims without exponent bits unread, and panics when only some have none (`construct_gkr_exp_claims` refuses them) |
| C60_levels | claims about committed polynomials of tower levels 1 and 2 are accepted into the system, but no proof of them is |
| C60_stale_memory | the prover's table is computed in memory that is not cleared, and `tensor_expand` of the CPU layer adds to it |
| C60_reported_kappa | `TowerTensorAlgebra::kappa` is wrong for every variant (it is used only in debug assertions) |

Observed while reading, not proved: deserialized circuits are not validated; `ProjectionVariant::Last` in `symbolic.rs` uses the number of
variables of the projected oracle; the named-variable printer of `expr.rs` prints step 0; the `DEGREE == 0` branch of
`gkr_exp` is never reached.
