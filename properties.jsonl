{"id": "C01", "title": "Serialization round-trips with exact framing", "statement": "For every value whose serialize call succeeds, deserializing the produced bytes followed by any suffix returns an equal value and leaves exactly the suffix unread. serialize fails only when some usize or length inside the value exceeds u32::MAX.", "quantifier": "every value of the serializable types (fixed-width integers, usize, bool, strings, options, vectors, pairs, byte arrays, and structs/enums derived from them, arbitrarily nested) and every trailing byte string", "why_tests_cant": "the value space is infinite and nested; framing must hold for arbitrary following bytes, tests only try a few values", "anchors": ["crates/utils/src/serialization.rs:SerializeBytes,DeserializeBytes", "crates/macros/src/lib.rs"]}
{"id": "C02", "title": "Deserialization rejects truncated input and is injective", "statement": "Deserializing any strict prefix of a valid encoding fails with NotEnoughBytes instead of returning a value, and two values with the same encoding are equal.", "quantifier": "every serializable value and every strict prefix of its encoding; every pair of values", "why_tests_cant": "needs all truncation points of all values", "anchors": ["crates/utils/src/serialization.rs:assert_enough_data_for"]}
{"id": "C03", "title": "stable_sort / unsort are inverse and stable", "statement": "stable_sort returns the elements ordered by key (ascending, or descending when reverse is set), elements with equal keys keep their input order, and unsort applied to the returned index vector and any equally long vector computed element-wise from the sorted elements puts each result back at its original position.", "quantifier": "every list, every key function into a linear order, both directions", "why_tests_cant": "permutation properties over all lists", "anchors": ["crates/utils/src/sorting.rs:stable_sort,unsort,is_sorted_ascending"]}
{"id": "C04", "title": "connected_components labels each vertex with the least vertex of its component", "statement": "The result has one entry per id up to the maximum id; entry i is the smallest id reachable from i through the given groups; two ids get the same label iff they are linked by a chain of groups.", "quantifier": "every list of id groups", "why_tests_cant": "reachability over all graphs; union-find with path compression and union by rank has many internal histories", "anchors": ["crates/utils/src/graph.rs:connected_components"]}
{"id": "C05", "title": "Strided 2D array views never alias", "statement": "Splitting a strided 2D array view by columns yields views in which no memory cell is reachable from two different views, and together they cover exactly the cells of the original view.", "quantifier": "every width, height, stride and chunk size, every pair of cells", "why_tests_cant": "aliasing (a data race) cannot be observed reliably by running tests", "anchors": ["crates/utils/src/strided_array.rs:StridedArray2DViewMut::into_strides,into_par_strides,get,get_mut"]}
{"id": "C06", "title": "Every tower level is a field", "statement": "At every tower level the addition and multiplication on the integer representation of binary field elements satisfy the field axioms; invert returns an element x with a*x = 1 for every non-zero a, and invert_or_zero(0)=0.", "quantifier": "every tower level and all elements of that level (2^128 elements at the top level)", "why_tests_cant": "2^128 elements, triples of elements for associativity", "anchors": ["crates/field/src/binary_field_arithmetic.rs", "crates/field/src/arch/portable/pairwise_recursive_arithmetic.rs", "crates/field/src/binary_field.rs"]}
{"id": "C07", "title": "Packed arithmetic acts lane by lane", "statement": "Multiplying, squaring, inverting or multiplying by the tower generator a packed element equals applying the scalar operation to every lane, for the bit-sliced portable algorithms using interleave masks.", "quantifier": "every underlier width 2^L, every tower level <= L, all operand values, all lanes", "why_tests_cant": "the operand space is 2^256 and more", "anchors": ["crates/field/src/arch/portable/packed_arithmetic.rs", "crates/field/src/arch/portable/packed.rs"]}
{"id": "C08", "title": "Lookup-table arithmetic agrees with the tower", "statement": "The 4-bit product table, and the 8-bit log/exp, square, inverse and multiply-by-alpha tables return exactly the tower field results.", "quantifier": "all operand pairs at the 4-bit and 8-bit levels", "why_tests_cant": "finite, but the claim ties the tables to the field definition proved for all levels, and the tests only sample", "anchors": ["crates/field/src/arch/portable/pairwise_table_arithmetic.rs"]}
{"id": "C09", "title": "Subfield embedding and extraction", "statement": "Embedding an element of a lower tower level is an injective ring homomorphism that keeps the integer representation; conversion back succeeds exactly when the high bits are zero and then is the left inverse; an element equals the sum of basis_i times its i-th subfield coordinate.", "quantifier": "every pair of tower levels and all elements", "why_tests_cant": "quantifies over whole fields", "anchors": ["crates/field/src/binary_field.rs:TryFrom,ExtensionField,basis_checked,min_tower_level"]}
{"id": "C10", "title": "The multiplicative generators generate", "statement": "MULTIPLICATIVE_GENERATOR at each tower level has multiplicative order exactly 2^(2^level) - 1, so every non-zero element is a power of it.", "quantifier": "every supported level and every non-zero element", "why_tests_cant": "the order of a 128-bit element cannot be enumerated", "anchors": ["crates/field/src/binary_field.rs:MULTIPLICATIVE_GENERATOR"]}
{"id": "C11", "title": "interleave and square_transpose transpose blocks", "statement": "interleave with block length 2^k swaps exactly the off-diagonal blocks of the two operands, is an involution, and square_transpose turns each 2^n x 2^n block of scalars into its transpose, an involution.", "quantifier": "every width, every block size, all contents", "why_tests_cant": "all widths and contents", "anchors": ["crates/field/src/arch/portable/packed.rs:interleave_bits", "crates/field/src/transpose.rs:square_transpose"]}
{"id": "C12", "title": "exponentiation by 64-bit exponents", "statement": "pow(x, e) returns the e-fold product of x for every 64-bit e including 0, in every lane.", "quantifier": "all elements, all exponents < 2^64", "why_tests_cant": "2^64 exponents", "anchors": ["crates/field/src/packed.rs:PackedField::pow", "crates/field/src/field.rs"]}
{"id": "C13", "title": "Additive NTT evaluates the novel-basis polynomial, and the inverse undoes it", "statement": "forward_transform on a coset replaces a coefficient vector by the values of the polynomial it represents in the subspace-polynomial basis at all points of that coset in order; inverse_transform after forward_transform (and the other way round) is the identity.", "quantifier": "every domain size, every coset, every coefficient vector over every binary field with a chosen subspace", "why_tests_cant": "all sizes and all data", "anchors": ["crates/ntt/src/single_threaded.rs:forward_transform,inverse_transform", "crates/ntt/src/twiddle.rs"]}
{"id": "C14", "title": "Multithreaded NTT equals single-threaded NTT", "statement": "For every shape accepted by both, the multithreaded transforms produce the same output as the single threaded ones whatever the thread schedule.", "quantifier": "every shape, thread count and interleaving of the independent butterflies", "why_tests_cant": "schedules", "anchors": ["crates/ntt/src/multithreaded.rs"]}
{"id": "C15", "title": "Reed-Solomon encoding is linear, injective and has the message as restriction", "statement": "encode is additive and scalar-linear in the message, distinct messages have distinct codewords, and the codeword is the evaluation of the message polynomial over the whole domain.", "quantifier": "every dimension, rate and message", "why_tests_cant": "all messages", "anchors": ["crates/core/src/reed_solomon/reed_solomon.rs"]}
{"id": "C16", "title": "FRI folding maps codewords to codewords", "statement": "Folding a Reed-Solomon codeword pairwise with challenge r gives the codeword of the message folded with r; chunk folding equals iterated pair folding.", "quantifier": "every domain size, message, challenge and fold arity", "why_tests_cant": "all messages and challenges", "anchors": ["crates/ntt/src/fri.rs:fold_pair,fold_chunk", "crates/core/src/protocols/fri"]}
{"id": "C17", "title": "Tensor expansion and multilinear evaluation", "statement": "MultilinearQuery::expand(r) has entry b equal to the product over i of r_i or 1-r_i according to bit i of b; evaluating a multilinear extension at r is the inner product of its table with that vector, agrees with the table on hypercube vertices, and is affine in each coordinate.", "quantifier": "every number of variables, table and evaluation point", "why_tests_cant": "all tables and points", "anchors": ["crates/math/src/tensor_prod_eq_ind.rs", "crates/math/src/multilinear_query.rs", "crates/math/src/multilinear_extension.rs"]}
{"id": "C18", "title": "Partial evaluation commutes with evaluation", "statement": "evaluate_partial_low / evaluate_partial_high / zero-padded and left/right folds of a multilinear give a table whose evaluation at the remaining coordinates equals the full evaluation at the joined point.", "quantifier": "every split of the variables, table and point", "why_tests_cant": "all splits", "anchors": ["crates/math/src/fold.rs", "crates/math/src/multilinear_extension.rs"]}
{"id": "C19", "title": "Univariate interpolation and extrapolation", "statement": "For distinct domain points, extrapolate returns the value at z of the unique polynomial of degree < n through the given values; interpolate returns its coefficients; evaluate_univariate is Horner evaluation of the coefficient list.", "quantifier": "every set of distinct points, values and evaluation point in every field", "why_tests_cant": "all points", "anchors": ["crates/math/src/univariate.rs"]}
{"id": "C20", "title": "Matrix inversion", "statement": "Matrix::inverse_into either reports MatrixIsSingular or produces an inverse; it reports singular only for singular matrices.", "quantifier": "every square matrix over every field", "why_tests_cant": "all sizes", "anchors": ["crates/math/src/matrix.rs"]}
{"id": "C21", "title": "Arithmetic-circuit transformations preserve meaning", "statement": "Constant folding, simplification, common subexpression elimination, variable remapping, constant substitution and conversion from expressions never change the value computed on any input; degree is an upper bound of the degree of the polynomial.", "quantifier": "every circuit and every variable assignment over every field of characteristic 2", "why_tests_cant": "all circuits", "anchors": ["crates/math/src/arith_expr.rs"]}
{"id": "C22", "title": "Piecewise multilinear evaluation", "statement": "evaluate_piecewise_multilinear on the evaluations of the pieces at their low coordinates returns the evaluation of the multilinear whose table is the concatenation (largest piece first) of the piece tables padded with zeros.", "quantifier": "every list of piece counts and all contents and points", "why_tests_cant": "all shapes", "anchors": ["crates/math/src/piecewise_multilinear.rs"]}
{"id": "C23", "title": "BinarySubspace enumerates its span", "statement": "get(i) is the subset sum of the basis selected by the bits of i; for independent bases the map is injective, closed under addition (get(i)+get(j)=get(i xor j)) and the iterator yields the same sequence; reduce_dim keeps a prefix.", "quantifier": "every basis and index", "why_tests_cant": "all subspaces", "anchors": ["crates/math/src/binary_subspace.rs"]}
{"id": "C24", "title": "Merkle tree openings verify", "statement": "For every committed vector and every index and layer depth accepted by the prover, the opening proof is accepted by verify_opening against the layer (or root) of the same tree.", "quantifier": "every leaf vector, batch size, hash and compression function, index and layer depth", "why_tests_cant": "all trees", "anchors": ["crates/core/src/merkle_tree/binary_merkle_tree.rs", "crates/core/src/merkle_tree/scheme.rs"]}
{"id": "C25", "title": "Merkle openings are binding", "statement": "If two openings of the same index with different leaf values are accepted against the same root, a collision of the leaf hash or of the compression function can be computed from them. The same holds for verify_vector and verify_layer.", "quantifier": "every pair of accepted openings, also adversarial ones", "why_tests_cant": "adversarial proofs", "anchors": ["crates/core/src/merkle_tree/scheme.rs:verify_opening,verify_vector,verify_layer"]}
{"id": "C26", "title": "Prover and verifier transcripts stay in sync", "statement": "If the verifier performs the read operations matching the prover's write operations in the same order (message/decommitment/observe, sample), it reads exactly the written values and both sample identical challenges; finalize succeeds exactly when the whole proof was consumed.", "quantifier": "every sequence of operations", "why_tests_cant": "all histories", "anchors": ["crates/core/src/transcript/mod.rs", "crates/core/src/fiat_shamir/hasher_challenger.rs"]}
{"id": "C27", "title": "The challenger depends only on the byte stream", "statement": "Splitting observed data into different chunks, or sampled data into different buffer sizes, does not change any sampled byte.", "quantifier": "every chunking of every history", "why_tests_cant": "all chunkings", "anchors": ["crates/core/src/fiat_shamir/hasher_challenger.rs"]}
{"id": "C28", "title": "Sumcheck round consistency", "statement": "The round polynomial recovered by the verifier from the truncated round message satisfies R(0)+R(1) = previous claimed sum, for every message; and an honest round message is recovered to the honest polynomial.", "quantifier": "all messages and claims, all degrees", "why_tests_cant": "adversarial messages", "anchors": ["crates/core/src/protocols/sumcheck/common.rs:RoundProof::recover", "crates/core/src/protocols/sumcheck/verify_sumcheck.rs"]}
{"id": "C29", "title": "Sumcheck verifier soundness and completeness (algebraic core)", "statement": "If the honest round polynomials are sent the batch verifier accepts and outputs the evaluations at the challenge point; if the verifier accepts with correct final evaluations although the claimed sum is wrong then at some round the challenge is a root of a non-zero polynomial of bounded degree.", "quantifier": "every composition, number of variables, challenge sequence and prover strategy", "why_tests_cant": "adversarial provers", "anchors": ["crates/core/src/protocols/sumcheck/verify_sumcheck.rs", "crates/core/src/protocols/sumcheck/front_loaded.rs"]}
{"id": "C30", "title": "Transparent polynomials agree with their tables", "statement": "For select_row, step_up, step_down, powers, tower_basis, eq_ind, constant and disjoint_product the succinct evaluate equals the multilinear extension of the table given by their defining predicate; constructors reject exactly the out-of-range parameters.", "quantifier": "every number of variables, index and point", "why_tests_cant": "all points", "anchors": ["crates/core/src/transparent"]}
{"id": "C31", "title": "Shift indicator computes shifts", "statement": "ShiftIndPartialEval evaluated at a point equals the multilinear extension of the indicator of the circular-left, logical-left or logical-right shift relation; hence the bivariate sumcheck with it evaluates the shifted column.", "quantifier": "every block size, offset, variant and point", "why_tests_cant": "all offsets and points", "anchors": ["crates/core/src/transparent/shift_ind.rs"]}
{"id": "C32", "title": "Channel validation accepts exactly balanced flushes", "statement": "validate_witness succeeds iff for each channel the multiset of pushed tuples equals that of pulled tuples (with multiplicities, skipping unselected rows) and all tuples of a channel have the same width.", "quantifier": "every set of flushes, boundaries, table sizes and witnesses", "why_tests_cant": "all histories of flushes", "anchors": ["crates/core/src/constraint_system/channel.rs"]}
{"id": "C33", "title": "Verifier channel balance check", "statement": "When every channel's pushes and pulls balance, the product check accepts for all challenges; when it accepts for all challenges, they balance.", "quantifier": "every system, every challenge", "why_tests_cant": "all challenges", "anchors": ["crates/core/src/constraint_system/verify.rs:verify_channels_balance"]}
{"id": "C34", "title": "Evalcheck reduction is sound", "statement": "If the evalcheck verifier accepts and all claims it emits (committed evaluations, sumcheck and mlecheck constraints) are true of the oracle values, then every input evaluation claim is true.", "quantifier": "every oracle set, claim list and prover hints", "why_tests_cant": "adversarial hints, all oracle DAGs", "anchors": ["crates/core/src/protocols/evalcheck/verify.rs"]}
{"id": "C35", "title": "Virtual oracles denote the documented tables", "statement": "The accepted parameters of repeating, projected, shifted, packed, linear-combination, zero-padded and composite oracles always give a well-formed oracle and its evaluation equals the multilinear extension of the derived table.", "quantifier": "all parameters, all inner tables", "why_tests_cant": "all tables", "anchors": ["crates/core/src/oracle/multilinear.rs", "crates/core/src/constraint_system/validate.rs"]}
{"id": "C36", "title": "Grand product witness", "statement": "GrandProductWitness::new builds layers in which each entry is the product of its two children and the final value is the product of all inputs, absent inputs counting as one.", "quantifier": "every number of variables, truncated length and packing width", "why_tests_cant": "all sizes", "anchors": ["crates/core/src/protocols/gkr_gpa/gkr_gpa.rs"]}
{"id": "C37", "title": "GKR exponentiation witness and layer relation", "statement": "The last layer computed with static or dynamic base equals base^(sum 2^i bit_i) at every row, and adjacent layers satisfy the verifier's composition.", "quantifier": "every bit width, row, base", "why_tests_cant": "all rows", "anchors": ["crates/core/src/protocols/gkr_exp/witness.rs", "crates/core/src/protocols/gkr_exp/compositions.rs"]}
{"id": "C38", "title": "Commit index is a bijection ordered by size", "statement": "make_oracle_commit_meta maps committed oracles one-to-one onto 0..n, grouped by number of packed variables ascending, keeping oracle order inside a group, and total_vars covers the concatenation.", "quantifier": "every oracle set", "why_tests_cant": "all oracle sets", "anchors": ["crates/core/src/piop/commit.rs", "crates/core/src/piop/verify.rs:CommitMeta"]}
{"id": "C39", "title": "Bump allocator and memory handles", "statement": "No two slices returned by alloc overlap, every slice lies inside the buffer, alloc fails iff the remaining capacity is too small, and capacity decreases by the allocated amount rounded up to the alignment. Slicing, chunking and splitting handles give the range named; and packed memory, which copies parts of a packed element out and back, behaves as if it did not, over every history of splits, writes and drops.", "quantifier": "every sequence of allocations, sub-scopes, splits, writes and drops; all ranges and widths", "why_tests_cant": "all histories", "anchors": ["crates/compute/src/alloc.rs", "crates/compute/src/memory.rs", "crates/compute/src/cpu/memory.rs", "crates/fast_compute/src/memory.rs"]}
{"id": "C40", "title": "Table-size specifications", "statement": "check_table_sizes accepts exactly the size vectors satisfying each table's specification.", "quantifier": "all size vectors", "why_tests_cant": "all vectors", "anchors": ["crates/core/src/constraint_system/mod.rs"]}
{"id": "C41", "title": "U32Add gadget", "statement": "A witness satisfies the constraints iff zout = x + y (+ carry-in) mod 2^32 and final_carry is the carry; the populated witness satisfies them.", "quantifier": "all operands, all adversarial witnesses", "why_tests_cant": "2^64 inputs and adversarial columns", "anchors": ["crates/m3/src/gadgets/add.rs:U32Add"]}
{"id": "C42", "title": "U32Sub gadget", "statement": "A witness satisfies the constraints iff zout = x - y (- borrow-in) mod 2^32 and final_borrow is the borrow.", "quantifier": "all operands, all adversarial witnesses", "why_tests_cant": "2^64 inputs", "anchors": ["crates/m3/src/gadgets/sub.rs:U32Sub"]}
{"id": "C43", "title": "Wide adder and incrementer", "statement": "For WideAdd and Incr every satisfying witness has zout equal to the integer sum and the right carry-out.", "quantifier": "all widths, operands, adversarial witnesses", "why_tests_cant": "adversarial witnesses", "anchors": ["crates/m3/src/gadgets/add.rs:WideAdd,Incr"]}
{"id": "C44", "title": "Wide subtractor", "statement": "For WideSub every satisfying witness has zout equal to the difference and the right borrow-out.", "quantifier": "all widths, operands, adversarial witnesses", "why_tests_cant": "adversarial witnesses", "anchors": ["crates/m3/src/gadgets/sub.rs:WideSub"]}
{"id": "C45", "title": "Barrel shifter", "statement": "Every satisfying witness has output equal to the input shifted (logical left/right, rotate) by the 5-bit amount.", "quantifier": "all inputs, amounts and witnesses", "why_tests_cant": "adversarial witnesses", "anchors": ["crates/m3/src/gadgets/barrel_shifter.rs"]}
{"id": "C46", "title": "Unsigned multiplier", "statement": "Every satisfying witness of the n-bit unsigned multiplier has (hi,lo) equal to the full 2n-bit product.", "quantifier": "all operands, adversarial hi/lo", "why_tests_cant": "2^64 operand pairs and adversarial outputs", "anchors": ["crates/m3/src/gadgets/mul.rs:Mul,MulUU32,MulUU64"]}
{"id": "C47", "title": "Two's complement and sign conversion", "statement": "TwosComplement output is the negation modulo 2^n; SignConverter returns the input or its negation according to the condition bit.", "quantifier": "all inputs and witnesses", "why_tests_cant": "adversarial witnesses", "anchors": ["crates/m3/src/gadgets/mul.rs:TwosComplement,SignConverter"]}
{"id": "C48", "title": "Signed multiplication and division gadgets", "statement": "Every satisfying witness of MulSS32, MulSU32, DivUU32 and DivSS32 has the mathematically right outputs, and the populated witness satisfies the constraints for every valid input.", "quantifier": "all operands, adversarial witnesses", "why_tests_cant": "adversarial witnesses", "anchors": ["crates/m3/src/gadgets/mul.rs", "crates/m3/src/gadgets/div.rs"]}
{"id": "C49", "title": "Emulation channels", "statement": "The emulated Channel is balanced iff every value was pushed as often as pulled, whatever the order of operations.", "quantifier": "all histories of push/pull", "why_tests_cant": "all histories", "anchors": ["crates/m3/src/emulate.rs:Channel"]}
{"id": "C50", "title": "Indexed lookups read exactly the entries of their table", "statement": "entry_to_index and index_to_entry of the increment and bitwise-and lookups are mutually inverse on the table, and the circuit of the fixed column gives the entry of every index. If the channels balance, every tuple read from the lookup channel is an entry of the table, so the gadgets' outputs are the bitwise AND and the incremented byte with its carry, whatever the prover put into the sorted column and the multiplicity bits. Tallies count how often each entry is read, and a lookup table filled from the tally balances the channels.", "quantifier": "all table indices, all witnesses of tables and lookup tables, all read histories", "why_tests_cant": "a dishonest witness and every history of reads are ranged over", "anchors": ["crates/m3/src/gadgets/indexed_lookup", "crates/m3/src/builder/indexed_lookup.rs"]}
{"id": "C51", "title": "Challenges bind the whole history", "statement": "If the next digest-length challenge is the same after two histories of observing data and sampling challenges, then the two histories are the same (same observed bytes, separated by samples at the same places), or the two runs have hashed two different messages to the same digest.", "quantifier": "every pair of histories in which each sample takes at least one byte, every hash function", "why_tests_cant": "all pairs of histories; adversarial messages", "anchors": ["crates/core/src/fiat_shamir/hasher_challenger.rs"]}
{"id": "C52", "title": "Front-loaded batched sumcheck is sound and complete", "statement": "The front-loaded batch verifier, in which every claim starts in the first round and a claim in n variables is finished after n rounds, rejects false claims: whatever the prover sends, the fraction of challenge vectors for which it accepts with correct multilinear evaluations is at most (rounds * degree + number of sums) / |F| (rounds * degree / |F| when the batched sum is given and wrong). With honest provers for true claims it always accepts, with the evaluations of each claim's multilinears at its first n challenges.", "quantifier": "all lists of claims of any sizes, all provers (adaptive), all challenge vectors, both evaluation orders", "why_tests_cant": "adversarial provers and all mixtures of claim sizes and degrees", "anchors": ["crates/core/src/protocols/sumcheck/front_loaded.rs: BatchVerifier", "crates/core/src/protocols/sumcheck/prove/front_loaded.rs: BatchProver"]}
{"id": "C53", "title": "Opening claims are grouped by size without mixing polynomials", "statement": "Given the sizes of the committed polynomials, transparent polynomials sorted by size and a list of inner-product claims (committed, transparent, sum), the grouping for the batched sumcheck has one group per number of variables; a group's polynomials are exactly the committed and transparent polynomials of that size, and its sums are exactly the claims of that size, in order, each about the two polynomials the claim names. Unsorted transparents and claims whose polynomials have another size are refused, the first bad claim being reported.", "quantifier": "all batches, transparents and claim lists of any length", "why_tests_cant": "all mixtures of sizes and claims", "anchors": ["crates/core/src/piop/verify.rs: make_sumcheck_claim_descs"]}
{"id": "C54", "title": "Every column a table builder adds holds what the method says", "statement": "Each method of the table builder that adds a column (committed, shifted, packed, selected value, selected block, zero padding, constant, powers with static and dynamic base, computed from an expression) and each assertion changes the table so that exactly those rows satisfy the new table that satisfied the old one and in which the new cell has the value the method describes; columns added before keep their meaning. Arguments out of the documented range are refused.", "quantifier": "all tables the builder can have made, all columns, all expressions, cell sizes, offsets and indices, all rows", "why_tests_cant": "all tables, expressions and rows; the partition and column numbering must stay coherent after any sequence of calls", "anchors": ["crates/m3/src/builder/table.rs: TableBuilder::add_*, assert_zero, assert_nonzero", "crates/m3/src/builder/constraint_system.rs: add_oracle_for_column"]}
{"id": "C55", "title": "Sumchecks with an equality indicator decide evaluation claims", "statement": "A claim that the multilinear extension of a composite takes a value at the last n_vars of given challenges is turned into a sumcheck claim about one more multilinear, the equality indicator, which is true exactly when the claim is. The outputs of the sumcheck are accepted exactly when the numbers of claims and challenges agree, the claims come in the announced order of size and each list of evaluations ends with the equality indicator of the two points, which is removed. The whole reduction rejects false claims except for a fraction (rounds * (degree + 1) + sums) / |F| of the challenges, whatever the prover sends, and accepts true ones with honest provers.", "quantifier": "all claims and compositions, all outputs, all provers (adaptive), all challenges, both orders", "why_tests_cant": "adversarial provers and outputs; all mixtures of claim sizes", "anchors": ["crates/core/src/protocols/sumcheck/eq_ind.rs: EqIndSumcheckClaim::new, reduce_to_regular_sumchecks, verify_sumcheck_outputs, ExtraProduct", "crates/core/src/protocols/greedy_evalcheck/verify.rs", "crates/core/src/constraint_system/verify.rs"]}
{"id": "C56", "title": "The grand product argument is sound and complete", "statement": "Batched verification of claims 'the product of all values of this multilinear on the hypercube is P' reduces them to one evaluation claim per multilinear, in the order of the original claims. If some product is false then, whatever the prover sends, at most a fraction sum_{k<n} (3k + m + 1) / |F| of the challenge vectors makes the verifier accept with only true evaluation claims (m claims, at most n variables). The prover takes exactly the true claims of its witnesses; with honest layer sumchecks its messages are always accepted and both sides end with the same, true, evaluation claims, also for claims of different sizes, packed scalars and absent (constant one) suffixes.", "quantifier": "all numbers and sizes of claims, all multilinears, all packing widths, all provers (adaptive), all challenges, both evaluation orders", "why_tests_cant": "adversarial provers; all mixtures of sizes; all challenges", "anchors": ["crates/core/src/protocols/gkr_gpa/verify.rs: batch_verify, reduce_layer_claim_batch, process_finished_claims", "crates/core/src/protocols/gkr_gpa/prove.rs: batch_prove, GrandProductProverState", "crates/core/src/composition/index.rs: IndexComposition", "crates/core/src/composition/product_composition.rs: ProductComposition"]}
{"id": "C57", "title": "The batched zerocheck is sound and complete", "statement": "Batched verification of claims 'these compositions of these multilinears vanish on the whole hypercube' reduces them to one evaluation claim per multilinear. With s univariate-skipped rounds, n variables in the largest claim, k composites of degree at most D and m multilinears: if some composite is not zero somewhere then, whatever the prover sends, at most a fraction ((n-s) + k + (D 2^s - 1) + (n-s)(D+1) + 2s + m) / |F| of the challenge vectors makes the verifier accept with only true evaluations (some largest claim having a composite, or all rounds being skipped). With true claims and provers following the ZerocheckProver documentation, prover and verifier accept and end with the same, true, evaluations, for claims of different sizes, including claims smaller than the skipped domain. The evaluation claims made from the output are one for each oracle, at points of the right length, and all true exactly when the evaluations are.", "quantifier": "all numbers, sizes and degrees of claims, all multilinears, all numbers of skipped rounds, all provers (adaptive), all challenges", "why_tests_cant": "adversarial provers; all mixtures of sizes and skipped rounds; all challenges", "anchors": ["crates/core/src/protocols/sumcheck/verify_zerocheck.rs: batch_verify", "crates/core/src/protocols/sumcheck/zerocheck.rs: ZerocheckClaim, reduce_to_eq_ind_sumchecks, univariatizing_reduction_claim, verify_reduction_sumcheck_output", "crates/core/src/protocols/sumcheck/prove/batch_zerocheck.rs: batch_prove", "crates/core/src/protocols/sumcheck/oracles.rs: make_zerocheck_eval_claims"]}
{"id": "C58", "title": "FRI is complete", "statement": "For every message of 2^(log_dim + log_batch) symbols, all FRI parameters whose arities are positive and whose first arity is at least log_batch, all challenges and all query indices: committing, running the fold rounds (with the fold of either compute layer) and finishing the proof succeed; the verifier given the commitments and the same challenges accepts the decommitment, reads exactly what was written, and returns the multilinear extension of the message at the challenges. The parameters chosen by choose_with_constant_fold_arity satisfy this whenever the function succeeds, and it fails exactly for messages of one symbol and when the arity divides the logarithm of the message length while at most 2^log_inv_rate queries are made.", "quantifier": "all messages, codes, batch sizes, arity sequences, hash functions, challenges, query indices, contents of uninitialised memory", "why_tests_cant": "all combinations of parameters, all messages and all challenges", "anchors": ["crates/core/src/protocols/fri/common.rs: FRIParams", "crates/core/src/protocols/fri/prove.rs: commit_interleaved_with, FRIFolder, FRIQueryProver", "crates/core/src/protocols/fri/verify.rs: FRIVerifier", "crates/compute/src/cpu/layer.rs: fri_fold", "crates/fast_compute/src/layer.rs: fri_fold"]}
{"id": "C59", "title": "An accepted FRI decommitment is consistent with the committed words at every query", "statement": "Let the FRI verifier have been given the Merkle roots of arbitrary words. If it accepts any decommitment and returns a value, then either two different inputs of the hash or compression function with equal outputs can be computed from the decommitment and the words, or the last committed word folds to this value at every position and, at each query index, every committed word folds with the challenges to the next one. Hence, if only m of the 2^index_bits indices are consistent, at most m^n of the lists of n query indices let any decommitment be accepted without a collision.", "quantifier": "all committed words, all decommitments (adversarial), all parameters with a first arity of at least log_batch, challenges, query indices, hash functions", "why_tests_cant": "adversarial decommitments", "anchors": ["crates/core/src/protocols/fri/verify.rs: FRIVerifier::verify, verify_last_oracle, verify_query_internal, verify_coset_opening", "crates/core/src/merkle_tree/scheme.rs"]}
{"id": "C60", "title": "Ring switching reduces evaluation claims soundly and completely", "statement": "EvalClaimSystem::new accepts exactly the claims about committed oracles of tower level at most 7 that have a commitment index, and keeps each of them once. If one of n evaluation claims about committed polynomials over subfields is false, then for every prover all but a fraction (ceil(log2 n) + 7)/2^128 of the challenges make the ring-switching verifier reject or return a false sumcheck claim about the packed polynomials. If the witnesses have the claimed values (and the prover's memory is zeroed), prover and verifier succeed for all challenges, return the same sumcheck claims, which are true, and the prover's tables are the evaluations of the verifier's transparent polynomials. Whatever was sent, the returned claims are one per evaluation claim, about its committed polynomial, and are in the form the polynomial commitment expects. The transparent polynomials evaluate at every point to the multilinear extension of their defining table.", "quantifier": "all oracle sets, claims, points, witnesses, challenges, adversarial provers, memoized data", "why_tests_cant": "adversarial provers and all challenge vectors", "anchors": ["crates/core/src/ring_switch/common.rs: EvalClaimSystem", "crates/core/src/ring_switch/verify.rs: verify", "crates/core/src/ring_switch/prove.rs: prove", "crates/core/src/ring_switch/eq_ind.rs: RingSwitchEqInd", "crates/core/src/ring_switch/tower_tensor_algebra.rs: TowerTensorAlgebra", "crates/core/src/tensor_algebra.rs: TensorAlgebra"]}
{"id": "C61", "title": "Batched exponentiation reduces claims on powers soundly and completely", "statement": "If one of m claims on the multilinear extension of base^exponent (exponent given by at most W columns of bits, n variables) is false, then for every prover all but a fraction W(5n+m)/|F| of the challenges make gkr_exp batch_verify reject or return a false claim about a column of exponent bits or a base. Whatever was sent, an accepted batch returns for every layer one claim per exponentiation that reaches it (two with a dynamic base), at points of the right length. For true claims and the witnesses that new_with_static_base and new_with_dynamic_base compute, batch_prove succeeds whatever the challenges, batch_verify accepts its proof and both return the same claims, which are true. make_eval_claims hands each of these claims to the oracle it is about, so its claims are all true exactly when those are; construct_gkr_exp_claims refuses an exponent without bits.", "quantifier": "all batches of claims, widths, points, bases other than one, witnesses, challenges, adversarial provers", "why_tests_cant": "adversarial provers and all challenge vectors", "anchors": ["crates/core/src/protocols/gkr_exp/batch_verify.rs: batch_verify", "crates/core/src/protocols/gkr_exp/batch_prove.rs: batch_prove", "crates/core/src/protocols/gkr_exp/verifiers.rs", "crates/core/src/protocols/gkr_exp/provers.rs", "crates/core/src/protocols/gkr_exp/oracles.rs: construct_gkr_exp_claims, make_eval_claims"]}
{"id": "C62", "title": "The polynomial commitment reduces claims on committed polynomials soundly and completely", "statement": "Given claims that sums over the cube of products of a committed and a transparent polynomial have certain values: if one of n claims is false, then for every prover, and whatever FRI verifier is plugged in, all but a fraction (2 total_vars + n)/|F| of the challenges make piop::verify reject, unless FRI ends in a value that is not the evaluation of the committed message (the bit-reversed tables, the largest first, padded with zeros) at the challenges. If all claims are true and prover and verifier of FRI fit together, piop::prove succeeds for all challenges, piop::verify accepts its proof, and FRI ends in the evaluation of the committed message at total_vars challenges.", "quantifier": "all commitment descriptions, tables, transparent polynomials, claims, FRI arities, challenges, adversarial provers", "why_tests_cant": "adversarial provers and all challenge vectors", "anchors": ["crates/core/src/piop/verify.rs: verify, verify_interleaved_fri_sumcheck, verify_transparent_evals", "crates/core/src/piop/prove.rs: prove, prove_interleaved_fri_sumcheck"]}
{"id": "C63", "title": "The bivariate product sumcheck prover sends the right round polynomials", "statement": "In characteristic two, for true sums of products of two of the given multilinears, the bivariate product prover returns in every round, whatever the earlier challenges, the coefficients of the batched round polynomial (none at all for a claim without sums), and at the end the evaluations of the multilinears at the challenges, highest variable first; the evaluations do not depend on the batching coefficient. Multilinears with another number of variables and calls out of order are refused.", "quantifier": "all numbers of variables, multilinears, sums, batching coefficients, challenges", "why_tests_cant": "all tables and challenge vectors", "anchors": ["crates/core/src/protocols/sumcheck/v3/bivariate_product.rs: BivariateSumcheckProver"]}
{"id": "C64", "title": "The committed message is the one the opening protocol speaks of", "statement": "For committed multilinear polynomials sorted by size that fit, piop::commit writes a message consisting of their packed tables, the largest first, each in bit-reversed order, one after the other with no gaps whatever the packing width and even for polynomials smaller than a packed element, and zeros after them: the message to whose evaluation piop::verify (C62) reduces. Polynomials that are not sorted are refused, the first one without packed evaluations is named in the error, and polynomials that do not fit panic rather than being cut off. Reversing the index bits of a collection twice gives it back.", "quantifier": "all lists of multilinears, sizes, packing widths and message lengths", "why_tests_cant": "all sizes and packing widths", "anchors": ["crates/core/src/piop/prove.rs: reverse_bits, reverse_index_bits, merge_multilins, commit, packed_committed"]}
{"id": "C65", "title": "Compiled circuits compute what the circuit says", "statement": "An arithmetic circuit that is optimized and compiled into a program over slots (ArithCircuitPoly) evaluates, over every extension of the field of its constants and so on every packed element, to the value of the circuit; evaluation of a batch of rows gives that value at every position. A wrong number of values is refused.", "quantifier": "all circuits the API builds, all extensions, all queries and rows", "why_tests_cant": "all circuits, in particular those with shared subexpressions, and all values", "anchors": ["crates/fast_compute/src/arith_circuit.rs: convert_circuit_steps, ArithCircuitPoly::new, with_n_vars, evaluate, batch_evaluate, apply_binary_op"]}
{"id": "C66", "title": "The general sumcheck prover is honest, with switchover", "statement": "RegularSumcheckProver, given true claims on sums of composites of multilinears, sends in every round the coefficients of the batched round polynomial and finally the evaluations of the multilinears at the challenges. This does not depend on the evaluation order, the packing width, the round in which each multilinear is switched over from its original table to a folded one, the size of the subcubes that are worked on, or what the reused scratch buffers contain. Calls out of turn are refused.", "quantifier": "all numbers of variables, multilinears, compositions of positive degree and claims, both evaluation orders, all packing widths, switchover rounds, subcube sizes, stale buffer contents, challenges and batching coefficients", "why_tests_cant": "all tables, compositions and challenges, and all interleavings of switchover rounds and subcube sizes", "anchors": ["crates/core/src/protocols/sumcheck/prove/prover_state.rs: ProverState::new, fold, finish, calculate_round_evals, calculate_round_coeffs_from_evals", "crates/core/src/protocols/sumcheck/prove/regular_sumcheck.rs: RegularSumcheckProver", "crates/hal/src/sumcheck_folding.rs: fold_multilinears", "crates/hal/src/sumcheck_round_calculation.rs: calculate_round_evals", "crates/core/src/protocols/sumcheck/common.rs: equal_n_vars_check, interpolation_domains_for_composition_degrees, get_nontrivial_evaluation_points"]}
{"id": "C67", "title": "The sumcheck prover with an equality indicator is honest", "statement": "EqIndSumcheckProver, which keeps the equality indicator of a point out of its sums, counts constant suffixes of the multilinears at once, and computes the value at zero from the claimed sum, sends in every round the coefficients of the batched round polynomial of the composites times the indicator, and finally the evaluations of the multilinears and of the indicator at the challenges, provided no coordinate of the point is one. This does not depend on the evaluation order, packing width, switchover rounds, subcube sizes, stale buffers, on which true constant suffixes are declared, or on whether the expanded indicator and the first values at one are given beforehand.", "quantifier": "all numbers of variables, points without a coordinate one, tables, constant suffixes true of them, compositions of positive degree, true claims, evaluation orders, packing widths, switchover rounds, subcube sizes, stale buffer contents, challenges and batching coefficients", "why_tests_cant": "all tables, suffixes, compositions and challenges; a coordinate one has negligible probability and gives a wrong polynomial", "anchors": ["crates/core/src/protocols/sumcheck/prove/eq_ind.rs: EqIndSumcheckProverBuilder, EqIndSumcheckProver, determine_const_eval_suffixes, ConstEvalSuffix::update, Evaluator, Interpolator, eq_ind_expand", "crates/core/src/protocols/sumcheck/prove/common.rs: fold_partial_eq_ind", "crates/hal/src/sumcheck_multilinear.rs: const_suffix, update_const_suffix"]}
{"id": "C68", "title": "The SHA-256 gadget computes SHA-256", "statement": "Sha256::new adds to any table columns and constraints such that, in every row that satisfies them, state_out is the SHA-256 hash of the padded 16-word block in state_in: FIPS 180-4 schedule, rounds, constants and initial value, the latter two given by the fractional parts of roots of primes. Sha256::populate, given as many blocks as rows and new cells that are zero, produces rows that satisfy the constraints, hold the given blocks and leave the columns of the table as they were. More blocks than rows panic; rows without a block, and rows whose memory was not zero, do not satisfy the constraints.", "quantifier": "all tables the gadget is added to, all rows, all message blocks, all satisfying assignments including those not made by populate, over every field of characteristic 2 with a tower", "why_tests_cant": "soundness is about all assignments to some two thousand columns, of which honest population makes one per block; test vectors cover a few blocks of 2^512", "anchors": ["crates/m3/src/gadgets/hash/sha256.rs: Sha256, Round, Sigma0, Sigma1, BigSigma0, BigSigma1, compute_message_schedule, ROUND_CONSTS_K, INIT, SCHEDULE_EXPAND_SELECTOR", "crates/m3/src/gadgets/add.rs: U32Add, U32AddStacked"]}
{"id": "C69", "title": "BinaryField128bPolyval is the POLYVAL field, isomorphic to the other towers", "statement": "Addition, multiplication and inversion of BinaryField128bPolyval form a field of characteristic two; inversion never fails. new(a) stands for the polynomial a: the product of new(a) and new(b) is new of the product of polynomials modulo x^128+x^127+x^126+x^121+1, and Display shows a again; on the stored integers multiplication is the operation dot of RFC 8452. The conversions to and from BinaryField128b and AESTowerField128b are mutually inverse field isomorphisms that agree with each other. MULTIPLICATIVE_GENERATOR has order 2^128-1. Conversions from and to BinaryField1b and multiplication by a bit are those of the subfield.", "quantifier": "all 128-bit values, all pairs and triples of them, all exponents", "why_tests_cant": "2^256 pairs; carry-less multiplication by integer products with holes relies on no carry ever reaching a kept bit, and inversion uses 3072 table entries, each of which matters for a small part of the inputs", "anchors": ["crates/field/src/polyval.rs: BinaryField128bPolyval, BINARY_TO_POLYVAL_TRANSFORMATION, POLYVAL_TO_BINARY_TRANSFORMATION, AES_TO_POLYVAL_TRANSFORMATION, POLYVAL_TO_AES_TRANSFORMATION", "crates/field/src/arch/portable/packed_polyval_128.rs: montgomery_multiply, bmul64, rev64", "crates/field/src/arch/portable/packed_polyval_128.rs: pow_2_2_n, invert_or_zero, POLYVAL_NIBBLE_POW_2_N_TABLE"]}
{"id": "C70", "title": "BinaryField128bPolyval decomposes over BinaryField1b", "statement": "iter_bases lists the coordinates of an element with respect to basis(0), ..., basis(127), and from_bases of these coordinates gives the element back.", "quantifier": "all 128-bit values", "why_tests_cant": "the claim is about every element; the elements 0 of the tests agree by accident", "anchors": ["crates/field/src/polyval.rs: ExtensionField<BinaryField1b> for BinaryField128bPolyval (basis_checked, from_bases_sparse, iter_bases)", "crates/field/src/extension.rs: ExtensionField::from_bases"]}
{"id": "C71", "title": "The prover of product claims with an equality indicator on the compute layer is honest", "statement": "BivariateMLEcheckProver, given true claims (at least one) on sums of products of two multilinears times the equality indicator of a point without a coordinate one, and the expanded indicator of all coordinates but the last, sends in every round the coefficients of the batched round polynomial of the products times the indicator, high variable first, and finally the evaluations of the multilinears and of the indicator at the challenges. It accepts exactly inputs of matching sizes, refuses calls out of turn, and what it finally sends does not depend on the batching coefficient. The device memory that required_device_memory says, without counting on a given indicator, is enough for its rounds.", "quantifier": "all numbers of variables, points, tables, pairs of tables, true claims, challenges and batching coefficients; all prover states for the refusals", "why_tests_cant": "all tables, points and challenges; the values at zero are derived from the claimed sum by a division, wrong only at points of negligible density", "anchors": ["crates/core/src/protocols/sumcheck/v3/bivariate_mlecheck.rs: BivariateMLEcheckProver (new, execute, fold, finish, required_device_memory), calculate_round_evals, calculate_round_coeffs_from_evals, fold_multilinears, fold_eq_ind"]}
{"id": "C72", "title": "The Keccak-f gadget is sound and complete", "statement": "The stacked Keccakf gadget can be added to every well-formed table over a tower of at least 64 bits. In every row that satisfies the new table's constraints, the input columns hold the 25 lanes of some state and the output columns hold the lanes of its Keccak-f[1600] permutation as in FIPS 202. For all states, no more than there are rows, populate_state_in and populate succeed on rows whose new cells are zero, keep the old columns, make rows that satisfy the constraints and have the given states as inputs (the zero state where none is given), and read_state_outs returns the permuted states. More states than rows are refused by a panic.", "quantifier": "all well-formed tables, all rows, all states of 1600 bits, all numbers of rows and states", "why_tests_cant": "soundness is about every assignment a cheating prover may choose for the cells of a row, completeness about all 2^1600 states", "anchors": ["crates/m3/src/gadgets/hash/keccak/stacked.rs: Keccakf (new, populate, populate_state_in, read_state_outs), RoundBatch (new, populate, populate_state_in, read_state_outs), round_consts_for_batch, pack_b64", "crates/m3/src/gadgets/hash/keccak/trace.rs: keccakf_trace, gather, RoundTrace", "crates/m3/src/gadgets/hash/keccak/state.rs: StateMatrix, StateRow"]}
{"id": "C73", "title": "Hashers give the hash of the string, however it reaches them", "statement": "The Vision hasher gives the same hash for a string whatever pieces it is given in: the sponge over 64-byte blocks of the string padded with a one bit, zeros and a one bit; the padding is injective. The compression of two strings is the hash of their concatenation. The 32-row hasher gives each row the hash of its string, also after a reset. hash_serialize and the parallel digest of items give the hash of the concatenated writes of the items, whatever the sizes of writes and blocks, and hash_serialize fails exactly if an item does. The parallel digest over a multi-digest gives every string of a list of equal-length strings its hash, for every schedule.", "quantifier": "every permutation, every string and every split of it into pieces, every list of items and writes, every digest and block size, every number of strings, every schedule of the parallel runs", "why_tests_cant": "the code has separate paths for empty and filled buffers, whole blocks and remainders, and leftover buffers of earlier chunks; which are taken depends on the split and on the thread schedule", "anchors": ["crates/hash/src/vision/digest.rs:VisionHasherDigest", "crates/hash/src/vision/digest.rs:VisionHasherDigestByteSliced", "crates/hash/src/vision/compression.rs:Vision32Compression", "crates/hash/src/multi_digest.rs:ParallelMultidigestImpl", "crates/hash/src/serialization.rs:HashBuffer", "crates/hash/src/serialization.rs:hash_serialize"]}
{"id": "C74", "title": "Interpolation over unions of cosets gives the one polynomial", "statement": "An interpolator for d cosets of size 2^ell can be built for every NTT and all parameters that fit its domain; other parameters give an error. Its inverse transform takes exactly d*2^ell values and replaces them with the novel-basis coefficients of the polynomial of degree less than d*2^ell that has these values at the first d*2^ell points of the evaluation domain; no other coefficients have this property. Other lengths give an error. It never panics.", "quantifier": "every binary field, every subspace basis, tables of twiddles of both kinds, every d, ell and coset_bits, every slice of values", "why_tests_cant": "the matrix that is inverted depends on the subspace and on d, and that it is invertible is a statement about all of them; the tests take random values for d below ten", "anchors": ["crates/ntt/src/odd_interpolate.rs:OddInterpolate", "crates/ntt/src/odd_interpolate.rs:novel_vandermonde"]}
{"id": "C75", "title": "Launching kernels gives the same result for every number of threads and schedule", "statement": "accumulate_kernels splits each mapped buffer into the same power-of-two number of equal chunks that cover it in order and are no smaller than asked for, gives kernel i chunk i of every buffer and a scratchpad of zeros, returns the sum of the vectors the kernels return (short ones padded with zeros) or the first error, and leaves in mutable buffers what the kernels wrote. For kernels that work position by position the result and the memory are those of one kernel over the whole buffers, on both compute layers and for any number of threads. map_kernels does the same without a sum and reports errors.", "quantifier": "every kernel, every list of memory mappings, every number of threads, every order of the chunks and assignment to threads, every shape of the parallel reduction, every content left in thread-local scratch memory by earlier calls, every packing width", "why_tests_cant": "tests run on one machine with one number of threads and see one schedule, with fresh scratch memory", "anchors": ["crates/compute/src/layer.rs:KernelMemMap", "crates/compute/src/cpu/layer.rs:process_kernels_chunks", "crates/compute/src/cpu/layer.rs:accumulate_kernels", "crates/compute/src/cpu/layer.rs:map_kernels", "crates/fast_compute/src/layer.rs:process_kernels_chunks", "crates/fast_compute/src/layer.rs:accumulate_kernels", "crates/fast_compute/src/layer.rs:map_kernels"]}
{"id": "C76", "title": "Operations of the compute layers give the documented results", "statement": "inner_product, fold_left, fold_right, extrapolate_line, compute_composite, pairwise_product_reduce, sum_composition_evals, add and add_assign give the sums and products that the documentation of the compute layer traits defines, for slices of fitting lengths, and an error otherwise. compute_composite and sum_composition_evals agree on the CPU layer and the fast layer, for every packing width and whatever is in the unused lanes of short rows. map returns results in the order of the items, and the first error, for every schedule. Launched over chunked memory, sums of compositions are the sums over the whole rows on both layers and for any number of threads.", "quantifier": "every field, every slice contents and length, every tower level, every composition, every packing width, every number of threads and order in which they finish", "why_tests_cant": "tests use random slices of a few lengths on one machine with one packing width and one number of threads", "anchors": ["crates/compute/src/layer.rs:ComputeLayerExecutor", "crates/compute/src/layer.rs:KernelExecutor", "crates/compute/src/cpu/layer.rs:compute_left_fold", "crates/compute/src/cpu/layer.rs:compute_right_fold", "crates/compute/src/cpu/layer.rs:pairwise_product_reduce", "crates/compute/src/cpu/layer.rs:sum_composition_evals", "crates/fast_compute/src/layer.rs:compute_composite", "crates/fast_compute/src/layer.rs:sum_composition_evals", "crates/fast_compute/src/layer.rs:map"]}
{"id": "C77", "title": "The Merkle tree gadget proves inclusion of leaves", "statement": "MerkleTree::new digests any power-of-two number of leaves, and merkle_path of every leaf verifies against its root; verify_path accepts exactly the openings. For any paths of leaves of trees, MerkleTreeTrace::generate makes a trace whose channels balance and whose boundaries are exactly those leaves and roots, and the tables filled from it satisfy their constraints and balance with the boundaries. Conversely, whatever the trace or the witness, if the constraints hold and the channels balance, every boundary leaf is included at its depth and index under a boundary root with its identifier.", "quantifier": "every compression function or permutation, all trees and paths in any number, order and repetition, every trace and every witness of the tables", "why_tests_cant": "tests build one or three trees and one path in each; soundness ranges over all witnesses a malicious prover could supply", "anchors": ["crates/m3/src/gadgets/merkle_tree/trace.rs:MerkleTree", "crates/m3/src/gadgets/merkle_tree/trace.rs:MerkleTreeTrace", "crates/m3/src/gadgets/merkle_tree/mod.rs:MerkleTreeCS", "crates/m3/src/gadgets/merkle_tree/mod.rs:NodesTable", "crates/m3/src/gadgets/merkle_tree/mod.rs:RootTable"]}
{"id": "C78", "title": "The Groestl-256 hashers compute Groestl-256", "statement": "The portable permutations, compression functions and the hasher compute Groestl-256 as its authors define it: a string given in any pieces gets its 32-byte hash, padding is injective, and compressing two digests is the output transformation. The hasher of four strings gives each its hash for pieces of equal lengths, also when some lanes have no string; the parallel digest built on it gives every string its hash for any number of strings and every schedule. A hasher that is reset reads as a new one.", "quantifier": "every string, every split into updates, every state and block of the permutations, any number of strings of one length, every schedule", "why_tests_cant": "tests hash a few strings and compare with another implementation; the permutations have 512-bit states, and splits, lengths and schedules are unbounded", "anchors": ["crates/hash/src/groestl/arch/portable/compress512.rs:compress", "crates/hash/src/groestl/arch/portable/compress512.rs:rndp", "crates/hash/src/groestl/arch/portable/table.rs:TABLE", "crates/hash/src/groestl/digest.rs:GroestlShortVarCore", "crates/hash/src/groestl/compression.rs:Groestl256ByteCompression", "crates/hash/src/groestl/arch/groestl_multi_avx2.rs:Groestl256Multi"]}
{"id": "C79", "title": "The Groestl permutation gadget proves the permutation", "statement": "For both variants, whatever a prover puts in the columns of the permutation gadget, if its constraints hold in a row then the output columns hold the Groestl permutation of what the input columns hold, in the isomorphic representation of bytes; the committed bits are forced. For every input, what populate writes satisfies all constraints.", "quantifier": "both variants, every input state, every assignment to the columns of all ten rounds", "why_tests_cant": "tests populate 256 random states, of which 8 outputs are compared, and check that the honest witness validates; they cannot show that no other witness validates, nor cover all 512-bit states", "anchors": ["crates/m3/src/gadgets/hash/groestl.rs:Permutation", "crates/m3/src/gadgets/hash/groestl.rs:PermutationRound", "crates/m3/src/gadgets/hash/groestl.rs:SBox", "crates/m3/src/gadgets/hash/groestl.rs:round_consts"]}
{"id": "C80", "title": "The Merkle tree gadget proves inclusion under Groestl", "statement": "With the Groestl permutation gadget inside each row, whatever a prover puts in the columns: if the constraints hold and the channels balance with the boundaries, every leaf of the boundary is included at its depth and index under its root, where nodes are joined by the Groestl compression of digests (bytes converted between the binary tower and the AES field). For paths of trees that the trace builds, the filled tables satisfy all constraints and balance.", "quantifier": "all tables, all assignments to the columns of rows and of the permutation gadget, all leaves, roots and depths; all trees and sets of paths", "why_tests_cant": "a test checks one tree and the honest witness; a false inclusion by another witness is not among the inputs", "anchors": ["crates/m3/src/gadgets/merkle_tree/mod.rs:NodesTable", "crates/m3/src/gadgets/merkle_tree/mod.rs:MerkleTreeCS", "crates/m3/src/gadgets/merkle_tree/trace.rs:compress", "crates/m3/src/gadgets/hash/groestl.rs:Permutation"]}
{"id": "C81", "title": "The sparse index is a map", "statement": "After any history of set, entry().or_insert and writes through get_mut, from an index of any capacity, get returns what a partial map with the same history has. Iteration gives every entry exactly once in ascending order of identifiers; keys, values, len, contains_key and is_empty agree with get; an index collected from pairs keeps the last value of each identifier.", "quantifier": "all histories of operations, identifiers, values and capacities", "why_tests_cant": "the container resizes on demand, so what is read depends on the whole history; tests run a few short ones", "anchors": ["crates/utils/src/sparse_index.rs:SparseIndex", "crates/utils/src/sparse_index.rs:Entry"]}
{"id": "C82", "title": "Two-dimensional arrays and subranges access the right elements", "statement": "Within its shape every element of a 2D array can be read and written and a write changes no other; rows, iteration and another shape show the same elements in row-major order; sum_rows adds the rows. A subrange of a sequence exists if and only if it lies within it; reads and writes at its indices are those of the sequence from the offset on, out of its range they panic, and nested subranges add their offsets.", "quantifier": "all shapes, contents, indices, offsets and lengths", "why_tests_cant": "unchecked accesses rely on the arithmetic of indices being in range for all shapes; tests use one of 2 by 3", "anchors": ["crates/utils/src/array_2d.rs:Array2D", "crates/utils/src/random_access_sequence.rs:SequenceSubrange", "crates/utils/src/random_access_sequence.rs:SequenceSubrangeMut"]}
{"id": "C83", "title": "Compositions are evaluated on a batch of rows column by column", "statement": "Batches of rows can be made only with rows long enough; a range of the columns of a batch has exactly these columns, and one out of range panics. The evaluation of a composition on a batch fills evals[j] with the composition of column j, for all columns, also through an adapter that selects some of the rows, and a wrong number of evaluations is an error. An adapter made from the identifiers of a larger and a smaller query evaluates the inner composition at the values of the smaller one's identifiers, and cannot be made if one of them is missing or an index is out of range.", "quantifier": "all batches of rows, ranges of columns, compositions, selections of rows and lists of identifiers", "why_tests_cant": "a wrong offset shows only on batches that do not start at the first column, which the tests do not evaluate on", "anchors": ["crates/math/src/rows_batch.rs:RowsBatchRef", "crates/math/src/composition_poly.rs:CompositionPoly::batch_evaluate", "crates/core/src/composition/index.rs:IndexComposition", "crates/core/src/composition/index.rs:index_composition"]}
{"id": "C84", "title": "A transparent multilinear extension survives serialization", "statement": "A transparent polynomial that is given by its values on the hypercube, serialized and deserialized, has the same number of variables and the same values.", "quantifier": "all lists of values, tower levels of the values, numbers of variables and sizes of the underlier", "why_tests_cant": "what is read depends on the smallest field that holds all the values and on how many there are; no test covers it and one could only try a few polynomials", "anchors": ["crates/core/src/transparent/multilinear_extension.rs:MultilinearExtensionTransparent", "crates/math/src/mle_adapters.rs:MLEEmbeddingAdapter::packed_evals", "crates/field/src/packed.rs:pack_slice"]}
{"id": "C85", "title": "A serialized transparent polynomial is read by the deserializer of its type", "statement": "What is written for a transparent polynomial of any type that writes its name is read back as that polynomial, whatever follows, if exactly one deserializer is registered with the name of its type. If none is, or more than one, it is rejected with an error that says which. The order in which registrations are collected has no influence on what is read from any input.", "quantifier": "all sets of registrations in all orders, type names, polynomials and inputs", "why_tests_cant": "registrations of all linked crates are collected before main in an unspecified order; a test sees one set in one order", "anchors": ["crates/core/src/transparent/serialization.rs:REGISTRY", "crates/core/src/transparent/serialization.rs:deserialize", "crates/macros/src/lib.rs:erased_serialize_bytes"]}
{"id": "C86", "title": "Composites of multilinears evaluate as compositions", "statement": "A composite is made exactly if there are as many multilinears as variables of the composition, each in the stated number of variables. Its value at a point is the composition of the multilinears' values there; at a vertex of the hypercube it is the composition of the table entries and agrees with the value at that point. Fixing low coordinates gives a composite whose values are those of the first at the joined point. The scalar adapter of a packed composition computes the same function. Sizes that do not fit are errors.", "quantifier": "all compositions, lists of multilinears, numbers of variables, points, indices and splits of a point", "why_tests_cant": "the agreement of evaluation, hypercube and partial evaluation is over all polynomials and points; tests use few", "anchors": ["crates/core/src/polynomial/multivariate.rs:MultilinearComposite", "crates/core/src/polynomial/multivariate.rs:CompositionScalarAdapter"]}
