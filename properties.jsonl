{"id": "C01", "title": "Integer/field conversion round trip", "statement": "Converting any u64 to a field element and back returns the same integer; try_to_int returns Some exactly for the field elements whose canonical representative fits in 64 bits, to_int aborts exactly on the others.", "quantifier": "every u64 and every field element, for every prime modulus larger than 2^64", "why_tests_cant": "2^64 integers and a 255-bit field cannot be enumerated; the existing test tries 0..1000", "anchors": ["voproof/src/tools/mod.rs: to_field", "voproof/src/tools/mod.rs: to_int", "voproof/src/tools/mod.rs: try_to_int"]}
{"id": "C02", "title": "power() is integer exponentiation", "statement": "For every non-zero field element a and every signed exponent e, power(a,e) equals a^e (with negative exponents meaning powers of the inverse), and it never aborts; for a = 0 it returns 0 for every exponent, including 0, where a^0 = 1 is expected.", "quantifier": "every field element and every i64 exponent", "why_tests_cant": "unbounded exponents; the exceptional point a = 0 is never hit by random tests", "anchors": ["voproof/src/tools/mod.rs: power"]}
{"id": "C03", "title": "Sparse matrix-vector product", "statement": "sparse_mvp returns exactly the product of the h x k matrix denoted by the triple list (repeated entries add up) with the given vector, has length h, and aborts exactly when a dimension is not positive, the vector length is not k, or an index is out of range.", "quantifier": "every sparse matrix, every vector, every dimension", "why_tests_cant": "matrices and dimensions are unbounded", "anchors": ["voproof/src/tools/mod.rs: sparse_mvp"]}
{"id": "C04", "title": "Left (transposed) sparse product and adjointness", "statement": "The left product macro computes u^T M, and for all u, v the inner products <u, M v> and <u^T M, v> agree.", "quantifier": "every sparse matrix and every pair of vectors of matching size", "why_tests_cant": "unbounded sizes and field values", "anchors": ["voproof/src/tools/mod.rs: define_left_sparse_mvp_vector", "voproof/src/tools/mod.rs: sparse_mvp_vector"]}
{"id": "C05", "title": "Vector polynomial multiplication computes the reversed convolution", "statement": "For vectors u, v and point omega, the FFT-based multiplication macro returns the coefficients of X^{|u|-1} f_u(omega/X) f_v(X), for every pair of vectors, whatever domain size is selected, and the same as the naive multiplication; in particular the coefficient at |u|-1 is sum_i omega^i u_i v_i.", "quantifier": "all vectors, all omega, all FFT domains at least as large as |u|+|v|", "why_tests_cant": "unbounded lengths, all field values", "anchors": ["voproof/src/tools/mod.rs: vector_poly_mul", "voproof/src/tools/mod.rs: vector_poly_mul_no_dict", "voproof/src/tools/mod.rs: vector_reverse_omega"]}
{"id": "C06", "title": "Evaluation cache never changes a product", "statement": "With one left and one right evaluation cache per vector, any sequence of multiplications that share caches returns the same results as uncached multiplications, provided each cache is only used with one vector.", "quantifier": "every sequence of multiplications sharing caches", "why_tests_cant": "history-dependent: depends on the order of cache fills for each domain size", "anchors": ["voproof/src/tools/mod.rs: get_eval", "voproof/src/tools/mod.rs: vector_poly_mul", "voproof/src/tools/mod.rs: define_vector_domain_evaluations_dict"]}
{"id": "C07", "title": "Multiplication by a power vector", "statement": "vector_power_mul(v, alpha, n) returns the n+|v|-1 coefficients of f_v(X) * (1 + alpha X + ... + alpha^{n-1} X^{n-1}), for every n >= 1, every v and every alpha (including 0 and 1).", "quantifier": "every vector, every alpha, every n", "why_tests_cant": "unbounded; running-accumulator recurrence with subtraction of delayed terms", "anchors": ["voproof/src/tools/mod.rs: vector_power_mul"]}
{"id": "C08", "title": "Product of two power vectors", "statement": "power_power_mul(alpha, n, beta, m) returns the n+m-1 coefficients of the product of the two geometric polynomials, for all n, m >= 1 and all alpha, beta, including alpha = beta.", "quantifier": "all field elements, all sizes", "why_tests_cant": "unbounded; stateful scan", "anchors": ["voproof/src/tools/mod.rs: power_power_mul"]}
{"id": "C09", "title": "Accumulators are prefix sums / products", "statement": "accumulate_vector_plus / accumulate_vector_mul return at position k the initial value combined with the first k terms.", "quantifier": "every vector, every initial value", "why_tests_cant": "unbounded lengths", "anchors": ["voproof/src/tools/mod.rs: accumulate_vector", "voproof/src/tools/mod.rs: accumulate_vector_plus", "voproof/src/tools/mod.rs: accumulate_vector_mul"]}
{"id": "C10", "title": "Sparse vectors: dense form and direct evaluation agree", "statement": "The dense vector built from an index/value list and the direct sparse evaluation used by verifiers describe the same polynomial whenever indices are distinct and z is non-zero; with a repeated index they differ.", "quantifier": "every index list, value list, size, evaluation point", "why_tests_cant": "unbounded lists; the disagreement only shows on repeated indices or z = 0", "anchors": ["voproof/src/tools/mod.rs: define_sparse_vector", "voproof/src/tools/mod.rs: eval_sparse_vector", "voproof/src/tools/mod.rs: define_sparse_zero_one_vector", "voproof/src/tools/mod.rs: eval_sparse_zero_one_vector"]}
{"id": "C11", "title": "Copy-constraint permutation vector", "statement": "The vector built from wire pairs is a permutation of 1, gamma, ..., gamma^{n-1}; when the wire pairs form a forest, its cycles are exactly the classes of positions connected by the pairs (so a vector is invariant under the permutation iff it satisfies all copy constraints); a repeated or cyclic pair can cancel and silently drop a constraint.", "quantifier": "every list of wire pairs, every size n, every gamma of order at least n", "why_tests_cant": "unbounded lists of pairs; the failure needs repeated pairs", "anchors": ["voproof/src/tools/mod.rs: define_permutation_vector_from_wires"]}
{"id": "C12", "title": "Polynomial evaluation helpers", "statement": "evaluate_short, evaluate_sparse and eval_vector_as_poly return the value of the polynomial at every non-zero point; eval_vector_as_poly does so at 0 too, while evaluate_short / evaluate_sparse return 0 at the point 0 whatever the constant coefficient is.", "quantifier": "every coefficient vector, every point", "why_tests_cant": "all points; the point 0 is exceptional", "anchors": ["voproof/src/tools/mod.rs: evaluate_short", "voproof/src/tools/mod.rs: evaluate_sparse", "voproof/src/tools/mod.rs: eval_vector_as_poly"]}
{"id": "C13", "title": "power_iter enumerates a window of a shifted power vector", "statement": "power_iter(start,end,alpha,length,shifted) yields exactly end-start elements, the k-th being alpha^{start+k-shifted} inside the window [shifted, shifted+length) and 0 outside, for non-zero alpha; it aborts iff end <= start.", "quantifier": "every start, end, length, shift and alpha", "why_tests_cant": "unbounded ranges; stateful iterator", "anchors": ["voproof/src/tools/mod.rs: power_iter", "voproof/src/tools/mod.rs: PowerVectorIterator"]}
{"id": "C14", "title": "Batch inverse vectors", "statement": "The inverse-vector macros return at each position the inverse of the expression, and 0 where the expression is 0.", "quantifier": "every vector of field elements including zeros", "why_tests_cant": "all values including zeros", "anchors": ["voproof/src/tools/mod.rs: define_expression_vector_inverse", "voproof/src/tools/mod.rs: define_uwinverse_vector"]}
{"id": "C15", "title": "Vector macros: zero padding, concatenation, 1-based indexing", "statement": "zero_pad keeps the vector and extends it with zeros to exactly n entries, aborting iff it is longer than n; vector_index returns the i-th (1-based) entry inside the vector and 0 at every other integer position.", "quantifier": "every vector, every size and index (negative included)", "why_tests_cant": "unbounded", "anchors": ["voproof/src/tools/mod.rs: zero_pad", "voproof/src/tools/mod.rs: zero_pad_and_concat", "voproof/src/tools/mod.rs: vector_index", "voproof/src/tools/mod.rs: vector_concat"]}
{"id": "C16", "title": "Vertical/horizontal concatenation of constraint matrices", "statement": "The stacked matrices used by the R1CS and HPR argument act as the stacked linear maps: vertical concatenation applied to z is (Az, Bz, Cz); horizontal concatenation applied to (1,a,b,c) is d + Aa + Bb + Cc.", "quantifier": "all matrices and vectors", "why_tests_cant": "unbounded sizes", "anchors": ["voproof/src/tools/mod.rs: concat_matrix_vertically", "voproof/src/tools/mod.rs: concat_matrix_horizontally"]}
{"id": "C17", "title": "KZG setup produces the powers of the trapdoor", "statement": "setup(D) fails exactly for D = 0, and otherwise returns D+1 powers, the i-th being beta^i g, together with h and beta h.", "quantifier": "every degree bound and every random draw", "why_tests_cant": "unbounded degree, random trapdoor", "anchors": ["voproof/src/kzg/mod.rs: KZG10::setup"]}
{"id": "C18", "title": "KZG commitment is f(beta) g", "statement": "commit succeeds exactly when the polynomial fits in the key and then returns f(beta) g; committing is additive and homogeneous; skipping leading zeros does not change the result.", "quantifier": "every polynomial, every key", "why_tests_cant": "unbounded degree", "anchors": ["voproof/src/kzg/mod.rs: commit_with_coefficients", "voproof/src/kzg/mod.rs: commit", "voproof/src/kzg/mod.rs: skip_leading_zeros_and_convert_to_bigints"]}
{"id": "C19", "title": "KZG opening is complete", "statement": "For every non-constant polynomial that fits in the key and every point, open returns a proof that check accepts with the true value; the witness is the quotient of f - f(z) by X - z. For constant polynomials open aborts.", "quantifier": "every polynomial and point", "why_tests_cant": "unbounded degree; the constant-polynomial abort is a corner case", "anchors": ["voproof/src/kzg/mod.rs: compute_witness_polynomial", "voproof/src/kzg/mod.rs: open", "voproof/src/kzg/mod.rs: check"]}
{"id": "C20", "title": "KZG check accepts exactly the pairing equation", "statement": "check accepts (commitment, point, value, proof) iff commitment - value g = (beta - point) proof; in particular for each commitment, point and proof at most one value is accepted.", "quantifier": "all group elements, points, values", "why_tests_cant": "ranges over all adversarial proofs", "anchors": ["voproof/src/kzg/mod.rs: check"]}
{"id": "C21", "title": "KZG batch opening is complete", "statement": "batch_open over any two non-empty families of polynomials followed by batch_check with the true values accepts, for every choice of the combination challenges and of the verifier's randomizer.", "quantifier": "all families of polynomials, all points, all challenges", "why_tests_cant": "unbounded number of polynomials and degrees", "anchors": ["voproof/src/kzg/mod.rs: batch_open", "voproof/src/kzg/mod.rs: batch_check"]}
{"id": "C22", "title": "KZG batch check rejects wrong openings except for few challenges", "statement": "If some claimed value is wrong, then for all but at most (number of claims - 1) combination challenges, and all but one verifier randomizer, batch_check rejects polynomial commitments whose opening quotient is a committed polynomial; a fixed, known randomizer allows an accepting opening with wrong values.", "quantifier": "all claims and challenges", "why_tests_cant": "probability over the whole field", "anchors": ["voproof/src/kzg/mod.rs: batch_check"]}
{"id": "C23", "title": "Shifted vector commitments", "statement": "vector_to_commitment(powers, v, d) commits to X^{d-|v|} f_v(X) when d >= |v| and to f_v otherwise; it errs or aborts exactly when the shifted polynomial does not fit.", "quantifier": "every vector, degree and key", "why_tests_cant": "unbounded", "anchors": ["voproof/src/snarks/mod.rs: vector_to_commitment", "voproof/src/snarks/mod.rs: scalar_to_commitment"]}
{"id": "C24", "title": "R1CS satisfaction check", "statement": "satisfy(instance,witness) returns true iff (A z) o (B z) = C z for z = (1, instance, witness); it aborts when the length is wrong.", "quantifier": "every R1CS, instance and witness", "why_tests_cant": "unbounded sizes", "anchors": ["voproof/src/cs/r1cs.rs: R1CS::satisfy"]}
{"id": "C25", "title": "HPR satisfaction check", "statement": "satisfy returns true iff A a + B b + C c + d = 0 style linear constraints, the Hadamard product constraint and the public-input prefix all hold.", "quantifier": "every HPR, instance, witness", "why_tests_cant": "unbounded sizes", "anchors": ["voproof/src/cs/hpr.rs: HPR::satisfy"]}
{"id": "C26", "title": "HPR size reports the three densities", "statement": "get_size reports the number of rows, columns and the density of each of the matrices A, B, C; the code reports the density of A for all three.", "quantifier": "every HPR", "why_tests_cant": "holds on symmetric test matrices by accident", "anchors": ["voproof/src/cs/hpr.rs: HPR::get_size"]}
{"id": "C27", "title": "POV satisfaction checks", "statement": "satisfy_gate_logics, satisfy_wiring and satisfy_instance hold iff all addition, multiplication and constant gates, all copy constraints and all public values hold for the witness.", "quantifier": "every POV system, instance and witness", "why_tests_cant": "unbounded sizes, length mismatch corner cases", "anchors": ["voproof/src/cs/pov.rs: satisfy_gate_logics", "voproof/src/cs/pov.rs: satisfy_wiring", "voproof/src/cs/pov.rs: satisfy_instance"]}
{"id": "C28", "title": "Random instance generators produce satisfying instances", "statement": "The HPR generator returns a system, instance and witness that satisfy each other for every random stream and admissible size.", "quantifier": "all random streams and sizes", "why_tests_cant": "random sampling can never cover all streams", "anchors": ["voproof/src/cs/hpr.rs: generate_random_hpr_instance"]}
{"id": "C29", "title": "Circuit builder keeps the wire structure well formed", "statement": "After any sequence of builder calls, every gate input/output wire is attached to exactly one variable, each variable has at most one driver, drivers precede users, and gate indices are dense.", "quantifier": "every sequence of builder operations", "why_tests_cant": "unbounded histories of builder calls with caches", "anchors": ["voproof/src/cs/circuit/fan_in_two.rs: add_gate", "voproof/src/cs/circuit/fan_in_two.rs: mul_gate", "voproof/src/cs/circuit/fan_in_two.rs: const_gate", "voproof/src/cs/circuit/fan_in_two.rs: add_global_input_variable"]}
{"id": "C30", "title": "Gate caching never changes computed values", "statement": "Gates requested twice (in either operand order) return the same variable, and the value computed for every returned variable equals the arithmetic expression requested.", "quantifier": "every sequence of builder operations and every input assignment", "why_tests_cant": "history-dependent", "anchors": ["voproof/src/cs/circuit/fan_in_two.rs: add_addition_gate", "voproof/src/cs/circuit/fan_in_two.rs: add_multiplication_gate", "voproof/src/cs/circuit/fan_in_two.rs: add_const_gate"]}
{"id": "C31", "title": "Circuit evaluation", "statement": "evaluate assigns to every variable the value of the arithmetic expression it stands for, for every input assignment, and reports an error exactly when some variable has no driver or the number of inputs is wrong.", "quantifier": "every circuit and input vector", "why_tests_cant": "unbounded circuits", "anchors": ["voproof/src/cs/circuit/fan_in_two.rs: evaluate"]}
{"id": "C32", "title": "Global wire indices are a bijection", "statement": "The (left|right|output, gate) wires are mapped one-to-one onto 0 .. 3(nmul+nadd+nconst)-1 in the documented layout.", "quantifier": "every circuit and every wire", "why_tests_cant": "unbounded sizes", "anchors": ["voproof/src/cs/circuit/fan_in_two.rs: get_offset", "voproof/src/cs/circuit/fan_in_two.rs: get_global_index"]}
{"id": "C33", "title": "Wiring pairs connect exactly the wires of each variable", "statement": "The equivalence relation generated by the produced wire pairs is: two wires are related iff they belong to the same variable or to variables linked by assert_equal.", "quantifier": "every circuit", "why_tests_cant": "unbounded", "anchors": ["voproof/src/cs/circuit/fan_in_two.rs: get_wiring"]}
{"id": "C34", "title": "Honest circuit evaluation yields a satisfying POV witness", "statement": "For every completed circuit, every input and the POV system, instance and witness derived from it after evaluation, gate, wiring and instance checks all succeed iff the asserted equalities hold.", "quantifier": "every circuit and every input", "why_tests_cant": "unbounded", "anchors": ["voproof/src/cs/pov.rs: From<FanInTwoCircuit>", "voproof/src/cs/circuit/fan_in_two.rs: get_instance", "voproof/src/cs/circuit/fan_in_two.rs: get_witness"]}
{"id": "C35", "title": "A satisfying POV witness determines a valid circuit execution", "statement": "Any witness satisfying the gates and wiring of the POV system derived from a circuit is the honest execution for the inputs it contains.", "quantifier": "every circuit and every (adversarial) witness", "why_tests_cant": "all adversarial witnesses", "anchors": ["voproof/src/cs/pov.rs: From<FanInTwoCircuit>"]}
{"id": "C36", "title": "R1CS to circuit translation preserves satisfiability", "statement": "For every R1CS, an assignment satisfies it iff the circuit obtained by the translation, evaluated on it, meets all its equality assertions.", "quantifier": "every R1CS and assignment", "why_tests_cant": "unbounded", "anchors": ["voproof/src/cs/circuit/mod.rs: From<R1CS>"]}
{"id": "C37", "title": "Fibonacci SNARK is complete", "statement": "For every size, every coefficient vector and every witness satisfying the recurrence, proving with the honest keys succeeds and the produced proof verifies, for every challenge outside the explicit degenerate set.", "quantifier": "all sizes, instances, witnesses, blinding values, hash functions", "why_tests_cant": "unbounded sizes, all hash outcomes", "anchors": ["voproof/src/snarks/fibonacci.rs: index", "voproof/src/snarks/fibonacci.rs: prove", "voproof/src/snarks/fibonacci.rs: verify"]}
{"id": "C38", "title": "Fibonacci SNARK verification equation", "statement": "verify accepts iff the batched pairing equation with the documented coefficients holds, and the Hadamard identities it encodes imply the recurrence w1=a+b t1, w2=b+w1 t2, wi=w(i-2)+w(i-1)ti, wn=c.", "quantifier": "all proofs and instances, all challenges except few", "why_tests_cant": "adversarial proofs, probability over the field", "anchors": ["voproof/src/snarks/fibonacci.rs: verify"]}
{"id": "C39", "title": "Fibonacci transcript does not bind the instance", "statement": "For every accepted proof there is a different instance (for any shift of a) accepted with the same proof, because challenges do not depend on the instance.", "quantifier": "every accepted proof", "why_tests_cant": "requires exhibiting an attack for every proof", "anchors": ["voproof/src/snarks/fibonacci.rs: verify"]}
{"id": "C40", "title": "Known batch randomizer allows universal forgery", "statement": "Because the verifier draws its batch randomizer from a fixed test generator, an accepting proof can be constructed for every instance, true or false.", "quantifier": "every instance and verification key", "why_tests_cant": "attack algorithm for every instance", "anchors": ["voproof/src/snarks/fibonacci.rs: verify", "voproof/src/kzg/mod.rs: batch_check"]}
{"id": "C41", "title": "POV SNARK is complete", "statement": "Honest proofs for satisfying POV witnesses are accepted, for every size, every challenge outside the degenerate set, every duplicate-free instance.", "quantifier": "all sizes, instances, witnesses, challenges", "why_tests_cant": "unbounded", "anchors": ["voproof/src/snarks/voproof_pov.rs: index", "voproof/src/snarks/voproof_pov.rs: prove", "voproof/src/snarks/voproof_pov.rs: verify"]}
{"id": "C42", "title": "POV permutation argument is sound", "statement": "If a vector is not invariant under the wire permutation, then the grand-product identity used by the prover holds for only few challenges.", "quantifier": "all vectors, permutations, challenges", "why_tests_cant": "probability over the field", "anchors": ["voproof/src/snarks/voproof_pov.rs: prove", "voproof/src/snarks/voproof_pov.rs: verify"]}
{"id": "C43", "title": "R1CS SNARK is complete", "statement": "Honest proofs for satisfying R1CS witnesses are accepted, for every size and challenge outside the degenerate set.", "quantifier": "all sizes, instances, witnesses, challenges", "why_tests_cant": "unbounded", "anchors": ["voproof/src/snarks/voproof_r1cs.rs: index", "voproof/src/snarks/voproof_r1cs.rs: prove", "voproof/src/snarks/voproof_r1cs.rs: verify"]}
{"id": "C44", "title": "HPR SNARK is complete", "statement": "Honest proofs for satisfying HPR witnesses are accepted.", "quantifier": "all sizes, instances, witnesses, challenges", "why_tests_cant": "unbounded", "anchors": ["voproof/src/snarks/voproof_hpr.rs: index", "voproof/src/snarks/voproof_hpr.rs: prove", "voproof/src/snarks/voproof_hpr.rs: verify"]}
{"id": "C45", "title": "Range-check SNARK: accepted proofs exist for in-range vectors; the prover finds them only with a zero blinding value", "statement": "For vectors with all entries in the range, proofs that verify accepts exist for every choice of blinding values. The shipped prover returns them when its fifth blinding value is zero and the challenges are not degenerate, and (deviation) aborts in its own consistency checks otherwise, because it truncates products as if there were no blinding value.", "quantifier": "all sizes with lookup_size <= range, witnesses, blinding values, hash functions, trapdoors", "why_tests_cant": "all sizes, witnesses and challenges; the abort must hold for every input", "anchors": ["voproof/src/snarks/range_check.rs: index", "voproof/src/snarks/range_check.rs: prove", "voproof/src/snarks/range_check.rs: verify"]}
{"id": "C46", "title": "Key and commitment serialization round trips", "statement": "Deserializing the serialized universal parameters or verifier keys returns the same parameters including recomputed prepared elements.", "quantifier": "all keys of every size", "why_tests_cant": "unbounded", "anchors": ["voproof/src/kzg/data_structures.rs: UniversalParams", "voproof/src/kzg/data_structures.rs: VerifierKey"]}
{"id": "C47", "title": "Prepared commitments hold the doubling table", "statement": "prepare returns the table 2^i C for every bit of the scalar field.", "quantifier": "all commitments", "why_tests_cant": "all group elements", "anchors": ["voproof/src/kzg/data_structures.rs: PreparedCommitment"]}
{"id": "C48", "title": "Hadamard-sum reduction is sound", "statement": "If two vectors have a non-zero entry in their combined Hadamard sum, then for all but n-1 values of omega the middle coefficient of the reversed product is non-zero, and for all but few evaluation points z no pair of degree-bounded polynomials h1, h2 satisfies the verification identity.", "quantifier": "all vectors, all challenges", "why_tests_cant": "probability over the field (Schwartz-Zippel)", "anchors": ["voproof/src/snarks/fibonacci.rs: prove", "voproof/src/snarks/fibonacci.rs: verify"]}
{"id": "C49", "title": "Adding an integer to a field element", "statement": "custom_add_fi(a, b) adds the integer b to the field element a for every non-negative i64 b; for every negative b the two's-complement cast makes it add b + 2^64 instead.", "quantifier": "every field element, every i64", "why_tests_cant": "the whole range of signed 64-bit integers and all moduli above 2^64 are covered; existing tests only use small positive values", "anchors": ["voproof/src/tools/mod.rs: custom_add_fi, custom_add_if, to_field"]}
{"id": "C50", "title": "Degree bounds are enforced", "statement": "check_degrees_and_bounds accepts a labelled polynomial iff it has no degree bound, or its bound is one of the (sorted) enforced bounds and lies between the polynomial's degree and the maximum degree; every other combination is an error.", "quantifier": "every polynomial degree, bound, list of enforced bounds and maximum degree", "why_tests_cant": "unbounded list of enforced bounds and every relative order of the three numbers", "anchors": ["voproof/src/kzg/mod.rs: check_degrees_and_bounds"]}
{"id": "C51", "title": "Conversion of arkworks constraint systems", "statement": "Converting an arkworks constraint system to an R1CS keeps every matrix entry, the number of rows, columns and public inputs, and the set of satisfying assignments.", "quantifier": "every arkworks constraint system (all sizes, rows and coefficient lists, repeated columns included)", "why_tests_cant": "unbounded number and size of linear combinations; repeated columns in one combination must be summed", "anchors": ["voproof/src/cs/r1cs.rs: From<ArkR1CS<F>> for R1CS<F>"]}
{"id": "C52", "title": "Completing a circuit and reading its outputs", "statement": "mark_as_complete succeeds iff there is a global input, every variable is connected to a gate and some variable feeds no gate; it then records exactly the variables feeding no gate, in order, as outputs, and after evaluate get_output returns their values. A failed completion of a circuit built with the high-level calls changes nothing.", "quantifier": "every history of builder calls", "why_tests_cant": "unbounded circuits and histories; error paths that keep partial state", "anchors": ["voproof/src/cs/circuit/fan_in_two.rs: mark_as_complete", "voproof/src/cs/circuit/fan_in_two.rs: get_output"]}
{"id": "C53", "title": "Subvector and entrywise vector macros", "statement": "define_concat_subvec(a, ai, aj, b, bi, bj) returns the entries ai..aj of a followed by bi..bj of b and aborts iff a range is reversed; define_hadamard_vector multiplies entrywise; define_concat_neg_vector appends the negated second vector.", "quantifier": "all vectors and ranges", "why_tests_cant": "unbounded lengths and ranges", "anchors": ["voproof/src/tools/mod.rs: define_concat_subvec", "voproof/src/tools/mod.rs: define_hadamard_vector", "voproof/src/tools/mod.rs: define_concat_neg_vector"]}
{"id": "C54", "title": "POV SNARK is sound round by round", "statement": "Let the wires be a forest, public positions distinct and inside the witness, and the powers of the generator distinct. If satisfy does not accept the witness that can be read off the committed witness polynomial, then whatever a prover that commits to polynomials of bounded degree sends, verify rejects unless one of the challenges (zeta, zeta_1, alpha, omega, z, xi), the trapdoor or the batch randomizer falls in a small set fixed before it is drawn.", "quantifier": "all POV systems, instances, prover strategies, challenges, trapdoors", "why_tests_cant": "adversarial provers and all challenges", "anchors": ["voproof/src/snarks/voproof_pov.rs: verify"]}
{"id": "C55", "title": "What the POV verifier checks", "statement": "verify accepts exactly when z is none of 0, 1, omega, 1/gamma and one linear equation between the commitments, the claimed values and the opening proofs holds.", "quantifier": "all keys, instances, proofs, hash functions", "why_tests_cant": "all proofs, including adversarial ones", "anchors": ["voproof/src/snarks/voproof_pov.rs: verify"]}
{"id": "C56", "title": "Known batch randomizer allows forging POV proofs", "statement": "Because the verifier draws its batch randomizer from a fixed test generator, an accepting POV proof can be constructed for every instance, true or false.", "quantifier": "all keys, instances, commitments", "why_tests_cant": "universally quantified attack", "anchors": ["voproof/src/snarks/voproof_pov.rs: verify", "voproof/src/kzg/mod.rs: batch_check"]}
{"id": "C57", "title": "POV verifier does not check that public positions exist", "statement": "For every true statement, adding the claim that a position just outside the witness holds an arbitrary value gives an instance that satisfy rejects for every witness but that has proofs verify accepts.", "quantifier": "all systems, instances, positions, values", "why_tests_cant": "universally quantified attack", "anchors": ["voproof/src/snarks/voproof_pov.rs: verify", "voproof/src/cs/pov.rs: satisfy_instance"]}
{"id": "C58", "title": "R1CS verifier rejects proofs without a satisfying witness", "statement": "If a prover's commitments are to polynomials within the setup degree and the witness readable from its first commitment does not satisfy the indexed R1CS for the given instance, then after each transcript challenge only an explicitly bounded number of challenge values lets the final verification succeed, whatever the prover sends next.", "quantifier": "all systems with at least 3H listed entries, instances, committed polynomials, adaptive prover messages, challenges outside explicit small sets, trapdoors and randomizers", "why_tests_cant": "quantifies over all cheating provers and all challenge values", "anchors": ["voproof/src/snarks/voproof_r1cs.rs: verify", "voproof/src/snarks/voproof_r1cs.rs: index"]}
{"id": "C59", "title": "R1CS verification is exactly one batched opening equation", "statement": "verify returns Ok if and only if the last challenge avoids four degenerate values and one explicit group equation between the key, the proof, the instance and the challenges holds.", "quantifier": "all keys, instances, proofs, hash functions", "why_tests_cant": "equivalence over all proofs and keys", "anchors": ["voproof/src/snarks/voproof_r1cs.rs: verify", "voproof/src/snarks/voproof_r1cs.rs: index"]}
{"id": "C60", "title": "R1CS proofs can be forged when the verifier's randomizer is known", "statement": "verify draws its batching randomizer from a fixed-seed generator; for every key and every instance, true or false, opening proofs exist, computable without the trapdoor, that make it accept.", "quantifier": "all keys, instances, commitments with non-degenerate challenges", "why_tests_cant": "universal forgery for all instances and keys", "anchors": ["voproof/src/snarks/voproof_r1cs.rs: verify", "voproof/src/snarks/voproof_r1cs.rs: index", "voproof/src/kzg/mod.rs: batch_check"]}
{"id": "C61", "title": "R1CS verification ignores the instance length", "statement": "The public input checked is the given list cut or zero-padded to the system's number of public inputs: for any list whose cut or padded version is true, an accepting proof for the list itself exists.", "quantifier": "all systems, instances of any length within the setup degree, witnesses, challenges outside the degenerate set", "why_tests_cant": "all lengths and contents of extra entries", "anchors": ["voproof/src/snarks/voproof_r1cs.rs: verify", "voproof/src/snarks/voproof_r1cs.rs: index"]}
{"id": "C62", "title": "HPR verifier rejects proofs without a satisfying witness", "statement": "If a prover's commitments are to polynomials within the setup degree and the three witness vectors readable from its first commitment do not satisfy the indexed HPR system for the given instance, then after each transcript challenge only an explicitly bounded number of challenge values lets the final verification succeed, whatever the prover sends next.", "quantifier": "all systems with |B|+|C|=2|A| and at least as many entries as rows, instances no longer than the number of rows, committed polynomials, adaptive prover messages, challenges outside explicit small sets, trapdoors and randomizers", "why_tests_cant": "quantifies over all cheating provers and all challenge values", "anchors": ["voproof/src/snarks/voproof_hpr.rs: verify", "voproof/src/snarks/voproof_hpr.rs: index"]}
{"id": "C63", "title": "HPR verification is exactly one batched opening equation", "statement": "verify returns Ok if and only if the last challenge avoids four degenerate values and one explicit group equation between the key, the proof, the instance and the challenges holds.", "quantifier": "all keys, instances, proofs, hash functions", "why_tests_cant": "equivalence over all proofs and keys", "anchors": ["voproof/src/snarks/voproof_hpr.rs: verify", "voproof/src/snarks/voproof_hpr.rs: index"]}
{"id": "C64", "title": "HPR proofs can be forged when the verifier's randomizer is known", "statement": "verify draws its batching randomizer from a fixed-seed generator; for every key and every instance, true or false, opening proofs exist, computable without the trapdoor, that make it accept.", "quantifier": "all keys, instances, commitments with non-degenerate challenges", "why_tests_cant": "universal forgery for all instances and keys", "anchors": ["voproof/src/snarks/voproof_hpr.rs: verify", "voproof/src/snarks/voproof_hpr.rs: index", "voproof/src/kzg/mod.rs: batch_check"]}
{"id": "C65", "title": "HPR verification of over-long instances does not check the relation", "statement": "The length of the instance is not checked against the number of rows, and its surplus entries overlap the witness: for any three vectors, satisfying the product constraint or not, an explicit over-long instance has accepting proofs with the zero witness, although satisfy rejects it for every witness.", "quantifier": "all systems, all triples of vectors, challenges outside the degenerate set", "why_tests_cant": "all systems and vectors", "anchors": ["voproof/src/snarks/voproof_hpr.rs: verify", "voproof/src/snarks/voproof_hpr.rs: index", "voproof/src/cs/hpr.rs: satisfy"]}
{"id": "C66", "title": "Range-check verifier rejects vectors with a value out of range", "statement": "If a prover's commitments are to polynomials within the setup degree and one of the first lookup_size coefficients of its committed vector is not an integer below range, then after each transcript challenge only an explicitly bounded number of challenge values lets the final verification succeed, whatever the prover sends next (fields of characteristic above lookup_size).", "quantifier": "all sizes with lookup_size <= range, committed polynomials, adaptive prover messages, challenges outside explicit small sets, trapdoors and randomizers", "why_tests_cant": "quantifies over all cheating provers and all challenge values", "anchors": ["voproof/src/snarks/range_check.rs: index", "voproof/src/snarks/range_check.rs: verify"]}
{"id": "C67", "title": "Range-check verification is exactly one batched opening equation", "statement": "verify returns Ok if and only if the last challenge avoids three degenerate values and one explicit group equation between the key, the proof and the challenges holds.", "quantifier": "all keys, proofs, hash functions", "why_tests_cant": "equivalence over all proofs and keys", "anchors": ["voproof/src/snarks/range_check.rs: verify"]}
{"id": "C68", "title": "Range-check proofs can be forged when the verifier's randomizer is known", "statement": "verify draws its batching randomizer from a fixed-seed generator; for every key and every commitment, in range or not, opening proofs exist, computable without the trapdoor, that make it accept.", "quantifier": "all keys, commitments with non-degenerate challenges", "why_tests_cant": "universal forgery for all keys and commitments", "anchors": ["voproof/src/snarks/range_check.rs: verify", "voproof/src/kzg/mod.rs: batch_check"]}
{"id": "C69", "title": "Range-check keys are wrong when the table is shorter than the vector", "statement": "When range < lookup_size, index commits to the table shifted by the difference of the sizes, so that committed vectors with in-range values such as range-1 are rejected for all but few challenges, whatever the prover does.", "quantifier": "all sizes with range < lookup_size, committed polynomials, adaptive prover messages", "why_tests_cant": "all sizes and all provers", "anchors": ["voproof/src/snarks/range_check.rs: index", "voproof/src/snarks/range_check.rs: verify"]}
{"id": "C70", "title": "Prover-efficient POV proofs of true statements verify", "statement": "For every POV system with at least one constant gate, wires between existing positions, every satisfying witness and every instance with distinct positions that publishes no non-zero constant position, setup, index, prove and verify with the prover-efficient SNARK end in acceptance, unless a challenge takes one of the listed exceptional values, in which case prove aborts. A system without constants cannot be indexed.", "quantifier": "all systems, instances, witnesses, challenges, keys", "why_tests_cant": "all sizes, wirings, field values and challenges", "anchors": ["voproof/src/snarks/voproof_pov_prover_efficient.rs: index", "voproof/src/snarks/voproof_pov_prover_efficient.rs: prove", "voproof/src/snarks/voproof_pov_prover_efficient.rs: verify"]}
{"id": "C71", "title": "What an accepted prover-efficient POV proof guarantees", "statement": "If the assignment encoded by the commitments U, V and the constants breaks a multiplication gate with non-zero right input, a copy constraint, or a public value (compared with the value minus the constant at that position), then a prover that commits to polynomials is rejected by verify for all but few values of each challenge.", "quantifier": "all systems with forest wiring, all committed polynomials, all adaptive prover messages", "why_tests_cant": "adversarial provers over all challenges", "anchors": ["voproof/src/snarks/voproof_pov_prover_efficient.rs: verify"]}
{"id": "C72", "title": "The prover-efficient POV verifier does not enforce addition and constant gates (deviation)", "statement": "For every assignment satisfying only the copy constraints, the public values and the multiplication gates with non-zero right input, there is a proof that verify accepts, even if addition gates and constant gates are violated; in particular the constants of the circuit can be replaced by any others. False statements therefore have accepted proofs.", "quantifier": "all systems, assignments, constants, challenges outside the honest exceptions", "why_tests_cant": "exhibits accepting proofs for all violated systems", "anchors": ["voproof/src/snarks/voproof_pov_prover_efficient.rs: verify", "voproof/src/snarks/voproof_pov_prover_efficient.rs: prove"]}
{"id": "C73", "title": "The prover-efficient POV SNARK is sound for padded commitments", "statement": "If the committed U and V are zero where the honest prover pads them (a condition verify does not check) and no non-zero constant is public, then a prover whose encoded assignment is not accepted by satisfy is rejected for all but few values of each challenge.", "quantifier": "all systems with forest wiring, padded committed polynomials, adaptive prover messages", "why_tests_cant": "adversarial provers over all challenges", "anchors": ["voproof/src/snarks/voproof_pov_prover_efficient.rs: verify"]}
{"id": "C74", "title": "Acceptance condition of the prover-efficient POV verifier", "statement": "verify returns Ok exactly when the challenge z avoids 0, 1, \u03c9 and 1/\u03b3 and the batched KZG opening equation holds for U, R at \u03c9/z and for the stated combination of commitments at z with value 0.", "quantifier": "all keys, instances, proofs, hash functions", "why_tests_cant": "equivalence over all proofs", "anchors": ["voproof/src/snarks/voproof_pov_prover_efficient.rs: verify"]}
{"id": "C75", "title": "Prover-efficient POV proofs can be forged when the verifier's randomizer is known", "statement": "verify draws its batching randomizer from a fixed-seed generator; for every key, instance and commitments, opening proofs exist, computable without the trapdoor, that make it accept.", "quantifier": "all keys, instances and commitments with non-degenerate challenges", "why_tests_cant": "universal forgery", "anchors": ["voproof/src/snarks/voproof_pov_prover_efficient.rs: verify", "voproof/src/kzg/mod.rs: batch_check"]}
{"id": "C76", "title": "The prover-efficient R1CS SNARK is complete", "statement": "For a satisfied system with S listed entries (A, B, C together), H rows, K columns, instance length l, with 3H \u2264 S, K \u2264 S, l+1 \u2264 2H and |w| \u2264 S, index then prove then verify accepts unless a challenge hits one of an explicit list of degenerate values. Each of the conditions on H, K, S, l, |w| is needed: without it the prover panics or fails on satisfied systems.", "quantifier": "all satisfied systems within the size conditions, all blinders, keys and hash functions", "why_tests_cant": "completeness is over all circuits, witnesses and challenges", "anchors": ["voproof/src/snarks/voproof_r1cs_prover_efficient.rs: index", "voproof/src/snarks/voproof_r1cs_prover_efficient.rs: prove", "voproof/src/snarks/voproof_r1cs_prover_efficient.rs: verify"]}
{"id": "C77", "title": "The prover-efficient R1CS SNARK is sound round by round", "statement": "A prover whose encoded witness does not satisfy the system is rejected for all but few values of each challenge (explicit bounds), whatever it sends between challenges.", "quantifier": "all systems, all adaptive prover messages of bounded degree, all challenge values outside the counted sets", "why_tests_cant": "adversarial provers over all challenges", "anchors": ["voproof/src/snarks/voproof_r1cs_prover_efficient.rs: verify"]}
{"id": "C78", "title": "Acceptance condition of the prover-efficient R1CS verifier", "statement": "verify returns Ok exactly when z avoids 0, 1, \u03c9 and \u03b3\u03c9 and the batched KZG opening equation holds for T, Y, C at \u03c9/z and for the stated combination of commitments at z with value 0.", "quantifier": "all keys, instances, proofs, hash functions", "why_tests_cant": "equivalence over all proofs", "anchors": ["voproof/src/snarks/voproof_r1cs_prover_efficient.rs: verify"]}
{"id": "C79", "title": "Prover-efficient R1CS proofs can be forged when the verifier's randomizer is known", "statement": "verify draws its batching randomizer from a fixed-seed generator; for every key, instance and commitments, opening proofs exist, computable without the trapdoor, that make it accept.", "quantifier": "all keys, instances and commitments with non-degenerate challenges", "why_tests_cant": "universal forgery", "anchors": ["voproof/src/snarks/voproof_r1cs_prover_efficient.rs: verify", "voproof/src/kzg/mod.rs: batch_check"]}
{"id": "C80", "title": "The prover-efficient R1CS verifier does not check the instance length", "statement": "For an instance x of any length whose restriction or zero-extension to the declared length is satisfiable, a proof is accepted for x itself.", "quantifier": "all systems, all instance lengths up to the degree bound", "why_tests_cant": "existence of accepted proofs for every length", "anchors": ["voproof/src/snarks/voproof_r1cs_prover_efficient.rs: verify"]}
{"id": "C81", "title": "A proof returned by prove is accepted by verify", "statement": "For each of the seven SNARKs (POV, R1CS, HPR, Fibonacci, range check and the two prover-efficient ones): if index succeeds on parameters made by setup and prove returns Ok(proof) for an instance and a witness, then verify on that instance and proof returns Ok(()), whether or not the witness satisfies the constraint system; prove never hands out a proof that its own verifier rejects. (HPR: matrices with the number of entries that get_size records; prover-efficient R1CS: at most one more column than listed entries; Fibonacci: a coefficient vector of the declared size.)", "quantifier": "every setup trapdoor, constraint system, instance, witness (satisfying or not), hash function, blinding values, batching randomness and FFT constants on which prove returns a proof", "why_tests_cant": "It ranges over every run of the prover that ends in Ok, including runs on unsatisfying witnesses that succeed only for rare challenges and that no test hits.", "anchors": ["voproof/src/snarks/voproof_pov.rs:prove,verify", "voproof/src/snarks/voproof_r1cs.rs:prove,verify", "voproof/src/snarks/voproof_hpr.rs:prove,verify", "voproof/src/snarks/fibonacci.rs:prove,verify", "voproof/src/snarks/range_check.rs:prove,verify", "voproof/src/snarks/voproof_pov_prover_efficient.rs:prove,verify", "voproof/src/snarks/voproof_r1cs_prover_efficient.rs:prove,verify"]}
{"id": "C82", "title": "Arithmetic on commitments, commitment randomness and vectors", "statement": "Combining commitments of polynomials with scalars gives the commitment of the linear combination of the polynomials, by either of the two exported ways; lists of different lengths are silently cut to the common prefix. Randomness adds and scales as its blinding polynomial, is reported as hiding exactly when that polynomial is not zero, and a draw for hiding bound b is any polynomial of degree at most b+1, one for each draw. The vector difference, the vector and expression checks and the density agree with their definitions entry by entry.", "quantifier": "all keys, polynomials, scalars, list lengths, hiding bounds, draws and vectors", "why_tests_cant": "Homomorphism holds for every key and combination; a test compares single values.", "anchors": ["voproof/src/tools/mod.rs: combine_commits, commitment_linear_combination_no_one!, vector_diff!, check_vector_eq!, check_expression_vector_eq!, compute_density!", "voproof/src/kzg/data_structures.rs: Randomness, Commitment AddAssign"]}
{"id": "C83", "title": "One blinding entry hides the committed vector from an observer of the commitment alone", "statement": "For every vector, appending one uniformly random entry makes the commitment uniformly distributed (each multiple of the generator arises from exactly one value of the entry), independently of the vector; the same for the opened value at a non-zero point. For the pair of the commitment and one opened value two random entries are needed and suffice.", "quantifier": "all trapdoors, generators, vectors, points and target values", "why_tests_cant": "It is a bijection between blinding values and commitments, for every vector.", "anchors": ["voproof/src/snarks/mod.rs: vector_to_commitment", "voproof/src/tools/mod.rs: sample_randomizers!, commit_vector!"]}
{"id": "C84", "title": "Proofs do not hide the witness from somebody who can guess it (deviation)", "statement": "Each of the seven provers blinds the witness vector with a single entry but publishes both its commitment and its value at the challenge point. So everybody can confirm a guess of the witness from the proof alone, whatever the source of the blinding: a public test accepts the vector of the real witness, and accepts a different vector only if the trapdoor is a root of a known non-zero polynomial of degree at most the vector length. (POV, R1CS, HPR, Fibonacci: the whole witness; prover-efficient POV: left inputs and right inputs of multiplication gates; prover-efficient R1CS: the products Az, Bz, Cz; range check: how often each value occurs.)", "quantifier": "all setups, systems, instances, witnesses, guesses, hash functions and blinding values for which prove returns a proof", "why_tests_cant": "Zero knowledge is a property of the distribution of all proofs; no test of accept or reject can see it.", "anchors": ["voproof/src/snarks/voproof_pov.rs:prove", "voproof/src/snarks/voproof_r1cs.rs:prove", "voproof/src/snarks/voproof_hpr.rs:prove", "voproof/src/snarks/fibonacci.rs:prove", "voproof/src/snarks/range_check.rs:prove", "voproof/src/snarks/voproof_pov_prover_efficient.rs:prove", "voproof/src/snarks/voproof_r1cs_prover_efficient.rs:prove"]}
{"id": "C85", "title": "PLONK composer stays consistent", "statement": "Every composer reachable through the public methods keeps one entry per row in all selector and wire vectors, only variables it created on its wires, the position lists of the variables in agreement with the wire table, and public inputs only in declared rows; the zero variable is 0 in every satisfying assignment. A new composer never panics, has four rows and satisfies its own circuit for every randomness.", "quantifier": "every sequence of public composer calls", "why_tests_cant": "The claim quantifies over all satisfying assignments (also those a dishonest prover chooses) and all call histories; a test sees the honest one of a few circuits.", "anchors": ["plonk-core/src/constraint_system/composer.rs: StandardComposer, with_expected_size", "plonk-core/src/permutation/mod.rs: add_variables_to_map"]}
{"id": "C86", "title": "Later composer calls never weaken earlier ones", "statement": "Calls only append: rows, wires, values, table rows and public inputs already present keep their meaning, so an assignment satisfying the circuit after more calls satisfies the circuit before them, and variables keep their values.", "quantifier": "every reachable composer, every further sequence of calls", "why_tests_cant": "The claim quantifies over all satisfying assignments (also those a dishonest prover chooses) and all call histories; a test sees the honest one of a few circuits.", "anchors": ["plonk-core/src/constraint_system/composer.rs", "plonk-core/src/constraint_system/arithmetic.rs", "plonk-core/src/constraint_system/range.rs", "plonk-core/src/constraint_system/logic.rs", "plonk-core/src/constraint_system/ecc"]}
{"id": "C87", "title": "Basic gates enforce what they say", "statement": "add_input creates a fresh variable with the value; add_witness_to_circuit_description and constrain_to_constant fix the value in every satisfying assignment; assert_equal enforces equality; poly_gate enforces its equation including the public input; each panics exactly for unknown variables, and the composer's own values satisfy the gate exactly when they meet the equation.", "quantifier": "every composer reachable by any sequence of public calls, every arguments, and every assignment satisfying the resulting circuit", "why_tests_cant": "The claim quantifies over all satisfying assignments (also those a dishonest prover chooses) and all call histories; a test sees the honest one of a few circuits.", "anchors": ["plonk-core/src/constraint_system/composer.rs: add_input, add_witness_to_circuit_description, poly_gate, constrain_to_constant, assert_equal"]}
{"id": "C88", "title": "arithmetic_gate", "statement": "Every satisfying assignment satisfies the gate equation; with a given output the gate only checks; it panics exactly when no wires are given or one is unknown. With a fresh output the value assigned is -q_o times the sum of the other terms, so the own values satisfy the gate exactly when (1 - q_o^2) times that sum is 0 (deviation: only q_o = 1 or -1 work).", "quantifier": "every composer reachable by any sequence of public calls, every arguments, and every assignment satisfying the resulting circuit", "why_tests_cant": "The claim quantifies over all satisfying assignments (also those a dishonest prover chooses) and all call histories; a test sees the honest one of a few circuits.", "anchors": ["plonk-core/src/constraint_system/arithmetic.rs: arithmetic_gate, ArithmeticGate"]}
{"id": "C89", "title": "Boolean and zero-test gates", "statement": "boolean_gate enforces 0 or 1; is_zero_with_output and is_eq_with_output return a variable that is 1 if the value is zero (the values are equal) and 0 otherwise in every satisfying assignment; the own values satisfy them.", "quantifier": "every composer reachable by any sequence of public calls, every arguments, and every assignment satisfying the resulting circuit", "why_tests_cant": "The claim quantifies over all satisfying assignments (also those a dishonest prover chooses) and all call histories; a test sees the honest one of a few circuits.", "anchors": ["plonk-core/src/constraint_system/boolean.rs", "plonk-core/src/constraint_system/composer.rs: is_zero_with_output, is_eq_with_output"]}
{"id": "C90", "title": "Conditional selection", "statement": "conditional_select(bit, a, b) is a for bit 1 and b for bit 0; conditional_select_zero is the value or 0, conditional_select_one the value or 1, in every satisfying assignment and in the own values.", "quantifier": "every composer reachable by any sequence of public calls, every arguments, and every assignment satisfying the resulting circuit", "why_tests_cant": "The claim quantifies over all satisfying assignments (also those a dishonest prover chooses) and all call histories; a test sees the honest one of a few circuits.", "anchors": ["plonk-core/src/constraint_system/composer.rs: conditional_select, conditional_select_zero, conditional_select_one"]}
{"id": "C91", "title": "range_gate", "statement": "range_gate(x, k) panics exactly when k is odd, zero or larger than the representation, or x is unknown; every satisfying assignment gives x the image of a number below 2^k, and the own values satisfy the gate exactly when x's representative is below 2^k (given 2^k at most half the modulus).", "quantifier": "every composer reachable by any sequence of public calls, every arguments, and every assignment satisfying the resulting circuit", "why_tests_cant": "The claim quantifies over all satisfying assignments (also those a dishonest prover chooses) and all call histories; a test sees the honest one of a few circuits.", "anchors": ["plonk-core/src/constraint_system/range.rs: range_gate", "plonk-core/src/proof_system/widget/range.rs"]}
{"id": "C92", "title": "xor_gate and and_gate (deviation: inputs not bound)", "statement": "For fields with a 256-bit representation the gates compute the bitwise operation on the low bits of the two values and are satisfied by them. In every satisfying assignment the output is the operation applied to some two numbers of that many bits, but these need not be the inputs: any assignment of the circuit before the call extends over an xor_gate whose output is any number of that many bits.", "quantifier": "every composer reachable by any sequence of public calls, every arguments, and every assignment satisfying the resulting circuit", "why_tests_cant": "The claim quantifies over all satisfying assignments (also those a dishonest prover chooses) and all call histories; a test sees the honest one of a few circuits.", "anchors": ["plonk-core/src/constraint_system/logic.rs: logic_gate, xor_gate, and_gate", "plonk-core/src/proof_system/widget/logic.rs"]}
{"id": "C93", "title": "lookup_gate", "statement": "Every satisfying assignment has the four values (0 for a missing fourth) among the rows of the table; the own values satisfy it exactly when they are. With a non-zero public input the gate can never be satisfied (deviation).", "quantifier": "every composer reachable by any sequence of public calls, every arguments, and every assignment satisfying the resulting circuit", "why_tests_cant": "The claim quantifies over all satisfying assignments (also those a dishonest prover chooses) and all call histories; a test sees the honest one of a few circuits.", "anchors": ["plonk-core/src/constraint_system/lookup.rs: lookup_gate"]}
{"id": "C94", "title": "Affine transform gates of the Poseidon gadget", "statement": "full_affine_transform_gate returns -(q0 x0^5 + q1 x1^5 + q2 x2^5 + q3)/q4, partial_affine_transform_gate the same with only x0 raised to the fifth power, in every satisfying assignment and in the own values; both panic exactly when q4 = 0 or a variable is unknown.", "quantifier": "every composer reachable by any sequence of public calls, every arguments, and every assignment satisfying the resulting circuit", "why_tests_cant": "The claim quantifies over all satisfying assignments (also those a dishonest prover chooses) and all call histories; a test sees the honest one of a few circuits.", "anchors": ["plonk-core/src/constraint_system/hash.rs: full_affine_transform_gate, partial_affine_transform_gate"]}
{"id": "C95", "title": "Point gadgets", "statement": "identity is (0, 1); add_affine_to_circuit_description fixes the point; add_public_affine and assert_equal_public_point tie it to two public inputs; assert_equal_point enforces equality; conditional_point_select and conditional_point_neg choose the point / its negation by the bit: in every satisfying assignment, and the own values satisfy them exactly when they should.", "quantifier": "every composer reachable by any sequence of public calls, every arguments, and every assignment satisfying the resulting circuit", "why_tests_cant": "The claim quantifies over all satisfying assignments (also those a dishonest prover chooses) and all call histories; a test sees the honest one of a few circuits.", "anchors": ["plonk-core/src/constraint_system/ecc/mod.rs"]}
{"id": "C96", "title": "point_addition_gate", "statement": "It runs exactly when both values are points of the prime-order subgroup; every satisfying assignment satisfies the affine twisted Edwards addition law (and equals the sum wherever the denominators do not vanish, in particular for all points of a curve with square a and non-square d); the own values satisfy it.", "quantifier": "every composer reachable by any sequence of public calls, every arguments, and every assignment satisfying the resulting circuit, every curve", "why_tests_cant": "The claim quantifies over all satisfying assignments (also those a dishonest prover chooses) and all call histories; a test sees the honest one of a few circuits.", "anchors": ["plonk-core/src/constraint_system/ecc/curve_addition/variable_base_gate.rs: point_addition_gate"]}
{"id": "C97", "title": "variable_base_scalar_mul", "statement": "In every satisfying assignment the scalar variable is the image of a number below 2^(bits of the modulus) and the result is that multiple of the point (the number is only determined modulo the field characteristic); the own values run, satisfy the gadget and give the multiple by the scalar's representative.", "quantifier": "every composer reachable by any sequence of public calls, every arguments, and every assignment satisfying the resulting circuit, every group of curve points", "why_tests_cant": "The claim quantifies over all satisfying assignments (also those a dishonest prover chooses) and all call histories; a test sees the honest one of a few circuits.", "anchors": ["plonk-core/src/constraint_system/ecc/scalar_mul/variable_base.rs"]}
{"id": "C98", "title": "fixed_base_scalar_mul (deviation: panics for large scalars)", "statement": "In every satisfying assignment the scalar variable is the image of an integer of absolute value below 2^(bits of the modulus) and the result is that multiple of the base; the own values satisfy it and give the multiple by the representative. It panics exactly when the variable is unknown or three times the representative is at least 2^(bits+1): about a third of a 255-bit field close to its top is refused.", "quantifier": "every composer reachable by any sequence of public calls, every arguments, and every assignment satisfying the resulting circuit, every group of curve points", "why_tests_cant": "The claim quantifies over all satisfying assignments (also those a dishonest prover chooses) and all call histories; a test sees the honest one of a few circuits.", "anchors": ["plonk-core/src/constraint_system/ecc/scalar_mul/fixed_base.rs: fixed_base_scalar_mul", "plonk-core/src/constraint_system/ecc/curve_addition/fixed_base_gate.rs"]}
{"id": "C99", "title": "Dummy and blinding rows constrain nothing", "statement": "add_blinding_factors adds three rows and eight random variables, for all random values without breaking satisfaction; add_dummy_lookup_table followed by add_dummy_constraints never panics and keeps the own values satisfying the circuit.", "quantifier": "every reachable composer, all random values", "why_tests_cant": "all random values and histories", "anchors": ["plonk-core/src/constraint_system/composer.rs: add_blinding_factors, add_dummy_constraints, add_dummy_lookup_table"]}
{"id": "C100", "title": "Gate polynomials capture the gates", "statement": "A row that satisfies its arithmetic, range, logic, fixed-base and variable-base relations makes the gate term of the quotient zero for every separation challenge; a row that violates one makes it non-zero for all but at most 7, 9, 7 and 5 values of the four challenges. The linear combination lc returns the sum of v_i c^i and panics exactly for c = 0, c = 1 or no values.", "quantifier": "all selectors, wires, curve coefficients, public inputs and challenges", "why_tests_cant": "all field elements and challenges; a wrong row that cancels for special values is not found by sampling", "anchors": ["plonk-core/src/proof_system/widget/range.rs", "plonk-core/src/proof_system/widget/logic.rs", "plonk-core/src/proof_system/widget/fixed_base_scalar_mul.rs", "plonk-core/src/proof_system/widget/curve_addition.rs", "plonk-core/src/proof_system/widget/arithmetic.rs", "plonk-core/src/util.rs: lc"]}
{"id": "C101", "title": "The permutation argument enforces exactly the copy constraints", "statement": "For every composer reachable by public calls and every table size that fits it, computing the sigma permutation never panics, does not depend on the iteration order of the hash map, gives a permutation of the positions under which values are invariant exactly if positions of the same variable agree; the sigma polynomials interpolate the labels. compute_permutation_poly panics exactly if a denominator is zero (for at most 4n values of gamma) and otherwise, for values that respect the copy constraints, returns an accumulator that passes the verifier's two checks. If the values violate a copy constraint no accumulator passes, for all but 4n values of beta and 4n of gamma.", "quantifier": "every reachable composer, every hash-map order, every wire assignment, all challenges", "why_tests_cant": "all circuits, orders, dishonest wire values and accumulators", "anchors": ["plonk-core/src/permutation/mod.rs: compute_sigma_permutations, compute_sigma_polynomials, compute_permutation_poly", "plonk-core/src/proof_system/permutation.rs"]}
{"id": "C102", "title": "Lookup tables hold the operations they are built for", "statement": "insert_multi_add/mul/xor/and append exactly one row (a, b, a op b mod 2^n, tag) per pair of operands in the range, in order; with overflow checks they panic exactly for n >= 64 and, for multiplication, n > 32 with a non-empty range. lookup fails exactly when no row matches. In a table made by any sequence of these calls a lookup with an operation's tag returns that operation's value from the first call whose range contains the operands (fields of characteristic above 3 that tell the operands apart). value_from_table pushes a row of the table or fails. Preprocessing pads with the first row; an empty table becomes a table of zero rows.", "quantifier": "all operations, bounds, tables, operands and call sequences", "why_tests_cant": "unbounded tables and call sequences, u64 boundary cases", "anchors": ["plonk-core/src/lookup/lookup_table.rs", "plonk-core/src/lookup/witness_table.rs", "plonk-core/src/lookup/preprocess.rs", "plonk-core/src/lookup/multiset.rs: pad"]}
{"id": "C103", "title": "Queries are sorted into the table", "statement": "t.combine_split(f) fails exactly if an element of f is not in t; otherwise the halves are the even and odd places of the concatenation with equal elements together in the order of t, a permutation of t and f. Compression maps a row to the polynomial in the challenge with the row as coefficients and panics exactly for the challenges 0 and 1; rows that are not lookups query the first row. A tuple outside the table is compressed outside the compressed table for all but 3n challenges.", "quantifier": "all multisets, tables, wires and challenges", "why_tests_cant": "all multisets and challenges", "anchors": ["plonk-core/src/lookup/multiset.rs: combine_split, compress", "plonk-core/src/proof_system/prover.rs: prove_with_preprocessed"]}
{"id": "C104", "title": "The lookup argument (deviation: duplicate table rows)", "statement": "If some queried value is not in the table then, whatever the two halves, for all but 4n+1 values of delta and 2n of epsilon no accumulator passes the verifier's checks. If all queries are in the table and equal entries stand together cyclically (true for all but 3|T|^2 compression challenges if the rows are distinct), compute_lookup_permutation_poly panics exactly if a denominator is zero (at most 2n values of epsilon for delta != -1) and otherwise its result passes. The quotient terms vanish for every separation challenge if the checks hold and for at most three otherwise. Deviation: with a duplicate row that is not adjacent the honest prover raises no error but its proof cannot pass.", "quantifier": "all tables, queries, dishonest halves and accumulators, all challenges", "why_tests_cant": "all dishonest messages and challenges", "anchors": ["plonk-core/src/permutation/mod.rs: compute_lookup_permutation_poly", "plonk-core/src/proof_system/widget/lookup.rs", "plonk-core/src/lookup/multiset.rs: combine_split"]}
{"id": "C105", "title": "PLONK completeness", "statement": "A prover whose composer holds a satisfied circuit and a verifier preprocessed with the same circuit (other values), started with the same label: whenever prove returns a proof, verify with the prover's public inputs accepts it, for every hash function behind the transcript, provided equal compressed table rows stand together and the evaluation point is not in the domain. The same holds when the prover was preprocessed before and when the composer is refilled after an earlier proof; prove leaves key and transcript unchanged and a new composer behind. If the circuit fits in the field and the commitment key and the table has no duplicate row, preprocessing succeeds on both sides, and for all but few values of each challenge (3|T|^2+2, 4n+1, 3, 2n+3, n for zeta, gamma, delta, epsilon, z) prove succeeds and verify accepts.", "quantifier": "every reachable satisfied composer, every verifier composer of the same circuit, every complete homomorphic commitment scheme, every hash or challenge list", "why_tests_cant": "all circuits, witnesses, tables and challenges", "anchors": ["plonk-core/src/proof_system/prover.rs", "plonk-core/src/proof_system/verifier.rs", "plonk-core/src/proof_system/proof.rs", "plonk-core/src/proof_system/preprocess.rs", "plonk-core/src/proof_system/quotient_poly.rs", "plonk-core/src/proof_system/linearisation_poly.rs", "plonk-core/src/proof_system/pi.rs", "plonk-core/src/transcript.rs"]}
{"id": "C106", "title": "PLONK soundness, with two provisos", "statement": "For a prover that commits to the lookup accumulator before alpha is drawn and sends right values of q_arith, q_l, q_r and q_c at the evaluation point (the verifier checks neither, see C107 and C108): if the wires it commits to first do not satisfy the circuit with the verifier's public inputs (every row its gates, lookups in the table, positions of one variable equal), then for all but 3n, 4n, 4n, 4n+1, 2n, 2, 7, 9, 7, 5, 3 and 10 max(d, n) values of zeta, beta, gamma, delta, epsilon, alpha, the five separation challenges and the evaluation point, verify does not accept, whatever is sent afterwards. Public inputs must sit at rows declared by the circuit.", "quantifier": "every reachable circuit, all public inputs at declared rows, all dishonest commitments, evaluations and openings, every ideal homomorphic commitment scheme", "why_tests_cant": "all dishonest provers and challenges", "anchors": ["plonk-core/src/proof_system/verifier.rs", "plonk-core/src/proof_system/proof.rs: verify, compute_r0, compute_linearisation_commitment", "plonk-core/src/proof_system/preprocess.rs: preprocess_verifier"]}
{"id": "C107", "title": "Deviation: the lookup accumulator is not bound by the transcript", "statement": "A user expects every commitment of a proof to be fixed before the challenges that test it. The commitment z_2 enters no challenge, for any hash. Therefore a prover that sends arbitrary polynomials and right evaluations can compute a z_2 after seeing the evaluation point so that verify accepts, for every circuit and all public inputs (satisfiable or not) and for all but 2, 1, 3, 5, 1 and 4d values of zeta, gamma, delta, epsilon, the lookup challenge and the evaluation point.", "quantifier": "every reachable circuit, all public inputs in range, all committed polynomials, every complete homomorphic commitment scheme", "why_tests_cant": "a statement about what a malicious prover can do for every circuit", "anchors": ["plonk-core/src/proof_system/proof.rs: verify", "plonk-core/src/proof_system/prover.rs: prove_with_preprocessed"]}
{"id": "C108", "title": "Deviation: the arithmetic selector value is never opened", "statement": "A user expects every evaluation in a proof to be checked against a commitment. q_arith_eval is used by the verifier but in no opening, and is chosen after the evaluation point. Therefore a prover whose wires make the arithmetic expression (without selector) non-zero at some row, whatever else it commits to, can choose this one value so that verify accepts; in particular one fixed set of commitments (left wire 1, all else 0) is accepted for every circuit and all public inputs, for all but 2, 1, 2, 3 and 7d values of zeta, gamma, delta, epsilon and the evaluation point; a concrete unsatisfiable statement is accepted.", "quantifier": "every reachable circuit, all public inputs in range, all such commitments, every complete homomorphic commitment scheme", "why_tests_cant": "a statement about what a malicious prover can do for every circuit", "anchors": ["plonk-core/src/proof_system/proof.rs: verify, compute_linearisation_commitment", "plonk-core/src/proof_system/linearisation_poly.rs: ProofEvaluations", "plonk-core/src/proof_system/widget/arithmetic.rs: compute_linearisation_commitment"]}
{"id": "C109", "title": "Public input maps are canonical and determined by values", "statement": "add_input with an item that has no field elements is an error; otherwise it panics exactly when one of the item's positions already holds a non-zero value, and else stores the elements at consecutive positions, changes nothing else and returns their number. Every map made by new and add_input holds increasing positions and no zeros, so two maps are equal exactly if they have the same value at every position. from_val_pos panics exactly when the lists have different lengths or a position repeats after a non-zero value, and else gives the map of the sums per position. as_evals(n) gives the n values, and panics exactly when n is not a power of two or a value lies beyond; into_dense_poly(n) gives the polynomial of degree below n with these values on the domain. For every composer reachable by public calls, from_val_pos of the declared positions and the values there is the composer's own map.", "quantifier": "all maps made by the public functions, items, positions, sizes and reachable composers", "why_tests_cant": "all sequences of insertions, including zeros and repeated positions", "anchors": ["plonk-core/src/proof_system/pi.rs: PublicInputs::{new, add_input, extend, insert, as_evals, from_val_pos, into_dense_poly, get_pos, get_vals}", "plonk-core/src/constraint_system/composer.rs: get_pi, intended_pi_pos"]}
{"id": "C110", "title": "The Circuit interface: compile, gen_proof, verify_proof", "statement": "A circuit is compiled, and a circuit of the same size whose gadget makes the same gates with other values is proved. If the gadget's composer is satisfied and gen_proof returns, then it returns the gadget's public inputs, compile returned the gadget's public input positions, from_val_pos of these positions and values is the returned map, and verify_proof accepts, for every hash (with the two conditions of C105). With large enough parameters compile succeeds and, for all but few values of each challenge, gen_proof and verify_proof succeed. With the key from compile and public inputs at the returned positions, proofs for wires that do not satisfy the circuit are rejected for all but few challenges, with the provisos of C106.", "quantifier": "all circuits that use the composer through its public methods, universal parameters, keys from compile, labels, hash functions, proofs of algebraic provers", "why_tests_cant": "all gadgets, witnesses, transcripts and adversarial proofs", "anchors": ["plonk-core/src/circuit.rs: Circuit::{compile, gen_proof}, verify_proof", "plonk-core/src/proof_system/widget/mod.rs: VerifierKey::padded_circuit_size", "plonk-core/src/proof_system/verifier.rs", "plonk-core/src/proof_system/prover.rs"]}
{"id": "C111", "title": "Matrix inversion", "statement": "invert of a square matrix returns its two-sided inverse exactly if the determinant is non-zero, returns None for a singular matrix, and panics on anything that is not a square matrix with at least one row. is_invertible is the test of the determinant, and false for rectangular matrices.", "quantifier": "all matrices of every size over every field", "why_tests_cant": "all matrices, including those that need row exchanges in any position", "anchors": ["plonk-hashing/src/poseidon/matrix.rs: invert, is_invertible, upper_triangular, reduce_to_identity"]}
{"id": "C112", "title": "Matrix arithmetic (deviation: rectangular shapes)", "statement": "On square matrices matmul, transpose, left_apply, right_apply, minor, identity, is_identity and is_sparse do what they are named after; the vector products panic unless the matrix is square of the vector's size. Deviation: matmul of rectangular matrices asks for the wrong pair of equal dimensions: it refuses products that are defined, panics when the left factor is wider than high and drops columns otherwise; transpose drops columns of wide matrices and panics for high ones.", "quantifier": "all matrices and vectors of every size", "why_tests_cant": "all sizes and entries", "anchors": ["plonk-hashing/src/poseidon/matrix.rs"]}
{"id": "C113", "title": "MDS matrices", "statement": "generate_mds succeeds exactly if no sum i+j+t vanishes in the field; the entries are the inverses of these sums, the matrix is symmetric and every square submatrix is regular. derive_mds_matrices panics exactly for a singular matrix, a singular minor or size 1; otherwise the inverses are inverses, m_hat is the minor, m_prime is block diagonal, m_double_prime is sparse, and m_prime m_double_prime equals m in all entries but the lower first column, and everywhere if the minor is symmetric. SparseMatrix::new accepts exactly the sparse matrices, and to_matrix gives them back.", "quantifier": "all widths, all fields, all matrices", "why_tests_cant": "every square submatrix of every size", "anchors": ["plonk-hashing/src/poseidon/mds.rs: generate_mds, derive_mds_matrices, make_prime, make_double_prime, SparseMatrix"]}
{"id": "C114", "title": "The optimised Poseidon schedule is the permutation", "statement": "For a matrix with a symmetric minor that derive_mds_matrices accepts, an even positive number of full rounds, any number of partial rounds and any round constants, compress_round_constants and factor_to_sparse_matrixes succeed, and the schedule with the compressed constants, the pre-sparse matrix and the sparse matrices computes the same function as the plain schedule of rounds. This holds for the matrices of MdsMatrices::new.", "quantifier": "all widths, round numbers, round constants and states", "why_tests_cant": "a schedule can agree on sampled states and differ elsewhere", "anchors": ["plonk-hashing/src/poseidon/preprocessing.rs: compress_round_constants", "plonk-hashing/src/poseidon/mds.rs: factor_to_sparse_matrixes"]}
{"id": "C115", "title": "The native Poseidon hash is the permuted state", "statement": "A native hasher made by new, given at most arity elements by input and asked by output_hash, returns element 1 of the Poseidon permutation of the state (domain tag, inputs, zeros); one more input is refused with FullBuffer. Missing inputs count as zeros, so inputs that differ in trailing zeros collide. The permutation is a bijection for a regular matrix and a field with unique fifth roots. reset brings any hasher back to the state of new; without reset a second output_hash adds no constants and has no S-box in its full rounds.", "quantifier": "all widths, constants, inputs, hasher states and histories of calls", "why_tests_cant": "a hash test compares a few vectors; the schedule, the position of constants and reuse matter for every state", "anchors": ["plonk-hashing/src/poseidon/poseidon_ref.rs: Poseidon::new, reset, input, output_hash, full_round, partial_round, product_mds", "plonk-hashing/src/poseidon/poseidon_ref.rs: NativePlonkSpecRef"]}
{"id": "C116", "title": "The Poseidon gadget computes the hash, up to the domain tag", "statement": "Called with variables of a composer, new, input and output_hash add gates such that every satisfying assignment gives the result the value of the native hash of the values of the inputs, with the domain tag the assignment chooses; honest values satisfy the gates and give the hash with the right tag. Nothing binds the tag: every tag can be used in a satisfying assignment with the same inputs and public inputs.", "quantifier": "all reachable composers, widths, constants, inputs, and all satisfying assignments", "why_tests_cant": "tests check honest witnesses only; soundness is about every assignment", "anchors": ["plonk-hashing/src/poseidon/poseidon_ref.rs: PlonkSpecRef", "plonk-hashing/src/poseidon/poseidon_ref.rs: Poseidon::output_hash"]}
{"id": "C117", "title": "The affine-gate Poseidon circuit computes the hash for symmetric matrices and exact constants", "statement": "The circuit of PoseidonZZRef with PlonkSpecZZ, of width 3, given exactly the constants its rounds need and a symmetric matrix, adds gates such that every satisfying assignment gives the result the native hash of the values of the inputs, with the domain tag of the assignment, and honest values satisfy them. For any other matrix it is the hash with the transposed matrix; with at least three constants more, which the native hash ignores, the result is off by one of them.", "quantifier": "all reachable composers, matrices, constants, inputs, and all satisfying assignments", "why_tests_cant": "tests compare one generated parameter set and honest witnesses", "anchors": ["plonk-hashing/src/poseidon/zprize_constraints.rs: PoseidonZZRef, PlonkSpecZZ::full_round, partial_round", "plonk-core/src/constraint_system/hash.rs: full_affine_transform_gate, partial_affine_transform_gate"]}
{"id": "C118", "title": "The Poseidon round numbers are the cheapest secure ones searched", "statement": "calc_round_numbers returns, among all pairs of full rounds (even, 2 to 1000) and partial rounds (4 to 199) that pass the four security bounds, one whose number of S-boxes after the security margin is minimal, with the fewest full rounds among those; the number of full rounds is even; adding rounds keeps a pair secure. In exact arithmetic the result for width t is (8, ceil(1.075*ceil(49.04+log2 t))) for every t from 2 to 2^48.", "quantifier": "all widths, every monotone rounding of the floating point operations and every table of logarithms", "why_tests_cant": "tests compare a table of widths with a reference output; minimality is over the whole searched range and the closed form over all widths", "anchors": ["plonk-hashing/src/poseidon/round_numbers.rs: calc_round_numbers, round_numbers_are_secure, n_sboxes"]}
{"id": "C119", "title": "The Poseidon round constants are those of the Grain LFSR of the paper", "statement": "The state of the register starts with the 80 bits the paper prescribes and drops 160 bits; each step gives the next element of the linear recurring sequence; the self-shrinking next returns after finitely many steps from every reachable state; generate_constants returns the list of the first (R_F+R_P)*t accepted integers made of these bits, and returns exactly if so many are accepted; it panics unless the element size is 32 bytes, the product fits 16 bits and the field is prime.", "quantifier": "all parameters, all positions of the stream, every conversion of bytes to elements", "why_tests_cant": "tests compare one published list of constants; termination of the register and the match with the recurrence concern all parameters and positions", "anchors": ["plonk-hashing/src/poseidon/round_constant.rs: GrainLFSR, generate_constants"]}
{"id": "C120", "title": "Generated Poseidon constants are fit for all three hash implementations", "statement": "For every width from 2 to 31 over a field where the matrix exists, PoseidonConstants::generate returns (if enough integers are accepted) constants with exactly as many round constants as the rounds use, a symmetric MDS matrix, the domain tag 2^arity-1, and compressed constants and sparse matrices with which the optimised schedule computes the plain permutation. For width 3 the native hash and both circuits then agree. For widths 0, 1, above 31, and fields too small for the matrix it returns no constants.", "quantifier": "all widths, fields, conversions and numbers of rounds", "why_tests_cant": "tests generate constants for one field and a few widths and hash a few inputs", "anchors": ["plonk-hashing/src/poseidon/constants.rs: PoseidonConstants::generate"]}
{"id": "C121", "title": "Circuits and R1CS through the POV proof system, end to end", "statement": "For every circuit built by high-level calls with a constant gate and distinct public variables: if its asserted equalities hold on some inputs, get_instance/get_witness/index/prove/verify succeed on them except for exceptional challenges; if the asserted equalities are acyclic and no inputs give the claimed public values with all asserted equalities true, then every prover that commits to polynomials is rejected except for few challenges. The same for an R1CS through pov_triple_from_r1cs_triple and pov_pair_from_r1cs_pair.", "quantifier": "all histories of high-level calls, inputs, claimed values, committed polynomials, challenges; all R1CS and assignments", "why_tests_cant": "tests prove and verify a few circuits with one hash function and one random seed", "anchors": ["voproof/src/cs/circuit/fan_in_two.rs: VOProofCircuit", "voproof/src/cs/pov.rs: POV, pov_pair_from_r1cs_pair, pov_triple_from_r1cs_triple", "voproof/src/snarks/voproof_pov.rs: index, prove, verify"]}
{"id": "C122", "title": "Repeated assertions are not enforced by the POV proof system", "statement": "The POV prover only needs invariance under the product of the swaps of the wire pairs. Consequently, for every circuit that asserts an equality twice in a row, prove makes accepted proofs from inputs that violate that equality, exactly as for true statements; and an R1CS that lists a constraint twice has accepted proofs for false statements.", "quantifier": "all circuits with a repeated assertion, all inputs that satisfy the other assertions, all hash functions", "why_tests_cant": "no test asserts an equality twice", "anchors": ["voproof/src/cs/circuit/fan_in_two.rs: assert_equal, get_wiring", "voproof/src/tools.rs: permutation_vector_from_wires", "voproof/src/snarks/voproof_pov.rs: prove, verify"]}
{"id": "C123", "title": "What check_circuit_satisfied decides", "statement": "For every composer the public methods can build, check_circuit_satisfied returns exactly when every row with the arithmetic selector on satisfies the arithmetic equation for the values and public inputs of the composer, and panics otherwise. So it accepts every satisfied circuit, decides satisfaction for circuits without curve additions and lookups (in particular a range gate on a satisfied circuit makes it panic exactly when the value is out of range), and never looks at lookups: a lookup of a row that is not in the table passes.", "quantifier": "all histories of calls of the composer's public methods, all values, all field representations", "why_tests_cant": "tests call it on satisfied example circuits; no test covers its verdict on all circuits, nor failed lookups", "anchors": ["plonk-core/src/constraint_system/composer.rs: check_circuit_satisfied, delta", "plonk-core/src/constraint_system/range.rs: range_gate", "plonk-core/src/constraint_system/logic.rs: logic_gate"]}
{"id": "C124", "title": "Batching by powers of a challenge", "statement": "linear_combination panics exactly when the lists have different lengths and otherwise returns the sums of the commitments and of the values weighted by the powers of the challenge; aggregate_polynomials returns the polynomial with the same weights. From the KZG commitments and the values at a point of any polynomials the pair is the commitment and the value of the aggregated polynomial; if one claimed value is wrong, fewer challenges than there are polynomials let the combination agree. lc gives the same combination but panics for the challenges 0 and 1 and for no values.", "quantifier": "all lists of polynomials, commitments and values, all challenges, all points", "why_tests_cant": "tests combine five random values; soundness counts challenges", "anchors": ["plonk-core/src/commitment.rs: linear_combination, aggregate_polynomials, multi_scalar_mul", "plonk-core/src/util.rs: powers_of, lc"]}
{"id": "C125", "title": "Conversion of embedded curve scalars", "statement": "from_embedded_curve_scalar and to_embedded_curve_scalar return exactly when the integer of the scalar is below the modulus of the other field, whatever the sizes of the two big-integer types; the result has the same integer (it is never reduced), otherwise they panic. They invert each other. A scalar x of the embedded curve's field, converted and used with the scalar multiplication gadgets, multiplies points by x.", "quantifier": "all pairs of prime fields and limb counts, all scalars, all composer histories, all curve groups", "why_tests_cant": "tests convert random scalars of two fixed fields", "anchors": ["plonk-core/src/util.rs: from_embedded_curve_scalar, to_embedded_curve_scalar", "plonk-core/src/constraint_system/ecc/scalar_mul: variable_base_scalar_mul, fixed_base_scalar_mul"]}
{"id": "C126", "title": "The fields in use meet the assumptions", "statement": "The scalar fields of BLS12-381 and BLS12-377 (moduli, generators 7 and 22, two-adicities 32 and 47 of the arkworks configuration) are prime fields whose roots of unity are primitive for every domain size, whose generator has full order, and for which the constants 7, 13, 17 of the permutation argument give disjoint cosets of every domain. So the completeness and soundness theorems for the SNARKs and for PLONK hold over these fields with no assumption on the field left.", "quantifier": "both fields, all domain sizes up to the two-adicity, all vector lengths below 2^64", "why_tests_cant": "the repository checks the cosets for one domain size", "anchors": ["plonk-core/src/permutation/constants.rs: K1, K2, K3", "voproof/src/tools/mod.rs: generator_of!", "voproof/src/main.rs: main"]}
{"id": "C127", "title": "Point addition on the embedded curves is a group", "statement": "On every twisted Edwards curve whose a is a square and whose d is not, the affine addition law has no exceptional pair, is closed, commutative and associative with neutral element (0,1) and inverse (-x,y); the curves ed_on_bls12_381 and ed_on_bls12_377 are such curves. So the scalar multiplication gadgets compute repeated point addition: in every satisfying assignment the result is n times the base for a number n that the scalar variable is the image of, and the honest result is the multiple by the scalar.", "quantifier": "all complete twisted Edwards curves, all points, all composer histories and satisfying assignments", "why_tests_cant": "tests add a few points", "anchors": ["plonk-core/src/constraint_system/ecc/scalar_mul: variable_base_scalar_mul, fixed_base_scalar_mul", "plonk-core/src/constraint_system/ecc/curve_addition: variable_base_gate, fixed_base_gate"]}
{"id": "C128", "title": "The example programs pass verification", "statement": "For every size, run_fibonacci_example, run_r1cs_example and run_hpr_example build an instance and a witness that satisfy their system, setup and indexing succeed, verification never rejects the proof, and the prover succeeds except for exceptional challenge values (the Fibonacci instance claims the right term of the recurrence; the test circuit is satisfied exactly by witnesses equal to a and product a*b). The floating-point witness of run_range_check_example is always in range, but (deviation) its prover aborts unless its fifth blinding value is zero. With fewer than five variables the R1CS example panics (deviation).", "quantifier": "all sizes, inputs, blinding values, hash functions, trapdoors, sources of randomness, and floating-point roundings within the IEEE 754 bound", "why_tests_cant": "main.rs runs one size with one seed", "anchors": ["voproof/src/main.rs: run_fibonacci_example, run_range_check_example, run_r1cs_example, run_hpr_example, TestCircuit", "voproof/benches/r1cs_bench.rs: computes_r1cs"]}
{"id": "C129", "title": "The circuit does not depend on the values", "statement": "Two runs of a gadget that make the same calls on the composer, with different witness values, public input values and blinding values, build the same circuit: same gates, selectors, wiring, lookup table and public input positions, and the calls return the same variables. So a circuit compiled once, with any values for which its gadget runs, serves to prove and verify with all others. Constants put into the circuit description are part of the circuit: different constants make different circuits.", "quantifier": "all composers, all methods and all sequences of calls whose next call depends on returned variables only, all values, all challenges except few per challenge", "why_tests_cant": "a test compiles and proves one circuit with one set of values; the branches of a method that depend on a value are rarely taken", "anchors": ["plonk-core/src/circuit.rs: Circuit::compile, gen_proof", "plonk-core/src/constraint_system/*.rs: every public method of StandardComposer", "plonk/examples/simple_circuit.rs"]}
{"id": "C130", "title": "The PLONK example circuits", "statement": "The circuit of simple_circuit.rs and of the test in circuit.rs: its gadget runs for all values and declares four public inputs at fixed rows; its values satisfy it exactly when a+b=c, a*b=d, a and b are below the two bounds and e times the generator is f; whatever satisfies it has public inputs of that form; compiled once with any values it proves and verifies all satisfying values, and rejects all other public inputs, except for few values of each challenge. The circuit of example_poly.rs is satisfied by its own values exactly when r = f(x,y,z), but (deviation) it declares no public inputs, takes the constant one from the prover and so accepts r = k(2y-z). Deviation of the documented example of the trait: its parameters have degree 1<<10 but its circuit asks for 1<<11, so compile never returns keys; with parameters of degree 1<<11 it works.", "quantifier": "all values, bit sizes, blinding values, complete twisted Edwards curves, commitment schemes, all challenges except few per challenge, all provers for the rejection", "why_tests_cant": "the example and the test run one set of values and never a wrong one", "anchors": ["plonk/examples/simple_circuit.rs: TestCircuit, main", "plonk/examples/example_poly.rs: TestCircuit", "plonk-core/src/circuit.rs: tests::TestCircuit, test_full, documentation of Circuit"]}
{"id": "C131", "title": "From an arkworks constraint system to R1CS proofs", "statement": "An arkworks constraint system (one row per constraint, columns within the variables) is turned into an R1CS without error; an assignment satisfies the one exactly when it satisfies the other; indexing, proving and verifying with the R1CS proof system and with its prover-efficient variant succeeds for every satisfying assignment except for few challenges; for public inputs without a satisfying witness every proof by algebraic provers is rejected except for few challenges.", "quantifier": "all constraint systems that fit the parameters, all assignments, all environments with a correct FFT, all challenges except few per challenge, all algebraic provers for rejection", "why_tests_cant": "the test runs one constraint system with one assignment", "anchors": ["voproof/src/cs/r1cs.rs: From<ConstraintSystem>", "voproof/src/snarks/voproof_r1cs.rs", "voproof/src/snarks/voproof_r1cs_prover_efficient.rs", "voproof/tests/r1cs_test.rs"]}
{"id": "C132", "title": "Circuits under the prover-efficient POV proof system", "statement": "Every circuit built with the high-level calls, evaluated on inputs that satisfy the asserted equalities, has an accepted prover-efficient proof of its public values. Exactly this is enforced: some values of the variables satisfy the multiplication gates with a non-zero right input and the asserted equalities and carry the claimed public values; claims for which no such values exist are rejected except for few challenges. Deviation: every claim for which they do exist has accepted proofs, so additions, constants and multiplications by zero are not protected; a circuit with additions only proves any public values.", "quantifier": "all circuits built from the high-level calls, all inputs, all claimed public values, all algebraic provers, all challenges except few per challenge", "why_tests_cant": "tests run honest provers on one circuit; that false claims are accepted is visible only with a forged proof", "anchors": ["voproof/src/cs/circuit/fan_in_two.rs", "voproof/src/cs/pov.rs", "voproof/src/snarks/voproof_pov_prover_efficient.rs"]}
{"id": "C133", "title": "The POV example circuit", "statement": "The circuit of pov_bench.rs and pov_test.rs compiles to four multiplications, two additions and one constant; for all inputs a, b, c its instance is the pair a, 10(2a+b)(a+b)bc at two fixed positions and the run of the example succeeds with both POV proof systems whenever the prover does, which fails for few challenges only. Deviation: with the prover-efficient system every pair of claimed public values has accepted proofs for this circuit.", "quantifier": "all inputs, all fields and pairings, all challenges except few", "why_tests_cant": "the example and the test run one set of inputs and never a wrong claim", "anchors": ["voproof/benches/pov_bench.rs: define_bench_pov_verifier", "voproof/tests/pov_test.rs: define_run_pov_example"]}
{"id": "C134", "title": "From an arkworks constraint system to POV proofs", "statement": "The translation of a constraint system to a circuit and on to POV succeeds exactly if there are at least two variables and every variable but the constant occurs with a non-zero coefficient; then prover and verifier, who evaluates a circuit without witness, derive the same POV instance from the public inputs; satisfying assignments have accepted proofs in both POV systems except for few challenges; if the translation asserts no equality twice (C122 says what happens otherwise), public inputs without witness are rejected by the plain POV verifier except for few challenges. Deviation: the prover-efficient verifier accepts forged proofs for all public inputs of every translated constraint system.", "quantifier": "all arkworks constraint systems, all hash map orders, all assignments, all algebraic provers, all challenges except few per challenge", "why_tests_cant": "tests run one constraint system, one hash map order, one satisfying assignment", "anchors": ["voproof/src/cs/circuit/fan_in_two.rs: From<R1CS>", "voproof/src/cs/pov.rs", "voproof/src/cs/r1cs.rs", "voproof/tests/pov_test.rs: run_pov_from_r1cs"]}
{"id": "C135", "title": "Soundness error of the POV verifiers", "statement": "Against every algebraic prover the probability that verify accepts although the committed witness does not satisfy the POV system with the public values is at most (4D + 15c - 2m + 6)/|F| for the plain system (c gates, m multiplications, D the degree of the setup); for the prover-efficient system it is at most (4D + 11c + 2m + 5)/|F| for what that verifier enforces, and for full satisfaction if the committed polynomials have the zero coefficients of honest ones.", "quantifier": "all algebraic provers that choose polynomials of degree at most D and values as functions of the challenges drawn so far, all instances, all finite fields; challenges, trapdoor and randomizer drawn uniformly", "why_tests_cant": "a probability over all challenges against every prover strategy; tests try at most one wrong proof", "anchors": ["voproof/src/snarks/voproof_pov.rs: verify", "voproof/src/snarks/voproof_pov_prover_efficient.rs: verify", "voproof/src/kzg.rs: batch_check"]}
{"id": "C136", "title": "Soundness error of the R1CS verifiers", "statement": "Against every algebraic prover the probability that verify accepts although the committed witness does not satisfy the R1CS with the public inputs x is at most (4D + 3H + 4K + 3S + |x| + 10)/|F|, for the prover-efficient system at most (4D + 3H + K + 3S + |x| + 13)/|F| (H rows, K columns, S entries).", "quantifier": "all algebraic provers that choose polynomials of degree at most D and values as functions of the challenges drawn so far, all instances, all finite fields; challenges, trapdoor and randomizer drawn uniformly", "why_tests_cant": "a probability over all challenges against every prover strategy; tests try at most one wrong proof", "anchors": ["voproof/src/snarks/voproof_r1cs.rs: verify", "voproof/src/snarks/voproof_r1cs_prover_efficient.rs: verify"]}
{"id": "C137", "title": "Soundness error of the HPR verifier", "statement": "Against every algebraic prover the probability that verify accepts although the committed witness does not satisfy the HPR system is at most (4D + H + 10K + 3S + 13)/|F|.", "quantifier": "all algebraic provers that choose polynomials of degree at most D and values as functions of the challenges drawn so far, all instances, all finite fields; challenges, trapdoor and randomizer drawn uniformly", "why_tests_cant": "a probability over all challenges against every prover strategy; tests try at most one wrong proof", "anchors": ["voproof/src/snarks/voproof_hpr.rs: verify"]}
{"id": "C138", "title": "Soundness error of the Fibonacci and range check verifiers", "statement": "Against every algebraic prover the probability of acceptance is at most (4D + n + 11)/|F| if the committed vector is not the claimed recurrence, and at most (4D + N + 3B + 8)/|F| if one of its first N entries is not in [0, B).", "quantifier": "all algebraic provers that choose polynomials of degree at most D and values as functions of the challenges drawn so far, all instances, all finite fields; challenges, trapdoor and randomizer drawn uniformly", "why_tests_cant": "a probability over all challenges against every prover strategy; tests try at most one wrong proof", "anchors": ["voproof/src/snarks/fibonacci.rs: verify", "voproof/src/snarks/range_check.rs: verify"]}
{"id": "C139", "title": "Soundness error of the PLONK verifier", "statement": "Against every prover that commits to the lookup accumulator before alpha is drawn and sends right values of the four selectors that are not opened, the probability that verify accepts although the committed wires do not satisfy the circuit with the public inputs is at most (17n + 10 max(d, n) + 34)/|F| (n the size of the domain, d the degree bound of the commitment scheme). (What happens without the two conditions is C107 and C108.)", "quantifier": "all circuits built by the composer, all strategies, all finite fields, all commitment schemes with extraction; all fourteen challenges drawn uniformly", "why_tests_cant": "a probability over all challenges against every prover strategy; tests try at most one wrong proof", "anchors": ["plonk-core/src/proof_system/proof.rs: verify", "plonk-core/src/proof_system/verifier.rs"]}
{"id": "C140", "title": "Soundness error for circuits and arkworks constraint systems", "statement": "If the claimed public values of a circuit belong to no input, or the public inputs of an arkworks constraint system to no witness, then against every algebraic prover the probability of acceptance is at most an explicit number (linear in the setup degree and the number of gates, or rows, columns and terms) over |F|, for POV, prover-efficient POV (as far as it enforces circuits), R1CS, prover-efficient R1CS and for R1CS translated to POV.", "quantifier": "all circuits built from the high-level calls and all arkworks constraint systems, all strategies, all finite fields; challenges, trapdoor and randomizer drawn uniformly", "why_tests_cant": "a probability over all challenges against every prover strategy; tests try at most one wrong proof", "anchors": ["voproof/src/cs/circuit/fan_in_two.rs", "voproof/src/cs/r1cs.rs: From<ConstraintSystem>", "voproof/src/snarks/voproof_pov.rs: verify", "voproof/src/snarks/voproof_r1cs.rs: verify"]}
{"id": "C141", "title": "Accepted values are the values of the committed polynomials", "statement": "Against every algebraic prover that commits to polynomials of degree at most D, the probability that verify accepts although one of the claimed values y, y1, y2 of the proof is not the value of the polynomial committed before it at the challenged point is at most (D+4)/|F| (POV, prover-efficient POV, prover-efficient R1CS, Fibonacci), (D+3)/|F| (R1CS, HPR), (D+5)/|F| (range check).", "quantifier": "all algebraic provers, all instances, all finite fields, all seven proof systems; batching challenge, trapdoor and randomizer drawn uniformly", "why_tests_cant": "a probability over all challenges; tests try one draw; a wrong value that slips through needs an adversarial prover", "anchors": ["voproof/src/snarks/voproof_pov.rs: verify", "voproof/src/snarks/voproof_pov_prover_efficient.rs: verify", "voproof/src/snarks/voproof_r1cs.rs: verify", "voproof/src/snarks/voproof_hpr.rs: verify", "voproof/src/snarks/voproof_r1cs_prover_efficient.rs: verify", "voproof/src/snarks/fibonacci.rs: verify", "voproof/src/snarks/range_check.rs: verify", "voproof/src/kzg.rs: batch_check"]}
{"id": "C142", "title": "Completeness error of PLONK", "statement": "If the values in the composer satisfy the circuit then, with uniform challenges, prove and verify (and compile, gen_proof, verify_proof) succeed except with probability at most (3T^2 + 7n + 9)/|F|, T the number of rows of the lookup table and n the size of the domain.", "quantifier": "all circuits built by the composer, all satisfying values, all finite fields, all complete commitment schemes; all fourteen challenges drawn uniformly", "why_tests_cant": "a probability over all challenges; tests try one draw; the failing draws are too rare to meet in a test", "anchors": ["plonk-core/src/proof_system/prover.rs: prove", "plonk-core/src/proof_system/verifier.rs: verify", "plonk-core/src/circuit.rs: gen_proof, verify_proof"]}
{"id": "C143", "title": "PLONK proofs from values that do not satisfy the circuit are rejected", "statement": "Whoever runs the library's own prover on values that do not satisfy the circuit gets a proof that verify accepts with probability at most (17n + 10 max(d,n) + 34)/|F|; the same if the prover was preprocessed with other values of the same circuit, and for gen_proof and verify_proof. (An adversary who does not run this prover is C139, C107, C108.)", "quantifier": "all circuits built by the composer, all unsatisfying values, all finite fields, all commitment schemes with extraction; all fourteen challenges drawn uniformly", "why_tests_cant": "a probability over all challenges; tests try one draw, on one wrong witness", "anchors": ["plonk-core/src/proof_system/prover.rs: prove, preprocess", "plonk-core/src/proof_system/verifier.rs: verify", "plonk-core/src/circuit.rs: gen_proof, verify_proof"]}
{"id": "C144", "title": "gadget_tester tells satisfied from unsatisfied gadgets", "statement": "gadget_tester returns Ok for a gadget whose values satisfy its gates, except with probability at most (3T^2 + 7N + 9)/|F|, provided the setup degree 2n is at least the padded size N; it returns Ok for a gadget whose values do not with probability at most (17N + 10 max(d,N) + 34)/|F|. dummy_gadget never panics, adds k rows and is satisfied.", "quantifier": "all gadgets made of composer calls (the second run may see other values), all sizes, all finite fields; challenges drawn uniformly", "why_tests_cant": "gadget_tester is itself the test harness: what its verdict means is a statement about all gadgets", "anchors": ["plonk-core/src/constraint_system/helper.rs: gadget_tester, dummy_gadget", "plonk-core/src/proof_system/prover.rs: key_transcript, prove_with_preprocessed", "plonk-core/src/proof_system/verifier.rs: key_transcript, verify"]}
{"id": "C145", "title": "Reusing a PLONK prover", "statement": "A prover used for any sequence of clear_witness and fill-then-prove of the same circuit makes one proof per use, every one accepted by the one verifier (outside explicit challenges), and keeps its key and transcript; prove with the same values again gives the same proof; clear makes it the default prover, so its label is lost unless it was plonk.", "quantifier": "all sequences of uses of any length, all values, all circuits, all hash functions", "why_tests_cant": "histories of unbounded length; tests make one or two proofs per prover", "anchors": ["plonk-core/src/proof_system/prover.rs: prove, clear_witness, clear, default, preprocess", "plonk-core/src/proof_system/verifier.rs: verify, default"]}
{"id": "C146", "title": "The three implementations of the permutation accumulator agree", "statement": "compute_permutation_poly interpolates exactly the values compute_fast_permutation_poly returns and panics exactly when it does (a denominator is zero); compute_slow_permutation_poly returns the same values exactly when also no numerator is zero and the products of numerators and denominators over all rows are equal, and panics otherwise. On the sigma polynomials of a circuit the slow one returns for all but 4n values of gamma if the wires respect the copy constraints, and panics for all but 4n values of beta and gamma if they do not.", "quantifier": "all domains, wires, sigma polynomials and challenges; all circuits built by the composer", "why_tests_cant": "the crate's tests compare them on one small circuit and one challenge", "anchors": ["plonk-core/src/permutation/mod.rs: compute_permutation_poly, compute_fast_permutation_poly, compute_slow_permutation_poly"]}
{"id": "C147", "title": "An honest run of a VO SNARK almost never fails", "statement": "If the prover's random values and all challenges are drawn independently and uniformly, index succeeds and the run in which prove does not return a proof, or verify does not accept it, has probability at most k/|F| with k independent of the size of the SRS: 7 for Fibonacci (with a coefficient vector that is not zero after its first entry), 3c+8 for POV and POV-PE with c gates, 3H+K+7 for R1CS with H rows and K columns, H+3K+8 for HPR, and 6H+K+6 for R1CS-PE when some matrix has a non-zero entry outside the first column.", "quantifier": "all satisfied constraint systems that meet the documented size conditions, all instances and witnesses, all SRS sizes; probability over all challenges and random values", "why_tests_cant": "a test runs one satisfied instance with one seed; the panics of the prover on rare challenges never show", "anchors": ["voproof/src/snarks/fibonacci.rs: prove, verify", "voproof/src/snarks/voproof_pov.rs: prove, verify", "voproof/src/snarks/voproof_pov_prover_efficient.rs", "voproof/src/snarks/voproof_r1cs.rs: prove, verify", "voproof/src/snarks/voproof_r1cs_prover_efficient.rs", "voproof/src/snarks/voproof_hpr.rs: prove, verify"]}
{"id": "C148", "title": "The benchmark circuit", "statement": "For every degree from 2 on the gadget of the benchmark circuit ends and leaves a circuit of the declared padded size 2^degree, without public inputs, satisfied by its own values, and compiling, proving and verifying it fails with probability at most (7*2^degree+36)/|F| over the challenges. (Deviation: it has 2^(degree-1)+2 constraints, fewer than the documented 2^degree from degree 3 on; for degrees 0 and 1 the circuit is larger than its declared padded size.)", "quantifier": "all degrees, all blinding values, all fields and curves with large enough domains, all complete commitment schemes; probability over the challenges", "why_tests_cant": "the loop ends and the sizes fit for every degree; the benchmark runs a few degrees", "anchors": ["plonk/benches/plonk.rs: BenchCircuit", "plonk-core/src/constraint_system/composer.rs: add_dummy_constraints, circuit_bound", "plonk-core/src/circuit.rs: compile, gen_proof, verify_proof"]}
{"id": "C149", "title": "PLONK over KZG is sound and complete", "statement": "With KZG commitments (the scheme the crate exports as default) instead of an abstract commitment scheme: when the secret of the commitment key and all challenges are drawn uniformly, a prover that commits to polynomials within the key, each chosen after the challenges before it (and the lookup accumulator before alpha), and sends right values of the four selectors that are not opened, makes verify accept a false statement (first committed wires that do not satisfy the circuit with the public inputs) with probability at most (17n + 11D + 55)/|F|, n the domain size and D the degree of the key. For every secret, the honest prover's proof is accepted except with probability (3T^2 + 7n + 9)/|F|. The same holds for compile, gen_proof and verify_proof with parameters of degree D; in particular the circuit of simple_circuit.rs with public inputs of the wrong form is accepted with probability at most (11D + 8759)/|F|.", "quantifier": "all circuits built by the composer's methods, all public inputs, all algebraic provers, all key degrees, all pairing groups; probability over secret and challenges", "why_tests_cant": "a test cannot run all provers; the abstraction of the commitment scheme would otherwise hide errors of the batched openings", "anchors": ["plonk-core/src/proof_system/proof.rs: Proof::verify", "plonk-core/src/commitment.rs: KZG10, HomomorphicCommitment", "plonk-core/src/proof_system/prover.rs: Prover::prove"]}
{"id": "C150", "title": "Forgers against PLONK over KZG", "statement": "Deviation, with the commitment scheme of the crate: the values of four selectors in a proof are not checked and the commitment to the lookup accumulator enters no challenge. For every circuit and all public inputs there is a prover that commits to the constant 1 for the left wire and to zero otherwise and is accepted by verify (and verify_proof after compile, e.g. for simple_circuit.rs) except with probability (7D + 15)/|F|; and for all choices of the other polynomials there is an accumulator chosen after the evaluation point, with right selector values, such that verify accepts except with probability (4D + 16)/|F|. Both for every secret of the key: the provers do not know it. So the two conditions of C149 are needed.", "quantifier": "all circuits built by the composer's methods, all public inputs at rows of the circuit, all key degrees and secrets, all pairing groups; probability over the challenges", "why_tests_cant": "tests run honest provers only", "anchors": ["plonk-core/src/proof_system/proof.rs: Proof::verify, compute_linearisation_commitment", "plonk-core/src/proof_system/linearisation_poly.rs: CustomEvaluations", "plonk-core/src/proof_system/prover.rs: prove (transcript)", "plonk-core/src/circuit.rs: verify_proof"]}
{"id": "C151", "title": "PLONK proofs confirm guesses of the witness", "statement": "Deviation from zero knowledge: the composer puts two random values in each wire column, but a proof contains the commitment to the left, right and fourth column and their values at two points. From a guess of the other rows the two random values follow by linear equations, and the commitment can be recomputed and compared. The test accepts every right guess for any commitment scheme and hash (when the equations are independent, all but 2n evaluation points), and on KZG the probability that a proof comes out for which the answer of the test is wrong is at most 3n/|F|; with satisfying values an observer gets a proof and the right answer except with probability (3T^2+10n+9)/|F|. The output column is published at one point only and its two random values hide it from these two values.", "quantifier": "all circuits built with the composer, all values, columns, guesses, prover keys, challenges and secrets", "why_tests_cant": "Tests do not look at what a proof reveals; the claim is about every guess, every circuit and counts over all challenges and secrets.", "anchors": ["plonk-core/src/constraint_system/composer.rs:add_blinding_factors", "plonk-core/src/proof_system/prover.rs:prove_with_preprocessed", "plonk-core/src/proof_system/linearisation_poly.rs:compute"]}
{"id": "C152", "title": "Opening proofs can be shifted when the randomizer is known and are determined otherwise", "statement": "Whoever knows the number that verify draws for the batch check, and two elements of the published parameters, can change the two opening proofs of any proof of the seven proof systems without changing the answer of verify: accepted proofs are malleable. The accepted pairs of opening proofs are exactly those that differ from one accepted pair by a solution of one linear equation. If two proofs differ in nothing but the opening proofs and each is accepted for two values of that number, they are equal, unless an evaluation point is the trapdoor. A PLONK proof on KZG commitments has at most one accepted pair of opening proofs.", "quantifier": "all keys, instances, proofs, shifts, randomizers, secrets, hashes and groups with a non-degenerate pairing", "why_tests_cant": "A test tries one tampered proof; the claim is about all tampered opening proofs, all keys and all randomizers.", "anchors": ["voproof/src/kzg/mod.rs:batch_check", "voproof/src/kzg/mod.rs:check", "voproof/src/snarks/voproof_pov.rs:verify", "voproof/src/snarks/voproof_r1cs.rs:verify", "voproof/src/snarks/voproof_hpr.rs:verify", "voproof/src/snarks/fibonacci.rs:verify", "voproof/src/snarks/range_check.rs:verify", "voproof/src/snarks/voproof_pov_prover_efficient.rs:verify", "voproof/src/snarks/voproof_r1cs_prover_efficient.rs:verify", "plonk-core/src/proof_system/proof.rs:verify"]}
{"id": "C153", "title": "Transcripts are determined by the bytes that are hashed", "statement": "A challenge of a proof system is the hash of a list of items (numbers, commitments, vectors) written to one buffer without tags or separators. Two different transcripts of the same proof system, at whatever step of prover or verifier, are never written to the same bytes (lengths and integers are u64). Equivalently, every assignment of challenges to lists of items is realised by a function of the bytes, with which prove and verify of all seven proof systems do the same for all keys, instances, witnesses and proofs.", "quantifier": "all item lists, hashes, keys, instances, witnesses, proofs and faithful element codecs", "why_tests_cant": "Tests hash a few transcripts; a collision of encodings would be found only by looking at all pairs of transcripts of all lengths.", "anchors": ["voproof/src/tools/mod.rs:to_bytes!", "voproof/src/tools/mod.rs:push_to_vec!", "voproof/src/tools/mod.rs:get_randomness_from_hash!", "voproof/src/snarks/voproof_pov.rs:prove", "voproof/src/snarks/voproof_pov.rs:verify", "voproof/src/snarks/voproof_r1cs.rs:verify", "voproof/src/snarks/voproof_hpr.rs:verify", "voproof/src/snarks/fibonacci.rs:verify", "voproof/src/snarks/range_check.rs:verify"]}
{"id": "C154", "title": "Challenges are nearly uniform when digests are", "statement": "hash_to_field reads the digest as a little-endian number and reduces it modulo the field order p. Of all digests of n bytes, floor(256^n/p) give a particular challenge, and one more gives each of the smallest 256^n mod p challenges; a set of b challenges is hit by at most b(floor(256^n/p)+1) digests. For SHA-256 and the scalar field of BLS12-381 these are two or three digests: challenges are not uniform, but the probability of any set of challenges is less than 1.4 times what it would be for uniform ones.", "quantifier": "all field orders, digest lengths, challenges and sets of challenges", "why_tests_cant": "The number of digests is 2^256; no test can count them.", "anchors": ["voproof/src/tools/mod.rs:hash_to_field"]}
{"id": "C155", "title": "PLONK challenges: range and panics", "statement": "A challenge of the PLONK prover or verifier is made from size bytes of the transcript, where size is the bit length of the field order divided by 8, rounded down. If the bit length is not a multiple of 8 no challenge panics, each number below 256^size is the challenge for exactly one string of bytes and the other field elements are never challenges; a set of b challenges is hit by at most b of the 256^size strings. If it is a multiple of 8, some strings make prover and verifier panic; their number is 256^size - p. For BLS12-381 the challenges are the numbers below 2^248, less than a hundredth of the field.", "quantifier": "all field orders and byte strings, all sets of challenges", "why_tests_cant": "The strings that panic are too rare for a test with a cryptographic field, and the missing challenges too many to list.", "anchors": ["plonk-core/src/transcript.rs:challenge_scalar"]}
{"id": "C156", "title": "PLONK transcripts are determined by the messages given to Merlin", "statement": "Prover and verifier of PLONK append public inputs, commitments and scalars to a Merlin transcript as labelled byte strings and draw challenges from it. Two different transcripts that continue the same messages of the user, at whatever step of prover or verifier, for whatever circuits, keys, public inputs, commitments, evaluations (with names chosen by the prover) and proofs, never consist of the same messages; with preprocessing, different verifier keys give different messages, too. Equivalently every assignment of challenges to transcripts is realised by a function of the messages, with which prover, verifier, gen_proof and verify_proof do the same.", "quantifier": "all assignments of challenges, starting messages, circuits, keys, public inputs and proofs; all self-delimiting encodings of field elements and commitments", "why_tests_cant": "A collision would have to be searched among all pairs of transcripts.", "anchors": ["plonk-core/src/transcript.rs:append", "plonk-core/src/transcript.rs:challenge_scalar", "plonk-core/src/transcript.rs:circuit_domain_sep", "plonk-core/src/proof_system/prover.rs:prove_with_preprocessed", "plonk-core/src/proof_system/proof.rs:verify", "plonk-core/src/proof_system/widget/mod.rs:seed_transcript"]}
{"id": "C157", "title": "PLONK proofs, verifier keys and public inputs survive serialization", "statement": "Deserializing a serialized PLONK proof, verifier key, map of public inputs or VerifierData returns the same value and leaves the bytes that follow, for all values whose sizes, positions, name lengths fit into a u64: in particular every proof that a prover returns, and every map made with the public functions. So a verifier that gets key, public inputs and proof as bytes decides as one that gets the values.", "quantifier": "all proofs, keys and public inputs; all self-delimiting encodings of field elements, commitments and opening proofs", "why_tests_cant": "The repository tests one proof; the derived code must agree for every value, with any number of named evaluations.", "anchors": ["plonk-core/src/proof_system/proof.rs:Proof", "plonk-core/src/proof_system/linearisation_poly.rs:ProofEvaluations", "plonk-core/src/proof_system/widget/mod.rs:VerifierKey", "plonk-core/src/proof_system/pi.rs:PublicInputs", "plonk-core/src/circuit.rs:VerifierData"]}
{"id": "C158", "title": "PLONK's error probabilities with the challenges as drawn", "statement": "A PLONK challenge is read from one byte less than the modulus has, so most of the field is never drawn. When these bytes are uniform, a prover whose first wires do not satisfy the circuit is accepted with probability at most the bound of C139 and C149 with 256^size in place of the order of the field, and the honest prover fails with probability at most the bound of C142 in the same way. Over BLS12-381, for the Circuit interface on KZG commitments: at most (17n+11D+55)/2^248, with no assumption on the field left.", "quantifier": "every prime modulus whose bit length is no multiple of 8, all circuits, public inputs, algebraic provers, byte strings of all fourteen challenges and secrets of the commitment key", "why_tests_cant": "a statement about probabilities too small to observe; the tests never look at the distribution of challenges", "anchors": ["plonk-core/src/transcript.rs: challenge_scalar", "plonk-core/src/proof_system/proof.rs: Proof::verify", "plonk-core/src/circuit.rs: verify_proof"]}
{"id": "C159", "title": "Soundness errors of the SNARKs with the challenges as drawn", "statement": "The SNARKs of voproof read a challenge as a whole digest reduced modulo the order of the field, which is close to uniform but not uniform. When the digests are uniform (the trapdoor and the final batching value uniform in the field), a statement that is false for the polynomial the prover committed to is accepted with probability at most (256^len/p + 1)*k of 256^len, k the number of field values of C135 to C138 and C140. Over BLS12-381 with a hash of 32 bytes, for a circuit of N gates no input of which gives the claimed public values: at most 3(4D+15N+9)/2^256.", "quantifier": "every prime modulus, digest length, constraint system and algebraic prover strategy, the digests of all challenges, the trapdoor and the batching value", "why_tests_cant": "a statement about probabilities too small to observe, over all prover strategies", "anchors": ["voproof/src/tools/mod.rs: hash_to_field", "voproof/src/snarks/voproof_pov.rs: verify", "voproof/src/snarks/voproof_r1cs.rs: verify", "voproof/src/snarks/voproof_hpr.rs: verify", "voproof/src/snarks/fibonacci.rs: verify", "voproof/src/snarks/range_check.rs: verify"]}
{"id": "C160", "title": "Public inputs that come as bytes", "statement": "Entries written in any order and with repetitions are read as the map that has the last value of every position, zeros included, in increasing order of the positions; whatever bytes are read, the map has increasing positions, so two maps that are read are equal exactly if they have the same entries. as_evals of such a map gives the values at their places and zero elsewhere, and panics exactly when n is no power of two or the map has a position not below n, even with the value zero. So for every key there are bytes that are read as public inputs without an error and make the verification of every proof panic.", "quantifier": "all byte strings, all self-delimiting encodings of field elements, all keys, proofs, fields, commitment schemes and hash functions", "why_tests_cant": "the tests make public inputs only with the public functions, which never repeat a position or store a zero; bytes from outside can be anything", "anchors": ["plonk-core/src/proof_system/pi.rs:PublicInputs", "plonk-core/src/proof_system/pi.rs:as_evals", "plonk-core/src/proof_system/proof.rs:verify", "plonk-core/src/circuit.rs:verify_proof"]}
{"id": "C161", "title": "What the PLONK verifier returns and when it panics", "statement": "With a commitment scheme whose check decides (KZG does), verify returns InvalidEvalDomainSize exactly for keys whose size has no domain in the field; for all others it panics exactly when a public input lies at a position beyond the domain, the proof lacks one of seven named evaluations, two of beta, gamma, delta, epsilon are equal, zeta is 0 or 1, or z is 1; in all other cases it returns Ok or ProofVerificationError. So for every proof there are bytes that are read as a proof without an error and make verify panic, whatever the hash function.", "quantifier": "all keys, public inputs, proofs, hash functions, fields, and commitment schemes whose check returns", "why_tests_cant": "the tests verify honest proofs; a malformed proof from outside can be anything", "anchors": ["plonk-core/src/proof_system/proof.rs:verify", "plonk-core/src/proof_system/linearisation_poly.rs:get", "plonk-core/src/util.rs:lc", "plonk-core/src/proof_system/pi.rs:as_evals"]}
{"id": "C162", "title": "What the verifiers of voproof return and when they panic", "statement": "verify of each of the seven SNARKs panics when the challenge z is 0, 1 or omega, and further when gamma*z is 1 (POV) or z is gamma*omega (R1CS, HPR); otherwise it returns Ok or the verification error. So no key, instance or proof from outside makes it panic but through its effect on the hash.", "quantifier": "all keys for at least one constant gate (POV), a row, more columns than inputs and padded density (R1CS: three times the rows), two Fibonacci rows, a non-empty vector; all instances and proofs, honest or not, all hash functions and groups (range check: a table or vector of two entries, or omega not zero)", "why_tests_cant": "the tests verify honest proofs only, and the degenerate challenges have probability about 2^-250", "anchors": ["voproof/src/snarks/voproof_pov.rs: verify", "voproof/src/snarks/voproof_pov_prover_efficient.rs: verify", "voproof/src/snarks/voproof_r1cs.rs: verify", "voproof/src/snarks/voproof_r1cs_prover_efficient.rs: verify", "voproof/src/snarks/voproof_hpr.rs: verify", "voproof/src/snarks/fibonacci.rs: verify", "voproof/src/snarks/range_check.rs: verify"]}
