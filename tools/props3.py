import json
P=[]
def p(i,title,statement,quant,why,anchors):
    P.append(dict(id=i,title=title,statement=statement,quantifier=quant,why_tests_cant=why,anchors=anchors))
S="plonk-core/src/proof_system/"
p("C100","Gate polynomials capture the gates","A row that satisfies its arithmetic, range, logic, fixed-base and variable-base relations makes the gate term of the quotient zero for every separation challenge; a row that violates one makes it non-zero for all but at most 7, 9, 7 and 5 values of the four challenges. The linear combination lc returns the sum of v_i c^i and panics exactly for c = 0, c = 1 or no values.","all selectors, wires, curve coefficients, public inputs and challenges","all field elements and challenges; a wrong row that cancels for special values is not found by sampling",[S+"widget/range.rs", S+"widget/logic.rs", S+"widget/fixed_base_scalar_mul.rs", S+"widget/curve_addition.rs", S+"widget/arithmetic.rs", "plonk-core/src/util.rs: lc"])
p("C101","The permutation argument enforces exactly the copy constraints","For every composer reachable by public calls and every table size that fits it, computing the sigma permutation never panics, does not depend on the iteration order of the hash map, gives a permutation of the positions under which values are invariant exactly if positions of the same variable agree; the sigma polynomials interpolate the labels. compute_permutation_poly panics exactly if a denominator is zero (for at most 4n values of gamma) and otherwise, for values that respect the copy constraints, returns an accumulator that passes the verifier's two checks. If the values violate a copy constraint no accumulator passes, for all but 4n values of beta and 4n of gamma.","every reachable composer, every hash-map order, every wire assignment, all challenges","all circuits, orders, dishonest wire values and accumulators",["plonk-core/src/permutation/mod.rs: compute_sigma_permutations, compute_sigma_polynomials, compute_permutation_poly", S+"permutation.rs"])
L="plonk-core/src/lookup/"
p("C102","Lookup tables hold the operations they are built for","insert_multi_add/mul/xor/and append exactly one row (a, b, a op b mod 2^n, tag) per pair of operands in the range, in order; with overflow checks they panic exactly for n >= 64 and, for multiplication, n > 32 with a non-empty range. lookup fails exactly when no row matches. In a table made by any sequence of these calls a lookup with an operation's tag returns that operation's value from the first call whose range contains the operands (fields of characteristic above 3 that tell the operands apart). value_from_table pushes a row of the table or fails. Preprocessing pads with the first row; an empty table becomes a table of zero rows.","all operations, bounds, tables, operands and call sequences","unbounded tables and call sequences, u64 boundary cases",[L+"lookup_table.rs", L+"witness_table.rs", L+"preprocess.rs", L+"multiset.rs: pad"])
p("C103","Queries are sorted into the table","t.combine_split(f) fails exactly if an element of f is not in t; otherwise the halves are the even and odd places of the concatenation with equal elements together in the order of t, a permutation of t and f. Compression maps a row to the polynomial in the challenge with the row as coefficients and panics exactly for the challenges 0 and 1; rows that are not lookups query the first row. A tuple outside the table is compressed outside the compressed table for all but 3n challenges.","all multisets, tables, wires and challenges","all multisets and challenges",[L+"multiset.rs: combine_split, compress", S+"prover.rs: prove_with_preprocessed"])
p("C104","The lookup argument (deviation: duplicate table rows)","If some queried value is not in the table then, whatever the two halves, for all but 4n+1 values of delta and 2n of epsilon no accumulator passes the verifier's checks. If all queries are in the table and equal entries stand together cyclically (true for all but 3|T|^2 compression challenges if the rows are distinct), compute_lookup_permutation_poly panics exactly if a denominator is zero (at most 2n values of epsilon for delta != -1) and otherwise its result passes. The quotient terms vanish for every separation challenge if the checks hold and for at most three otherwise. Deviation: with a duplicate row that is not adjacent the honest prover raises no error but its proof cannot pass.","all tables, queries, dishonest halves and accumulators, all challenges","all dishonest messages and challenges",["plonk-core/src/permutation/mod.rs: compute_lookup_permutation_poly", S+"widget/lookup.rs", L+"multiset.rs: combine_split"])
p("C105","PLONK completeness","A prover whose composer holds a satisfied circuit and a verifier preprocessed with the same circuit (other values), started with the same label: whenever prove returns a proof, verify with the prover's public inputs accepts it, for every hash function behind the transcript, provided equal compressed table rows stand together and the evaluation point is not in the domain. The same holds when the prover was preprocessed before and when the composer is refilled after an earlier proof; prove leaves key and transcript unchanged and a new composer behind. If the circuit fits in the field and the commitment key and the table has no duplicate row, preprocessing succeeds on both sides, and for all but few values of each challenge (3|T|^2+2, 4n+1, 3, 2n+3, n for zeta, gamma, delta, epsilon, z) prove succeeds and verify accepts.","every reachable satisfied composer, every verifier composer of the same circuit, every complete homomorphic commitment scheme, every hash or challenge list","all circuits, witnesses, tables and challenges",[S+"prover.rs", S+"verifier.rs", S+"proof.rs", S+"preprocess.rs", S+"quotient_poly.rs", S+"linearisation_poly.rs", S+"pi.rs", "plonk-core/src/transcript.rs"])
p("C106","PLONK soundness, with two provisos","For a prover that commits to the lookup accumulator before alpha is drawn and sends right values of q_arith, q_l, q_r and q_c at the evaluation point (the verifier checks neither, see C107 and C108): if the wires it commits to first do not satisfy the circuit with the verifier's public inputs (every row its gates, lookups in the table, positions of one variable equal), then for all but 3n, 4n, 4n, 4n+1, 2n, 2, 7, 9, 7, 5, 3 and 10 max(d, n) values of zeta, beta, gamma, delta, epsilon, alpha, the five separation challenges and the evaluation point, verify does not accept, whatever is sent afterwards. Public inputs must sit at rows declared by the circuit.","every reachable circuit, all public inputs at declared rows, all dishonest commitments, evaluations and openings, every ideal homomorphic commitment scheme","all dishonest provers and challenges",[S+"verifier.rs", S+"proof.rs: verify, compute_r0, compute_linearisation_commitment", S+"preprocess.rs: preprocess_verifier"])
p("C107","Deviation: the lookup accumulator is not bound by the transcript","A user expects every commitment of a proof to be fixed before the challenges that test it. The commitment z_2 enters no challenge, for any hash. Therefore a prover that sends arbitrary polynomials and right evaluations can compute a z_2 after seeing the evaluation point so that verify accepts, for every circuit and all public inputs (satisfiable or not) and for all but 2, 1, 3, 5, 1 and 4d values of zeta, gamma, delta, epsilon, the lookup challenge and the evaluation point.","every reachable circuit, all public inputs in range, all committed polynomials, every complete homomorphic commitment scheme","a statement about what a malicious prover can do for every circuit",[S+"proof.rs: verify", S+"prover.rs: prove_with_preprocessed"])
p("C108","Deviation: the arithmetic selector value is never opened","A user expects every evaluation in a proof to be checked against a commitment. q_arith_eval is used by the verifier but in no opening, and is chosen after the evaluation point. Therefore a prover whose wires make the arithmetic expression (without selector) non-zero at some row, whatever else it commits to, can choose this one value so that verify accepts; in particular one fixed set of commitments (left wire 1, all else 0) is accepted for every circuit and all public inputs, for all but 2, 1, 2, 3 and 7d values of zeta, gamma, delta, epsilon and the evaluation point; a concrete unsatisfiable statement is accepted.","every reachable circuit, all public inputs in range, all such commitments, every complete homomorphic commitment scheme","a statement about what a malicious prover can do for every circuit",[S+"proof.rs: verify, compute_linearisation_commitment", S+"linearisation_poly.rs: ProofEvaluations", S+"widget/arithmetic.rs: compute_linearisation_commitment"])
p("C109","Public input maps are canonical and determined by values","add_input with an item that has no field elements is an error; otherwise it panics exactly when one of the item's positions already holds a non-zero value, and else stores the elements at consecutive positions, changes nothing else and returns their number. Every map made by new and add_input holds increasing positions and no zeros, so two maps are equal exactly if they have the same value at every position. from_val_pos panics exactly when the lists have different lengths or a position repeats after a non-zero value, and else gives the map of the sums per position. as_evals(n) gives the n values, and panics exactly when n is not a power of two or a value lies beyond; into_dense_poly(n) gives the polynomial of degree below n with these values on the domain. For every composer reachable by public calls, from_val_pos of the declared positions and the values there is the composer's own map.","all maps made by the public functions, items, positions, sizes and reachable composers","all sequences of insertions, including zeros and repeated positions",[S+"pi.rs: PublicInputs::{new, add_input, extend, insert, as_evals, from_val_pos, into_dense_poly, get_pos, get_vals}","plonk-core/src/constraint_system/composer.rs: get_pi, intended_pi_pos"])
p("C110","The Circuit interface: compile, gen_proof, verify_proof","A circuit is compiled, and a circuit of the same size whose gadget makes the same gates with other values is proved. If the gadget's composer is satisfied and gen_proof returns, then it returns the gadget's public inputs, compile returned the gadget's public input positions, from_val_pos of these positions and values is the returned map, and verify_proof accepts, for every hash (with the two conditions of C105). With large enough parameters compile succeeds and, for all but few values of each challenge, gen_proof and verify_proof succeed. With the key from compile and public inputs at the returned positions, proofs for wires that do not satisfy the circuit are rejected for all but few challenges, with the provisos of C106.","all circuits that use the composer through its public methods, universal parameters, keys from compile, labels, hash functions, proofs of algebraic provers","all gadgets, witnesses, transcripts and adversarial proofs",["plonk-core/src/circuit.rs: Circuit::{compile, gen_proof}, verify_proof",S+"widget/mod.rs: VerifierKey::padded_circuit_size",S+"verifier.rs",S+"prover.rs"])
H="plonk-hashing/src/poseidon/"
p("C111","Matrix inversion","invert of a square matrix returns its two-sided inverse exactly if the determinant is non-zero, returns None for a singular matrix, and panics on anything that is not a square matrix with at least one row. is_invertible is the test of the determinant, and false for rectangular matrices.","all matrices of every size over every field","all matrices, including those that need row exchanges in any position",[H+"matrix.rs: invert, is_invertible, upper_triangular, reduce_to_identity"])
p("C112","Matrix arithmetic (deviation: rectangular shapes)","On square matrices matmul, transpose, left_apply, right_apply, minor, identity, is_identity and is_sparse do what they are named after; the vector products panic unless the matrix is square of the vector's size. Deviation: matmul of rectangular matrices asks for the wrong pair of equal dimensions: it refuses products that are defined, panics when the left factor is wider than high and drops columns otherwise; transpose drops columns of wide matrices and panics for high ones.","all matrices and vectors of every size","all sizes and entries",[H+"matrix.rs"])
p("C113","MDS matrices","generate_mds succeeds exactly if no sum i+j+t vanishes in the field; the entries are the inverses of these sums, the matrix is symmetric and every square submatrix is regular. derive_mds_matrices panics exactly for a singular matrix, a singular minor or size 1; otherwise the inverses are inverses, m_hat is the minor, m_prime is block diagonal, m_double_prime is sparse, and m_prime m_double_prime equals m in all entries but the lower first column, and everywhere if the minor is symmetric. SparseMatrix::new accepts exactly the sparse matrices, and to_matrix gives them back.","all widths, all fields, all matrices","every square submatrix of every size",[H+"mds.rs: generate_mds, derive_mds_matrices, make_prime, make_double_prime, SparseMatrix"])
p("C114","The optimised Poseidon schedule is the permutation","For a matrix with a symmetric minor that derive_mds_matrices accepts, an even positive number of full rounds, any number of partial rounds and any round constants, compress_round_constants and factor_to_sparse_matrixes succeed, and the schedule with the compressed constants, the pre-sparse matrix and the sparse matrices computes the same function as the plain schedule of rounds. This holds for the matrices of MdsMatrices::new.","all widths, round numbers, round constants and states","a schedule can agree on sampled states and differ elsewhere",[H+"preprocessing.rs: compress_round_constants", H+"mds.rs: factor_to_sparse_matrixes"])
p("C115","The native Poseidon hash is the permuted state","A native hasher made by new, given at most arity elements by input and asked by output_hash, returns element 1 of the Poseidon permutation of the state (domain tag, inputs, zeros); one more input is refused with FullBuffer. Missing inputs count as zeros, so inputs that differ in trailing zeros collide. The permutation is a bijection for a regular matrix and a field with unique fifth roots. reset brings any hasher back to the state of new; without reset a second output_hash adds no constants and has no S-box in its full rounds.","all widths, constants, inputs, hasher states and histories of calls","a hash test compares a few vectors; the schedule, the position of constants and reuse matter for every state",[H+"poseidon_ref.rs: Poseidon::new, reset, input, output_hash, full_round, partial_round, product_mds", H+"poseidon_ref.rs: NativePlonkSpecRef"])
p("C116","The Poseidon gadget computes the hash, up to the domain tag","Called with variables of a composer, new, input and output_hash add gates such that every satisfying assignment gives the result the value of the native hash of the values of the inputs, with the domain tag the assignment chooses; honest values satisfy the gates and give the hash with the right tag. Nothing binds the tag: every tag can be used in a satisfying assignment with the same inputs and public inputs.","all reachable composers, widths, constants, inputs, and all satisfying assignments","tests check honest witnesses only; soundness is about every assignment",[H+"poseidon_ref.rs: PlonkSpecRef", H+"poseidon_ref.rs: Poseidon::output_hash"])
p("C117","The affine-gate Poseidon circuit computes the hash for symmetric matrices and exact constants","The circuit of PoseidonZZRef with PlonkSpecZZ, of width 3, given exactly the constants its rounds need and a symmetric matrix, adds gates such that every satisfying assignment gives the result the native hash of the values of the inputs, with the domain tag of the assignment, and honest values satisfy them. For any other matrix it is the hash with the transposed matrix; with at least three constants more, which the native hash ignores, the result is off by one of them.","all reachable composers, matrices, constants, inputs, and all satisfying assignments","tests compare one generated parameter set and honest witnesses",[H+"zprize_constraints.rs: PoseidonZZRef, PlonkSpecZZ::full_round, partial_round", "plonk-core/src/constraint_system/hash.rs: full_affine_transform_gate, partial_affine_transform_gate"])
p("C118","The Poseidon round numbers are the cheapest secure ones searched","calc_round_numbers returns, among all pairs of full rounds (even, 2 to 1000) and partial rounds (4 to 199) that pass the four security bounds, one whose number of S-boxes after the security margin is minimal, with the fewest full rounds among those; the number of full rounds is even; adding rounds keeps a pair secure. In exact arithmetic the result for width t is (8, ceil(1.075*ceil(49.04+log2 t))) for every t from 2 to 2^48.","all widths, every monotone rounding of the floating point operations and every table of logarithms","tests compare a table of widths with a reference output; minimality is over the whole searched range and the closed form over all widths",[H+"round_numbers.rs: calc_round_numbers, round_numbers_are_secure, n_sboxes"])
p("C119","The Poseidon round constants are those of the Grain LFSR of the paper","The state of the register starts with the 80 bits the paper prescribes and drops 160 bits; each step gives the next element of the linear recurring sequence; the self-shrinking next returns after finitely many steps from every reachable state; generate_constants returns the list of the first (R_F+R_P)*t accepted integers made of these bits, and returns exactly if so many are accepted; it panics unless the element size is 32 bytes, the product fits 16 bits and the field is prime.","all parameters, all positions of the stream, every conversion of bytes to elements","tests compare one published list of constants; termination of the register and the match with the recurrence concern all parameters and positions",[H+"round_constant.rs: GrainLFSR, generate_constants"])
p("C120","Generated Poseidon constants are fit for all three hash implementations","For every width from 2 to 31 over a field where the matrix exists, PoseidonConstants::generate returns (if enough integers are accepted) constants with exactly as many round constants as the rounds use, a symmetric MDS matrix, the domain tag 2^arity-1, and compressed constants and sparse matrices with which the optimised schedule computes the plain permutation. For width 3 the native hash and both circuits then agree. For widths 0, 1, above 31, and fields too small for the matrix it returns no constants.","all widths, fields, conversions and numbers of rounds","tests generate constants for one field and a few widths and hash a few inputs",[H+"constants.rs: PoseidonConstants::generate"])
p("C121","Circuits and R1CS through the POV proof system, end to end","For every circuit built by high-level calls with a constant gate and distinct public variables: if its asserted equalities hold on some inputs, get_instance/get_witness/index/prove/verify succeed on them except for exceptional challenges; if the asserted equalities are acyclic and no inputs give the claimed public values with all asserted equalities true, then every prover that commits to polynomials is rejected except for few challenges. The same for an R1CS through pov_triple_from_r1cs_triple and pov_pair_from_r1cs_pair.","all histories of high-level calls, inputs, claimed values, committed polynomials, challenges; all R1CS and assignments","tests prove and verify a few circuits with one hash function and one random seed",["voproof/src/cs/circuit/fan_in_two.rs: VOProofCircuit","voproof/src/cs/pov.rs: POV, pov_pair_from_r1cs_pair, pov_triple_from_r1cs_triple","voproof/src/snarks/voproof_pov.rs: index, prove, verify"])
p("C122","Repeated assertions are not enforced by the POV proof system","The POV prover only needs invariance under the product of the swaps of the wire pairs. Consequently, for every circuit that asserts an equality twice in a row, prove makes accepted proofs from inputs that violate that equality, exactly as for true statements; and an R1CS that lists a constraint twice has accepted proofs for false statements.","all circuits with a repeated assertion, all inputs that satisfy the other assertions, all hash functions","no test asserts an equality twice",["voproof/src/cs/circuit/fan_in_two.rs: assert_equal, get_wiring","voproof/src/tools.rs: permutation_vector_from_wires","voproof/src/snarks/voproof_pov.rs: prove, verify"])
p("C123","What check_circuit_satisfied decides","For every composer the public methods can build, check_circuit_satisfied returns exactly when every row with the arithmetic selector on satisfies the arithmetic equation for the values and public inputs of the composer, and panics otherwise. So it accepts every satisfied circuit, decides satisfaction for circuits without curve additions and lookups (in particular a range gate on a satisfied circuit makes it panic exactly when the value is out of range), and never looks at lookups: a lookup of a row that is not in the table passes.","all histories of calls of the composer's public methods, all values, all field representations","tests call it on satisfied example circuits; no test covers its verdict on all circuits, nor failed lookups",["plonk-core/src/constraint_system/composer.rs: check_circuit_satisfied, delta","plonk-core/src/constraint_system/range.rs: range_gate","plonk-core/src/constraint_system/logic.rs: logic_gate"])
p("C124","Batching by powers of a challenge","linear_combination panics exactly when the lists have different lengths and otherwise returns the sums of the commitments and of the values weighted by the powers of the challenge; aggregate_polynomials returns the polynomial with the same weights. From the KZG commitments and the values at a point of any polynomials the pair is the commitment and the value of the aggregated polynomial; if one claimed value is wrong, fewer challenges than there are polynomials let the combination agree. lc gives the same combination but panics for the challenges 0 and 1 and for no values.","all lists of polynomials, commitments and values, all challenges, all points","tests combine five random values; soundness counts challenges",["plonk-core/src/commitment.rs: linear_combination, aggregate_polynomials, multi_scalar_mul","plonk-core/src/util.rs: powers_of, lc"])
p("C125","Conversion of embedded curve scalars","from_embedded_curve_scalar and to_embedded_curve_scalar return exactly when the integer of the scalar is below the modulus of the other field, whatever the sizes of the two big-integer types; the result has the same integer (it is never reduced), otherwise they panic. They invert each other. A scalar x of the embedded curve's field, converted and used with the scalar multiplication gadgets, multiplies points by x.","all pairs of prime fields and limb counts, all scalars, all composer histories, all curve groups","tests convert random scalars of two fixed fields",["plonk-core/src/util.rs: from_embedded_curve_scalar, to_embedded_curve_scalar","plonk-core/src/constraint_system/ecc/scalar_mul: variable_base_scalar_mul, fixed_base_scalar_mul"])
p("C126","The fields in use meet the assumptions","The scalar fields of BLS12-381 and BLS12-377 (moduli, generators 7 and 22, two-adicities 32 and 47 of the arkworks configuration) are prime fields whose roots of unity are primitive for every domain size, whose generator has full order, and for which the constants 7, 13, 17 of the permutation argument give disjoint cosets of every domain. So the completeness and soundness theorems for the SNARKs and for PLONK hold over these fields with no assumption on the field left.","both fields, all domain sizes up to the two-adicity, all vector lengths below 2^64","the repository checks the cosets for one domain size",["plonk-core/src/permutation/constants.rs: K1, K2, K3","voproof/src/tools/mod.rs: generator_of!","voproof/src/main.rs: main"])
p("C127","Point addition on the embedded curves is a group","On every twisted Edwards curve whose a is a square and whose d is not, the affine addition law has no exceptional pair, is closed, commutative and associative with neutral element (0,1) and inverse (-x,y); the curves ed_on_bls12_381 and ed_on_bls12_377 are such curves. So the scalar multiplication gadgets compute repeated point addition: in every satisfying assignment the result is n times the base for a number n that the scalar variable is the image of, and the honest result is the multiple by the scalar.","all complete twisted Edwards curves, all points, all composer histories and satisfying assignments","tests add a few points",["plonk-core/src/constraint_system/ecc/scalar_mul: variable_base_scalar_mul, fixed_base_scalar_mul","plonk-core/src/constraint_system/ecc/curve_addition: variable_base_gate, fixed_base_gate"])
p("C128","The example programs pass verification","For every size, run_fibonacci_example, run_r1cs_example and run_hpr_example build an instance and a witness that satisfy their system, setup and indexing succeed, verification never rejects the proof, and the prover succeeds except for exceptional challenge values (the Fibonacci instance claims the right term of the recurrence; the test circuit is satisfied exactly by witnesses equal to a and product a*b). The floating-point witness of run_range_check_example is always in range, but (deviation) its prover aborts unless its fifth blinding value is zero. With fewer than five variables the R1CS example panics (deviation).","all sizes, inputs, blinding values, hash functions, trapdoors, sources of randomness, and floating-point roundings within the IEEE 754 bound","main.rs runs one size with one seed",["voproof/src/main.rs: run_fibonacci_example, run_range_check_example, run_r1cs_example, run_hpr_example, TestCircuit","voproof/benches/r1cs_bench.rs: computes_r1cs"])
p("C129","The circuit does not depend on the values","Two runs of a gadget that make the same calls on the composer, with different witness values, public input values and blinding values, build the same circuit: same gates, selectors, wiring, lookup table and public input positions, and the calls return the same variables. So a circuit compiled once, with any values for which its gadget runs, serves to prove and verify with all others. Constants put into the circuit description are part of the circuit: different constants make different circuits.","all composers, all methods and all sequences of calls whose next call depends on returned variables only, all values, all challenges except few per challenge","a test compiles and proves one circuit with one set of values; the branches of a method that depend on a value are rarely taken",["plonk-core/src/circuit.rs: Circuit::compile, gen_proof","plonk-core/src/constraint_system/*.rs: every public method of StandardComposer","plonk/examples/simple_circuit.rs"])
p("C130","The PLONK example circuits","The circuit of simple_circuit.rs and of the test in circuit.rs: its gadget runs for all values and declares four public inputs at fixed rows; its values satisfy it exactly when a+b=c, a*b=d, a and b are below the two bounds and e times the generator is f; whatever satisfies it has public inputs of that form; compiled once with any values it proves and verifies all satisfying values, and rejects all other public inputs, except for few values of each challenge. The circuit of example_poly.rs is satisfied by its own values exactly when r = f(x,y,z), but (deviation) it declares no public inputs, takes the constant one from the prover and so accepts r = k(2y-z). Deviation of the documented example of the trait: its parameters have degree 1<<10 but its circuit asks for 1<<11, so compile never returns keys; with parameters of degree 1<<11 it works.","all values, bit sizes, blinding values, complete twisted Edwards curves, commitment schemes, all challenges except few per challenge, all provers for the rejection","the example and the test run one set of values and never a wrong one",["plonk/examples/simple_circuit.rs: TestCircuit, main","plonk/examples/example_poly.rs: TestCircuit","plonk-core/src/circuit.rs: tests::TestCircuit, test_full, documentation of Circuit"])
p("C131","From an arkworks constraint system to R1CS proofs","An arkworks constraint system (one row per constraint, columns within the variables) is turned into an R1CS without error; an assignment satisfies the one exactly when it satisfies the other; indexing, proving and verifying with the R1CS proof system and with its prover-efficient variant succeeds for every satisfying assignment except for few challenges; for public inputs without a satisfying witness every proof by algebraic provers is rejected except for few challenges.","all constraint systems that fit the parameters, all assignments, all environments with a correct FFT, all challenges except few per challenge, all algebraic provers for rejection","the test runs one constraint system with one assignment",["voproof/src/cs/r1cs.rs: From<ConstraintSystem>","voproof/src/snarks/voproof_r1cs.rs","voproof/src/snarks/voproof_r1cs_prover_efficient.rs","voproof/tests/r1cs_test.rs"])
p("C132","Circuits under the prover-efficient POV proof system","Every circuit built with the high-level calls, evaluated on inputs that satisfy the asserted equalities, has an accepted prover-efficient proof of its public values. Exactly this is enforced: some values of the variables satisfy the multiplication gates with a non-zero right input and the asserted equalities and carry the claimed public values; claims for which no such values exist are rejected except for few challenges. Deviation: every claim for which they do exist has accepted proofs, so additions, constants and multiplications by zero are not protected; a circuit with additions only proves any public values.","all circuits built from the high-level calls, all inputs, all claimed public values, all algebraic provers, all challenges except few per challenge","tests run honest provers on one circuit; that false claims are accepted is visible only with a forged proof",["voproof/src/cs/circuit/fan_in_two.rs","voproof/src/cs/pov.rs","voproof/src/snarks/voproof_pov_prover_efficient.rs"])
p("C133","The POV example circuit","The circuit of pov_bench.rs and pov_test.rs compiles to four multiplications, two additions and one constant; for all inputs a, b, c its instance is the pair a, 10(2a+b)(a+b)bc at two fixed positions and the run of the example succeeds with both POV proof systems whenever the prover does, which fails for few challenges only. Deviation: with the prover-efficient system every pair of claimed public values has accepted proofs for this circuit.","all inputs, all fields and pairings, all challenges except few","the example and the test run one set of inputs and never a wrong claim",["voproof/benches/pov_bench.rs: define_bench_pov_verifier","voproof/tests/pov_test.rs: define_run_pov_example"])
p("C134","From an arkworks constraint system to POV proofs","The translation of a constraint system to a circuit and on to POV succeeds exactly if there are at least two variables and every variable but the constant occurs with a non-zero coefficient; then prover and verifier, who evaluates a circuit without witness, derive the same POV instance from the public inputs; satisfying assignments have accepted proofs in both POV systems except for few challenges; if the translation asserts no equality twice (C122 says what happens otherwise), public inputs without witness are rejected by the plain POV verifier except for few challenges. Deviation: the prover-efficient verifier accepts forged proofs for all public inputs of every translated constraint system.","all arkworks constraint systems, all hash map orders, all assignments, all algebraic provers, all challenges except few per challenge","tests run one constraint system, one hash map order, one satisfying assignment",["voproof/src/cs/circuit/fan_in_two.rs: From<R1CS>","voproof/src/cs/pov.rs","voproof/src/cs/r1cs.rs","voproof/tests/pov_test.rs: run_pov_from_r1cs"])
p("C135","Soundness error of the POV verifiers","Against every algebraic prover the probability that verify accepts although the committed witness does not satisfy the POV system with the public values is at most (4D + 15c - 2m + 6)/|F| for the plain system (c gates, m multiplications, D the degree of the setup); for the prover-efficient system it is at most (4D + 11c + 2m + 5)/|F| for what that verifier enforces, and for full satisfaction if the committed polynomials have the zero coefficients of honest ones.","all algebraic provers that choose polynomials of degree at most D and values as functions of the challenges drawn so far, all instances, all finite fields; challenges, trapdoor and randomizer drawn uniformly","a probability over all challenges against every prover strategy; tests try at most one wrong proof",["voproof/src/snarks/voproof_pov.rs: verify","voproof/src/snarks/voproof_pov_prover_efficient.rs: verify","voproof/src/kzg.rs: batch_check"])
p("C136","Soundness error of the R1CS verifiers","Against every algebraic prover the probability that verify accepts although the committed witness does not satisfy the R1CS with the public inputs x is at most (4D + 3H + 4K + 3S + |x| + 10)/|F|, for the prover-efficient system at most (4D + 3H + K + 3S + |x| + 13)/|F| (H rows, K columns, S entries).","all algebraic provers that choose polynomials of degree at most D and values as functions of the challenges drawn so far, all instances, all finite fields; challenges, trapdoor and randomizer drawn uniformly","a probability over all challenges against every prover strategy; tests try at most one wrong proof",["voproof/src/snarks/voproof_r1cs.rs: verify","voproof/src/snarks/voproof_r1cs_prover_efficient.rs: verify"])
p("C137","Soundness error of the HPR verifier","Against every algebraic prover the probability that verify accepts although the committed witness does not satisfy the HPR system is at most (4D + H + 10K + 3S + 13)/|F|.","all algebraic provers that choose polynomials of degree at most D and values as functions of the challenges drawn so far, all instances, all finite fields; challenges, trapdoor and randomizer drawn uniformly","a probability over all challenges against every prover strategy; tests try at most one wrong proof",["voproof/src/snarks/voproof_hpr.rs: verify"])
p("C138","Soundness error of the Fibonacci and range check verifiers","Against every algebraic prover the probability of acceptance is at most (4D + n + 11)/|F| if the committed vector is not the claimed recurrence, and at most (4D + N + 3B + 8)/|F| if one of its first N entries is not in [0, B).","all algebraic provers that choose polynomials of degree at most D and values as functions of the challenges drawn so far, all instances, all finite fields; challenges, trapdoor and randomizer drawn uniformly","a probability over all challenges against every prover strategy; tests try at most one wrong proof",["voproof/src/snarks/fibonacci.rs: verify","voproof/src/snarks/range_check.rs: verify"])
p("C139","Soundness error of the PLONK verifier","Against every prover that commits to the lookup accumulator before alpha is drawn and sends right values of the four selectors that are not opened, the probability that verify accepts although the committed wires do not satisfy the circuit with the public inputs is at most (17n + 10 max(d, n) + 34)/|F| (n the size of the domain, d the degree bound of the commitment scheme). (What happens without the two conditions is C107 and C108.)","all circuits built by the composer, all strategies, all finite fields, all commitment schemes with extraction; all fourteen challenges drawn uniformly","a probability over all challenges against every prover strategy; tests try at most one wrong proof",["plonk-core/src/proof_system/proof.rs: verify","plonk-core/src/proof_system/verifier.rs"])
p("C140","Soundness error for circuits and arkworks constraint systems","If the claimed public values of a circuit belong to no input, or the public inputs of an arkworks constraint system to no witness, then against every algebraic prover the probability of acceptance is at most an explicit number (linear in the setup degree and the number of gates, or rows, columns and terms) over |F|, for POV, prover-efficient POV (as far as it enforces circuits), R1CS, prover-efficient R1CS and for R1CS translated to POV.","all circuits built from the high-level calls and all arkworks constraint systems, all strategies, all finite fields; challenges, trapdoor and randomizer drawn uniformly","a probability over all challenges against every prover strategy; tests try at most one wrong proof",["voproof/src/cs/circuit/fan_in_two.rs","voproof/src/cs/r1cs.rs: From<ConstraintSystem>","voproof/src/snarks/voproof_pov.rs: verify","voproof/src/snarks/voproof_r1cs.rs: verify"])
p("C141","Accepted values are the values of the committed polynomials","Against every algebraic prover that commits to polynomials of degree at most D, the probability that verify accepts although one of the claimed values y, y1, y2 of the proof is not the value of the polynomial committed before it at the challenged point is at most (D+4)/|F| (POV, prover-efficient POV, prover-efficient R1CS, Fibonacci), (D+3)/|F| (R1CS, HPR), (D+5)/|F| (range check).","all algebraic provers, all instances, all finite fields, all seven proof systems; batching challenge, trapdoor and randomizer drawn uniformly","a probability over all challenges; tests try one draw; a wrong value that slips through needs an adversarial prover",["voproof/src/snarks/voproof_pov.rs: verify","voproof/src/snarks/voproof_pov_prover_efficient.rs: verify","voproof/src/snarks/voproof_r1cs.rs: verify","voproof/src/snarks/voproof_hpr.rs: verify","voproof/src/snarks/voproof_r1cs_prover_efficient.rs: verify","voproof/src/snarks/fibonacci.rs: verify","voproof/src/snarks/range_check.rs: verify","voproof/src/kzg.rs: batch_check"])
p("C142","Completeness error of PLONK","If the values in the composer satisfy the circuit then, with uniform challenges, prove and verify (and compile, gen_proof, verify_proof) succeed except with probability at most (3T^2 + 7n + 9)/|F|, T the number of rows of the lookup table and n the size of the domain.","all circuits built by the composer, all satisfying values, all finite fields, all complete commitment schemes; all fourteen challenges drawn uniformly","a probability over all challenges; tests try one draw; the failing draws are too rare to meet in a test",["plonk-core/src/proof_system/prover.rs: prove","plonk-core/src/proof_system/verifier.rs: verify","plonk-core/src/circuit.rs: gen_proof, verify_proof"])
p("C143","PLONK proofs from values that do not satisfy the circuit are rejected","Whoever runs the library's own prover on values that do not satisfy the circuit gets a proof that verify accepts with probability at most (17n + 10 max(d,n) + 34)/|F|; the same if the prover was preprocessed with other values of the same circuit, and for gen_proof and verify_proof. (An adversary who does not run this prover is C139, C107, C108.)","all circuits built by the composer, all unsatisfying values, all finite fields, all commitment schemes with extraction; all fourteen challenges drawn uniformly","a probability over all challenges; tests try one draw, on one wrong witness",["plonk-core/src/proof_system/prover.rs: prove, preprocess","plonk-core/src/proof_system/verifier.rs: verify","plonk-core/src/circuit.rs: gen_proof, verify_proof"])
p("C144","gadget_tester tells satisfied from unsatisfied gadgets","gadget_tester returns Ok for a gadget whose values satisfy its gates, except with probability at most (3T^2 + 7N + 9)/|F|, provided the setup degree 2n is at least the padded size N; it returns Ok for a gadget whose values do not with probability at most (17N + 10 max(d,N) + 34)/|F|. dummy_gadget never panics, adds k rows and is satisfied.","all gadgets made of composer calls (the second run may see other values), all sizes, all finite fields; challenges drawn uniformly","gadget_tester is itself the test harness: what its verdict means is a statement about all gadgets",["plonk-core/src/constraint_system/helper.rs: gadget_tester, dummy_gadget","plonk-core/src/proof_system/prover.rs: key_transcript, prove_with_preprocessed","plonk-core/src/proof_system/verifier.rs: key_transcript, verify"])
p("C145","Reusing a PLONK prover","A prover used for any sequence of clear_witness and fill-then-prove of the same circuit makes one proof per use, every one accepted by the one verifier (outside explicit challenges), and keeps its key and transcript; prove with the same values again gives the same proof; clear makes it the default prover, so its label is lost unless it was plonk.","all sequences of uses of any length, all values, all circuits, all hash functions","histories of unbounded length; tests make one or two proofs per prover",["plonk-core/src/proof_system/prover.rs: prove, clear_witness, clear, default, preprocess","plonk-core/src/proof_system/verifier.rs: verify, default"])
p("C146","The three implementations of the permutation accumulator agree","compute_permutation_poly interpolates exactly the values compute_fast_permutation_poly returns and panics exactly when it does (a denominator is zero); compute_slow_permutation_poly returns the same values exactly when also no numerator is zero and the products of numerators and denominators over all rows are equal, and panics otherwise. On the sigma polynomials of a circuit the slow one returns for all but 4n values of gamma if the wires respect the copy constraints, and panics for all but 4n values of beta and gamma if they do not.","all domains, wires, sigma polynomials and challenges; all circuits built by the composer","the crate's tests compare them on one small circuit and one challenge",["plonk-core/src/permutation/mod.rs: compute_permutation_poly, compute_fast_permutation_poly, compute_slow_permutation_poly"])
p("C147","An honest run of a VO SNARK almost never fails","If the prover's random values and all challenges are drawn independently and uniformly, index succeeds and the run in which prove does not return a proof, or verify does not accept it, has probability at most k/|F| with k independent of the size of the SRS: 7 for Fibonacci (with a coefficient vector that is not zero after its first entry), 3c+8 for POV and POV-PE with c gates, 3H+K+7 for R1CS with H rows and K columns, H+3K+8 for HPR, and 6H+K+6 for R1CS-PE when some matrix has a non-zero entry outside the first column.","all satisfied constraint systems that meet the documented size conditions, all instances and witnesses, all SRS sizes; probability over all challenges and random values","a test runs one satisfied instance with one seed; the panics of the prover on rare challenges never show",["voproof/src/snarks/fibonacci.rs: prove, verify","voproof/src/snarks/voproof_pov.rs: prove, verify","voproof/src/snarks/voproof_pov_prover_efficient.rs","voproof/src/snarks/voproof_r1cs.rs: prove, verify","voproof/src/snarks/voproof_r1cs_prover_efficient.rs","voproof/src/snarks/voproof_hpr.rs: prove, verify"])
p("C148","The benchmark circuit","For every degree from 2 on the gadget of the benchmark circuit ends and leaves a circuit of the declared padded size 2^degree, without public inputs, satisfied by its own values, and compiling, proving and verifying it fails with probability at most (7*2^degree+36)/|F| over the challenges. (Deviation: it has 2^(degree-1)+2 constraints, fewer than the documented 2^degree from degree 3 on; for degrees 0 and 1 the circuit is larger than its declared padded size.)","all degrees, all blinding values, all fields and curves with large enough domains, all complete commitment schemes; probability over the challenges","the loop ends and the sizes fit for every degree; the benchmark runs a few degrees",["plonk/benches/plonk.rs: BenchCircuit","plonk-core/src/constraint_system/composer.rs: add_dummy_constraints, circuit_bound","plonk-core/src/circuit.rs: compile, gen_proof, verify_proof"])
p("C149","PLONK over KZG is sound and complete","With KZG commitments (the scheme the crate exports as default) instead of an abstract commitment scheme: when the secret of the commitment key and all challenges are drawn uniformly, a prover that commits to polynomials within the key, each chosen after the challenges before it (and the lookup accumulator before alpha), and sends right values of the four selectors that are not opened, makes verify accept a false statement (first committed wires that do not satisfy the circuit with the public inputs) with probability at most (17n + 11D + 55)/|F|, n the domain size and D the degree of the key. For every secret, the honest prover's proof is accepted except with probability (3T^2 + 7n + 9)/|F|. The same holds for compile, gen_proof and verify_proof with parameters of degree D; in particular the circuit of simple_circuit.rs with public inputs of the wrong form is accepted with probability at most (11D + 8759)/|F|.","all circuits built by the composer's methods, all public inputs, all algebraic provers, all key degrees, all pairing groups; probability over secret and challenges","a test cannot run all provers; the abstraction of the commitment scheme would otherwise hide errors of the batched openings",["plonk-core/src/proof_system/proof.rs: Proof::verify","plonk-core/src/commitment.rs: KZG10, HomomorphicCommitment","plonk-core/src/proof_system/prover.rs: Prover::prove"])
p("C150","Forgers against PLONK over KZG","Deviation, with the commitment scheme of the crate: the values of four selectors in a proof are not checked and the commitment to the lookup accumulator enters no challenge. For every circuit and all public inputs there is a prover that commits to the constant 1 for the left wire and to zero otherwise and is accepted by verify (and verify_proof after compile, e.g. for simple_circuit.rs) except with probability (7D + 15)/|F|; and for all choices of the other polynomials there is an accumulator chosen after the evaluation point, with right selector values, such that verify accepts except with probability (4D + 16)/|F|. Both for every secret of the key: the provers do not know it. So the two conditions of C149 are needed.","all circuits built by the composer's methods, all public inputs at rows of the circuit, all key degrees and secrets, all pairing groups; probability over the challenges","tests run honest provers only",["plonk-core/src/proof_system/proof.rs: Proof::verify, compute_linearisation_commitment","plonk-core/src/proof_system/linearisation_poly.rs: CustomEvaluations","plonk-core/src/proof_system/prover.rs: prove (transcript)","plonk-core/src/circuit.rs: verify_proof"])
p("C151","PLONK proofs confirm guesses of the witness","Deviation from zero knowledge: the composer puts two random values in each wire column, but a proof contains the commitment to the left, right and fourth column and their values at two points. From a guess of the other rows the two random values follow by linear equations, and the commitment can be recomputed and compared. The test accepts every right guess for any commitment scheme and hash (when the equations are independent, all but 2n evaluation points), and on KZG the probability that a proof comes out for which the answer of the test is wrong is at most 3n/|F|; with satisfying values an observer gets a proof and the right answer except with probability (3T^2+10n+9)/|F|. The output column is published at one point only and its two random values hide it from these two values.","all circuits built with the composer, all values, columns, guesses, prover keys, challenges and secrets","Tests do not look at what a proof reveals; the claim is about every guess, every circuit and counts over all challenges and secrets.",["plonk-core/src/constraint_system/composer.rs:add_blinding_factors","plonk-core/src/proof_system/prover.rs:prove_with_preprocessed","plonk-core/src/proof_system/linearisation_poly.rs:compute"])
p("C152","Opening proofs can be shifted when the randomizer is known and are determined otherwise","Whoever knows the number that verify draws for the batch check, and two elements of the published parameters, can change the two opening proofs of any proof of the seven proof systems without changing the answer of verify: accepted proofs are malleable. The accepted pairs of opening proofs are exactly those that differ from one accepted pair by a solution of one linear equation. If two proofs differ in nothing but the opening proofs and each is accepted for two values of that number, they are equal, unless an evaluation point is the trapdoor. A PLONK proof on KZG commitments has at most one accepted pair of opening proofs.","all keys, instances, proofs, shifts, randomizers, secrets, hashes and groups with a non-degenerate pairing","A test tries one tampered proof; the claim is about all tampered opening proofs, all keys and all randomizers.",["voproof/src/kzg/mod.rs:batch_check","voproof/src/kzg/mod.rs:check","voproof/src/snarks/voproof_pov.rs:verify","voproof/src/snarks/voproof_r1cs.rs:verify","voproof/src/snarks/voproof_hpr.rs:verify","voproof/src/snarks/fibonacci.rs:verify","voproof/src/snarks/range_check.rs:verify","voproof/src/snarks/voproof_pov_prover_efficient.rs:verify","voproof/src/snarks/voproof_r1cs_prover_efficient.rs:verify","plonk-core/src/proof_system/proof.rs:verify"])
p("C153","Transcripts are determined by the bytes that are hashed","A challenge of a proof system is the hash of a list of items (numbers, commitments, vectors) written to one buffer without tags or separators. Two different transcripts of the same proof system, at whatever step of prover or verifier, are never written to the same bytes (lengths and integers are u64). Equivalently, every assignment of challenges to lists of items is realised by a function of the bytes, with which prove and verify of all seven proof systems do the same for all keys, instances, witnesses and proofs.","all item lists, hashes, keys, instances, witnesses, proofs and faithful element codecs","Tests hash a few transcripts; a collision of encodings would be found only by looking at all pairs of transcripts of all lengths.",["voproof/src/tools/mod.rs:to_bytes!","voproof/src/tools/mod.rs:push_to_vec!","voproof/src/tools/mod.rs:get_randomness_from_hash!","voproof/src/snarks/voproof_pov.rs:prove","voproof/src/snarks/voproof_pov.rs:verify","voproof/src/snarks/voproof_r1cs.rs:verify","voproof/src/snarks/voproof_hpr.rs:verify","voproof/src/snarks/fibonacci.rs:verify","voproof/src/snarks/range_check.rs:verify"])
p("C154","Challenges are nearly uniform when digests are","hash_to_field reads the digest as a little-endian number and reduces it modulo the field order p. Of all digests of n bytes, floor(256^n/p) give a particular challenge, and one more gives each of the smallest 256^n mod p challenges; a set of b challenges is hit by at most b(floor(256^n/p)+1) digests. For SHA-256 and the scalar field of BLS12-381 these are two or three digests: challenges are not uniform, but the probability of any set of challenges is less than 1.4 times what it would be for uniform ones.","all field orders, digest lengths, challenges and sets of challenges","The number of digests is 2^256; no test can count them.",["voproof/src/tools/mod.rs:hash_to_field"])
p("C155","PLONK challenges: range and panics","A challenge of the PLONK prover or verifier is made from size bytes of the transcript, where size is the bit length of the field order divided by 8, rounded down. If the bit length is not a multiple of 8 no challenge panics, each number below 256^size is the challenge for exactly one string of bytes and the other field elements are never challenges; a set of b challenges is hit by at most b of the 256^size strings. If it is a multiple of 8, some strings make prover and verifier panic; their number is 256^size - p. For BLS12-381 the challenges are the numbers below 2^248, less than a hundredth of the field.","all field orders and byte strings, all sets of challenges","The strings that panic are too rare for a test with a cryptographic field, and the missing challenges too many to list.",["plonk-core/src/transcript.rs:challenge_scalar"])
p("C156","PLONK transcripts are determined by the messages given to Merlin","Prover and verifier of PLONK append public inputs, commitments and scalars to a Merlin transcript as labelled byte strings and draw challenges from it. Two different transcripts that continue the same messages of the user, at whatever step of prover or verifier, for whatever circuits, keys, public inputs, commitments, evaluations (with names chosen by the prover) and proofs, never consist of the same messages; with preprocessing, different verifier keys give different messages, too. Equivalently every assignment of challenges to transcripts is realised by a function of the messages, with which prover, verifier, gen_proof and verify_proof do the same.","all assignments of challenges, starting messages, circuits, keys, public inputs and proofs; all self-delimiting encodings of field elements and commitments","A collision would have to be searched among all pairs of transcripts.",["plonk-core/src/transcript.rs:append","plonk-core/src/transcript.rs:challenge_scalar","plonk-core/src/transcript.rs:circuit_domain_sep","plonk-core/src/proof_system/prover.rs:prove_with_preprocessed","plonk-core/src/proof_system/proof.rs:verify","plonk-core/src/proof_system/widget/mod.rs:seed_transcript"])
p("C157","PLONK proofs, verifier keys and public inputs survive serialization","Deserializing a serialized PLONK proof, verifier key, map of public inputs or VerifierData returns the same value and leaves the bytes that follow, for all values whose sizes, positions, name lengths fit into a u64: in particular every proof that a prover returns, and every map made with the public functions. So a verifier that gets key, public inputs and proof as bytes decides as one that gets the values.","all proofs, keys and public inputs; all self-delimiting encodings of field elements, commitments and opening proofs","The repository tests one proof; the derived code must agree for every value, with any number of named evaluations.",["plonk-core/src/proof_system/proof.rs:Proof","plonk-core/src/proof_system/linearisation_poly.rs:ProofEvaluations","plonk-core/src/proof_system/widget/mod.rs:VerifierKey","plonk-core/src/proof_system/pi.rs:PublicInputs","plonk-core/src/circuit.rs:VerifierData"])
p("C158","PLONK's error probabilities with the challenges as drawn","A PLONK challenge is read from one byte less than the modulus has, so most of the field is never drawn. When these bytes are uniform, a prover whose first wires do not satisfy the circuit is accepted with probability at most the bound of C139 and C149 with 256^size in place of the order of the field, and the honest prover fails with probability at most the bound of C142 in the same way. Over BLS12-381, for the Circuit interface on KZG commitments: at most (17n+11D+55)/2^248, with no assumption on the field left.","every prime modulus whose bit length is no multiple of 8, all circuits, public inputs, algebraic provers, byte strings of all fourteen challenges and secrets of the commitment key","a statement about probabilities too small to observe; the tests never look at the distribution of challenges",["plonk-core/src/transcript.rs: challenge_scalar","plonk-core/src/proof_system/proof.rs: Proof::verify","plonk-core/src/circuit.rs: verify_proof"])
p("C159","Soundness errors of the SNARKs with the challenges as drawn","The SNARKs of voproof read a challenge as a whole digest reduced modulo the order of the field, which is close to uniform but not uniform. When the digests are uniform (the trapdoor and the final batching value uniform in the field), a statement that is false for the polynomial the prover committed to is accepted with probability at most (256^len/p + 1)*k of 256^len, k the number of field values of C135 to C138 and C140. Over BLS12-381 with a hash of 32 bytes, for a circuit of N gates no input of which gives the claimed public values: at most 3(4D+15N+9)/2^256.","every prime modulus, digest length, constraint system and algebraic prover strategy, the digests of all challenges, the trapdoor and the batching value","a statement about probabilities too small to observe, over all prover strategies",["voproof/src/tools/mod.rs: hash_to_field","voproof/src/snarks/voproof_pov.rs: verify","voproof/src/snarks/voproof_r1cs.rs: verify","voproof/src/snarks/voproof_hpr.rs: verify","voproof/src/snarks/fibonacci.rs: verify","voproof/src/snarks/range_check.rs: verify"])
p("C160","Public inputs that come as bytes","Entries written in any order and with repetitions are read as the map that has the last value of every position, zeros included, in increasing order of the positions; whatever bytes are read, the map has increasing positions, so two maps that are read are equal exactly if they have the same entries. as_evals of such a map gives the values at their places and zero elsewhere, and panics exactly when n is no power of two or the map has a position not below n, even with the value zero. So for every key there are bytes that are read as public inputs without an error and make the verification of every proof panic.","all byte strings, all self-delimiting encodings of field elements, all keys, proofs, fields, commitment schemes and hash functions","the tests make public inputs only with the public functions, which never repeat a position or store a zero; bytes from outside can be anything",["plonk-core/src/proof_system/pi.rs:PublicInputs","plonk-core/src/proof_system/pi.rs:as_evals","plonk-core/src/proof_system/proof.rs:verify","plonk-core/src/circuit.rs:verify_proof"])
p("C161","What the PLONK verifier returns and when it panics","With a commitment scheme whose check decides (KZG does), verify returns InvalidEvalDomainSize exactly for keys whose size has no domain in the field; for all others it panics exactly when a public input lies at a position beyond the domain, the proof lacks one of seven named evaluations, two of beta, gamma, delta, epsilon are equal, zeta is 0 or 1, or z is 1; in all other cases it returns Ok or ProofVerificationError. So for every proof there are bytes that are read as a proof without an error and make verify panic, whatever the hash function.","all keys, public inputs, proofs, hash functions, fields, and commitment schemes whose check returns","the tests verify honest proofs; a malformed proof from outside can be anything",["plonk-core/src/proof_system/proof.rs:verify","plonk-core/src/proof_system/linearisation_poly.rs:get","plonk-core/src/util.rs:lc","plonk-core/src/proof_system/pi.rs:as_evals"])
p("C162","What the verifiers of voproof return and when they panic","verify of each of the seven SNARKs panics when the challenge z is 0, 1 or omega, and further when gamma*z is 1 (POV) or z is gamma*omega (R1CS, HPR); otherwise it returns Ok or the verification error. So no key, instance or proof from outside makes it panic but through its effect on the hash.","all keys for at least one constant gate (POV), a row, more columns than inputs and padded density (R1CS: three times the rows), two Fibonacci rows, a non-empty vector; all instances and proofs, honest or not, all hash functions and groups (range check: a table or vector of two entries, or omega not zero)","the tests verify honest proofs only, and the degenerate challenges have probability about 2^-250",["voproof/src/snarks/voproof_pov.rs: verify","voproof/src/snarks/voproof_pov_prover_efficient.rs: verify","voproof/src/snarks/voproof_r1cs.rs: verify","voproof/src/snarks/voproof_r1cs_prover_efficient.rs: verify","voproof/src/snarks/voproof_hpr.rs: verify","voproof/src/snarks/fibonacci.rs: verify","voproof/src/snarks/range_check.rs: verify"])
old=[json.loads(l) for l in open('/verif/properties.jsonl')]
ids={x['id'] for x in P}
old=[x for x in old if x['id'] not in ids]
with open('/verif/properties.jsonl','w') as f:
    for x in old+P: f.write(json.dumps(x)+'\n')
print(len(old+P))
