import json
P=[]
def p(i,title,statement,quant,why,anchors):
    P.append(dict(id=i,title=title,statement=statement,quantifier=quant,why_tests_cant=why,anchors=anchors))
T="voproof/src/tools/mod.rs"; K="voproof/src/kzg/mod.rs"; KD="voproof/src/kzg/data_structures.rs"
S="voproof/src/snarks/"; FB=S+"fibonacci.rs"; SM=S+"mod.rs"; PV=S+"voproof_pov.rs"; R1=S+"voproof_r1cs.rs"; HP=S+"voproof_hpr.rs"; RC=S+"range_check.rs"
CS="voproof/src/cs/"; CI=CS+"circuit/fan_in_two.rs"; CM=CS+"circuit/mod.rs"
def a(f,*s): return [f"{f}: {x}" for x in s]
p("C01","Integer/field conversion round trip","Converting any u64 to a field element and back returns the same integer; try_to_int returns Some exactly for the field elements whose canonical representative fits in 64 bits, to_int aborts exactly on the others.","every u64 and every field element, for every prime modulus larger than 2^64","2^64 integers and a 255-bit field cannot be enumerated; the existing test tries 0..1000",a(T,"to_field","to_int","try_to_int"))
p("C02","power() is integer exponentiation","For every non-zero field element a and every signed exponent e, power(a,e) equals a^e (with negative exponents meaning powers of the inverse), and it never aborts; for a = 0 it returns 0 for every exponent, including 0, where a^0 = 1 is expected.","every field element and every i64 exponent","unbounded exponents; the exceptional point a = 0 is never hit by random tests",a(T,"power"))
p("C03","Sparse matrix-vector product","sparse_mvp returns exactly the product of the h x k matrix denoted by the triple list (repeated entries add up) with the given vector, has length h, and aborts exactly when a dimension is not positive, the vector length is not k, or an index is out of range.","every sparse matrix, every vector, every dimension","matrices and dimensions are unbounded",a(T,"sparse_mvp"))
p("C04","Left (transposed) sparse product and adjointness","The left product macro computes u^T M, and for all u, v the inner products <u, M v> and <u^T M, v> agree.","every sparse matrix and every pair of vectors of matching size","unbounded sizes and field values",a(T,"define_left_sparse_mvp_vector","sparse_mvp_vector"))
p("C05","Vector polynomial multiplication computes the reversed convolution","For vectors u, v and point omega, the FFT-based multiplication macro returns the coefficients of X^{|u|-1} f_u(omega/X) f_v(X), for every pair of vectors, whatever domain size is selected, and the same as the naive multiplication; in particular the coefficient at |u|-1 is sum_i omega^i u_i v_i.","all vectors, all omega, all FFT domains at least as large as |u|+|v|","unbounded lengths, all field values",a(T,"vector_poly_mul","vector_poly_mul_no_dict","vector_reverse_omega"))
p("C06","Evaluation cache never changes a product","With one left and one right evaluation cache per vector, any sequence of multiplications that share caches returns the same results as uncached multiplications, provided each cache is only used with one vector.","every sequence of multiplications sharing caches","history-dependent: depends on the order of cache fills for each domain size",a(T,"get_eval","vector_poly_mul","define_vector_domain_evaluations_dict"))
p("C07","Multiplication by a power vector","vector_power_mul(v, alpha, n) returns the n+|v|-1 coefficients of f_v(X) * (1 + alpha X + ... + alpha^{n-1} X^{n-1}), for every n >= 1, every v and every alpha (including 0 and 1).","every vector, every alpha, every n","unbounded; running-accumulator recurrence with subtraction of delayed terms",a(T,"vector_power_mul"))
p("C08","Product of two power vectors","power_power_mul(alpha, n, beta, m) returns the n+m-1 coefficients of the product of the two geometric polynomials, for all n, m >= 1 and all alpha, beta, including alpha = beta.","all field elements, all sizes","unbounded; stateful scan",a(T,"power_power_mul"))
p("C09","Accumulators are prefix sums / products","accumulate_vector_plus / accumulate_vector_mul return at position k the initial value combined with the first k terms.","every vector, every initial value","unbounded lengths",a(T,"accumulate_vector","accumulate_vector_plus","accumulate_vector_mul"))
p("C10","Sparse vectors: dense form and direct evaluation agree","The dense vector built from an index/value list and the direct sparse evaluation used by verifiers describe the same polynomial whenever indices are distinct and z is non-zero; with a repeated index they differ.","every index list, value list, size, evaluation point","unbounded lists; the disagreement only shows on repeated indices or z = 0",a(T,"define_sparse_vector","eval_sparse_vector","define_sparse_zero_one_vector","eval_sparse_zero_one_vector"))
p("C11","Copy-constraint permutation vector","The vector built from wire pairs is a permutation of 1, gamma, ..., gamma^{n-1}; when the wire pairs form a forest, its cycles are exactly the classes of positions connected by the pairs (so a vector is invariant under the permutation iff it satisfies all copy constraints); a repeated or cyclic pair can cancel and silently drop a constraint.","every list of wire pairs, every size n, every gamma of order at least n","unbounded lists of pairs; the failure needs repeated pairs",a(T,"define_permutation_vector_from_wires"))
p("C12","Polynomial evaluation helpers","evaluate_short, evaluate_sparse and eval_vector_as_poly return the value of the polynomial at every non-zero point; eval_vector_as_poly does so at 0 too, while evaluate_short / evaluate_sparse return 0 at the point 0 whatever the constant coefficient is.","every coefficient vector, every point","all points; the point 0 is exceptional",a(T,"evaluate_short","evaluate_sparse","eval_vector_as_poly"))
p("C13","power_iter enumerates a window of a shifted power vector","power_iter(start,end,alpha,length,shifted) yields exactly end-start elements, the k-th being alpha^{start+k-shifted} inside the window [shifted, shifted+length) and 0 outside, for non-zero alpha; it aborts iff end <= start.","every start, end, length, shift and alpha","unbounded ranges; stateful iterator",a(T,"power_iter","PowerVectorIterator"))
p("C14","Batch inverse vectors","The inverse-vector macros return at each position the inverse of the expression, and 0 where the expression is 0.","every vector of field elements including zeros","all values including zeros",a(T,"define_expression_vector_inverse","define_uwinverse_vector"))
p("C15","Vector macros: zero padding, concatenation, 1-based indexing","zero_pad keeps the vector and extends it with zeros to exactly n entries, aborting iff it is longer than n; vector_index returns the i-th (1-based) entry inside the vector and 0 at every other integer position.","every vector, every size and index (negative included)","unbounded",a(T,"zero_pad","zero_pad_and_concat","vector_index","vector_concat"))
p("C16","Vertical/horizontal concatenation of constraint matrices","The stacked matrices used by the R1CS and HPR argument act as the stacked linear maps: vertical concatenation applied to z is (Az, Bz, Cz); horizontal concatenation applied to (1,a,b,c) is d + Aa + Bb + Cc.","all matrices and vectors","unbounded sizes",a(T,"concat_matrix_vertically","concat_matrix_horizontally"))
p("C17","KZG setup produces the powers of the trapdoor","setup(D) fails exactly for D = 0, and otherwise returns D+1 powers, the i-th being beta^i g, together with h and beta h.","every degree bound and every random draw","unbounded degree, random trapdoor",a(K,"KZG10::setup"))
p("C18","KZG commitment is f(beta) g","commit succeeds exactly when the polynomial fits in the key and then returns f(beta) g; committing is additive and homogeneous; skipping leading zeros does not change the result.","every polynomial, every key","unbounded degree",a(K,"commit_with_coefficients","commit","skip_leading_zeros_and_convert_to_bigints"))
p("C19","KZG opening is complete","For every non-constant polynomial that fits in the key and every point, open returns a proof that check accepts with the true value; the witness is the quotient of f - f(z) by X - z. For constant polynomials open aborts.","every polynomial and point","unbounded degree; the constant-polynomial abort is a corner case",a(K,"compute_witness_polynomial","open","check"))
p("C20","KZG check accepts exactly the pairing equation","check accepts (commitment, point, value, proof) iff commitment - value g = (beta - point) proof; in particular for each commitment, point and proof at most one value is accepted.","all group elements, points, values","ranges over all adversarial proofs",a(K,"check"))
p("C21","KZG batch opening is complete","batch_open over any two non-empty families of polynomials followed by batch_check with the true values accepts, for every choice of the combination challenges and of the verifier's randomizer.","all families of polynomials, all points, all challenges","unbounded number of polynomials and degrees",a(K,"batch_open","batch_check"))
p("C22","KZG batch check rejects wrong openings except for few challenges","If some claimed value is wrong, then for all but at most (number of claims - 1) combination challenges, and all but one verifier randomizer, batch_check rejects polynomial commitments whose opening quotient is a committed polynomial; a fixed, known randomizer allows an accepting opening with wrong values.","all claims and challenges","probability over the whole field",a(K,"batch_check"))
p("C23","Shifted vector commitments","vector_to_commitment(powers, v, d) commits to X^{d-|v|} f_v(X) when d >= |v| and to f_v otherwise; it errs or aborts exactly when the shifted polynomial does not fit.","every vector, degree and key","unbounded",a(SM,"vector_to_commitment","scalar_to_commitment"))
p("C24","R1CS satisfaction check","satisfy(instance,witness) returns true iff (A z) o (B z) = C z for z = (1, instance, witness); it aborts when the length is wrong.","every R1CS, instance and witness","unbounded sizes",a(CS+"r1cs.rs","R1CS::satisfy"))
p("C25","HPR satisfaction check","satisfy returns true iff A a + B b + C c + d = 0 style linear constraints, the Hadamard product constraint and the public-input prefix all hold.","every HPR, instance, witness","unbounded sizes",a(CS+"hpr.rs","HPR::satisfy"))
p("C26","HPR size reports the three densities","get_size reports the number of rows, columns and the density of each of the matrices A, B, C; the code reports the density of A for all three.","every HPR","holds on symmetric test matrices by accident",a(CS+"hpr.rs","HPR::get_size"))
p("C27","POV satisfaction checks","satisfy_gate_logics, satisfy_wiring and satisfy_instance hold iff all addition, multiplication and constant gates, all copy constraints and all public values hold for the witness.","every POV system, instance and witness","unbounded sizes, length mismatch corner cases",a(CS+"pov.rs","satisfy_gate_logics","satisfy_wiring","satisfy_instance"))
p("C28","Random instance generators produce satisfying instances","The HPR generator returns a system, instance and witness that satisfy each other for every random stream and admissible size.","all random streams and sizes","random sampling can never cover all streams",a(CS+"hpr.rs","generate_random_hpr_instance"))
p("C29","Circuit builder keeps the wire structure well formed","After any sequence of builder calls, every gate input/output wire is attached to exactly one variable, each variable has at most one driver, drivers precede users, and gate indices are dense.","every sequence of builder operations","unbounded histories of builder calls with caches",a(CI,"add_gate","mul_gate","const_gate","add_global_input_variable"))
p("C30","Gate caching never changes computed values","Gates requested twice (in either operand order) return the same variable, and the value computed for every returned variable equals the arithmetic expression requested.","every sequence of builder operations and every input assignment","history-dependent",a(CI,"add_addition_gate","add_multiplication_gate","add_const_gate"))
p("C31","Circuit evaluation","evaluate assigns to every variable the value of the arithmetic expression it stands for, for every input assignment, and reports an error exactly when some variable has no driver or the number of inputs is wrong.","every circuit and input vector","unbounded circuits",a(CI,"evaluate"))
p("C32","Global wire indices are a bijection","The (left|right|output, gate) wires are mapped one-to-one onto 0 .. 3(nmul+nadd+nconst)-1 in the documented layout.","every circuit and every wire","unbounded sizes",a(CI,"get_offset","get_global_index"))
p("C33","Wiring pairs connect exactly the wires of each variable","The equivalence relation generated by the produced wire pairs is: two wires are related iff they belong to the same variable or to variables linked by assert_equal.","every circuit","unbounded",a(CI,"get_wiring"))
p("C34","Honest circuit evaluation yields a satisfying POV witness","For every completed circuit, every input and the POV system, instance and witness derived from it after evaluation, gate, wiring and instance checks all succeed iff the asserted equalities hold.","every circuit and every input","unbounded",a(CS+"pov.rs","From<FanInTwoCircuit>")+a(CI,"get_instance","get_witness"))
p("C35","A satisfying POV witness determines a valid circuit execution","Any witness satisfying the gates and wiring of the POV system derived from a circuit is the honest execution for the inputs it contains.","every circuit and every (adversarial) witness","all adversarial witnesses",a(CS+"pov.rs","From<FanInTwoCircuit>"))
p("C36","R1CS to circuit translation preserves satisfiability","For every R1CS, an assignment satisfies it iff the circuit obtained by the translation, evaluated on it, meets all its equality assertions.","every R1CS and assignment","unbounded",a(CM,"From<R1CS>"))
p("C37","Fibonacci SNARK is complete","For every size, every coefficient vector and every witness satisfying the recurrence, proving with the honest keys succeeds and the produced proof verifies, for every challenge outside the explicit degenerate set.","all sizes, instances, witnesses, blinding values, hash functions","unbounded sizes, all hash outcomes",a(FB,"index","prove","verify"))
p("C38","Fibonacci SNARK verification equation","verify accepts iff the batched pairing equation with the documented coefficients holds, and the Hadamard identities it encodes imply the recurrence w1=a+b t1, w2=b+w1 t2, wi=w(i-2)+w(i-1)ti, wn=c.","all proofs and instances, all challenges except few","adversarial proofs, probability over the field",a(FB,"verify"))
p("C39","Fibonacci transcript does not bind the instance","For every accepted proof there is a different instance (for any shift of a) accepted with the same proof, because challenges do not depend on the instance.","every accepted proof","requires exhibiting an attack for every proof",a(FB,"verify"))
p("C40","Known batch randomizer allows universal forgery","Because the verifier draws its batch randomizer from a fixed test generator, an accepting proof can be constructed for every instance, true or false.","every instance and verification key","attack algorithm for every instance",a(FB,"verify")+a(K,"batch_check"))
p("C41","POV SNARK is complete","Honest proofs for satisfying POV witnesses are accepted, for every size, every challenge outside the degenerate set, every duplicate-free instance.","all sizes, instances, witnesses, challenges","unbounded",a(PV,"index","prove","verify"))
p("C42","POV permutation argument is sound","If a vector is not invariant under the wire permutation, then the grand-product identity used by the prover holds for only few challenges.","all vectors, permutations, challenges","probability over the field",a(PV,"prove","verify"))
p("C43","R1CS SNARK is complete","Honest proofs for satisfying R1CS witnesses are accepted, for every size and challenge outside the degenerate set.","all sizes, instances, witnesses, challenges","unbounded",a(R1,"index","prove","verify"))
p("C44","HPR SNARK is complete","Honest proofs for satisfying HPR witnesses are accepted.","all sizes, instances, witnesses, challenges","unbounded",a(HP,"index","prove","verify"))
p("C45","Range-check SNARK is complete","Honest proofs for vectors with all entries in the committed range are accepted.","all sizes, instances, witnesses, challenges","unbounded",a(RC,"index","prove","verify"))
p("C46","Key and commitment serialization round trips","Deserializing the serialized universal parameters or verifier keys returns the same parameters including recomputed prepared elements.","all keys of every size","unbounded",a(KD,"UniversalParams","VerifierKey"))
p("C47","Prepared commitments hold the doubling table","prepare returns the table 2^i C for every bit of the scalar field.","all commitments","all group elements",a(KD,"PreparedCommitment"))
p("C48","Hadamard-sum reduction is sound","If two vectors have a non-zero entry in their combined Hadamard sum, then for all but n-1 values of omega the middle coefficient of the reversed product is non-zero, and for all but few evaluation points z no pair of degree-bounded polynomials h1, h2 satisfies the verification identity.","all vectors, all challenges","probability over the field (Schwartz-Zippel)",a(FB,"prove","verify"))
open("/verif/properties.jsonl","w").write("".join(json.dumps(x)+"\n" for x in P))
print(len(P))
