import json
P=[]
def p(i,title,statement,quant,why,anchors):
    P.append(dict(id=i,title=title,statement=statement,quantifier=quant,why_tests_cant=why,anchors=anchors))
C="plonk-core/src/constraint_system/"
ALLC="every composer reachable by any sequence of public calls, every arguments, and every assignment satisfying the resulting circuit"
ALLA="The claim quantifies over all satisfying assignments (also those a dishonest prover chooses) and all call histories; a test sees the honest one of a few circuits."
p("C85","PLONK composer stays consistent","Every composer reachable through the public methods keeps one entry per row in all selector and wire vectors, only variables it created on its wires, the position lists of the variables in agreement with the wire table, and public inputs only in declared rows; the zero variable is 0 in every satisfying assignment. A new composer never panics, has four rows and satisfies its own circuit for every randomness.","every sequence of public composer calls",ALLA,[C+"composer.rs: StandardComposer, with_expected_size", "plonk-core/src/permutation/mod.rs: add_variables_to_map"])
p("C86","Later composer calls never weaken earlier ones","Calls only append: rows, wires, values, table rows and public inputs already present keep their meaning, so an assignment satisfying the circuit after more calls satisfies the circuit before them, and variables keep their values.","every reachable composer, every further sequence of calls",ALLA,[C+"composer.rs", C+"arithmetic.rs", C+"range.rs", C+"logic.rs", C+"ecc"])
p("C87","Basic gates enforce what they say","add_input creates a fresh variable with the value; add_witness_to_circuit_description and constrain_to_constant fix the value in every satisfying assignment; assert_equal enforces equality; poly_gate enforces its equation including the public input; each panics exactly for unknown variables, and the composer's own values satisfy the gate exactly when they meet the equation.",ALLC,ALLA,[C+"composer.rs: add_input, add_witness_to_circuit_description, poly_gate, constrain_to_constant, assert_equal"])
p("C88","arithmetic_gate","Every satisfying assignment satisfies the gate equation; with a given output the gate only checks; it panics exactly when no wires are given or one is unknown. With a fresh output the value assigned is -q_o times the sum of the other terms, so the own values satisfy the gate exactly when (1 - q_o^2) times that sum is 0 (deviation: only q_o = 1 or -1 work).",ALLC,ALLA,[C+"arithmetic.rs: arithmetic_gate, ArithmeticGate"])
p("C89","Boolean and zero-test gates","boolean_gate enforces 0 or 1; is_zero_with_output and is_eq_with_output return a variable that is 1 if the value is zero (the values are equal) and 0 otherwise in every satisfying assignment; the own values satisfy them.",ALLC,ALLA,[C+"boolean.rs", C+"composer.rs: is_zero_with_output, is_eq_with_output"])
p("C90","Conditional selection","conditional_select(bit, a, b) is a for bit 1 and b for bit 0; conditional_select_zero is the value or 0, conditional_select_one the value or 1, in every satisfying assignment and in the own values.",ALLC,ALLA,[C+"composer.rs: conditional_select, conditional_select_zero, conditional_select_one"])
p("C91","range_gate","range_gate(x, k) panics exactly when k is odd, zero or larger than the representation, or x is unknown; every satisfying assignment gives x the image of a number below 2^k, and the own values satisfy the gate exactly when x's representative is below 2^k (given 2^k at most half the modulus).",ALLC,ALLA,[C+"range.rs: range_gate", "plonk-core/src/proof_system/widget/range.rs"])
p("C92","xor_gate and and_gate (deviation: inputs not bound)","For fields with a 256-bit representation the gates compute the bitwise operation on the low bits of the two values and are satisfied by them. In every satisfying assignment the output is the operation applied to some two numbers of that many bits, but these need not be the inputs: any assignment of the circuit before the call extends over an xor_gate whose output is any number of that many bits.",ALLC,ALLA,[C+"logic.rs: logic_gate, xor_gate, and_gate", "plonk-core/src/proof_system/widget/logic.rs"])
p("C93","lookup_gate","Every satisfying assignment has the four values (0 for a missing fourth) among the rows of the table; the own values satisfy it exactly when they are. With a non-zero public input the gate can never be satisfied (deviation).",ALLC,ALLA,[C+"lookup.rs: lookup_gate"])
p("C94","Affine transform gates of the Poseidon gadget","full_affine_transform_gate returns -(q0 x0^5 + q1 x1^5 + q2 x2^5 + q3)/q4, partial_affine_transform_gate the same with only x0 raised to the fifth power, in every satisfying assignment and in the own values; both panic exactly when q4 = 0 or a variable is unknown.",ALLC,ALLA,[C+"hash.rs: full_affine_transform_gate, partial_affine_transform_gate"])
p("C95","Point gadgets","identity is (0, 1); add_affine_to_circuit_description fixes the point; add_public_affine and assert_equal_public_point tie it to two public inputs; assert_equal_point enforces equality; conditional_point_select and conditional_point_neg choose the point / its negation by the bit: in every satisfying assignment, and the own values satisfy them exactly when they should.",ALLC,ALLA,[C+"ecc/mod.rs"])
p("C96","point_addition_gate","It runs exactly when both values are points of the prime-order subgroup; every satisfying assignment satisfies the affine twisted Edwards addition law (and equals the sum wherever the denominators do not vanish, in particular for all points of a curve with square a and non-square d); the own values satisfy it.",ALLC+", every curve",ALLA,[C+"ecc/curve_addition/variable_base_gate.rs: point_addition_gate"])
p("C97","variable_base_scalar_mul","In every satisfying assignment the scalar variable is the image of a number below 2^(bits of the modulus) and the result is that multiple of the point (the number is only determined modulo the field characteristic); the own values run, satisfy the gadget and give the multiple by the scalar's representative.",ALLC+", every group of curve points",ALLA,[C+"ecc/scalar_mul/variable_base.rs"])
p("C98","fixed_base_scalar_mul (deviation: panics for large scalars)","In every satisfying assignment the scalar variable is the image of an integer of absolute value below 2^(bits of the modulus) and the result is that multiple of the base; the own values satisfy it and give the multiple by the representative. It panics exactly when the variable is unknown or three times the representative is at least 2^(bits+1): about a third of a 255-bit field close to its top is refused.",ALLC+", every group of curve points",ALLA,[C+"ecc/scalar_mul/fixed_base.rs: fixed_base_scalar_mul", C+"ecc/curve_addition/fixed_base_gate.rs"])
p("C99","Dummy and blinding rows constrain nothing","add_blinding_factors adds three rows and eight random variables, for all random values without breaking satisfaction; add_dummy_lookup_table followed by add_dummy_constraints never panics and keeps the own values satisfying the circuit.","every reachable composer, all random values","all random values and histories",[C+"composer.rs: add_blinding_factors, add_dummy_constraints, add_dummy_lookup_table"])
old=[json.loads(l) for l in open('/verif/properties.jsonl')]
ids={x['id'] for x in P}
old=[x for x in old if x['id'] not in ids]
with open('/verif/properties.jsonl','w') as f:
    for x in old+P: f.write(json.dumps(x)+'\n')
print(len(old+P))
