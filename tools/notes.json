{
 "C02": {
  "note": "C02_power_zero_deviation: power(0,0)=0 in the code, where 0^0=1 is expected."
 },
 "C10": {
  "note": "C10_duplicate_differs: with a repeated index the dense vector and the sparse evaluation differ."
 },
 "C11": {
  "note": "True for forests; C11_duplicate_cancels and C11_triangle_drops exhibit the deviation for repeated or cyclic pairs."
 },
 "C12": {
  "note": "Deviation at the point 0 proved in C12_short_zero and C12_sparse_zero."
 },
 "C49": {
  "note": "Negative i64 arguments give a wrong result (C49_add_neg, C49_add_neg_wrong)."
 },
 "C26": {
  "note": "The code reports the density of A for all three matrices (C26_densities_are_those_of_A, C26_wrong_density)."
 },
 "C27": {
  "note": "C27_empty_witness_passes_gates: the gate check ignores the witness length."
 },
 "C28": {
  "note": "For input_size > nrows the generated instance is not accepted (C28_too_many_inputs)."
 },
 "C29": {
  "note": "C29_failed_gate_remains: a low-level gate call that fails leaves a dangling gate."
 },
 "C52": {
  "note": "Deviations: C52_failed_but_complete (hand-made variables), C52_twice (outputs duplicated)."
 },
 "C41": {
  "note": "C41_no_constants: systems without constant gates cannot be indexed. Omega = 0 with public position 0 is excluded (power(0,0)=0)."
 },
 "C54": {
  "note": "Prover modelled as committing to polynomials of degree at most D; challenges are fixed by the hash of the transcript."
 },
 "C57": {
  "note": "Deviation; not expected of a sound verifier. Excluded in C54 by the hypothesis that public positions are in range."
 },
 "C43": {
  "note": "C43_too_few_entries and C43_tall_system: satisfiable systems for which the prover aborts or fails."
 },
 "C58": {
  "note": "Prover modelled as committing to polynomials of degree at most D; challenges are fixed by the hash of the transcript."
 },
 "C61": {
  "note": "Deviation; the statement of C58 uses the cut or padded instance accordingly."
 },
 "C44": {
  "note": "C44_wrong_density and C44_tall_system: satisfiable systems for which the prover fails, because get_size reports the density of A for B and C, or because there are more rows than entries."
 },
 "C62": {
  "note": "Prover modelled as committing to polynomials of degree at most D; challenges are fixed by the hash of the transcript."
 },
 "C65": {
  "note": "Deviation; excluded in C62 by the hypothesis on the length of the instance."
 },
 "C45": {
  "note": "Completeness is conditional on the fifth blinding value being zero; C45_prover_aborts proves that the shipped prover stops otherwise, and C45_accepting_exists that accepted proofs exist all the same."
 },
 "C66": {
  "note": "Provers whose group elements are commitments to known polynomials (algebraic provers)."
 },
 "C69": {
  "note": "Deviation; excluded in C66 by lookup_size <= range."
 },
 "C84": {
  "note": "Deviation: the proofs are not zero knowledge; the theorems give the public test."
 },
 "C100": {
  "note": "gate terms of quotient_poly.rs; lookup term is in the lookup claims"
 },
 "C101": {
  "note": "the domain is assumed to keep the four cosets 1, 7, 13, 17 apart (DomOk), as the code takes for granted"
 },
 "C105": {
  "note": "PcsComplete is met by the ideal scheme (Lemmas/PlonkIdeal) and PFieldOk by a field of 7681 elements; an honest run is exhibited."
 }
}