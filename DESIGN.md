# Formal model of voproof-rust in Lean 4 — design

## Trusted base
* Lean 4.33.0 kernel, Mathlib definitions used in statements (`Polynomial`, `Module`, `Finset.sum`, `Equiv.Perm`, `LaurentPolynomial`).
* Axioms: at most `propext`, `Classical.choice`, `Quot.sound` (checked with `#print axioms`). No own axioms.
* The faithfulness of `lean/Verif/Model/*`: a hand translation, every definition cites the Rust lines.

## Modelling conventions
* Scalars: an arbitrary field `F` with decidable equality (properties about integer conversions use `ZMod p`).
  Groups: `G1`, `G2`, `GT` are `F`-modules (additive notation for GT), the pairing is an `F`-bilinear map
  `G1 → G2 → GT`. Soundness statements add the hypothesis that pairing with `h` is injective; the example
  instances take all groups to be `F` itself.
* `Vec<F>` is `List F`; `&mut` becomes return of the new value; `Result<T, Error>` and panics are both
  `Except Err T` with `Err.panic` for panics (index out of range, failed `assert!`, `unwrap` on `None`,
  `usize` underflow in debug mode).
* `u64`, `usize`, `i64` are `Nat`/`Int` (no overflow) unless the property is about overflow.
* SHA-256-to-field is an arbitrary function `H : List Item → F` of the list of hashed items (the items are
  field elements, field vectors, integers and commitments; every statement is for every `H`; that the bytes which
  are hashed determine the list is C153, the distribution of the challenges is C154 and C155).
* Random number generators are streams given as parameters; `test_rng()` is one arbitrary fixed stream.
* FFT multiplication is modelled by evaluation at the powers of a primitive root of unity and inverse DFT.
* Timers and println are not modelled.

* A `SNARK` is parameterised by an environment `Env` (`Model/Snark.lean`): the hash function, the pairing, the FFT
  constants (two-adicity and the table of roots of unity), the generator `γ`, the stream of blinding values
  and the verifier's 128-bit batching randomizer. Theorems quantify over all of these; completeness and soundness
  theorems add the hypotheses on them that they need (for example `FftOk`: the roots are primitive, as in
  arkworks; `γ` has large enough order; the pairing is non-degenerate).
* Release/debug: integer overflow checks are taken as in debug mode where a subtraction can underflow.

## Layout
* `Verif/Model` — the model, function by function, executable (`decide +kernel` runs it in the examples).
* `Verif/Spec` — small independent specifications (relations, polynomials, matrices, Laurent polynomials) that the
  statements refer to. They do not import the helpers of the model beyond its data types.
* `Verif/Lemmas` — helper lemmas, no claims.
* `Verif/Props` — the property theorems (`Cxx_…`), each followed by concrete examples that meet the hypotheses.
* `/verif/seeded/LOG.jsonl` — the wrong programs tried on a scratch copy, with the theorems that failed.
* `/verif/tools` — scripts that generate `MANIFEST.json` and check citations.

## What is modelled
| source file | model | remarks |
|---|---|---|
| `voproof/src/tools/mod.rs` | `Model/Tools`, `Model/CacheRun`, `Model/CommitArith`, `Model/Transcript` | all functions and vector macros used by the SNARKs; string formatting, sampling of the generator and the `fmt_ff` family are not modelled |
| `voproof/src/kzg/mod.rs` | `Model/Kzg` | `setup`, `commit`, `open`, `check`, `batch_open`, `batch_check`, degree checks; multi-scalar multiplication is the sum it denotes |
| `voproof/src/kzg/data_structures.rs` | `Model/Kzg`, `Model/Serialize` | (de)serialization as sequences of elements, `PreparedCommitment`; byte encodings of curve points are not modelled |
| `voproof/src/cs/{r1cs,hpr,pov,fibonacci,range}.rs` | `Model/Cs`, `Model/Fibonacci`, `Model/RangeCheck` | |
| `voproof/src/cs/circuit/{mod,fan_in_two}.rs` | `Model/Circuit` | the builder with its gate caches, evaluation, translation to POV and from R1CS |
| `voproof/src/snarks/mod.rs` | `Model/Snark`, `Model/Kzg` | `vector_to_commitment`, `scalar_to_commitment`, the trait as functions |
| `voproof/src/snarks/fibonacci.rs` | `Model/Fibonacci` | index, prove (with all debug checks), verify |
| `voproof/src/snarks/range_check.rs` | `Model/RangeCheck` | index, prove (with all debug checks), verify |
| `voproof/src/snarks/voproof_pov.rs` | `Model/Pov` | index, prove, verify |
| `voproof/src/snarks/voproof_r1cs.rs` | `Model/R1csSnark` | index, prove, verify |
| `voproof/src/snarks/voproof_hpr.rs` | `Model/HprSnark` | index, prove, verify |
| `voproof/src/snarks/voproof_pov_prover_efficient.rs` | `Model/PovPe` | index, prove, verify |
| `voproof/src/snarks/voproof_r1cs_prover_efficient.rs` | `Model/R1csPe` | index, prove, verify |
| `plonk-core/src/constraint_system/**`, `permutation/mod.rs` (variable map), `lookup/lookup_table.rs` (`insert_row`) | `Model/PlonkCs` | the composer and all its gates; `HashMap` from variables to positions is a list indexed by the variable; the capacity hint and the `trace` feature's printing are not modelled; the embedded curve is given by `a`, `d` and the subgroup test |
| `plonk-core/src/proof_system/widget/*`, `proof_system/permutation.rs`, `util.rs` (`lc`), `proof_system/quotient_poly.rs` (gate term) | `Model/PlonkWidgets` | the terms the quotient polynomial adds at a point, one function per gate |
| `plonk-core/src/permutation/mod.rs` | `Model/PlonkPerm` | sigma permutation and polynomials, `compute_permutation_poly`, `compute_lookup_permutation_poly`; the `HashMap` is iterated in an arbitrary order; `multizip` and FFT as what they compute |
| `plonk-core/src/permutation/mod.rs` (`compute_slow_permutation_poly`, `compute_fast_permutation_poly`) | `Model/PlonkPermRef` | iterators are lists |
| `plonk-core/src/lookup/*`, `proof_system/prover.rs:214-292` | `Model/PlonkLookup` | tables, padding, compression, `combine_split`; `u64` arithmetic with and without overflow checks |
| `plonk-core/src/proof_system/{preprocess, prover, quotient_poly, linearisation_poly, proof, verifier}.rs`, `transcript.rs`, `proof_system/pi.rs` (`as_evals`, `into_dense_poly`) | `Model/PlonkProof` | preprocessing, the prover's rounds, linearisation, the verifier; commitment scheme as a parameter |
| `plonk-core/src/proof_system/pi.rs`, `circuit.rs` | `Model/PlonkCircuit` | public input maps; `compile`, `gen_proof`, `verify_proof` |
| `plonk-hashing/src/poseidon/matrix.rs`, `mds.rs`, `preprocessing.rs` | `Model/PoseidonMatrix`, `Model/PoseidonMds` | all functions but serialization |
| `plonk-hashing/src/poseidon/poseidon_ref.rs`, `zprize_constraints.rs` | `Model/PoseidonRef` | hasher and both instances (native values, composer); `ark_ff` arithmetic is field arithmetic |
| `plonk-hashing/src/poseidon/round_numbers.rs` | `Model/PoseidonRounds` | `f32` operations are real operations followed by an abstract monotone rounding; `log2` is a parameter |
| `plonk-hashing/src/poseidon/round_constant.rs` | `Model/PoseidonGrain` | `from_random_bytes` is a parameter; the unbounded loops have a step bound as parameter, theorems quantify over it; overflow is a panic |
| `plonk-core/src/constraint_system/composer.rs` `check_circuit_satisfied` | `Model/PlonkCheck` | the debug feature's printing of the row is left out; the field's bit operations are those of `FieldRep` |
| `plonk-core/src/constraint_system/helper.rs`, rest of `proof_system/{prover, verifier}.rs` (`key_transcript`, `clear`, `clear_witness`, `default`) | `Model/PlonkReuse` | the parameters of degree `2n` and the trimmed keys are `PCS` parameters; the seed of `new` and the random values of new composers are arguments; the gadget closure is a function on the composer, one for each of its two runs |
| `plonk/benches/plonk.rs` (`BenchCircuit`) | `Model/PlonkBench` | the `while` loop has fuel; a theorem shows it suffices |
| `plonk-core/src/commitment.rs`, `plonk-core/src/util.rs` | `Model/PlonkUtil`, `Model/PlonkWidgets` | `multi_scalar_mul` for KZG (the IPA variant is the same sum); getters of `EvaluationDomainExt` and labels are not modelled |
| `voproof/src/main.rs`, `voproof/benches/r1cs_bench.rs` | `Model/Examples` | the four example runs and the test circuit; printing is not modelled; `lc!` arithmetic and `to_matrices` of ark-relations are taken as the resulting rows |
| `plonk/examples/*.rs`, `plonk-core/src/circuit.rs` (tests, documented example) | `Model/PlonkExamples` | the circuits, with any bit sizes and any values; the generator of the curve and the scalar field are parameters |
| `voproof/benches/pov_bench.rs`, `voproof/tests/pov_test.rs` | `Model/PovExamples` | the example circuit with any inputs; timing and printing left out |
| `plonk-hashing/src/poseidon/constants.rs` | `Model/PoseidonConstants` | all of `generate`; overflow is a panic |

`plonk-core` is vendored and not a member of the workspace of the pinned commit; it is modelled as text.

Not modelled: `error.rs` (only the constructors that the code returns), the timing code of the benchmarks, `template.rs`
(a text template with placeholders), `voproof-scripts` (Python generator), the parts of the vendored `plonk*` crates not
in the table above, byte-level serialization of curve points and field elements, SHA-256, the elliptic curves and their
pairing (replaced by modules and a bilinear map), arkworks' FFT/MSM internals (replaced by what they
compute), timers and printing.

## Per property
| id | model | proof |
|----|-------|-------|
| C01 | `to_field`, `to_int`, `try_to_int` over `ZMod p` | arithmetic of `ZMod.val` |
| C02 | `power` | cases, `zpow` |
| C03,C04 | `sparse_mvp` as fold of updates | induction over the triple list against a matrix sum |
| C05,C06 | `vector_reverse_omega`, DFT, caches as state | degree < domain size, orthogonality of roots of unity; cache invariant by induction over calls |
| C07,C08 | scans | induction on the prefix; generating polynomial |
| C09,C13,C15,C53 | folds/scans, iterator state machine | induction |
| C10,C12 | folds | list sums |
| C11 | swaps on a list | `Equiv.Perm` products of swaps; forest ⇒ one cycle per class; negation by witness |
| C14 | map inverse | direct |
| C16 | triple-list concatenation | linearity of the C03 specification |
| C17–C23, C50 | KZG over modules | linear algebra, synthetic division, root counting |
| C24–C28, C51 | constraint systems | reflection of boolean checks |
| C29–C36, C52 | circuit builder as a state machine | invariants over builder calls; value semantics; wiring classes |
| C37–C40 | Fibonacci SNARK | Laurent polynomials for the Hadamard-sum reduction; evaluation homomorphism; root counting; explicit forger |
| C41, C42, C54–C57 | POV SNARK | completeness as an identity of Laurent polynomials; soundness round by round: each challenge outside an explicit finite set (with a bound on its size) reduces acceptance to satisfaction |
| C43, C58–C61 | R1CS SNARK | as POV, with the lincheck by partial fractions |
| C44, C62–C65 | HPR SNARK | as R1CS |
| C45, C66–C69 | range-check SNARK | logarithmic-derivative lookup; partial fractions |
| C46,C47 | serialization at the level of element sequences | induction |
| C48 | Hadamard-sum reduction | root counting |
| C49 | integer addition to a field element | arithmetic |
| C70–C75 | prover-efficient POV SNARK | as POV; C71 states what acceptance guarantees, C72 that gates are not enforced |
| C76–C80 | prover-efficient R1CS SNARK | as R1CS |
| C81 | the seven provers and verifiers | inversion of a successful run of the prover, no satisfaction hypothesis |
| C82 | `Model/CommitArith` | homomorphism of `f ↦ f(τ)g` |
| C83 | `commit_vector!` of a blinded vector | explicit inverse of the map from blinding value to commitment |
| C84 | the seven provers | `confirmsGuess` (`Spec/Hiding`) recomputes the blinding from the opened value; two vectors that pass differ by a polynomial vanishing at the trapdoor |
| C85, C86 | `Model/PlonkCs` as a state monad; `Reach`, `Calls` over 33 public methods (`Spec/PlonkReach`) | invariant `WF` and relation `Ext` preserved by every method |
| C87–C90, C93, C94, C99 | arithmetic, boolean, selection, lookup, hash, dummy gates | one-row lemma (`Added`), `Sat` (`Spec/Plonk`) says what a satisfying assignment is |
| C91, C92 | range and logic gates | invariants of the row-filling loops; base-four accumulators; deviation by an explicit assignment |
| C95–C98 | point gadgets | the group law enters only through `CurveGroup` (a finite or infinite group of points of the curve); double-and-add and signed-digit loops by induction; the non-adjacent form by its value and length |
| C100 | `Model/PlonkWidgets` | a gate term is a polynomial in its separation challenge whose coefficients are the equations of the gate (`Spec/Plonk`); `Mostly k` (`Spec/PlonkProof`) counts its roots |
| C101 | `Model/PlonkPerm` | the cycle pairs of a duplicate-free position list form a permutation; product over positions as a polynomial in `γ`, then in `β` (unique factorisation); telescoping product of the accumulator |
| C102, C103 | `Model/PlonkLookup` | folds as list equations (`opRows`, `grouped` in `Spec/PlonkLookup`); index map as association list |
| C104 | the same and `computeLookupPermutationPoly` | soundness: two families of pairs with the same product for many challenges have the same multiplicities, and a cycle that contains a value outside the table never leaves it; completeness: product over a cyclic list invariant under rotation |
| C105 | `Model/PlonkProof`: preprocessing, the five rounds of the prover, linearisation, verifier, the stateful `Prover`/`Verifier`; the commitment scheme is a parameter (`PCS`), assumed complete and homomorphic (`PcsComplete`, `Spec/PlonkSnark`); the transcript is the list of what was absorbed, a challenge any function of it | the quotient numerator as a polynomial, zero on the domain by C100, C101, C104, hence divisible; interpolation on the coset of size 8n; the value of the linearisation as an identity of field elements |
| C106 | the verifier of the same model, against any proof whose group elements commit to polynomials of degree below the bound (algebraic prover); commitments binding (`PcsSound`) | inversion of the verifier's checks gives one identity in the evaluation point; as polynomial identity it makes the quotient numerator vanish on the domain; row by row, the separation challenges split it into C100, C101, C104; every exceptional set is counted with `Mostly`. `HonestSelectors` states the hypothesis on the four values that the verifier does not open (C107, C108 show that it cannot be dropped) |
| C107, C108 | the verifier of the same model; deviations | the verifier's equation is linear in the accumulator's value (resp. in the selector value): its factor is a polynomial in the evaluation point, non-zero because it is non-zero at one point of the domain; all other polynomials are opened honestly by `PcsComplete` |
| C109 | `Model/PlonkCircuit` (maps as sorted association lists, `piInsert` in `Model/PlonkCs`) | a sorted list without zeros is determined by its values; induction over insertions; interpolation by the inverse FFT |
| C110 | `Model/PlonkCircuit`: `Circ` (a gadget and a size), `circuitCompile`, `circuitProve`, `circuitVerify`; trimming as a bound on degrees | C105 and C106 hold for any common transcript without challenges; a trimmed scheme inherits completeness up to its degree, and soundness; positions and inputs by C109. Note: `gen_proof` and `verify_proof` do not seed the transcript with the verifier key, so challenges do not depend on the key |
| C111 | `Model/PoseidonMatrix`: matrices as lists of rows | `rows`/`mat` translate to Mathlib matrices; invariant of the elimination: the pair (reduced, shadow) is obtained by left multiplication with one regular matrix |
| C112 | the same | list equations for each function; rectangular shapes stated with the shape the code really uses |
| C113 | `Model/PoseidonMds` | Cauchy determinant: a kernel vector of a submatrix is a rational function with too many zeros; block matrices |
| C114 | `Model/PoseidonMds`: `compressRoundConstants`, `factorToSparse`; `Spec/Poseidon`: `permutation`, `optimised` | commuting a block-diagonal matrix with the S-box of the first element; induction over partial rounds |
| C115 | `Model/PoseidonRef`: `hasherNew`, `hasherInput`, `outputHash`, `hasherReset` over `nativeSpec`; `Spec/PoseidonHash`: `hashCalls`, `perm`, `start` | induction over the rounds with the offset into the constants as invariant; each round is a bijection |
| C116 | the same functions over `plonkSpec`, which calls the composer of `Model/PlonkCs` | simulation relation between the run in the composer and the native run, closed under bind; gates from C88 |
| C117 | `Model/PoseidonRef`: `zzFullRound`, `zzPartialRound`, `zzOutputHash` | the simulation of C116 with an offset condition per round; invariant: the state is ahead by the constants of the next round |
| C118 | `Model/PoseidonRounds`: the bounds with an abstract monotone rounding, both search loops | induction over the search with a lexicographic invariant; monotony of the bounds; the closed form in exact arithmetic by estimates of the bounds |
| C119 | `Model/PoseidonGrain`: `GrainLFSR`, `generate_constants`; `Spec/PoseidonGrain`: linear recurrence, drawn integers | refinement of the state by a window of the stream; termination: a stream with no ones at every second position is zero, by a Bezout identity over GF(2) |
| C120 | `Model/PoseidonConstants` | composition of C113, C114, C118, C119 and of C115–C117 |
| C121 | `Model/Circuit`, `Model/Cs`, `Model/Pov`; spec `CircuitTrue`, `claim` (Props/CircuitSnark) | composition of C34, C35, C33, C36 with C41, C54, C81; public positions are distinct because wire indices are injective |
| C122 | the same | the proof of C41 only uses invariance under the permutation; adjacent equal swaps cancel |
| C123 | `Model/PlonkCheck` (loop over the rows, deltas, `from_bits_le`); `OwnSat` of `Spec/Plonk` | invariant of reachable composers: every range and logic row carries honest quads (`Lemmas/PlonkCheck2`), so the range and logic terms of the check vanish; what remains is the arithmetic equation |
| C124 | `Model/PlonkUtil` | induction on the lists; soundness: the difference is a non-zero polynomial in the challenge of degree below the number of polynomials |
| C125 | `Model/PlonkUtil` (big integers as naturals with limb counts, truncation of bits included), `PrimeOk` (Props/PlonkUtil) | bits and bytes of a number below the capacity give it back; composition with C97, C98 |
| C126 | `Model/Fields` (constants of the arkworks configurations) | Pratt certificates checked by the kernel (`powMod` by squaring, `Lemmas/Pratt`), Lucas' criterion; coset inequality for the largest domain implies the smaller ones |
| C127 | `EdCurve.add` of `Model/PlonkCs`, `edMul` (Props/Edwards), `Model/Fields` | completeness after Bernstein and Lange; closure and associativity are polynomial identities with explicit cofactors (`Lemmas/Edwards`); composition with C97, C98, whose hypothesis `CurveGroup` it discharges |
| C128 | `Model/Examples` (main.rs; floating-point operations are an arbitrary rounding with relative error 2^-53) | composition: the loops and generated matrices are computed by induction, then C37, C43, C44, C45, C76 (`Props/Completes` names their conclusions) and C81 |
| C129 | `Model/PlonkCs`, `PlonkWidgets`, `PlonkCircuit`; `Spec/PlonkShape` (the same calls with other values) | a relational invariant (`Obl`) proved for every method by composition of its steps, lifted to gadgets by induction, then C110 |
| C130 | `Model/PlonkExamples`, `PlonkHost` (code of a gadget outside the composer) | the steps of the gadget are inverted one by one (C87, C88, C91, C92, C95, C98, C125, C127), rows are counted by `Grow`, then C129 and C110; the deviation of example_poly.rs by C129 with another value of the unconstrained variable; the deviation of the documented example by inverting `compile` (trimming above the degree of the parameters fails) |
| C131 | `Model/Cs` (`R1CS.ofArk`), R1CS SNARKs; `ArkWf`, `ArkHolds` (Props/ArkSnark) state satisfaction on the arkworks matrices | the sparse matrices have the values of the arkworks rows, then C24, C57, C58, C76, C77 |
| C132 | `Model/Circuit`, `PovPe`; `PeCircuitTrue` (Props/CircuitPe) | composition of C34 with C70, C71, C72: what the verifier enforces is translated back to values of the variables along the wiring; forged proofs from such values |
| C133 | `Model/PovExamples` | the calls are run step by step, then C31, C34, C121, C132 |
| C134 | `Model/Cs`, `Circuit`, `Snark` (pipeline of pov_test.rs); `ArkUsed` (Props/ArkPov) | C36 for the translation, `Lemmas/CircuitBlank` (a circuit evaluated without witness has the same instance), then C121, C132 |
| C135–C138, C140 | `Spec/Odds` (probability by counting), `Spec/Strategies` (provers as functions of the challenges drawn so far, `…Accepts`) | the round-by-round theorems C38, C54, C58, C62, C66, C71, C73, C77, C121, C131, C132, C134, one challenge after the other (`Lemmas/Odds`); the exceptional value of every draw depends only on what was drawn before |
| C139 | `Spec/Odds`, `PlonkStrategy` (Props/SoundError) | C106 in the same way |
| C141 | `Spec/Odds`, `Spec/Strategies`, `Lemmas/EvalBinding` | acceptance is a statement on the two batched openings (`opening2` and its variants): a wrong value leaves a nonzero polynomial in the batching challenge, then the trapdoor, then the randomizer |
| C142 | `Spec/Odds`, `Model/PlonkProof`, `PlonkCircuit` | the exceptional challenges of C105, C110 counted draw by draw |
| C143 | `Lemmas/PlonkCaught`, `PlonkCaught2` | the prover's code, run on any values, is a `PlonkStrategy` that meets the two conditions of C139 |
| C144 | `Model/PlonkReuse` (`gadgetTester`, `dummyGadget`) | the tester is preprocess, prove, verify with a key trimmed to the circuit (`tester_iff`), then C142, C143; the gadget may act differently in the verifier's run as long as it makes the same calls |
| C145 | `Model/PlonkReuse`, `Spec/PlonkReuse` (`Use`, `session`) | induction on the list of uses; invariant: key and transcript are those of preprocessing, the composer is new |
| C146 | `Model/PlonkPermRef` | both loops are running products of the same ratios; C101 for circuits |
| C147 | `Spec/Drawn` (the challenges of a run given by transcript length), the SNARK models | C37, C41, C43, C44, C70, C76 reduce failure to few challenges; the last blinding value is the top coefficient of the shifted quotient, so the last polynomial is constant for one blinding value only |
| C148 | `Model/PlonkBench` (the loop with fuel; a theorem shows the fuel suffices) | the loop is 2^(degree-2)-1 turns of two rows each; then C110 with C142's counting |
| C149 | `Spec/PlonkKzg` (KZG specified: commit, combination, batched opening, pairing check; provers are polynomials per round) | KZG satisfies `PcsComplete`, so C105, C107, C108, C110, C142 hold on it; for soundness the accepting run on KZG gives an accepting run on ideal commitments except for 10 values of an opening challenge and D+1 values of the secret (`verifyWith_iff`, `kzg_end`), then C106; for the `Circuit` interface trimming does not change the verifier key (`PreOk.trim`) |
| C150 | the model of C149; deviations | an accepting run on ideal commitments (C107, C108) gives quotients of the batched openings, hence an accepting run on KZG for every secret (`kzg_transfer`); the prover's moves are chosen from the existence statements, so they depend on the challenges only |
| C151 | `add_blinding_factors`, rounds 1 and 5 of the prover; deviation from zero knowledge | `ConfirmsColumn` (`Spec/PlonkHiding`) solves for the two random values by Cramer's rule and recomputes the commitment; inversion of `prove` gives what is published (`prove_columns`), the composer's invariant which rows are random (`Reach.twice`); interpolation is linear, the determinant is a non-zero polynomial in the evaluation point, a wrong guess differs by a non-zero polynomial that must vanish at the secret |
| C152 | the `verify` functions of the seven proof systems as functions of the two opening proofs, `check`, `batch_check`; PLONK verifier on KZG | `Spec/Malleable` says how to shift two opening proofs with two published powers. `ByBatch` (`Lemmas/Malleable`): each `verify` is an error or the answer of `batch_check` on data that do not depend on the opening proofs (nor on the randomizer), shown by unfolding each verifier; then linear algebra on the pairing equation (C20, C22). PLONK: inversion of the verifier (`verifyWith_iff`), both checks separately |
| C153 | `Model/Transcript`: `to_bytes!`/`push_to_vec!` over element codecs; the environment of the seven proof systems with a hash on bytes | `Spec/Transcript`: the types of hashed items (`Kind`), `Follows` a pattern, `FitsU64`, `Faithful` codecs. Sequential decoding shows that lists following one pattern are determined by their bytes; so every function of item lists comes from a function of bytes (choice of a preimage), and unfolding prover and verifier shows that all their queries follow the pattern of the proof system |
| C154 | `Model/Transcript`: `hash_to_field`, `from_le_bytes_mod_order` | digests are numbers below `256^n` (`finFunctionFinEquiv`), counting of a residue class, union bound, numerals for BLS12-381 |
| C155 | `Model/Transcript`: `challenge_scalar` of plonk-core | strings of bytes are numbers below `256^size`; comparison of `256^size` with the modulus through `Nat.size`, counting |
| C156 | `Model/PlonkTranscript`: the calls of Merlin for each operation on the transcript | injectivity of the encoding of one operation, induction along the types of the operations; prover and verifier are followed through all challenges |
| C157 | `Model/PlonkSerialize`: writers and readers derived for the structures of plonk-core, `BTreeMap` and `String` included | codecs that read back what they write, whatever follows, composed field by field; insertion of sorted entries into a map |
| C158 | the probabilities of C139, C142 and C149 over byte strings: `Odds` with the set of strings as the set a challenge is drawn from | `Lemmas/OddsDraw`: a bad set of challenges is hit by at most as many strings (C155); the rounds of the earlier proofs again with each challenge computed from a string |
| C159 | the soundness games of C135–C138 and C140 with every challenge computed from a digest by `fromLeBytesModOrder`; the digests uniform, which is an assumption on the hash function and stated as one; trapdoor and batching value uniform in the field | `Lemmas/OddsDraw`: a value is reached from at most `256^len/p + 1` digests (C154), so every round loses at most that factor; `Lemmas/SnarkDraw`: the rounds of the earlier proofs again |
| C160 | `decPi` on any bytes: the entries go through `BTreeMap::insert` one after the other; `as_evals` and `plonkVerify` of C109 and C105 on the result | `Props/PlonkPublicBytes`: `insert` keeps the order and replaces one position; induction over the entries from the end; `verify` reaches `as_evals` or has panicked before |
| C161 | all results of `plonkVerify` and not only acceptance; the conditions under which it does not panic are the record `VerifyRuns` in terms of positions, names and challenges | `Props/PlonkOutcome`: every step before the two checks succeeds or panics; what the steps need is spelled out and shown equivalent to their success (`runs_iff`) |
| C162 | all results of the seven `verify` functions; keys and proofs arbitrary, the sizes in the key related as for completeness (C37, C41, C43–C45) | `Props/SnarkOutcome`: the coefficients of the verification equation exist or a division by zero panics; the pairing check decides the rest |

Soundness theorems speak of *algebraic* provers: the group elements of the proof are commitments to polynomials of degree
at most the bound. That no other proof can be found is the knowledge assumption of KZG, and that the challenges avoid the
(explicit, counted) exceptional sets is the random-oracle assumption. Both are computational and not expressible here.
C135–C144 turn the counts into probabilities of the interactive protocol: every challenge, the trapdoor and the randomizer
are drawn uniformly and independently, a strategy sees each challenge only after its earlier messages and never the trapdoor.

Not expressible: computational hardness (discrete log, random oracle), timing, RNG quality.

## Deviations found
All are theorems or kernel-checked examples in `Verif/Props`.
* `test_rng()` is used by setup, prove and verify of every SNARK. With a known batching randomizer every verifier
  accepts forged proofs: C40, C56, C60, C64, C68, C75, C79.
* The witness vector has one blinding entry but is both committed and opened: everybody can confirm a guess of the witness (C84).
* Fibonacci and range-check transcripts omit the instance (C39).
* `power(0, 0) = 0` (C02); `evaluate_short`/`evaluate_sparse` are wrong at 0 (C12).
* Repeated or cyclic wire pairs cancel in the permutation vector (C11); repeated sparse indices overwrite in the dense form and add
  in the evaluation (C10).
* R1CS: the prover panics when `Sa+Sb+Sc < 3H` and fails when `4H > K+S+1` (C43); the instance length is not checked (C61).
* HPR: the size uses the density of A for B and C (C26), so satisfiable systems cannot be proved (C44_wrong_density); fails when
  `H > S` (C44_tall_system); over-long instances are accepted without the relation being checked (C65).
* POV: systems without constants cannot be indexed (C41_no_constants); public positions beyond the vector are not checked (C57).
* Range check: the shipped prover aborts unless the fifth blinding value is zero (C45_prover_aborts); the key is shifted when the
  range is smaller than the number of lookups (C69).
* Prover-efficient POV: addition and constant gates are not enforced — false statements have accepted proofs (C72).
* The same for circuits: what is and is not enforced about the variables (C132); the example circuit of pov_bench.rs proves
  every pair of public values (C133); every R1CS translated to a circuit proves every public input (C134).
* Prover-efficient R1CS: fails when `K > S` (C76_many_columns) or `ℓ+1 > 2H` (C76_wide_instance); the instance length is not
  checked (C80).
* Fibonacci: the prover panics when the coefficient vector has no non-zero entry after the first; `n = 1` is unsupported.
* Circuit: translating an R1CS with an unused column or at most one column panics (C36); a failing low-level gate call leaves a dangling
  gate (C29).
* KZG: `open` and `batch_open` abort on constant polynomials (C19, C21).
* PLONK `arithmetic_gate` computes a wrong output unless `q_o` is 1 or -1 (C88).
* PLONK `xor_gate`/`and_gate` do not bind their inputs: the output can be any number of the given bits (C92).
* PLONK `lookup_gate` with a non-zero public input is unsatisfiable (C93).
* PLONK `fixed_base_scalar_mul` panics when `3s ≥ 2^(bits+1)` (C98); scalars of both multiplications are bound only modulo the
  field characteristic (C97, C98).
* PLONK: a lookup table with non-adjacent duplicate rows makes honest proofs fail (C104); an empty table accepts zero rows (C102).
* PLONK: the lookup accumulator is in no challenge, so it can be chosen after the evaluation point and every statement has an
  accepted proof (C107); the value of the arithmetic selector is never opened, with the same effect (C108). Both with KZG commitments as well, for every secret (C150).
* Poseidon: `matmul` and `transpose` of rectangular matrices (C112); the factorisation into `m_prime` and `m_double_prime` is wrong for a
  non-symmetric minor (C113).
* Poseidon hasher: missing inputs are zeros, so `[x]` and `[x, 0]` collide; a second `output_hash` without `reset` has full rounds
  without S-box (C115). In a circuit the domain tag is a free witness (C116).
* Poseidon `PlonkSpecZZ`: transposed matrix, and the last round is recognised by the number of constants left, so surplus constants
  change the result (C117).
* Poseidon constants: `(R_F+R_P)*t >= 2^16` overflows a `u16` (C119); the domain tag is computed in an `i32`, so widths above 31 panic
  (C120); the inner loop of the search for round numbers changes the counter of the outer one, which is harmless (C118).
* POV: an equality asserted twice in a row (or an R1CS row listed twice) is not enforced by the proof system: accepted proofs of false
  statements (C122).
* PLONK: the documented example of the trait `Circuit` sets up parameters of degree `1 << 10` for a circuit of padded size `1 << 11`, so its
  `compile` never succeeds (C130).
* PLONK `check_circuit_satisfied` never looks at lookup rows, at the table, at curve additions, or at public inputs of rows without
  arithmetic, so it accepts circuits that have no accepted honest proof (C123).
* PLONK proofs are not zero knowledge: whoever guesses a wire column can confirm the guess from the proof (C151; C84 for the other
  proof systems).
* Accepted proofs of the seven proof systems are malleable when the randomizer of `batch_check` is known: the opening proofs can be shifted
  with the published powers (C152). They are determined when it is not known, and in PLONK.
* `hash_to_field` reduces 256 bits modulo a 255-bit prime: an element is hit by two or three digests, so challenges are not uniform; the
  probability of a bad set grows by less than the factor 1.4 (C154).
* PLONK challenges are numbers below `256^size`, `size` the rounded down number of bytes of the modulus: less than a
  hundredth of the BLS12-381 scalar field; for moduli whose bit length is a multiple of 8, `challenge_scalar` panics
  for some transcripts (C155; the comment in the code asks for a review of this).
* Reading PLONK public inputs accepts bytes that writing never gives: zero values, entries in another order or repeated (examples at C157).
* PLONK benchmark circuit: `2^(degree-1) + 2` rows instead of the documented `2^degree` (C148).
