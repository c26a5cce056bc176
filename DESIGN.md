# Design: a Lean 4 model of OpenZKP

Source modelled: `/repo` (0xProject/OpenZKP, Rust). Nothing in `/repo` is run; the
model is written by reading it. Every model definition cites file and lines.

## Layers

1. **Machine layer** (`Verif/U256/*`, `Verif/Field/*`): `u64` is `UInt64`, `u128`
   is a `Nat` reduced modulo `2^128`, `U256` is four `UInt64` limbs, exactly as in
   the source. Panics are explicit (`none`). Specifications speak about the integer
   `U256.toNat` only.
2. **Algebra layer** (`Verif/Fft/*`, `Verif/Curve/*`, `Verif/Stark/*`): code that
   only uses field operations is modelled over an arbitrary field `F` (plus the
   data the code uses: a root-of-unity function, a generator). The machine layer
   proves that `FieldElement` with the code's operations *is* such a field, so the
   algebra-layer theorems instantiate to it.
3. **Protocol layer** (`Verif/Merkle/*`, `Verif/Stark/*`): hash functions are
   parameters (arbitrary functions on byte strings); properties needing collision
   resistance are stated as "or else a collision is exhibited". Concurrency
   (proof of work, allocator counters) is a small-step relation over arbitrary
   schedules.

For each topic there are up to three files: `Model` (definitions, with citations),
`Lemmas` (helpers) and `Props` (the property theorems plus non-vacuity examples).

## Plan per property

| id | model | proof |
|----|-------|-------|
| C01 | limb functions adc/sbb and the 4-limb chains | exact carry equations, then linear arithmetic |
| C02 | mac chains | exact mac equation, `ring`-style accumulation |
| C03 | Knuth D on limb lists, as written | q-hat error at most one, loop invariant, fuel-free recursion on limb index |
| C04 | mulmod through full product and Knuth D | from C02, C03 |
| C05 | comparison, bit, clz/ctz, shifts | per-limb case analysis and Nat div/mod |
| C06 | byte conversion loops | base-256 digits |
| C07 | string functions on character lists | induction on digits; overflow check is wrong for one prefix: negation + `_partial` |
| C08 | Lehmer steps with cofactors | determinant/progress invariants; gcd invariance; every Lehmer step is a sequence of Euclid steps, so safe divisions of Euclid give safe runs |
| C09 | Newton iteration | doubling of correct bits |
| C10 | generic and Proth Montgomery | `Int.ModEq` and size bounds |
| C11 | square and multiply | loop invariant |
| C12 | iterator sum/product | negation for sum (starts at one) + partial |
| C13 | PrimeField operations | homomorphism to `ZMod p` |
| C14 | Inv through inv_mod | C08 + primality C57 |
| C15 | root | multiplicative order from the factorisation of p-1 |
| C16 | Tonelli-Shanks | loop invariant on 2-power order |
| C17 | invert_batch passes | induction |
| C18 | geometric series iterators | induction |
| C19 | permute_index, permute | bit reversal lemmas |
| C20 | fft_vec_recursive, radix_sqrt; radix_2, radix_4 and radix_8 of `fft::small` | induction on size, Cooley-Tukey; the small ones by reduction to stride 1 and computation in the ring |
| C21 | ifft | orthogonality of roots of unity |
| C22 | transpose loops | index-level permutation |
| C23 | curve.rs | equality with Mathlib's `WeierstrassCurve.Affine.Point` group |
| C24 | jacobian.rs | field identities; the mixed addition is wrong for P+P: negation + partial |
| C25 | non_adjacent_form | value invariant |
| C26 | wnaf.rs | group identities; double_mul is wrong: negation |
| C27, C28 | sign/verify over abstract hash | group of prime order |
| C29 | index.rs | arithmetic on 2^depth + offset |
| C30-C33 | merkle-tree crate over abstract hash | queue invariant |
| C34, C35 | channel.rs over abstract hash | simulation relation |
| C36 | proof_of_work.rs small-step | invariant over schedules |
| C37, C38 | polynomial.rs | list/polynomial correspondence |
| C39, C40 | FRI folding and queries | induction on number of folds |
| C41-C44 | rational_expression.rs, constraints.rs | structural induction |
| C45 | max_proof_size (Stark/Constraints), all reads of the verifier (Stark/ProofLength) | bytes read by each stage; `C45_size_partial` is a correct bound (with a lower bound), `C45_panics` and `C45_violated_default` say when max_proof_size panics, `C45_violated` is a produced and accepted proof longer than it |
| C46 | trace_table.rs | index bijection |
| C47 | component/*.rs | polynomial composition with x^k / shifts |
| C48 | constraint_check.rs | structural induction; off-by-one negation |
| C49 | algebraic_dag.rs and the loop of prover.rs:581-615 (Stark/Dag) | invariant: each node's column satisfies its operation and repeats with its period; kept by `op`, `simplify`, `lookup_tables`, `tree_shake`; `next` computes sixteen rows at a time |
| C50 | prover.rs (Stark/Prover), verifier.rs (Stark/Verifier): every stage of both, with the hash, the representation of field elements, roots of unity, `binary_search`, the graph's hash and the proof-of-work search as parameters; field inversion is exact, so that the defect of C14 is not propagated | each verifier stage reads back what the prover stage wrote (Stark/Replay, Openings, FriReplay, OodsLemmas, Complete, CompleteMain); polynomial identities for the combination, the folds and the last layer. Hypotheses of `C50_complete`: sizes (`SystemOk`), satisfaction (`Satisfies`, for quotients `C50_quotient`), the prover reaches the queries, the drawn point is outside the coset, the graph's hash does not identify different values. `C50_total` removes "reaches the queries": the prover never fails when drawing does not (`RunOk`; Stark/Commit). `Props.Small` is a complete run of prover and verifier evaluated by the kernel, `Props.Size` a system of 32 rows to which `C50_total` applies |
| C51 | verify on arbitrary bytes (Stark/Verifier) | every stage reads left to right (`Local`, Stark/VerifierLocal), composed; the slice panic is exhibited; partial |
| C52 | PartialEq on polynomials | negation with a witness |
| C53 | mmap_vec.rs | refinement to bounded list |
| C54 | logging_allocator.rs small-step | invariant over schedules; peak is under-counted: negation |
| C55 | montgomery_convert | equality with C10 routine |
| C56 | from_hex_str | digit induction; long strings accepted: negation |
| C57 | the two moduli | Lucas/Pratt certificates checked by the kernel |
| C58 | rand.rs | acceptance zone arithmetic |
| C59 | conversion.rs | modular arithmetic on limbs |
| C60 | security_bits | logarithm arithmetic; negation + partial |
| C61 | component/test.rs | recurrence along the trace, composed with C47 |
| C62 | mmap_vec.rs with a log of destructor runs | permutation invariant over histories; negation for truncate then push |
| C63 | verifier.rs (Stark/Verifier) on arbitrary accepted bytes; specification of the accepted language in Stark/AcceptSpec, of the checks on committed tables in Stark/SoundSpec | inversion of every stage of the verifier (Stark/AcceptRead, AcceptFri, AcceptMain): what it read, which coin state gave each challenge, which equation it checked; authentication paths against the root of a table (Stark/Binding) |
| C64 | as C63, with arbitrary tables behind the roots; bad sets of challenges in Stark/BadSpec | unique-decoding argument: words of which too many folds are close to polynomials agree with a polynomial (Stark/Proximity: the folds of a coset lie on a curve of degree < 2^n in the coefficient, interpolate 2^n of the close polynomials), induction over the FRI layers and over the combined quotients (Stark/SoundFri); quotients give trace polynomials with the claimed out-of-domain values (Stark/SoundMain); the out-of-domain equation is an identity of rational functions outside of a bounded set of points, and poles cancel for at most one value of each coefficient (Stark/SoundAir); no poles means that numerators vanish where denominators do (Stark/SoundRows) |
| C65 | the `asm!` blocks of arch/x86_64 and arch/x86_64_adx, instruction by instruction, on a processor with 12 registers, carry and overflow flags and memory (U256/Asm) | weakest preconditions turn each instruction into one integer equation (U256/AsmLemmas); linear combinations give the result, bounds on the partial results give that the last carries vanish (U256/AsmMul, U256/AsmRedc) |
| C66 | `PublicCoin` (Stark/Channel); histories of writes and draws in Props/Transcript | induction over the messages from the last: equal digests give equal hash inputs or a collision, equal inputs split at 32 bytes; the same on whole interactions of the prover channel (`C66_interactions`, `C66_protocol`, `C66_fresh` in Props/TranscriptOps) |
| C67 | SCALE and serde implementations (Field/Codec), inputs as byte lists | the value of 32 bytes through `Nat.ofDigits 256`; C13 for the field conversion; `C67_canonical_partial`, `C67_serde_decode`: what is decoded re-encodes to the input |
| C68 | Fibonacci example (Examples/Systems): claim, constraint system, trace; what an accepted proof shows (`Shows`) is C64 with the rows of a table | a system of quotients over "row k" and "every row but the last" means an equation in each of these rows (Examples/Rows); C64 for accepted proofs, C48 for `check`, C50 for provability |
| C69 | MiMC examples, cubic, quadratic and hash (Examples/Systems); periodic columns of round constants | as C68, with the periodic column identified with the interpolant of the constants; concrete accepted runs over the field of 65537 elements (Examples/Run) |
| C70 | MiMC tree example (Examples/Systems) with blocks of 256 rows | exact meaning of the system in terms of the blocks (`C70_system`); the property holds for height one and fails above (`C70_violated`) |
| C71 | VDF example (Examples/Systems) | exact meaning of the system as the iteration of the code's step; the step is not a cube (`C71_violated`) |
| C72 | primefield.sol (Evm/PrimeField): words are naturals below 2^256, `addmod`/`mulmod`/the modexp precompile by their definition | casts to `ZMod p`; roots by the order of the generator; Horner by invariants of the unrolled loop; batch inverse by induction; `C72_violated` for unreduced words and zeros |
| C73 | utils.sol (Evm/Utils) | `IsBitRev` by the recursion of `rev`; the byte table is complete; `num_bits` by halving; insertion sort by induction; `C73_violated` beyond 40 bits |
| C74 | public_coin.sol, proof_of_work.sol, `get_queries` (Evm/Coin): the coin state is that of the Rust model; gas bounds the rejection sampling | refinement: each call equals the call of the channel; bytes of words by positional notation; query words by induction over blocks of four; `C74_violated` for `read_many_bytes32` and the extra block |
| C75 | merkle.sol (Evm/Merkle): ring buffer with read and write positions, scratch space and unchecked reads of the decommitment | simulation: the ring rotated to the write position is a list of old nodes followed by the queue of `Merkle.verifyLoop`; the order of nodes excludes that an old node is taken for a sibling; then C32; `C75_violated` for repeated positions and single leaves |
| C76 | `fri.sol`: `fold_coset`, `fold_layer` (in place on arrays of values, positions and inverses), the loop over the layers and the check of the last layer (Evm/Fri.lean). | The loop over arrays is shown equal to a function on lists (`foldLayerLoop_eq`); the cosets collected determine a function on positions (`layerL_sound`, `layerL_complete`); folding a coset with the hard-wired roots is `foldMany` (`fold_coset_eq`); induction over the layers with the arrays holding values, positions and inverses (`Holds`). C76_sound, C76_complete_partial against `FriOk`, the specification also used for Rust (C63); C76_words, C76_violated. |
| C77 | `default_cs.sol`: `get_polynomial_points`, `oods_prepare_inverses`, `oods_row_adjustment`, `default_fri_layout` (Evm/DefaultCs.lean); reads behind arrays are arbitrary. | The array of denominators is computed exactly (`shifting_eq`), its batch inverse comes from C72, the double loop over columns and offsets is a sum over the trace cells (`constraintTerms_eq`). C77_points_partial against `deep`, the specification also used for Rust (C63); C77_layout; C77_recurrence; C77_violated. |
| C78 | The test system `Recurrance` of traits.rs (Examples/Recurrence.lean) and `recurrence.sol`: `initalize_system`, `constraint_calculations`, `evaluate_oods_point`, `evaluate_oods_point256` (Evm/Recurrence.lean). | `C78_system` characterises the satisfying tables, `C78_accepted`/`C78_prove` come from C64 and C65 as for Fibonacci; `C78_parameters_partial` compares the parameters for index below 2^63; `C78_calculations_partial` computes both paths of the contract in the field (`evaluate_cast`, `evaluate256_cast`) and identifies them with the sum of the adjusted constraints. |
| C79 | `stark_verifier.sol` whole (Evm/StarkVerifier.lean) with the contracts it calls (C72–C78). The specification of acceptance is that of C64 (Stark/AcceptSpec.lean); which parts of a proof the arrays of the contract hold is Evm/VerifierSpec.lean. | `C79_accepts_partial`: each step of `verify_proof` gives its clause of `Accepts` through C74–C78; `C79_sound_partial` applies the soundness theorem of the protocol and C78. `C79_complete_partial` (the converse): the arrays of a proof that meets `Accepts` pass, given enough gas, distinct queries and queries in two cosets of the last layer. `C79_returns`: no run returns true. `C79_violated` constructs, for every hash function and every claim, a forgery with one out-of-domain value too many. Props/EvmVerifierRuns.lean runs the contract on a genuine and on a forged proof in the kernel. |
| C80 | The generator as a function from a constraint system to the contexts of its templates, and the templates as functions of these contexts (Evm/Generate.lean): the four searches, the maps ordered by a hash (a parameter), the encoding of expressions as Yul (a tree), places in calldata and memory, batch inversion, the sum over the constraints, periodic columns, the words the wrapper passes, the layout of the trace. Text, files and the parts to be written by hand are not modelled. The value of an expression is the specification of C42. | `C80_evaluates_partial`: the entries of the map evaluate to the values of their expressions (an invariant through each loop of `write_oods_poly`), so the encoding does by induction; invariants for the two loops of the batch inversion. `C80_layout_partial`: the constants satisfy the hypothesis of C77. `C80_panics`: negative offsets. `C80_violated_nested`, `C80_violated_hash`, `C80_violated_degree` run generated contracts on counterexamples. |
| C81 | The verifier model of C38, C51. | `C81_errors`: the set of possible errors of each stage, composed; `HashMapFailure` is excluded by an invariant on the keys of the folded values. |
| C82 | The specification `Accepts` of C63, with the counts of hashes (`Counted`). | The converse of C63: every reader of the verifier's channel is run forward over the parts (`Stark/Forward*.lean`), the three lists of cosets are identified, the folds and the combination at the out-of-domain point are those of the specification; uniqueness by cutting the bytes at equal lengths. |
| C83 | `proof_serialize` as a function from proof bytes and the caller's string to the string afterwards (Stark/Serialize.lean: a verifier channel over the proof, the same reads as `verify` without the checks, `SoliditySeralize` for bytes, numbers and vectors). JSON as an inductive grammar (Stark/Json.lean), independent of the writer | the reads are followed along the byte layout of `Accepts` (C82), which gives the text as an explicit function of the parts; the text is then derived in the grammar. For the violation, a scanner that any JSON text passes rejects a `:` followed by a `,` |
| C84 | `merkle_hash`, `MerkleTreeLayer` and `MerkleTree` with their constraints and traces, `Claim`, `Witness`, `Component::prove` and `verify` (Examples/Pedersen.lean), over any field and any table of points; the 506 points and the 1024 coefficients of the repository as literals (Examples/PedersenTables.lean). The specification is the sum of points of the elliptic curve group of Mathlib chosen by the bits of two integers (Examples/PedersenHash.lean) | the constraints, written as quotients, are evaluated row by row (Examples/PedersenRows.lean): the columns 0 and 4 halve an integer below 2^252, the other columns add the points of its bits. Induction on the rows gives the sum; the only other solutions double a point. For the trace, the loop of the code is followed and each cell identified (Examples/PedersenTrace.lean). The literals are checked in the kernel (Examples/PedersenConcrete.lean) |
| C85 | as for C84 and C82: `Component::verify`, the constraints of `MerkleTree` and `verify`. Two constraint systems are alike if their expressions differ only in constants (`Alike`, Stark/SameShape.lean) | for alike systems the verifier reads the same values and draws the same challenges, so it differs only in the out-of-domain comparison (`C85_systems`). For the Merkle tree the two sides differ in two terms, which gives an equation between the claims (`C85_claims_partial`); solving it gives the other claims |
| C86 | `parse_hex`, the two loops of `bytes_to_limbs`, `montgomery_convert` and the three macros, on the value of the string literal (`U256/Macros.lean`); taking the string out of the token stream is not modelled | `Props/Literals.lean`: the inner loop is an invariant on the limb (little-endian value of the bytes read), the outer loop an induction on the limbs; digits and their values are those of C56's table; `field_element!` by C55 and C10 |
| C87 | `count_ones`, `count_zeros`, `rotate_left`, `rotate_right`, `BitAnd<u64>`, `mul_add`, `from_str_radix`, bounds (`U256/Traits.lean`) | the bits of the value are those of the four limbs (`limb_bits`), so the counts of the limbs add up; the rest by C01 and C02 |
| C88 | `Par/Model.lean`: a parallel loop as tasks of single element accesses run by any schedule (`exec`), `FFT/Par.lean`, `Merkle/Par.lean`, `Stark/DagPar.lean`: the bodies of the five loops that run on `rayon`, with the bounds checks of the slices and the chunk size computed from the number of threads | `Par/Frame.lean`: tasks that write disjoint cells and read only their own cells or cells nobody writes commute (invariant: what is left of each task, run alone, leaves in its cells what it would have left from the start; its remaining cost does not change when others move); then each loop body meets this and, run alone, computes the sequential model. `Always` = no panic, ends after enough turns in any order, same memory. An example shows that the semantics tells schedules apart for a racy loop. Accesses are sequentially consistent; the search for a proof of work is C36 |
| C89 | rational_equality.rs; expressions as elements of the fraction field of polynomials in X and the trace cells; the hash-derived cell values are arbitrary field elements (the bound counts them all) | numerator and denominator by structural induction, then Schwartz-Zippel |
| C90 | constant.rs, claim_polynomial.rs: system, trace, substitution | quotient systems of C71 (rows that vanish), C42 for the substitution |
| C91 | primefield/src/rand.rs over the sampler of U256 (C58); the random source is any sequence of 256-bit words | counting the sequences with C58, transported along the Montgomery isomorphism (C13) |
| C92 | the model of C27/C28, and the message hashed for a nonce (private_key.rs:54-67), SHA3 a parameter | group law and order of the generator (C23, C26); points with one first coordinate are opposite; injective nonce message |
| C93 | `merkle_hash` and `Witness::new` (Examples/Pedersen.lean), with the constants in Examples/PedersenTables.lean | the hash as the first coordinate of a linear combination of the points (Examples/PedersenTrace.lean); equal first coordinates mean equal or opposite points; induction along the paths (Props/PedersenCollision.lean). Since collisions exist by counting, the relations are stated with their coefficients |
| C94 | `mimc` of the cubic and quadratic examples, the round of the hash (Examples/Systems.lean) | three does not divide p - 1, so cubing has the inverse x^((2p-1)/3); composition of the rounds; for the hash a pair of states found by solving the equations, checked by the kernel (Props/MimcPermutation.lean) |
| C95 | The verifier of a release build (Stark/Release.lean): what comes from the proof, and what is computed from it, are 256-bit words, reduced or not, computed with by the limb arithmetic of `PrimeField` (Field/PrimeField.lean); the model of `verify` used elsewhere (Stark/Verifier.lean) panics when a word is not below the modulus, as `debug_assert!` does | A simulation between the two verifiers: on reduced words the limb arithmetic represents the field (C10 to C14), so as long as no assertion fails every value of one represents the value of the other (`C95_same_partial`). For the violation a proof of a false claim of `vdf.rs` is built: constant columns, and one claimed cell written as the word of one plus the modulus (Stark/ReleaseForward.lean, ReleaseWords.lean, ReleaseForgery.lean; Props/Release.lean) |
| C96 | size_bytes.rs (unit, number of decimals, underflow), the messages of `LoggingAllocator`; `usize as f32` exactly, `f32::log10` a parameter | real analysis: a logarithm with error ≤ 2⁻²⁰ has the right floor except just below 10⁶, 10⁹ and 10¹²; with the correctly rounded logarithm every size from 999 999 000 to 999 999 967 panics: negation |
| C97 | convert.rs: sign and absolute value of every signed type in both builds, `From` for every integer type, `ToPrimitive` of elements and of `U256` | residue classes through the specification of the Montgomery reduction and of negation; the least integer of each signed type by evaluation in both fields: negation |
| C98 | elliptic_helpers.rs of the example group_sig, every function | polynomial identities against Mathlib's group law for all points; induction over the rows of the table; equal points, entries that are not bits and scalars of 256 bits: negation |
| C99 | signature.rs of the example group_sig: system, claim bytes, trace | the quotients of the system row by row (as for C68–C70) and C64 for proofs; the honest table by induction; a table that satisfies the system of every claim, with a run in the field of 65537 elements in which a forged proof is accepted: negation |
| C100 | the test system `Recurrance2` (traits.rs): value, seed, constraints with claim polynomial and its substitution, trace; the order is the length of the lists | the loops by induction on the lists; the constraint that leaves out the last rows has numerator and denominator computed by induction on the order; soundness from C64, completeness from C50; a run with order 2 |
| C101 | the seeds in the systems of the examples and tests (Examples/*) | lengths and injectivity of the encodings; the MiMC tree is the exception (below): the claims for which a proof is accepted follow from C85_systems, the forger's proof exists by C50 |
| C102 | iterator.sol (Evm/Iterator): iterators and arrays by reference in a memory, histories of calls | invariant of the memory after a history: the index of an iterator is the number of its calls of `next`; induction on the history |
| C103 | trivial_fib.sol (Evm/TrivialFib); the coin of recurrence.sol | injectivity of the encoding of the public input up to collisions; equality of the two calls for `TrivialFib` |
| C104 | the events of trace.sol emitted by the verifier with the recurrence (Evm/Events, with the numbers of turns of the loops as arguments; Evm/FriEvents, the folding with its events): names and directions | logs that leave every stack as it is are closed under wrapping, appending and repeating; counting; the folding with its events erases to the folding |

## Trusted base

* Lean's kernel; axioms at most `propext`, `Classical.choice`, `Quot.sound`.
* The reading of the Rust source embodied in the model definitions.
* The model of the x86-64 instructions used by the assembly blocks (C65): their effect on registers, the carry
  and overflow flags and memory, as in the Intel manual; operands the compiler places get distinct registers.
* Build profile: a failing `debug_assert!` or overflow check is a panic (`none`, `Panic`), as in the profile that
  the tests use; where a release build behaves differently and a property is about it, it has its own model
  (division, C03; `step_by`, C18; decoding, C67; the whole verifier, C95).  C63, C64 and the theorems on the
  examples are about the verifier with debug assertions; C95 shows that they fail without.
* Not modelled: rayon's scheduler (parallel
  iterators are modelled by their sequential meaning except where stated),
  Keccak/SHA3 (abstract functions), memory safety, performance.

### What is modelled, file by file

Trivial accessors, `Debug`/`Display` for error messages, derived traits and operator variants that forward to a
modelled function (by value / by reference / assigning) are not listed.

| Source (below /repo) | Model (below lean/Verif) | Left out |
|---|---|---|
| algebra/u256/src: additive, multiplicative, binary, conversion, u256, u256_traits | U256/Basic, Conversion, Traits | operator-forwarding macros (`binary_operator_macros.rs`, `traits/mod.rs`): each operator is taken to call the function it names |
| algebra/u256/src: division, arch/generic/knuth_division, algorithms/limb_operations | U256/Limb, Division | – |
| algebra/u256/src: arch/generic/lehmer_gcd, functions | U256/Lehmer, InvModel | – |
| algebra/u256/src/algorithms/montgomery | U256/Montgomery | – |
| algebra/u256/src/arch/x86_64, x86_64_adx | U256/Asm | register allocation by the compiler |
| algebra/u256/src: encoding, rand | U256/Encoding | the random generator (an arbitrary stream of words) |
| algebra/primefield/src: prime_field, proth_field, ops, convert, traits | Field/PrimeField | `uint.rs` (trait bounds) |
| algebra/primefield/src: invert_batch, geometric_series | Field/Generic | – |
| algebra/primefield/src: parity_codec, serde (and those of u256, signature) | Field/Codec | the serde framework, the JSON and SCALE crates |
| algebra/primefield/src/fft | FFT/Model, FFT/Small | `prefetch.rs` (hints to the processor, no effect on values); rayon runs tasks in sequence |
| algebra/elliptic-curve/src | EC/Model, Concrete | – |
| crypto/elliptic-curve-crypto/src | EC/Ecdsa | SHA3 for the nonce (a parameter) |
| crypto/hash/src | Stark/Channel, Verifier (`maskedKeccak`) | Keccak (a parameter) |
| crypto/merkle-tree/src | Merkle/Model, Layers | the trait of `vector_commitment.rs` (leaves are given by their hashes) |
| crypto/stark/src: rational_expression, rational_equality, constraints, constraint_check, trace_table, polynomial | Stark/Expr, Equality, Constraints, TraceTable, Poly | — |
| crypto/stark/src: channel, proof_of_work, proof | Stark/Channel, PoW | logging |
| crypto/stark/src: algebraic_dag | Stark/Dag | – |
| crypto/stark/src: prover | Stark/Prover, Fri | logging, memory mapping of intermediate vectors |
| crypto/stark/src: verifier | Stark/Verifier (a build with debug assertions), Stark/Release (one without, C95) | – |
| crypto/stark/src: solidity_verifier, assets/*.sol | Evm/Generate* | the text of the generated contract outside of the expressions (`autogen_oods_contract` copies it) |
| crypto/stark/src: solidity_seralizer | Stark/Serialize, Json | – |
| crypto/stark/src/component | Stark/Component | – |
| crypto/stark/src/traits.rs | Examples/Recurrence (the system `Recurrance` of its tests) and Examples/Recurrence2 (`Recurrance2`), `Verifiable`, `Provable` as compositions | drawing of random test cases |
| crypto/stark/examples/group_sig | Examples/GroupSig.lean | as written for an earlier interface, see the header of the file; part of no build (no `main`) |
| crypto/stark/src/pedersen.rs, src/group_sig | – | not part of any build (no `mod` or missing dependencies) |
| crypto/stark/examples: small_fib, large_fib, vdf, mimc_* | Examples/Systems, Rows, Run | `main` (printing, timing) |
| crypto/stark/examples: pedersen_merkle | Examples/Pedersen* | `main.rs`, `starkware_example.rs` (one fixed witness) |
| crypto/stark/examples: constant, claim_polynomial | Examples/Constant (C90) | `main` (printing, timing, writing the generated contract) |
| crypto/stark-verifier-ethereum/contracts | Evm/* | the gas and memory in the events of `trace.sol`, the `*_tester.sol` wrappers; ABI encoding and decoding of calls; gas |
| utils/mmap-vec, utils/logging-allocator, utils/macros-* | Utils/MmapVec, Allocator, SizeBytes, U256/Macros | byte sizes and alignment of mappings; digits written by the formatter (of `size_bytes.rs` the unit, the number of decimals and panics are modelled, with `f32::log10` a parameter); token streams of the macros |
| utils/criterion-utils, utils/error-utils, all `benches`, primefield/examples, notebook | – | benchmarks, lints and notebooks |

## What the wrong programs in seeded/LOG.jsonl show

An edit counts as killed when Lean reports an error inside a theorem, a lemma or an example; the build is stopped at the first one. This is weaker than it looks:

- A kill shows that the proof no longer goes through. It does not show that the statement is false of the edited program. Some behaviour-preserving edits (of `permuteStep`, `FftRootAlways`, `shl`, `decLoop`, the threshold of `fft_vec_recursive`, the boundary of `nafStep`, the cache of `from_leaves_skip_layers` for two leaves, the sign of zero in `as_sign_abs`) were killed as well, because the proofs follow the shape of the code.
- `killed_by` says what broke first. In about two thirds of the lines it is a helper lemma; `theorems_failed` then lists the property theorems that depend on it, computed from the dependencies and not from their own failure.
- Where a line has a field `refuted`, the statements named there were also evaluated on concrete inputs with the edited definitions and came out false, so for these lines the edited program does break the claim and the theorem says so. This was done for about a hundred edits of the integers, the fields, the transforms, the curve and the trees; the other kills are evidence of the first kind only.
- A survivor is conclusive in the other direction: the theorems do not see the edit. These led to the tightened theorems named in the log.

## Where the code does not satisfy a property

Each entry is backed by a theorem named `..._violated` with a concrete witness.

* **C03/C04** `div_rem` and `mulmod` with a divisor of three (for `mulmod` also four)
  limbs: when the two top limbs of a partial remainder equal those of the normalised
  divisor, the precondition of `div_3by2` (knuth_division.rs:56) does not hold. The
  debug profile panics; the release profile can return a quotient that is one too
  small and a remainder above the divisor.
* **C12** `Sum for U256` folds from ONE (multiplicative.rs / additive.rs), so every
  sum is one too large.
* **C08** `inv_mod` (and `gcd`, `gcd_extended`) use the division of C03 whenever a
  Lehmer step makes no progress. `C08_violated`: for x = (2^187 + 17*2^128 + 2)/3 and
  the field modulus, the debug build panics and the release build returns a number
  that is not the inverse. The Lehmer part itself never overflows or panics.
* **C14** (and C16, negative powers of C11): field inversion inherits the defect of C08;
  `C14_violated` is a base-field element whose release-build inverse is wrong.
* **C18** `GeometricIter::step_by` shadows `Iterator::step_by` but drops the item after
  the last full step (`C18_step_by_violated`); `skip` past the end panics in debug and
  makes the iterator endless in release (`C18_skip_violated`).
* **C21** `ifft_cofactor` (fft/mod.rs:133-143) multiplies position i of the bit-reversed
  result by cofactor^-i instead of cofactor^-rev(i), so it does not undo `fft_cofactor`
  (`C21_ifft_cofactor_violated`, length 4). Nothing in the library calls it.
* **C07** `from_decimal_str` compares with `result > ceil(2^256/10)` where `>=` is
  needed: a numeral with a proper prefix equal to that number wraps around
  (`C07_violated`: `2^256 + 4` parses as 4). A non-ASCII character panics.
* **C56** `from_hex_str` ignores digits after the 64th when their number is even, strips
  any number of leading `0x`, and panics on everything else (`C56_violated`,
  `C56_other_strings`).
* **C58** (robustness) sampling an empty range loops forever (`C58_empty_range`).
* **C24** `Jacobian += Affine` (jacobian.rs:196) decides between doubling and zero by
  comparing `self.x` with the scaled `y` of the other point. Adding a point to itself
  gives zero (`C24_violated`).
* **C26** `base_mul` inherits C24: for a point of order n the only affected scalar is
  n - 94, for which it returns zero (`C26_base_mul_violated`). `double_mul`
  (wnaf.rs:174) tests the digit of `b` when it handles `a`: `0*G + 31*G` is computed
  as `30*G` (`C26_double_mul_violated`); nothing in the library calls it.
* **C27** the private key n - 94 gets the zero point as public key; `verify` then
  panics in `batch_convert` (`C27_violated`).
* **C28** `verify` rejects a signature that satisfies the equation when the double
  multiplication meets C24 (`C28_violated`: key G, digest = r = x(2G), w = 1/r), and
  panics instead of returning false for r = 0, w = 0, a key off the curve or the zero key.
* **C29** `Index::last_common_ancestor` is wrong when the nodes are equal or one is an
  ancestor of the other (`C29_lca_violated`); callers only use distinct leaves.
  `is_right_most`/`right_neighbor` overflow for the index 2^64 - 1.
* **C37** `divide_out_point_into` aligns the polynomial with the *top* of the target, so with a
  target of another length the quotient lands at a wrong degree (`C37_divide_out_violated`): in a target with
  `k` coefficients more it is multiplied by `X^k` (`C37_divide_out_longer`), in a shorter one the lowest
  coefficients of the polynomial are ignored (`C37_divide_out_shorter`).
* **C52** `==` of polynomials compares values at one fixed point; distinct polynomials that agree
  there compare equal (`C52_violated`).
* **C41** for a polynomial applied to an argument with a larger denominator than numerator degree the
  reported numerator degree is too small (`C41_violated`: `1 + Y` at `Y = 1/X`).
* **C44** `from_expressions` accepts 0 rows and every divisor of p - 1, such as 5 rows, although the
  documented condition is "power of two" (`C44_violated`).
* **C60** `security_bits` uses log2(blowup) + 1 instead of log2(blowup) (`C60_violated`).
* **C48** `RationalExpression::check` on `Inv(a)` returns the value of `a` instead of its inverse, so `(1/2 - 2)/(X - 1)` is accepted
  although it divides a non-zero value by zero (`C48_violated`); `check_specific_constraint` evaluates `X` at the point of the row
  before (`C48_specific_violated`).
* **C47** `Vertical` turns an offset past the end of one copy into a cell of the next copy, so a cyclic constraint satisfied by each copy
  fails in the stack (`C47_vertical_violated`); it also takes the constraints of the first claim only. `Fold` keeps `X`, so a pole
  outside the inner trace domain but inside the folded one appears (`C47_fold_violated`).
* **C62** `push` assigns through a reference, which destroys whatever the slot held; after `truncate` or `clear` that value has already been
  destroyed (`C62_violated`). `resize` to a smaller length and dropping the vector itself destroy nothing (a leak, not covered by C62).
  `C62_account` is the exact account for every history (a value cut off is destroyed once more when its place is used again);
  `C62_cut_last_partial` shows that nothing is destroyed twice where nothing is added after the first truncation.
* **C54** `peak_allocated` is raised to the value `allocated` had before the allocation, so one allocation of 100 bytes leaves the peak at 0
  (`C54_violated`).
* **C49** (limits) A trace offset that reaches back further than one table length makes the evaluator index a negative row and panic (`C49_far_offset`), and an expression equal to the random identification point minus that point is replaced by zero (`C49_merge_needed`); both are outside the statement, which carries the corresponding hypotheses.
* **C51** `verify` slices the proof without checking its length: every string of less than 32 bytes panics (`C51_violated`), and so does every proper prefix of an accepted proof (second half of `C51_whole_partial`).
* **C50** (limit of completeness, nothing wrong is accepted) `from_expressions` chooses no FRI reduction for a trace of one row; `verify` then panics on every proof with queries, and so does `prove`, which verifies what it made (`C50_no_reduction`).
* **C45** `max_proof_size` is not a bound. It panics (subtraction overflow) when the rows number less than `2^(3 + sum of the FRI layout)`, so for the layout chosen by `from_expressions` for every trace of at most 256 rows (`C45_panics`, `C45_violated_default`). It ignores the blowup, the commitments, the nonce, the out-of-domain values, the constraint columns and most of the last layer: for 32 rows and one query a proof is longer (`C45_violated`). `C45_size_partial` is a bound that holds.
* **C65** the Montgomery multiplication in assembly (`mul_redc` of arch/x86_64_adx, taken from Barretenberg) adds the carry out of the fourth limb of `a[0]*b` to the wrong limb: `adcx` on `r10` leaves a carry that the next `adcx` adds to `r14`. `C65_violated`: for `a = 2^64 - 1` and `b = 10 + 5*2^64 + 2^128 + 2^192` modulo the field prime the result is wrong. `C65_mul_redc_partial` shows that this is the only defect. Nothing in the library calls the routine. The comment "TODO: Fix carry bug" in `proth_redc_asm` is unfounded for inputs below `m*2^256` (`C65_proth_redc`). Not expressed: `reduce_1` declares `options(nomem)` although it reads the modulus from memory. `C65_mul_redc_exact` shows that this happens exactly if `LostCarry` holds of the operands, and `C65_mul_redc_value` what is returned then.
* **C66** (limits) The coin has no domain separation: absorbing 24 zero bytes and the counter leads to the state that equals the random block drawn instead (`C66_no_separation`), and a seed can imitate a shorter seed and a message (`C66_lengths_matter`).
* **C67** decoding a field element calls `from_uint`, which only checks its range with a `debug_assert!`: 32 bytes whose number is not below the modulus panic in a debug build and are reduced in a release build, so that an element has several encodings (`C67_violated`). Decoded points need not be on the curve; `verify` panics on such a public key.
* **C68** the trace has `index.next_power_of_two()` rows, so if `index` is a power of two the row `index` does not exist and the constraint on it is one on row 0: the system then says `value = 1`, whatever the element at `index` is (`C68_violated`; true claims cannot be proved and false ones can). For all other indices the claim is proved (`C68_*_partial`).
* **C70** the blocks of 256 rows of the tree example are not linked: nothing says that the output of one block is an input of the next one. For height two and more the system can be satisfied for any leaf by whoever knows two elements that hash to the root (`C70_violated`). `C70_accepted_partial` is the claim for height one; `C70_system` says exactly what the system means for every height.
* **C71** the step of the VDF example is meant to be the cube in the extension by a square root of `r` ("Multiply the square by the single"), but its second component is `c0*c2 + c1*c3` instead of `c0*c3 + c1*c2` (both in the trace and in the constraints). `C71_violated`: from `(0, b)` the system can only be satisfied for the end `(0, 0)`, while the cube is `(0, r b³)`. The theorems with suffix `_partial` show that the system proves exactly the iteration of the step as written.
* **C72** the contract's `fsub` is wrong by `2^256` if the subtrahend exceeds the modulus, `horner_eval` adds without reduction and overflows for unreduced coefficients, `batch_invert` of an array with a zero returns zeros without reverting, and of an empty array writes one word behind it (`C72_violated`). The theorems with suffix `_partial` hold for reduced words and non-empty arrays without zero.
* **C73** `bit_reverse2` is wrong for numbers of more than 40 bits or bit counts above 40, and `num_bits(0)` is 255 (`C73_violated`).
* **C74** `read_many_bytes32` returns an empty array, and `get_queries` draws one more block than the prover if the number of queries is a multiple of four (harmless, as nothing is drawn afterwards) (`C74_violated`).
* **C75** the contract does not check the leaf at a repeated position whose left sibling is also opened (any value is accepted), rejects most valid openings with repeated positions (query positions are drawn with repetition and the contract does not remove repetitions), and rejects valid openings of a single leaf at an odd position (`C75_violated`). `C75_sound`, `C75_binding` hold for ascending positions, `C75_complete_partial` for at least two of them.
- **C76** (FRI in the contracts): a layout that is empty, or has a layer folding sixteenfold or more, always reverts, although the protocol and the verifier in Rust allow it; a layer that folds nothing sets all further inverses to zero; the sum in `fold` wraps for words that are not reduced; values after those needed of a layer are ignored (so a proof is not unique). The soundness theorem has the restrictions to reduced words and layers that fold; completeness those to at most eightfold layers and two cosets at the last layer (C75).
- **C77** (points for FRI in the contracts): when one denominator is zero - the out-of-domain point, moved by an offset, is one of the queried points - the batch inversion makes every point zero, at every query, and the contract goes on; the verifier in Rust does not divide by zero silently for all others. The lengths of the arrays are not checked, the blowup is 16 whatever the immutable says (`log_trace_length+4`), and words that are not reduced wrap.
- **C78** (the contract for the recurrence): the contract demands 20 queries and 10 bits of work where the Rust system has 45 queries and none, so neither verifier accepts the other's proofs unless the caller adjusts the parameters (`C78_violated`; the generator of the test vectors adjusts them). A point with `point^rows = 1` has its denominators silently inverted to zero in the contract; a `value` that is not below the modulus is not the element the statement names; an exponent other than 2 has no contract. The doc comment in traits.rs (`a_{n+2} = a_{n+1}^exponent + a_n`) is not the recurrence the code computes.
- **C79** (the verifier contract): (1) `constraint_oods_values` may be longer than the degree. All its words enter the sum `check_out_of_domain_sample_result` compares with the constraints, but only the first `constraint_degree` are tied to the commitment by the DEEP quotients. With one word more, an all-zero trace and all-zero commitments pass for every claim: `C79_violated` constructs the proof for any hash function, including claims that are false for every secret, and `forged_accepted` runs one. All that is left to find is a nonce. (2) `verify_proof` has no `return` on success, so an accepted proof returns `false` (`C79_returns`); a caller who reads the result instead of relying on reverts rejects everything. (3) The lengths of `last_layer_coefficients`, `trace_values` and `trace_oods_values` and the range of words for field elements are not checked either; `C79_accepts_partial` and `C79_sound_partial` assume them.
- **C80** (generated contracts): (1) an inverse inside a denominator that also occurs outside is read from memory before the batch inversion fills it, so it counts as zero (`C80_violated_nested`: 1 instead of 1/2); if its hash comes later the generator panics instead. (2) Expressions are compared by hash, and the hash of a polynomial is made of its value at one fixed point (solidity_verifier.rs:261-275, rational_expression.rs:353-361): two polynomials that agree there share one place, and a constraint that they be equal is satisfied by everything (`C80_violated_hash`). (3) The contract's number of constraint columns is the degree; the prover commits to the next power of two (`C80_violated_degree`). (4) Negative offsets panic (`C80_panics`). Not modelled, seen in the text: the wrapper refers to `periodic_col` contracts while the files are called `periodic`, and to names (`ContraintPoly`, `OddsPoly`, `trace_oods_values`) that are not declared where they are used, so that the files have to be corrected by hand, as the comment at `generate` says.
- **C82** (converse): the side conditions are those under which the code does not panic on every proof: a layout of FRI that is not empty unless there are no queries, at most as many folds as the trace has halvings, a difficulty below 256, constraints whose degree is not zero. Where one position is queried twice the verifier compares hashes of rows, not rows, so the theorem has the alternative of a hash collision between two rows of the proof.
- **C83** (crypto/stark/src/solidity_seralizer.rs:40-57, `SoliditySeralize for Vec`): an empty vector is encoded as the empty string, so an empty array gives `"name": , `, which is not JSON (`C83_violated`: for every accepted proof with an empty array, no JSON value has this text). This happens when no authentication hash is needed, for example when all leaves are queried. An array that holds one empty array is written as an empty array (`C83_nested_violated`), so the values or openings of FRI lose a layer.
- **C84** (crypto/stark/examples/pedersen_merkle/component.rs:100-139): the columns of the inputs are constrained to halves of an integer below 2^252, not of one below the modulus 2^251 + 17 * 2^192 + 1, so that nearly every field element can enter the hash as two different integers. `C84_violated`: with the constants of the repository, for the leaf 0 and the sibling 0 there is a trace that the library checks and proves, with a root that is not `merkle_hash(0, 0)`. The equations of an addition also allow any result where a point is added to itself (`LooseHash`); finding such inputs is a discrete logarithm problem, so this remains as a case of `C84_accepted_partial`.
- **C85** (crypto/stark/src/component/mod.rs:91, 102): `Component::prove` and `verify` use an empty channel seed, so that the challenges do not depend on the claim; the field `path_length` of the claim is not used at all. `C85_second_leaf_violated`: every proof accepted for a leaf is accepted for a second leaf under the same root. `C85_every_leaf_violated`, `C85_violated`: a proof made for one leaf is accepted for every leaf, under a root computed from the proof.
- **C87** (algebra/u256/src/binary.rs:84-91, u256_traits.rs:65): `rotate_left`, `rotate_right` and `from_str_radix` are `todo!()`: every call panics (`C87_violated`). Nothing in the library calls them.
- **C29** (crypto/merkle-tree/src/index.rs:179): `Index::concat` does not check for overflow: joined below the deepest layer, two positions give a position of another place or the invalid position 0 (`C29_concat_violated`). Nothing in the library calls it.
- **C92** (public_key.rs:22-40, signature.rs:8): a signature can be altered. With (r, w) also (r, -w) satisfies the equation (`C92_malleable`), and `verify` accepts both forms of a signature made by `sign` (`C92_violated`); the source carries a TODO about it. For digests that are not fixed beforehand anyone can make a digest with a signature (`C92_forgery`, as for every ECDSA without a hash of the message). What holds: the signatures of a fixed digest are exactly those made from a nonce with the private key (`C92_forms`), and for given `r` only the sign of `w` is free (`C92_unique_partial`; for the residues below p - n at most four values, `C92_at_most_four`).
- **C15** (prime_field.rs:369-379): `root` with a `U256` order divides the group order by it with the faulty division of C03: for n = 2^187 + 17·2^128 + 1 the debug build panics instead of returning `None` (`C15_violated`). Machine-word orders, and all orders that have a root, are right.
- **C94** (`mimc_hash.rs:250-253`, `mimc_tree.rs:305-308`): the first part of a round is the first part of the cube of `left + right √Q`, whose second part is `3 left² right + Q right³`; the code computes `3 left² + Q right³`. That the cube was meant is our reading of the formulas, no comment in the code says so. The round is then not a permutation of the states: two states with the same image are exhibited (`C94_violated`), and some states are reached from none (`C94_not_onto_violated`). With the factor it would be a permutation for the constant of the examples (`C94_with_factor`). The constraints repeat the code, so C69 and C70 hold for the function as it is.
- **C95** (`prime_field.rs:106-124`, `channel.rs:297-302`): that a word of a proof is below the modulus is checked by `debug_assert!` only. A release build computes with words that are not, and subtraction (`prime_field.rs:240-263`) is then off by 2^256 modulo the field: `x - y` can be zero although the constraint, which computes with the same word by multiplication and addition, sees another value. A proof of the false claim of `vdf.rs` that the iterate of (0, 1) is (0, 1) is accepted by the release build, whatever the hash function (`C95_violated`, and `C95_violated_run` with one hash function and all challenges), while the debug build panics. The proof costs no search: the prover needs only one word that is not reduced. Checking the range in `replay` would repair it: unless an assertion fails the verdicts agree (`C95_same_partial`).
- **C96** (`size_bytes.rs`): the number of decimals of a size in MB is `8 - size.log10().floor()`, computed with `f32`. Just below 10⁹ the logarithm is rounded up to 9 and the subtraction underflows: showing 999 999 936 bytes panics in a build with overflow checks (without them the formatter is asked for about 2⁶⁴ decimals). Allocating a block of such a size with the logging allocator therefore panics inside the allocator, and so does any allocation of a million bytes or more while such a number of bytes is allocated, and `log_statistics`. The same holds for 999 999 100 000 to 999 999 963 135 bytes. `C96_violated` (for the correctly rounded logarithm); `C96_shown_partial` shows that all sizes outside these windows are shown with three digits whatever logarithm of the stated precision is used, `C96_rounded_partial` narrows the windows for the rounded one.
- **C97** (`convert.rs`): `as_sign_abs` negates a negative integer in its own type, so the conversion of `i8::MIN`, …, `i128::MIN` and `isize::MIN` to a field element panics with overflow checks; without them the negation is the same negative number, which `abs.into()` extends to 256 bits as if it were signed, and the element is the residue of 2^(w−1) − 2²⁵⁶ instead of that of −2^(w−1) (`C97_violated`, both fields). In the other direction the element of `i128::MIN` is converted to nothing, because the absolute value 2¹²⁷ is not an `i128` (`C97_to_i128_violated`). All other integers convert correctly both ways (`C97_from_signed_partial`, `C97_from_unsigned`, `C97_to_64`, `C97_to_128_partial`, `C97_roundtrip_partial`).
- **C98** (`examples/group_sig/elliptic_helpers.rs`): the constraints of `point_add` hold for every output when the two inputs are the same point (`C98_add_violated`); `bit_decomp_test` adds up the constraints of all bits, so entries that are not bits pass if the errors cancel, as −1/5 and 3/5 for the target 1 (`C98_bits_violated`); the last row of `scalar_mult` does not have the multiple by a scalar with bit 255 set, because the sum of a row is written before the bit is used (`C98_last_row_violated`). Proved: doubling and conditions for all inputs, addition for different points, bits for entries that are bits, the table for all scalars unless an exceptional point is met.
- **C99** (`examples/group_sig/signature.rs`): the system does not mention the claim (the list ends with the comment "Boundary Constraints"), and the factor X²⁵⁶ − g^(256·511) of `on_hash_loop_rows` vanishes on all odd rows instead of the rows 255 and 511, so that only the steps from even rows are constrained (`C99_system`). One table satisfies the systems of all claims and can be proved for each (`C99_violated`); `SigRun.forged` is an accepted proof for a key that is not a point of the curve. The honest table of a signature satisfies the system (`C99_trace_partial`).
- **C101** (`crypto/stark/examples/mimc_tree.rs:154-155`): the seed has the leaf and the root but not `start_left`, the side of the leaf, a field element chosen freely by whoever makes the claim (`C101_violated`). The equation at the out-of-domain point is linear in it, so it can be solved for after the challenges are known: who knows a path from one leaf to a root can make a proof that is accepted for any other element as a leaf under this root, with some side (`C101_every_leaf_violated`, `C101_other_seed`; a run is `C101_forged_violated`). The verifier should demand 0 or 1 for the side, or the seed should include it. All other seeds determine their claims; that of `Claim2` does if there are as many exponents as coefficients.
- **C103** (`testing_contracts/trivial_fib.sol:16-82`): `TrivialFib` uses neither the public input nor the values it is given, so the verifier accepts a proof with it for every public input or for none (`C103_trivial_violated`; `C103_accepted_violated` is a proof that is accepted, with a hash that is always zero). The comment of the contract says that it is for tests only. `Recurrence` starts from a coin that determines the public input (`C103_recurrence_partial`); what it accepts is C79.
