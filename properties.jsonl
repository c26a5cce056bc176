{"id": "C01", "title": "U256 addition, subtraction and negation are exact modulo 2^256", "statement": "For all U256 values a and b, `a + b`, `a - b` and `-a` return the U256 whose integer value is (a+b), (a-b), (-a) reduced modulo 2^256, and the borrow/carry helper functions satisfy their exact two-limb equations.", "quantifier": "every pair of 256-bit values, including every carry and borrow chain", "why_tests_cant": "2^512 input pairs; carry-propagation bugs hide in a vanishing fraction of them", "anchors": ["algebra/u256/src/additive.rs: AddAssign, SubAssign, Neg", "algebra/u256/src/limb_operations.rs: adc, sbb"]}
{"id": "C02", "title": "U256 multiplication and squaring are exact", "statement": "For all a, b: `a * b` is the product modulo 2^256, `mul_full` returns (lo, hi) with lo + 2^256*hi = a*b exactly, `square`/`square_full` agree with multiplying a by itself, and multiplication by a u64 returns the exact 320-bit product.", "quantifier": "every pair of 256-bit values and every 64-bit multiplier", "why_tests_cant": "2^512 inputs; the squaring routine uses a different schedule than the multiplier and can diverge on rare carries", "anchors": ["algebra/u256/src/multiplicative.rs: mul_inline, mul_full_inline, square_full_inline, sqr, Mul<u64>", "algebra/u256/src/limb_operations.rs: mac"]}
{"id": "C03", "title": "U256 division returns the Euclidean quotient and remainder", "statement": "`div_rem(a, b)` is None exactly when b = 0; otherwise it returns (q, r) with a = q*b + r and r < b, for a 64-bit divisor and for a 256-bit divisor, and no intermediate step panics.", "quantifier": "every dividend and divisor", "why_tests_cant": "Knuth's algorithm D has correction branches taken with probability about 2^-64; random tests never reach them", "anchors": ["algebra/u256/src/division.rs: DivRem", "algebra/u256/src/arch/generic/knuth_division.rs: divrem_nbym, div_3by2, divrem_nby1"]}
{"id": "C04", "title": "Modular multiplication mulmod is exact", "statement": "For all a, b and every non-zero modulus m, `a.mulmod(&b, &m)` equals (a*b) mod m; for m = 0 it panics.", "quantifier": "every triple of 256-bit values", "why_tests_cant": "2^768 inputs, with different code paths for each modulus limb length and rarely taken quotient corrections", "anchors": ["algebra/u256/src/multiplicative.rs: mulmod", "algebra/u256/src/arch/generic/knuth_division.rs: divrem_nbym"]}
{"id": "C05", "title": "U256 ordering, bit access, bit counts and shifts agree with the integers", "statement": "Comparison orders values as integers; `bit(i)` is the i-th binary digit (false beyond 255); `leading_zeros`, `trailing_zeros` and `bits` are exact; `a << n` is a*2^n mod 2^256 and `a >> n` is floor(a / 2^n) for every n, including n >= 256.", "quantifier": "every 256-bit value and every shift amount", "why_tests_cant": "each limb boundary and each shift amount is a separate path; the product space is too large to enumerate", "anchors": ["algebra/u256/src/u256.rs: Ord", "algebra/u256/src/binary.rs: bit, leading_zeros, trailing_zeros, ShlAssign, ShrAssign"]}
{"id": "C06", "title": "Big-endian byte encoding of U256 is a lossless round trip", "statement": "`to_bytes_be` writes the base-256 digits of the value, most significant first, and `from_bytes_be` is its two-sided inverse on 32-byte arrays.", "quantifier": "every 256-bit value and every 32-byte array", "why_tests_cant": "must hold for all 2^256 values; commitments and transcripts are built on it", "anchors": ["algebra/u256/src/conversion.rs: from_bytes_be, to_bytes_be"]}
{"id": "C07", "title": "Decimal strings round trip and are range checked", "statement": "Printing a U256 in decimal gives its canonical decimal numeral and parsing that numeral gives the value back; parsing accepts a digit string exactly when its value is below 2^256 and returns that value.", "quantifier": "every 256-bit value and every string of digits, of any length", "why_tests_cant": "strings are unbounded and the overflow check is only wrong for a handful of prefixes", "anchors": ["algebra/u256/src/encoding.rs: from_decimal_str, to_decimal_string"]}
{"id": "C08", "title": "gcd, extended gcd and modular inverse by Lehmer's algorithm are correct", "statement": "`gcd(a,b)` is the greatest common divisor; `gcd_extended` returns it together with Bezout coefficients and their sign; `inv_mod(m, x)` returns Some(y) with x*y = 1 (mod m), 0 <= y < m exactly when x and m are coprime, and None otherwise.", "quantifier": "every pair of 256-bit values (modulus greater than one)", "why_tests_cant": "the algorithm runs on leading 64-bit approximations with a delicate stopping rule; a wrong bound fails on rare inputs only", "anchors": ["algebra/u256/src/arch/generic/lehmer_gcd.rs: gcd, gcd_extended, inv_mod, lehmer_double, lehmer_loop"]}
{"id": "C09", "title": "U256 inverse modulo 2^256", "statement": "`inv` on a U256 returns None exactly for even values and otherwise the unique y with x*y = 1 modulo 2^256.", "quantifier": "every 256-bit value", "why_tests_cant": "Newton iteration count must suffice for every odd value", "anchors": ["algebra/u256/src/division.rs: InvMod / Inv for U256"]}
{"id": "C10", "title": "Montgomery reduction and multiplication are exact", "statement": "For every odd modulus m (within the documented range) and its constants, Montgomery reduction of a (lo, hi) pair with value below m*2^256 returns the unique r < m with r*2^256 = lo + 2^256*hi (mod m), Montgomery multiplication composes the product with it, and the specialised routine for Proth moduli returns exactly the same values as the generic one.", "quantifier": "every admissible modulus and every operand pair", "why_tests_cant": "all field arithmetic sits on this; the final conditional subtraction and carries fail on about one in 2^64 inputs", "anchors": ["algebra/u256/src/algorithms/montgomery/generic.rs", "algebra/u256/src/algorithms/montgomery/proth.rs", "algebra/u256/src/algorithms/montgomery/mod.rs"]}
{"id": "C11", "title": "Exponentiation is exact for every exponent", "statement": "`U256::pow(e)` is the e-th power modulo 2^256 and field `pow(e)` is the e-th power in the field for every exponent type, including 0, and negative exponents give the inverse power (None for zero).", "quantifier": "every base and every exponent", "why_tests_cant": "square-and-multiply must be right for every bit pattern of the exponent", "anchors": ["algebra/u256/src/multiplicative.rs: pow", "algebra/primefield/src/prime_field.rs: Pow"]}
{"id": "C12", "title": "Summing an iterator of U256 gives the sum", "statement": "Collecting an iterator of U256 with `sum()` gives the sum of its items modulo 2^256 (zero for the empty iterator), and `product()` the product.", "quantifier": "every finite sequence of values", "why_tests_cant": "sequences are unbounded", "anchors": ["algebra/u256/src/additive.rs: Sum", "algebra/u256/src/multiplicative.rs: Product"]}
{"id": "C13", "title": "Field element arithmetic is arithmetic modulo the prime", "statement": "With p = 2^251 + 17*2^192 + 1: conversion of a U256 into a field element, the operators + - * and unary -, equality, zero/one tests and conversion back to U256 compute exactly the corresponding operations of the field of integers modulo p, and every result is stored in canonical form (below p), so equality of representations is equality of field elements.", "quantifier": "every pair of field elements and every U256 converted into one", "why_tests_cant": "2^502 operand pairs; a missed final subtraction shows up once in 2^60", "anchors": ["algebra/primefield/src/prime_field.rs", "algebra/primefield/src/proth_field.rs", "algebra/primefield/src/uint.rs", "algebra/primefield/src/ops.rs"]}
{"id": "C14", "title": "Field inversion", "statement": "`inv` returns None exactly for zero and otherwise the field element y with x*y = 1; division by a non-zero element is multiplication by it.", "quantifier": "every field element", "why_tests_cant": "depends on primality of the modulus and on the Lehmer loop for all inputs", "anchors": ["algebra/primefield/src/prime_field.rs: Inv", "algebra/primefield/src/ops.rs: Div"]}
{"id": "C15", "title": "Roots of unity", "statement": "`FieldElement::root(n)` returns Some(w) with w of multiplicative order exactly n for every n >= 1 dividing p-1, and None for other n >= 1; `generator()` generates the whole multiplicative group.", "quantifier": "every order n", "why_tests_cant": "needs the multiplicative order of 3 modulo a 252-bit prime, i.e. the complete factorisation of p-1", "anchors": ["algebra/primefield/src/prime_field.rs: Root, generator", "algebra/primefield/src/proth_field.rs: GENERATOR, ORDER"]}
{"id": "C16", "title": "Square roots", "statement": "`square_root(x)` returns Some(r) with r*r = x exactly when x is a square (including zero) and None otherwise, and it always terminates.", "quantifier": "every field element", "why_tests_cant": "Tonelli-Shanks on a field with 2-adicity 192 has loop bounds depending on the input", "anchors": ["algebra/primefield/src/prime_field.rs: SquareRoot"]}
{"id": "C17", "title": "Batch inversion equals elementwise inversion", "statement": "`invert_batch` on a slice without zeros returns the inverse of each element in order; if some element is zero it panics rather than returning a wrong result; the in-place and source/destination variants agree.", "quantifier": "every slice length and content", "why_tests_cant": "slices are unbounded; the backward accumulator pass must be right for all of them", "anchors": ["algebra/primefield/src/invert_batch.rs"]}
{"id": "C18", "title": "Geometric series iteration", "statement": "`geometric_series(base, step)` yields base*step^i as its i-th item, and its skip/step/chunk adapters yield the same items at the expected positions.", "quantifier": "every base, step, position and length", "why_tests_cant": "unbounded positions; adapters must commute for all parameters", "anchors": ["algebra/primefield/src/geometric_series.rs"]}
{"id": "C19", "title": "Bit-reversal permutation", "statement": "`permute_index(n, i)` for n = 2^k and i < n reverses the k low bits of i; it is an involution, and `permute` applies it to a slice, so applying it twice restores the slice.", "quantifier": "every power-of-two size and every index", "why_tests_cant": "all sizes and contents", "anchors": ["algebra/primefield/src/fft/bit_reverse.rs"]}
{"id": "C20", "title": "FFT computes the discrete Fourier transform in bit-reversed order", "statement": "For every power-of-two length n, `fft` replaces the slice by the values of the polynomial with those coefficients at the powers of the n-th root of unity, in bit-reversed order, whichever strategy (small recursive or square-root decomposition with transposes) the length selects; `fft_cofactor` does so on the shifted domain. The public transforms of two, four and eight values do so for values at any offset and stride and change nothing else.", "quantifier": "every power-of-two length and every slice content", "why_tests_cant": "lengths are unbounded, and each strategy switch is a separate path", "anchors": ["algebra/primefield/src/fft/mod.rs", "algebra/primefield/src/fft/recursive.rs", "algebra/primefield/src/fft/radix_sqrt.rs", "algebra/primefield/src/fft/transpose.rs", "algebra/primefield/src/fft/small.rs"]}
{"id": "C21", "title": "Inverse FFT inverts the FFT", "statement": "Interpolating the values produced by `fft` (after undoing bit-reversal) with `ifft` (again up to bit-reversal) restores the coefficients, for every power-of-two length.", "quantifier": "every power-of-two length and content", "why_tests_cant": "unbounded lengths", "anchors": ["algebra/primefield/src/fft/mod.rs: ifft, ifft_cofactor"]}
{"id": "C22", "title": "Transposition of square-ish matrices", "statement": "`transpose_square_stretch` exchanges rows and columns of a size x size matrix of stretch-element entries, and applying it twice is the identity.", "quantifier": "every even size and stretch 1 or 2, every content", "why_tests_cant": "blocked in-place swaps must be right for every size", "anchors": ["algebra/primefield/src/fft/transpose.rs"]}
{"id": "C23", "title": "Affine point arithmetic is the elliptic-curve group law", "statement": "Adding, doubling and negating affine points of the curve y^2 = x^3 + x + beta gives a point on the curve, and equals the group law of the curve, including every exceptional case (zero, equal points, opposite points, points with y = 0).", "quantifier": "every pair of points on the curve", "why_tests_cant": "exceptional cases have negligible probability; associativity is a universal statement", "anchors": ["algebra/elliptic-curve/src/curve.rs"]}
{"id": "C24", "title": "Jacobian point arithmetic agrees with affine arithmetic", "statement": "Converting to Jacobian coordinates, doubling, negating and adding there (both Jacobian+Jacobian and Jacobian+Affine) and converting back gives the affine group-law result for all representatives.", "quantifier": "every pair of points and every choice of projective scaling", "why_tests_cant": "every point has 2^251 representatives, and special cases are rarely sampled", "anchors": ["algebra/elliptic-curve/src/jacobian.rs"]}
{"id": "C25", "title": "Windowed non-adjacent form represents the scalar", "statement": "The signed digit expansion used by scalar multiplication sums to the scalar, its non-zero digits are odd and bounded by the window, and the table lookups it causes are always in range.", "quantifier": "every scalar and every window width from 2 to 14 bits (the function is private to its crate, which uses 5 and 7)", "why_tests_cant": "2^252 scalars", "anchors": ["algebra/elliptic-curve/src/wnaf.rs: non_adjacent_form"]}
{"id": "C26", "title": "Scalar multiplication variants all compute k*P", "statement": "Double-and-add, wNAF multiplication, base-point multiplication with a precomputed table and double multiplication all return the k-fold sum of the point (respectively a*P + b*Q).", "quantifier": "every scalar and every point on the curve", "why_tests_cant": "2^252 scalars times the group order of points; sign handling of digits", "anchors": ["algebra/elliptic-curve/src/curve.rs: MulAssign", "algebra/elliptic-curve/src/wnaf.rs: mul, base_mul, double_mul, double_base_mul"]}
{"id": "C27", "title": "Signatures made by a private key verify under its public key", "statement": "For every non-zero private key and every digest, `sign` returns a signature that `verify` accepts under the matching public key.", "quantifier": "every private key and digest", "why_tests_cant": "2^500 key/digest pairs", "anchors": ["crypto/elliptic-curve-crypto/src/private_key.rs: sign", "crypto/elliptic-curve-crypto/src/public_key.rs: verify"]}
{"id": "C28", "title": "Signature verification accepts exactly the ECDSA equation", "statement": "`verify(digest, (r, w))` accepts exactly when r and w are non-zero, the key is on the curve and the x coordinate of digest*w*G + r*w*P reduced modulo the group order equals r; otherwise it rejects (returns false).", "quantifier": "every public key, digest and signature pair", "why_tests_cant": "forgeries are not found by sampling; the decision must be exact on all inputs", "anchors": ["crypto/elliptic-curve-crypto/src/public_key.rs: verify"]}
{"id": "C29", "title": "Merkle tree node indices form a complete binary tree", "statement": "Index construction rejects exactly the out-of-range arguments, and depth, offset, parent, children, sibling, neighbours and last common ancestor satisfy the laws of the complete binary tree (child of parent, sibling symmetric, the LCA is the deepest common ancestor).", "quantifier": "every index up to the documented maximum", "why_tests_cant": "2^63 indices and all pairs of them", "anchors": ["crypto/merkle-tree/src/index.rs"]}
{"id": "C30", "title": "Merkle openings verify", "statement": "For every list of leaves (power-of-two length) and every list of leaf positions, opening the tree at those positions and verifying the resulting proof with the true leaf hashes succeeds against the tree's commitment.", "quantifier": "every tree size, content and set of positions, with duplicates and in any order", "why_tests_cant": "exponentially many position subsets", "anchors": ["crypto/merkle-tree/src/tree.rs: open", "crypto/merkle-tree/src/proof.rs: verify", "crypto/merkle-tree/src/commitment.rs"]}
{"id": "C31", "title": "Merkle proof size is predicted exactly", "statement": "The number of hashes in an opening equals `Commitment::proof_size(indices)` for every set of positions, and a proof with any other number of hashes is rejected.", "quantifier": "every tree size and set of positions", "why_tests_cant": "exponentially many position subsets", "anchors": ["crypto/merkle-tree/src/commitment.rs: proof_size", "crypto/merkle-tree/src/tree.rs: open", "crypto/merkle-tree/src/proof.rs: from_hashes"]}
{"id": "C32", "title": "Merkle commitments are binding", "statement": "If two proofs against the same commitment both verify and claim different leaf hashes for the same position, then two different inputs to the node hash with equal output can be computed from them.", "quantifier": "every pair of proofs (possibly adversarial) against any commitment", "why_tests_cant": "adversarial inputs; soundness is a for-all-proofs statement", "anchors": ["crypto/merkle-tree/src/proof.rs: verify", "crypto/merkle-tree/src/node.rs"]}
{"id": "C33", "title": "Skipping stored layers does not change a Merkle tree's observable results", "statement": "Trees built from the same leaves with different numbers of skipped (recomputed) layers have the same commitment and produce identical openings.", "quantifier": "every leaf list, skip depth and position set", "why_tests_cant": "unbounded sizes", "anchors": ["crypto/merkle-tree/src/tree.rs: from_leaves_skip_layers, node_hash"]}
{"id": "C34", "title": "Prover and verifier transcripts stay in agreement", "statement": "If the prover channel performs any sequence of writes and random draws, and the verifier channel performs the corresponding replays and draws on the resulting bytes, then every replayed value equals the written one, every random value drawn is the same on both sides, and the verifier ends exactly at the end of the proof.", "quantifier": "every interaction sequence of any length", "why_tests_cant": "unbounded histories", "anchors": ["crypto/stark/src/channel.rs"]}
{"id": "C35", "title": "Random field elements are canonical and uniformly mapped", "statement": "Drawing a random field element returns, for every transcript state, the first candidate hash block (top four bits cleared) below the modulus, so the result is always canonical, and the counter advances by the number of candidates examined.", "quantifier": "every transcript state", "why_tests_cant": "rejection sampling loops a state-dependent number of times", "anchors": ["crypto/stark/src/channel.rs: RandomGenerator<FieldElement>"]}
{"id": "C36", "title": "Parallel proof-of-work search returns the least valid nonce", "statement": "For any number of threads, any interleaving of their loads, compare-exchange operations (including spurious failures) and any stale relaxed reads, the parallel solver returns a nonce accepted by `verify`, and no smaller nonce is accepted.", "quantifier": "every schedule of every number of threads and every challenge", "why_tests_cant": "schedules cannot be enumerated by running", "anchors": ["crypto/stark/src/proof_of_work.rs: solve, fetch_min, verify"]}
{"id": "C37", "title": "Polynomial evaluation, degree and division by a linear factor", "statement": "`evaluate` returns the value of the polynomial with the given coefficients, `degree` its degree, and dividing out a point accumulates scale*(P(X)-P(z))/(X-z) exactly.", "quantifier": "every polynomial, point and scale", "why_tests_cant": "unbounded lengths", "anchors": ["crypto/stark/src/polynomial.rs"]}
{"id": "C38", "title": "Low degree extension evaluates the polynomial on the shifted domain", "statement": "`low_degree_extension(blowup)` lists the values of the polynomial at all points of the coset g*<w> of size blowup*n in bit-reversed order.", "quantifier": "every polynomial length and blowup that are powers of two", "why_tests_cant": "unbounded lengths", "anchors": ["crypto/stark/src/polynomial.rs: low_degree_extension"]}
{"id": "C39", "title": "FRI folding commutes with evaluation", "statement": "Folding the evaluations of a polynomial over the (bit-reversed) domain with coefficient alpha gives the evaluations over the squared domain of the polynomial 2*(even + alpha*odd), so k folds of a polynomial of degree < d*2^k give one of degree < d; the verifier's coset fold of 2^k values equals the prover's k successive layer folds at that index.", "quantifier": "every domain size, polynomial, number of folds and challenge", "why_tests_cant": "unbounded sizes", "anchors": ["crypto/stark/src/prover.rs: perform_fri_layering", "crypto/stark/src/verifier.rs: fri_fold, fri_single_fold"]}
{"id": "C40", "title": "Prover and verifier derive the same query positions", "statement": "From equal transcript states the prover and the verifier draw identical query index lists; the list has the requested length, is sorted and every index is inside the evaluation domain.", "quantifier": "every transcript state, number of queries and domain size", "why_tests_cant": "state dependent", "anchors": ["crypto/stark/src/prover.rs: get_indices", "crypto/stark/src/verifier.rs: get_indices"]}
{"id": "C41", "title": "Constraint degree bounds are sound", "statement": "For every constraint expression and trace polynomials of degree below the trace length, the reported (numerator, denominator) degree bounds are at least the true degrees of some numerator/denominator pair representing the expression.", "quantifier": "every expression tree and every trace", "why_tests_cant": "expressions are an unbounded recursive type", "anchors": ["crypto/stark/src/rational_expression.rs: degree_impl", "crypto/stark/src/constraints.rs: degree"]}
{"id": "C42", "title": "Expression substitution and mapping preserve meaning", "statement": "Replacing sub-expressions by equal-valued ones with `map`, and substituting claim polynomials, preserve the value of an expression at every point; the trace arguments listed are exactly those the evaluation depends on.", "quantifier": "every expression and evaluation point", "why_tests_cant": "unbounded recursive type", "anchors": ["crypto/stark/src/rational_expression.rs: map, substitute_claim, evaluate, trace_arguments"]}
{"id": "C43", "title": "Constraint combination has the target degree and is evaluated consistently by prover and verifier", "statement": "The random linear combination of constraints with degree adjustments has degree at most the target degree whenever each constraint is a polynomial of its declared degree, and its evaluation is the stated linear combination. The degree reported for a system is the largest trace degree of its constraints (the rate at which their degrees grow with the trace), and it is enough: for every number of rows the combination exists, provided no denominator contains a trace cell and the parts without trace are below it.", "quantifier": "every constraint system and coefficient list", "why_tests_cant": "unbounded", "anchors": ["crypto/stark/src/constraints.rs: combine, degree"]}
{"id": "C44", "title": "Constraint-system construction rejects ill-formed systems", "statement": "`Constraints::from_expressions` accepts exactly the systems with power-of-two row count within limits (returning the documented error otherwise), and the default FRI layout folds a trace of n rows to a final layer of the intended size.", "quantifier": "every trace shape and expression list", "why_tests_cant": "all sizes", "anchors": ["crypto/stark/src/constraints.rs: from_expressions, detailed, default_fri_layout"]}
{"id": "C45", "title": "Proof size bound", "statement": "`max_proof_size` is an upper bound on the number of bytes in any proof produced for the constraint system.", "quantifier": "every constraint system and every query set", "why_tests_cant": "depends on random query positions", "anchors": ["crypto/stark/src/constraints.rs: max_proof_size"]}
{"id": "C46", "title": "Trace table layout", "statement": "A trace table stores exactly one cell per (row, column), writing a cell affects only that cell, and column iteration returns the column in row order; interpolation returns polynomials whose values on the trace domain are the column entries.", "quantifier": "every table shape, content and sequence of writes", "why_tests_cant": "unbounded sizes and histories", "anchors": ["crypto/stark/src/trace_table.rs"]}
{"id": "C47", "title": "Component combinators preserve trace cells and constraint meaning", "statement": "Fold, horizontal and vertical composition map each cell of the inner component to a distinct cell of the outer trace, and the rewritten constraints evaluate on the outer trace to what the inner constraints evaluate to on the inner trace, so a satisfied inner component stays satisfied.", "quantifier": "every component size, nesting and trace content", "why_tests_cant": "nesting is unbounded", "anchors": ["crypto/stark/src/component/fold.rs", "crypto/stark/src/component/horizontal.rs", "crypto/stark/src/component/vertical.rs", "crypto/stark/src/component/mapped.rs"]}
{"id": "C48", "title": "Trace checking reports exactly the violated constraints", "statement": "`check_constraints` returns Ok exactly when each constraint is a well-defined (no division of non-zero by zero) at every row, and otherwise the first offending pair; `check_specific_constraint` agrees with it at every row.", "quantifier": "every trace and constraint system", "why_tests_cant": "unbounded", "anchors": ["crypto/stark/src/constraint_check.rs", "crypto/stark/src/rational_expression.rs: check"]}
{"id": "C49", "title": "The prover's common-subexpression evaluator computes the constraint", "statement": "Evaluating the optimised expression graph row by row gives the value of the original expression at each point of the evaluation coset, provided nodes identified by the optimiser are equal as functions, for expressions defined on the coset whose trace offsets reach back at most one trace length.", "quantifier": "every expression and row", "why_tests_cant": "expression graphs are unbounded", "anchors": ["crypto/stark/src/algebraic_dag.rs"]}
{"id": "C50", "title": "Honest proofs are accepted", "statement": "For every constraint system and trace that satisfies it, the byte string produced by `prove` is accepted by `verify`.", "quantifier": "every satisfied constraint system, trace, and hash function", "why_tests_cant": "whole protocol; state space is unbounded", "anchors": ["crypto/stark/src/prover.rs: prove", "crypto/stark/src/verifier.rs: verify"]}
{"id": "C51", "title": "The verifier is total and rejects malformed proofs", "statement": "On every byte string `verify` returns Ok or an error, never panics, and it returns Ok only if the whole string has been consumed.", "quantifier": "every byte string", "why_tests_cant": "adversarial byte strings are unbounded", "anchors": ["crypto/stark/src/verifier.rs: verify", "crypto/stark/src/channel.rs: VerifierChannel"]}
{"id": "C52", "title": "Equality of polynomials is semantic equality", "statement": "Two DensePolynomials compare equal exactly when they are the same polynomial.", "quantifier": "every pair of polynomials", "why_tests_cant": "a randomised comparison agrees on all sampled pairs", "anchors": ["crypto/stark/src/polynomial.rs: PartialEq"]}
{"id": "C53", "title": "MmapVec behaves like a Vec with fixed capacity", "statement": "Any sequence of push, extend, truncate, clear, resize, clone and indexing operations on MmapVec returns what the same sequence returns on an ordinary Vec, as long as the length never exceeds the capacity; exceeding it panics and never grows.", "quantifier": "every operation history", "why_tests_cant": "histories are unbounded", "anchors": ["utils/mmap-vec/src/mmap_vec.rs"]}
{"id": "C54", "title": "Allocation statistics are exact under concurrency", "statement": "For any number of threads and any interleaving of alloc and dealloc, once all calls have returned the counters equal the number of successful allocations, the total bytes allocated, the bytes currently live and the largest request; the peak is at least the bytes live after every allocation.", "quantifier": "every schedule of every multiset of operations", "why_tests_cant": "interleavings cannot be enumerated", "anchors": ["utils/logging-allocator/src/logging_allocator.rs"]}
{"id": "C55", "title": "Compile-time constants are converted like run-time values", "statement": "The `field_element!` macro's conversion of a hexadecimal literal yields the same representation as converting the parsed U256 into a field element at run time.", "quantifier": "every literal below the modulus", "why_tests_cant": "literals are an infinite family; the macro carries its own copy of Montgomery multiplication", "anchors": ["utils/macros-lib/src/lib.rs: montgomery_convert"]}
{"id": "C56", "title": "Hexadecimal parsing", "statement": "`from_hex_str` on a string of at most 64 hexadecimal digits, with or without 0x, returns its value; longer strings are rejected.", "quantifier": "every string", "why_tests_cant": "strings are unbounded", "anchors": ["algebra/u256/src/encoding.rs: from_hex_str"]}
{"id": "C57", "title": "Primality of the two moduli", "statement": "The base-field modulus and the scalar-field modulus are prime, so the rings of residues the API exposes are fields.", "quantifier": "every potential divisor", "why_tests_cant": "no test can exclude all divisors of a 252-bit number", "anchors": ["algebra/primefield/src/proth_field.rs: MODULUS", "algebra/elliptic-curve/src/scalar_field.rs: MODULUS"]}
{"id": "C58", "title": "Random sampling in a range terminates with an in-range value", "statement": "Sampling a uniform U256 in [low, high) (or [low, high]) returns a value in the range whenever the random source eventually yields an accepted word, and maps accepted words uniformly.", "quantifier": "every range and every random stream", "why_tests_cant": "all ranges and streams", "anchors": ["algebra/u256/src/rand.rs"]}
{"id": "C59", "title": "Conversions between U256 and primitive integers", "statement": "Converting an unsigned or signed primitive integer to U256 gives its value modulo 2^256 (two's complement), the `as_` conversions give the value modulo 2^w in the range of the target type, and converting a signed integer and back is the identity.", "quantifier": "every primitive integer and every 256-bit value", "why_tests_cant": "2^128 integers and 2^256 values; sign extension boundaries", "anchors": ["algebra/u256/src/conversion.rs: From<u*>, From<i*>, as_u*, as_i*"]}
{"id": "C60", "title": "Reported security level", "statement": "`security_bits` returns the documented conservative level log2(blowup) * (queries / 2) + pow_bits for every power-of-two blowup.", "quantifier": "every blowup 2^b, number of queries and proof-of-work difficulty", "why_tests_cant": "all parameter combinations; an off-by-one in the logarithm only shows up against an independent formula", "anchors": ["crypto/stark/src/constraints.rs: security_bits"]}
{"id": "C61", "title": "The built-in test component and its compositions accept every witness", "statement": "For every power-of-two number of rows, number of columns, seed, claim and witness, the trace written by the test component satisfies its constraints; so do its folds, its stacks with a common claim and two of them side by side.", "quantifier": "every trace size, number of columns, seed, claim, witness, number of folds and copies", "why_tests_cant": "all sizes and field elements", "anchors": ["crypto/stark/src/component/test.rs: Test", "crypto/stark/src/component/mod.rs: Component::check"]}
{"id": "C62", "title": "Memory-mapped vector never destroys a value twice", "statement": "For every sequence of operations on a memory-mapped vector, the destructor of a value stored in it runs at most as often as that value was put in: no value is destroyed twice, and no destroyed value is handed out again.", "quantifier": "all element types with destructors, all capacities, all sequences of operations", "why_tests_cant": "A double destruction depends on the history (a truncation followed by a push), and on element types with destructors; the tests only use integers.", "anchors": ["utils/mmap-vec/src/mmap_vec.rs:MmapVec::push", "utils/mmap-vec/src/mmap_vec.rs:MmapVec::truncate", "utils/mmap-vec/src/mmap_vec.rs:MmapVec::resize"]}
{"id": "C63", "title": "Accepted proofs satisfy every check of the protocol", "statement": "If the verifier accepts a byte string, then the string is exactly a sequence of the parts of a proof in which every challenge (constraint coefficients, out-of-domain point, combination coefficients, FRI folding coefficients, query positions) is derived from a hash of the seed and all parts before it, the proof of work meets the difficulty, the combination of the constraints at the out-of-domain point equals the claimed constraint polynomial there, every queried row is in the committed tables (or a hash collision is exhibited), and at every queried position the FRI layers are folds of each other from the combination of the queried rows to the last polynomial.", "quantifier": "every constraint system with power-of-two sizes, every byte string the verifier accepts, every hash function", "why_tests_cant": "A dropped or mis-ordered check leaves every honest proof accepted: tests with honest proofs cannot see it, and the adversarial proofs that exploit it cannot be enumerated.", "anchors": ["crypto/stark/src/verifier.rs: verify", "crypto/stark/src/channel.rs: VerifierChannel", "crypto/merkle-tree/src/proof.rs: Proof::verify", "crypto/stark/src/proof_of_work.rs"]}
{"id": "C64", "title": "Soundness: an accepted proof has a trace behind it", "statement": "If the verifier accepts a byte string and the roots in it are those of some tables, then one of the following holds: the proof and the tables contain a hash collision; a challenge lies in a set of bad values that is fixed before the challenge is drawn and has at most the stated number of elements; the queries all pass although more than a stated number of positions would fail; or there are trace polynomials, close to the committed trace table, for which every constraint is satisfied: the table of their values on the trace domain satisfies the numerator of each constraint in every row in which its denominator vanishes.", "quantifier": "every constraint system with power-of-two sizes, every accepted byte string, all tables behind its roots, every proximity parameter within the bounds", "why_tests_cant": "The claim is about all adversarial proofs and all tables; no test can enumerate strategies of a cheating prover.", "anchors": ["crypto/stark/src/verifier.rs: verify", "crypto/stark/src/constraints.rs: combine", "crypto/stark/src/verifier.rs: fri_fold, DEEP combination"]}
{"id": "C65", "title": "Assembly routines agree with the portable ones", "statement": "The x86-64 assembly versions of 256-bit arithmetic that replace portable code when the library is built with the `asm` feature (conditional subtraction of the modulus, truncated and full multiplication, Montgomery reduction for moduli 1 + m3*2^192, Montgomery multiplication) return the same result as the portable versions.", "quantifier": "all operands and moduli in range, all register, flag and memory contents on entry", "why_tests_cant": "A lost carry shows for one in 2^64 operands; tests with random operands do not find it.", "anchors": ["algebra/u256/src/arch/x86_64/mod.rs: reduce_1", "algebra/u256/src/arch/x86_64_adx/mod.rs: proth_redc_asm, mul_1_asm, mul_add_1_asm, full_mul_asm2, mul_asm, full_mul_asm, mul_redc"]}
{"id": "C66", "title": "Challenges are bound to the whole history", "statement": "A random block drawn from the public coin determines the seed and all messages absorbed before it (their number being known) and the number of blocks drawn since the last message; otherwise two of the strings hashed in the two histories are a hash collision. Drawing blocks has no influence on what is drawn after the next message.", "quantifier": "all seeds, all histories of messages and draws, every hash function", "why_tests_cant": "A coin that forgets part of the history still makes prover and verifier agree: no test with honest proofs can notice.", "anchors": ["crypto/stark/src/channel.rs: PublicCoin, RandomGenerator, Writable"]}
{"id": "C67", "title": "Encodings round-trip and are canonical", "statement": "The binary (SCALE) and serde encodings of numbers, field elements, curve points, public and private keys and signatures have a fixed layout (numbers in 32 bytes, r before w, a tag and x before y), decode to the value that was encoded, consume exactly its bytes, and no other byte string decodes: a decoder returns an error for everything an encoder does not write.", "quantifier": "all values, all byte strings, everything that may follow, both build profiles", "why_tests_cant": "Round trips of random values never reach the non-canonical encodings.", "anchors": ["algebra/primefield/src/parity_codec.rs: Encode, Decode", "algebra/primefield/src/serde.rs: Serialize, Deserialize", "algebra/u256/src/conversion.rs: Serialize, Deserialize", "algebra/u256/src/u256.rs: derive(Encode, Decode)", "algebra/elliptic-curve/src/curve.rs: derive(Encode, Decode)", "crypto/elliptic-curve-crypto/src/signature.rs: derive(Encode, Decode)"]}
{"id": "C68", "title": "Fibonacci example", "statement": "An accepted proof of the Fibonacci example for the claim (index, value) shows that value is the element at index of the Fibonacci sequence that starts with 1 and a secret the prover committed to; and for every true claim the trace of the secret passes the check and can be proved.", "quantifier": "every index (with sizes up to the largest domain), secret and value, every accepted byte string", "why_tests_cant": "The system is only tested with one index; for other indices the constrained row can be another one.", "anchors": ["crypto/stark/examples/small_fib.rs: Claim, constraints, trace", "crypto/stark/examples/large_fib.rs"]}
{"id": "C69", "title": "MiMC examples", "statement": "An accepted proof of the cubic, the quadratic or the hash variant of the MiMC examples shows that the claimed output is the MiMC output (for the hash: the output of the two-element sponge) of the claimed input; and for every true claim the trace passes the check and can be proved.", "quantifier": "every input and output, every list of round constants, every power of two of rounds (for the hash: the 256 rows of the example and every key), every accepted byte string", "why_tests_cant": "The systems are tested on one input each; a false output that satisfies the system would not be found.", "anchors": ["crypto/stark/examples/mimc/cubic.rs", "crypto/stark/examples/mimc/quadratic.rs", "crypto/stark/examples/mimc_hash.rs"]}
{"id": "C70", "title": "MiMC Merkle tree example", "statement": "An accepted proof of the MiMC tree example for the claim (leaf, root) shows that some path of siblings and directions leads from the leaf to the root by the MiMC hash; and for every such path the trace passes the check and can be proved.", "quantifier": "every leaf, root, path length (a power of two), direction pattern and every accepted byte string", "why_tests_cant": "Tests only prove true claims; that false claims cannot be proved is a statement about all tables and all proofs.", "anchors": ["crypto/stark/examples/mimc_tree.rs"]}
{"id": "C71", "title": "Verifiable delay function example", "statement": "An accepted proof of the VDF example for the claim (start, end) shows that the end is obtained from the start by repeatedly cubing in the extension by a square root of r; and for every true claim the trace passes the check and can be proved.", "quantifier": "every start, end, non-residue r and power of two of steps, every accepted byte string", "why_tests_cant": "The example is run on one start; its trace and its constraints share the same formula, so that a wrong formula passes.", "anchors": ["crypto/stark/examples/vdf.rs"]}
{"id": "C72", "title": "On-chain field arithmetic", "statement": "The contract library for field arithmetic computes in the field of the Rust library: sum, difference, product, power, inverse, conversion to and from Montgomery form, roots of unity, values of polynomials and batch inverses are right for all 256-bit words.", "quantifier": "all words, all coefficient lists and arrays of any length, all root orders", "why_tests_cant": "Words above the modulus, wrapping additions and zeros in a batch are cases a test on reduced random numbers never meets.", "anchors": ["crypto/stark-verifier-ethereum/contracts/primefield.sol"]}
{"id": "C73", "title": "On-chain bit and array utilities", "statement": "The contracts reverse bits as the prover does, find the position of the highest bit, sort an array without losing elements, and never grow or overrun an array.", "quantifier": "all words, bit counts, and arrays of any length", "why_tests_cant": "The bit tricks (multiplication and remainder by 1023) have exact ranges of validity which examples do not reveal.", "anchors": ["crypto/stark-verifier-ethereum/contracts/utils.sol"]}
{"id": "C74", "title": "On-chain challenges", "statement": "The contract for the public coin absorbs messages, draws challenges and query positions, and checks the proof of work exactly as the channel of the prover does, so that both sides compute the same challenges from the same transcript.", "quantifier": "all coin states, message lists of any length, numbers of draws, difficulties below 256 and query counts", "why_tests_cant": "A divergence appears only for rare hash outputs (a rejected sample), large counters or unusual counts.", "anchors": ["crypto/stark-verifier-ethereum/contracts/public_coin.sol", "crypto/stark-verifier-ethereum/contracts/proof_of_work.sol", "crypto/stark-verifier-ethereum/contracts/default_cs.sol: get_queries"]}
{"id": "C75", "title": "On-chain Merkle proofs", "statement": "The contract accepts leaves against a Merkle root exactly if they are opened by the proof as in Rust: accepted leaves are those committed to (or a hash collision was found), and valid openings are accepted.", "quantifier": "all trees of up to 2^63 leaves, all lists of positions, leaves and decommitments, all contents of memory and scratch space", "why_tests_cant": "The ring buffer overwrites its input in place and reads memory without bounds; whether old entries can be mistaken for siblings depends on all shapes of query sets.", "anchors": ["crypto/stark-verifier-ethereum/contracts/merkle.sol"]}
{"id": "C76", "title": "The FRI check of the contract accepts exactly what the protocol accepts", "statement": "For every FRI context - queries at distinct ascending positions, values at them, committed layers, decommitments, evaluation points, coefficients of the last layer - and every memory and gas: if the contract does not revert then the protocol accepts the layers (values agree with the previous layer, all cosets are in the committed tree, the folded values are those of the last polynomial), and conversely a proof the protocol accepts makes the contract succeed. This holds for every layout.", "quantifier": "all contexts (values, roots, hashes, layouts, positions), all hash functions, all contents of memory, domains up to 2^40 points", "why_tests_cant": "tests verify a few recorded proofs; folding in place, values that are read in order from the completion array, hard-wired roots of unity and unchecked words can only be excluded for all inputs", "anchors": ["crypto/stark-verifier-ethereum/contracts/fri.sol", "crypto/stark/src/verifier.rs"]}
{"id": "C77", "title": "The points the contract hands to FRI are those of the protocol", "statement": "For every constraint system of the default contract, all opened rows, claimed out-of-domain values, coefficients, out-of-domain point and queries: the contract computes at each query the combination of quotients (row value minus claimed value over the difference of the points) that the verifier in Rust computes, or reverts; and its default layout of the FRI layers is the one of Rust.", "quantifier": "all systems whose layout describes the trace cells, all rows and claimed values, all coefficients, points and queries, all words found behind the arrays", "why_tests_cant": "the tests compare a handful of recorded values; the batch inversion, the offsets in memory and words that are not reduced behave differently only for rare inputs", "anchors": ["crypto/stark-verifier-ethereum/contracts/default_cs.sol:DefaultConstraintSystem.get_polynomial_points", "crypto/stark-verifier-ethereum/contracts/default_cs.sol:oods_prepare_inverses", "crypto/stark-verifier-ethereum/contracts/default_cs.sol:default_fri_layout", "crypto/stark/src/verifier.rs:oods_prepare"]}
{"id": "C78", "title": "The recurrence example proves what it says, and its contract checks the same claim", "statement": "An accepted statement of the Recurrance system with exponent e says: for some secret s, starting from (1, s) and stepping (x, y) to (y^e, x + y), the first component after index steps is the claimed value. The honest trace for any secret satisfies the system and its proof is accepted. The contract Recurrence derives from the public input the same rows, columns, number of constraints, blowup, degree, FRI layout and initial coin as the Rust system, and the number it returns for the out-of-domain point is the combination the Rust verifier compares with, both on the general path and on the shortcut for 256 rows.", "quantifier": "all indices, secrets, values and exponents (exponent at most 16 for proving); for the contract all public inputs, coefficients, points and out-of-domain values", "why_tests_cant": "the tests compare one index (150) with one fixed proof; the general path of the contract and the shortcut are hand-written formulas independent of the expressions in Rust", "anchors": ["crypto/stark/src/traits.rs: Recurrance", "crypto/stark-verifier-ethereum/contracts/testing_contracts/recurrence.sol: initalize_system, constraint_calculations, evaluate_oods_point, evaluate_oods_point256"]}
{"id": "C79", "title": "The verifier contract accepts only proofs of true claims", "statement": "A call of verify_proof on the StarkVerifier contract with the Recurrence constraint system returns only for a proof that the protocol accepts for the claim in its public input: the work is done, the challenges are those derived from the commitments, the out-of-domain values satisfy the constraints, all values are opened from the commitments, and FRI ends in the claimed polynomial. So, unless a hash collision or a lucky challenge occurs, the claimed value is the one at the claimed index of a run of the recurrence. An accepted proof returns true.", "quantifier": "all hash functions, public inputs with at most 2^36 rows, proofs (any arrays), memory contents and gas", "why_tests_cant": "forgeries are adversarial inputs; the test suite runs one valid proof, and a missing length check changes nothing on it", "anchors": ["crypto/stark-verifier-ethereum/contracts/stark_verifier.sol: verify_proof, write_data_and_read_random, check_commitments, check_out_of_domain_sample_result", "crypto/stark-verifier-ethereum/contracts/testing_contracts/recurrence.sol"]}
{"id": "C80", "title": "The contracts generated for a constraint system evaluate its constraints", "statement": "For a constraint system, generate writes contracts which, called with the out-of-domain point, the values of the claim polynomials, the constraint coefficients and the out-of-domain trace values of a proof, compute the value of the random combination of the constraints at that point that the Rust verifier computes; and the layout constants written describe the trace cells the constraints use, in the order in which a proof lists their values.", "quantifier": "all constraint systems, all points, trace values, claim polynomial values and coefficients", "why_tests_cant": "The contracts are text made from a template; a test would have to compile them and run them in a virtual machine, and can do that for a few systems and points only.", "anchors": ["crypto/stark/src/solidity_verifier.rs: generate, soldity_encode, write_oods_poly, autogen_trace_layout, autogen_wrapper_contract, autogen_periodic", "crypto/stark/assets/OodsPoly.sol, Periodic.sol, Trace.sol, Wrapper.sol", "crypto/stark/src/rational_expression.rs: Hash, Ord"]}
{"id": "C81", "title": "The error returned by the verifier names the check that failed", "statement": "When verify returns an error other than one of the Merkle tree library, the check it names was made and has failed, and the checks that come before it in the protocol were passed; errors for conditions that cannot arise are never returned.", "quantifier": "every constraint system and every byte string", "why_tests_cant": "The error depends on where in an arbitrary malformed proof the first defect is met; tests try a few defects.", "anchors": ["crypto/stark/src/verifier.rs: verify, Error"]}
{"id": "C82", "title": "The verifier accepts exactly the proofs that the protocol describes", "statement": "verify accepts a byte string if and only if it is the concatenation of the parts of a proof of the sizes given by the constraint system, with the challenges drawn from the preceding parts, for which the proof of work, the out-of-domain equation, the Merkle openings and the FRI layers check, and no opening has a superfluous hash. In particular a valid proof is accepted whoever made it, not only proofs from this prover; and the parts and challenges of a proof are determined by its bytes.", "quantifier": "every constraint system with power-of-two sizes, constraints of degree at least one, a non-empty FRI layout (if there are queries) that does not fold below one coefficient and a difficulty below 256; every byte string, every way of splitting it into parts (when one position is queried twice: or two of its rows collide under the hash)", "why_tests_cant": "tests run the verifier on proofs made by the prover of the same crate and on a few corruptions of them; that no other valid proof is refused, and that no proof has two readings, is a statement about all byte strings", "anchors": ["crypto/stark/src/verifier.rs: verify"]}
{"id": "C83", "title": "A proof is written as JSON for the contract", "statement": "proof_serialize succeeds on every proof that the verifier accepts. What it appends to the string is, in braces, a JSON object with the parts of the proof under the names of the fields of the contract, with every number, hash and nonce in hexadecimal; over the field of the contracts its arrays are those that the contract verifies.", "quantifier": "all constraint systems, accepted proofs, hash functions and contents of the string before", "why_tests_cant": "A test serializes one proof of one system; that the text is JSON with the right contents must hold for all sizes of all arrays, and it fails for empty ones.", "anchors": ["crypto/stark/src/solidity_seralizer.rs: proof_serialize, SoliditySeralize", "crypto/stark-verifier-ethereum/contracts/proof_types.sol: StarkProof"]}
{"id": "C84", "title": "An accepted Pedersen Merkle proof shows a path", "statement": "In the example pedersen_merkle, a proof that the verifier accepts for a claim (leaf, root) shows that its prover committed to a trace holding siblings with which hashing up from the leaf with merkle_hash gives the root. The trace for a leaf and its siblings passes the check of the component and is proved. The table of points and the periodic columns that the constraints use agree.", "quantifier": "all claims, witnesses, path lengths that are powers of two, proofs and hash functions", "why_tests_cant": "A test proves one path with one set of inputs; that no other trace satisfies the constraints, and that the trace of every path does, is about all field elements.", "anchors": ["crypto/stark/examples/pedersen_merkle/component.rs: MerkleTreeLayer, MerkleTree", "crypto/stark/examples/pedersen_merkle/inputs.rs: Claim, Witness", "crypto/stark/examples/pedersen_merkle/pedersen_points.rs: merkle_hash, SHIFT_POINT, PEDERSEN_POINTS", "crypto/stark/examples/pedersen_merkle/periodic_columns.rs"]}
{"id": "C85", "title": "A proof of a component is bound to its claim", "statement": "A proof that Component::verify accepts for one claim is rejected for any other claim: the challenges depend on the claim, so that a proof made for one statement cannot be presented for another.", "quantifier": "all proofs, pairs of claims, hash functions, tree depths", "why_tests_cant": "A test tries a proof with one or two other claims; that no claim other than the one proved is accepted is about all of them, and the wrong ones that are accepted depend on the proof.", "anchors": ["crypto/stark/src/component/mod.rs: Component::prove, Component::verify", "crypto/stark/examples/pedersen_merkle/component.rs: MerkleTree::constraints", "crypto/stark/src/verifier.rs: verify", "crypto/stark/src/channel.rs: VerifierChannel"]}
{"id": "C86", "title": "Literals denote the number written", "statement": "The literal macros denote what is written in them: hex!(\"...\") compiles exactly for strings of an even number of hexadecimal digits (either case) and denotes the bytes they write; u256h!(\"...\") compiles exactly for an even number, at most 64, of such digits and denotes the number they write in base 16; field_element!(\"...\") compiles for exactly the same strings and is the reduced representation of that number modulo the prime, the same element the run-time conversion yields. Anything else is a compile error, never a wrong constant.", "quantifier": "every string between the quotes of a literal", "why_tests_cant": "Constants of curves, fields and tests are written with these macros; the tests check a handful of literals, a wrong limb boundary or shift shows only for some lengths", "anchors": ["utils/macros-lib/src/lib.rs: hex, u256h, field_element, bytes_to_limbs, parse_hex, montgomery_convert"]}
{"id": "C87", "title": "The number traits of U256", "statement": "Through the generic number traits U256 behaves as the integers below 2^256: count_ones and count_zeros count the binary digits of the value (and add up to 256), mul_add is x*a+b modulo 2^256, masking with a 64-bit word is the conjunction of the values, the bounds are the least and largest value; rotations and parsing in a radix are available for every value as the traits promise.", "quantifier": "all 256-bit values, masks, strings and radixes", "why_tests_cant": "Generic code is instantiated with U256 through these traits; tests use a few values, a swapped limb shows only for values with bits in that limb", "anchors": ["algebra/u256/src/binary.rs: count_ones, count_zeros, rotate_left, rotate_right, BitAnd<u64>", "algebra/u256/src/u256_traits.rs: Bounded, MulAdd, Num"]}
{"id": "C88", "title": "Parallel computations do not depend on threads or scheduling", "statement": "The Fourier transforms, the shifted copy of the low degree extension, the construction of a Merkle tree and the evaluation of the constraints return, without a panic, the same result as when run on one thread, for every number of threads and every interleaving of their memory accesses.", "quantifier": "all lengths, contents, numbers of threads and interleavings of the element accesses of the tasks", "why_tests_cant": "A test runs a few schedules of one machine; a race shows itself only under particular interleavings, and the chunk size depends on the number of threads.", "anchors": ["algebra/primefield/src/fft/mod.rs: clone_shifted", "algebra/primefield/src/fft/radix_sqrt.rs: radix_sqrt", "crypto/merkle-tree/src/tree.rs: for_each, from_leaves_skip_layers", "crypto/stark/src/prover.rs: get_constraint_polynomials"]}
{"id": "C89", "title": "The probabilistic comparison of expressions errs on one side only, and rarely", "statement": "RationalExpression::equals never answers false for two expressions that are the same rational function of X and the trace cells. For two expressions that are different rational functions it answers true on at most the fraction d/|F| of all points and cell values, where d is the degree of the numerator of their difference; for expressions in X alone this counts the field elements it may draw and needs no assumption about the hash. It panics (division by zero) on at most the fraction k/|F|, where k adds up the degrees of the inverted subexpressions, and always if an expression divides by the zero function. Different cells get their values from different hash inputs.", "quantifier": "every pair of expressions (any nesting of inverses, powers and polynomials), every point, every assignment of the trace cells, every finite field, every hash function", "why_tests_cant": "A test draws one random point; that the bad points are few is a statement about all of them.", "anchors": ["crypto/stark/src/rational_equality.rs: equals", "crypto/stark/src/rational_expression.rs: evaluate, degree"]}
{"id": "C90", "title": "A constant as a number and as a claim polynomial make the same system", "statement": "The system of the constant example and the system of the claim polynomial example (after the claim polynomial is substituted) both say of a trace exactly that its first cell is the claimed constant; an accepted proof for either shows this of the committed table; the trace of a witness passes the check exactly when the witness is the constant, and then the prover makes an accepted proof.", "quantifier": "every constant, every witness, every field with the roots of unity needed, every accepted proof", "why_tests_cant": "A test proves one constant; that a wrong witness is refused and that both systems mean the same is a statement about all.", "anchors": ["crypto/stark/examples/constant.rs: constraints, trace", "crypto/stark/examples/claim_polynomial.rs: constraints, concrete_system, trace", "crypto/stark/src/rational_expression.rs: substitute_claim"]}
{"id": "C91", "title": "A random field element is uniform", "statement": "Drawing a field element from a random source returns a reduced element of the field, and every residue is equally likely: for any number of words taken from the source, equally many sequences of words give each residue. At most the fraction 2^-m of the sequences of m words give no element, so the draw ends. The debug assertion on the way never fails.", "quantifier": "every field whose parameters are right, both build profiles, every sequence of words of the random source", "why_tests_cant": "A test sees some draws; equal likelihood is a count over all sequences of words.", "anchors": ["algebra/primefield/src/rand.rs: Distribution::sample", "algebra/u256/src/rand.rs: UniformSampler"]}
{"id": "C92", "title": "A signature cannot be altered or made without the private key", "statement": "For one public key and digest the accepted signatures are those made with the private key: nobody can turn an accepted signature into another one, or find a signature without the key. Signing uses one nonce twice only if the hash collides, since two signatures with one nonce for different digests give away the key.", "quantifier": "every private key, digest, signature, every hash function", "why_tests_cant": "The signatures of a digest range over a group of order 2^251; tests see a handful.", "anchors": ["crypto/elliptic-curve-crypto/src/public_key.rs: verify", "crypto/elliptic-curve-crypto/src/private_key.rs: sign, hash", "crypto/elliptic-curve-crypto/src/signature.rs: Signature"]}
{"id": "C93", "title": "A collision of the Pedersen hash is a relation between its constants", "statement": "In the example pedersen_merkle, whoever knows two different pairs of field elements with the same merkle_hash can write down a linear relation between the constant points of the table, with coefficients between -1 and 2 that are not all zero, from the bits of the inputs; outside exceptional additions (which are such relations too) the hash is defined and two pairs have the same hash exactly when one of two such relations holds. Two authentication paths with the same turns from two leaves to one root are the same path from the same leaf, or contain such a collision in a layer.", "quantifier": "every two pairs of field elements; every two leaves and paths of any length; every table of points on the curve, and the constants of the example", "why_tests_cant": "A collision of the real hash is not known, so no test can have one as its input; that every collision breaks the assumption on the constants is a statement about all pairs.", "anchors": ["crypto/stark/examples/pedersen_merkle/pedersen_points.rs: merkle_hash, SHIFT_POINT, PEDERSEN_POINTS", "crypto/stark/examples/pedersen_merkle/inputs.rs: Witness::new"]}
{"id": "C94", "title": "MiMC rounds are permutations", "statement": "The function that the cubic and the quadratic MiMC examples prove is a permutation of the field: for every claimed output there is exactly one input for which the claim is true. A round of the MiMC hash is a permutation of the states, so that no information is lost between rounds.", "quantifier": "every number of rounds, all round constants, all field elements and states", "why_tests_cant": "Two inputs or states that meet are a set of measure zero: random tests do not find them, and bijectivity is about all elements.", "anchors": ["crypto/stark/examples/mimc_cubic.rs: mimc", "crypto/stark/examples/mimc_quadratic.rs: mimc", "crypto/stark/examples/mimc_hash.rs: mimc", "crypto/stark/examples/mimc_tree.rs: mimc_hash"]}
{"id": "C95", "title": "A build without debug assertions verifies as one with them", "statement": "For every constraint system, hash function and byte string, `verify` compiled without debug assertions (a release build) gives the verdict that it gives with them. In particular it accepts no proof that the build with assertions refuses, so that an accepted proof in a release build shows what C63 and C64 say.", "quantifier": "all constraint systems over the field of the library, all byte strings offered as proofs, all hash functions", "why_tests_cant": "Unit tests run in the profile they are built with, on honest proofs, whose words are all reduced; the difference is in what an adversary may write into a proof.", "anchors": ["crypto/stark/src/verifier.rs: verify, oods_value_from_trace_values, out_of_domain_element", "crypto/stark/src/channel.rs: VerifierChannel, replay", "algebra/primefield/src/prime_field.rs: from_montgomery, as_montgomery, sub_assign, neg", "examples/vdf.rs"]}
{"id": "C96", "title": "Numbers of bytes are shown in log messages, with three digits", "statement": "Whatever the number of bytes, the logging allocator can show it in a message: in the unit (B, kB, MB, GB, TB) that leaves between one and three digits before the point, rounded to a 24 bit significand, and for kB, MB and GB with exactly three digits; so neither a large allocation nor logging the statistics panics because of the numbers in its message.", "quantifier": "every number of bytes; every size of an allocation and every number of bytes already allocated", "why_tests_cant": "The number of decimals is computed with a rounded logarithm; it is wrong only for sizes in narrow windows below powers of ten, which examples of sizes miss, and a process has to allocate such a size, or be at such a total, to see it.", "anchors": ["utils/logging-allocator/src/size_bytes.rs: fmt", "utils/logging-allocator/src/logging_allocator.rs: alloc, log_statistics"]}
{"id": "C97", "title": "Machine integers convert to field elements and back", "statement": "Every value of every machine integer type (signed and unsigned, 8 to 128 bits) converts to the field element that is its residue modulo the prime, without a panic and identically with and without overflow checks; converting a field element to u64, i64, u128 or i128 gives the integer of that type that the element stands for (negative integers for elements near the modulus) exactly when there is one, and nothing otherwise; so an integer converted to an element and back is unchanged.", "quantifier": "every integer of every machine integer type, every reduced field element, every 256 bit integer, both build modes, every modulus above 2^129 with the constants of a prime field (both fields of the library)", "why_tests_cant": "The mistakes are at single values at the ends of the range of each type; the space of elements is of size 2^251.", "anchors": ["algebra/primefield/src/convert.rs: MaybeSigned::as_sign_abs, From, to_u128, to_i128, to_u64, to_i64", "algebra/u256/src/u256_traits.rs: ToPrimitive for U256"]}
{"id": "C98", "title": "Constraints and tables for curve points, conditions and bits", "statement": "The constraint builders of the group signature example express what their names say: the doubling constraints hold exactly when the output point is the double of the input point, the addition constraints exactly when the output is the sum of the inputs, the conditional constraints exactly when the location holds the first value and the test is 1 or the second value and the test is 0, and the bit constraints exactly when the entries are bits with the target as sum; and the table of a scalar multiplication has the bits of the scalar, the repeated doubles of the point, and in its last row the shift point plus the multiple of the point by the scalar.", "quantifier": "every curve y^2 = x^3 + x + beta over every field in which 2 is not 0, all points, all expressions as inputs, all cells, all scalars of 256 bits, all start rows and columns, both signs of the shift point", "why_tests_cant": "A constraint that is too weak accepts every honest table: only a statement about all cells shows what it lets through. The exceptional points (equal points, opposite points, points of order two) are met by no random test.", "anchors": ["crypto/stark/examples/group_sig/elliptic_helpers.rs: point_double, point_add, conditional, simple_conditional, one_or_zero, bit_decomp_test, scalar_mult, double, add"]}
{"id": "C99", "title": "The signature example proves signatures", "statement": "The constraint system of a claim (hash, key) of the group signature example is satisfied by the table of a valid signature, so that it can be proved, and a table that satisfies it has the two scalar multiplications of the verification of a signature of that hash by that key, so that no proof is accepted for a claim without a signature.", "quantifier": "all hashes, keys and signatures, all tables, all environments (hash functions, roots of unity) of the prover and verifier, both build modes", "why_tests_cant": "A test with an honest table passes for every system that is too weak, even for one without constraints; that no other table passes is a statement about all tables.", "anchors": ["crypto/stark/examples/group_sig/signature.rs: Verifiable::constraints, Provable::trace, Claim"]}
{"id": "C100", "title": "A recurrence of any order can be proved, and a proof of one shows its value", "statement": "For a recurrence given by coefficients and exponents, in which each value is the sum of the coefficients times powers of as many values before it: the value claimed for an index is the value of the sequence one place before it, counting from zero, the trace of a witness is the sequence that starts with its values and has as many rows as the least power of two above the index, the constraints of a claim hold of a table exactly if every cell after the first ones is that combination of the cells before it and the cell of the claim has the value claimed, an accepted proof shows that the claimed value is in the sequence that starts with the first cells of the table committed to, and the honest proof is accepted.", "quantifier": "every order, all coefficients, exponents, first values, indices and tables; every proof the verifier accepts", "why_tests_cant": "the tests draw one recurrence of a few orders at a time and only try honest proofs; they cannot see a table that satisfies the constraints without being a run, such as one that breaks the recurrence in the rows the constraint leaves out", "anchors": ["crypto/stark/src/traits.rs: tests::Recurrance2, tests::Claim2, tests::Witness2", "crypto/stark/src/verifier.rs: tests::verify_recurrance2"]}
{"id": "C101", "title": "The seed of a proof determines the claim", "statement": "For every kind of claim of the library and its examples, two claims with the same seed are the same claim: the challenges of a proof depend on everything that is claimed, so that no part of a claim can be chosen after the challenges are known.", "quantifier": "all pairs of claims of each kind (Fibonacci, MiMC sequences, MiMC hash, MiMC tree, delay function, constants, recurrences, signature), and every accepted proof", "why_tests_cant": "a test compares a few seeds; that no two claims have the same one is about all pairs, and what follows from a collision only shows in proofs that no honest prover makes", "anchors": ["crypto/stark/examples/mimc_tree.rs: Claim::constraints", "crypto/stark/examples/small_fib.rs: Claim::constraints", "crypto/stark/examples/mimc_hash.rs: Claim::constraints", "crypto/stark/examples/vdf.rs: Claim::constraints", "crypto/stark/src/traits.rs: tests::Claim::seed, tests::Claim2::seed", "crypto/stark/src/constraints.rs: Constraints::from_expressions"]}
{"id": "C102", "title": "The iterators of the contracts give the elements of their array in order", "statement": "In every history of calls of init_iterator, next and has_next on any number of iterators, over the same or different arrays and with assignments to the arrays in between, the n-th call of next for an iterator returns the n-th element of its array as it then is, has_next says whether there is one, a call reverts exactly if there is none, and the loop `while (has_next) next` over an iterator gives the elements that are left, in order, and changes nothing else.", "quantifier": "all arrays of fewer than 2^256 elements, all sequences of calls on all iterators, every point of a history", "why_tests_cant": "a test makes one sequence of calls; iterators are references into shared memory, and that none disturbs another is about all interleavings", "anchors": ["crypto/stark-verifier-ethereum/contracts/iterator.sol: init_iterator, next, has_next"]}
{"id": "C103", "title": "The verifier contract checks the claim it is called with", "statement": "For every constraint system in the repository, what verify_proof accepts depends on the public input: two calls with different public inputs start from different coins, so a proof accepted for one public input is not accepted for all others.", "quantifier": "all pairs of public inputs, all proofs, all hash functions up to collisions", "why_tests_cant": "a test calls the contract with one public input; that a proof is refused for all others is about all inputs", "anchors": ["crypto/stark-verifier-ethereum/contracts/testing_contracts/trivial_fib.sol: initalize_system, constraint_calculations", "crypto/stark-verifier-ethereum/contracts/testing_contracts/recurrence.sol: initalize_system", "crypto/stark-verifier-ethereum/contracts/stark_verifier.sol: verify_proof"]}
{"id": "C104", "title": "The gas log of a verification nests and accounts for every step", "statement": "For every number of queries and every list of FRI layers, the LogTrace events of an accepted verification nest: reading them with a stack, every exit names the section entered last, and no section is left open. The log enters each step of the verification once, a Merkle proof for each of the two commitments and each layer, a layer once, every coset once to collect and once to fold it, a lookup and both loops over the values for every query, and an evaluation of the last layer for every coset of the last fold.", "quantifier": "all numbers of queries, all lists of layers and of numbers of cosets in them", "why_tests_cant": "a test reads the log of one proof; that the sections nest for every number of turns of every loop is about all proofs", "anchors": ["crypto/stark-verifier-ethereum/contracts/trace.sol: trace, trace_mod", "crypto/stark-verifier-ethereum/contracts/stark_verifier.sol: verify_proof, check_commitments", "crypto/stark-verifier-ethereum/contracts/fri.sol: fold_and_check_fri_layers, fold_layer, fold_coset", "crypto/stark-verifier-ethereum/contracts/default_cs.sol: get_polynomial_points, oods_prepare_inverses"]}
