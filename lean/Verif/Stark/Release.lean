import Verif.Stark.Verifier
import Verif.Field.PrimeField

/-!
# Model of `crypto/stark/src/verifier.rs` in a build without debug assertions

`from_montgomery` and `as_montgomery` check that a word is below the modulus with `debug_assert!` only — prime_field.rs:106-124.  Without these
assertions every 256-bit word that a proof contains is taken as a field element, and computed with by the limb arithmetic of `PrimeField`
(`PF`), which is written for reduced words.  Here the values that come from the proof, and what is computed from them, are words.

Simplifications: values that are computed from the challenges and the roots only (denominators, powers of the point, coefficients) are reduced
words by C10 to C14, and are kept as field elements here until they meet a word.  An inverse is that of the residue (C14).  Panics other than
those of `debug_assert!` (slices, `unwrap`, `expect`, `assert!`) are kept; the sizes are natural numbers, without overflow, as in `Verifier`.
-/

namespace OpenZKP
namespace Stark
namespace Release
open FFT U256

/-- `+` — prime_field.rs:231-238 -/
def add (a b : U256) : U256 := PF.add PF.BASE a b
/-- `-` — prime_field.rs:240-252 -/
def sub (a b : U256) : U256 := PF.sub PF.BASE a b
/-- unary `-` — prime_field.rs:254-263 -/
def neg (a : U256) : U256 := PF.neg PF.BASE a
/-- `*` — prime_field.rs:272-280 -/
def mul (a b : U256) : U256 := PF.mul PF.BASE a b
/-- `sum` — ops.rs:202-206 -/
def sum (l : List U256) : U256 := PF.sum PF.BASE l
/-- `pow(usize)` — prime_field.rs:292-338; the exponent is a natural number -/
def pow (a : U256) (e : Nat) : U256 := PF.powBits PF.BASE (if e = 0 then none else some (Nat.log2 e)) e.testBit a

/-- `DensePolynomial::evaluate` — polynomial.rs:79-86 -/
def evaluatePoly (p : List U256) (x : U256) : U256 := p.reverse.foldl (fun result coefficient => add (mul result x) coefficient) U256.ZERO

section
variable {F : Type} [Field F] [DecidableEq F] (env : Env F)

/-- `replay_many::<FieldElement>` — channel.rs:22-24, 297-302 -/
def readWords (n : Nat) (c : VerifierChannel) : Option (List U256 × VerifierChannel) :=
  VerifierChannel.replayMany (VerifierChannel.replayField env.K false) n c

/-- reading the values of the queried leaves — verifier.rs:247-250, 260-266 -/
def readLeaves (width : Nat) : List Nat → VerifierChannel → Except VerifierError (List (Nat × List U256) × VerifierChannel)
  | [], c => .ok ([], c)
  | i :: is, c =>
    (orPanic (c.replayLayer env.K false width)).bind fun r =>
    (readLeaves width is r.2).map fun rs => ((i, r.1) :: rs.1, rs.2)

/-- reading and checking a Merkle proof for the leaves — verifier.rs:251-257, 267-274, 342-355 -/
def checkLeaves (err : VerifierError) (commitment : Merkle.Commitment Bytes) (indices : List Nat) (values : List (Nat × List U256))
    (c : VerifierChannel) : Except VerifierError VerifierChannel :=
  (orMerkle (Merkle.proof_size commitment indices)).bind fun n =>
  (orPanic (c.readHashes env n)).bind fun h =>
  (orMerkle (Merkle.from_hashes commitment indices h.1)).bind fun proof =>
  (orElse err (Merkle.verify (nodeHash env.K) proof (values.map fun v => (v.1, leafHash env.K v.2)))).map fun _ => h.2

/-- `out_of_domain_element` — verifier.rs:479-515 -/
def out_of_domain_element (query_x : F) (query_trace_values query_constraint_values : List U256) (oods_point : F)
    (oods_trace_map : List ((Nat × Int) × U256)) (oods_constraint_values : List U256) (oods_coefficients : List F) (trace_length : Nat) :
    Except VerifierError U256 :=
  let shifted_x := query_x * env.generator
  match env.root trace_length with
  | none => .error .RootUnavailable
  | some trace_generator =>
    (orPanic (oods_trace_map.mapM fun t : (Nat × Int) × U256 =>
      (query_trace_values[t.1.1]?).bind fun value =>
      (finv (shifted_x - trace_generator ^ t.1.2 * oods_point)).map fun inv => mul (sub value t.2) (env.codec.rep inv))).bind fun trace_terms =>
    (orPanic ((query_constraint_values.zip oods_constraint_values).mapM fun v : U256 × U256 =>
      (finv (shifted_x - oods_point ^ query_constraint_values.length)).map fun inv => mul (sub v.1 v.2) (env.codec.rep inv))).map fun constraint_terms =>
    sum (((trace_terms ++ constraint_terms).zip oods_coefficients).map fun t => mul t.1 (env.codec.rep t.2))

/-- `fri_single_fold` — verifier.rs:469-476 -/
def fri_single_fold (poly_at_x poly_at_neg_x : U256) (x eval_point : F) : Option U256 :=
  (finv x).map fun x_inv => add (add poly_at_x poly_at_neg_x) (mul (env.codec.rep (eval_point * x_inv)) (sub poly_at_x poly_at_neg_x))

/-- the inner loop of `fri_fold` — verifier.rs:456-459 -/
def friFoldPairs (eval_x : List F) (eval_point : F) (step index len : Nat) : Nat → List U256 → Option (List U256)
  | _, [] => some []
  | _, [_] => none
  | k, p0 :: p1 :: rest =>
    (eval_x[permute_index (len / 2) (index + k) * step]?).bind fun x =>
    (fri_single_fold env p0 p1 x eval_point).bind fun v =>
    (friFoldPairs eval_x eval_point step index len (k + 1) rest).map fun vs => v :: vs

/-- the outer loop of `fri_fold` — verifier.rs:453-466 -/
def friFoldLoop (eval_x : List F) : Nat → List U256 → F → Nat → Nat → Nat → Option U256
  | 0, _, _, _, _, _ => none
  | fuel + 1, coset, eval_point, step, index, len =>
    if 1 < coset.length then
      (friFoldPairs env eval_x eval_point step index len 0 coset).bind fun next =>
      friFoldLoop eval_x fuel next (eval_point ^ 2) (step * 2) (index / 2) (len / 2)
    else coset[0]?

/-- `fri_fold` — verifier.rs:443-467 -/
def fri_fold (coset : List U256) (eval_point : F) (step index len : Nat) (eval_x : List F) : Option U256 :=
  friFoldLoop env eval_x (coset.length + 1) coset eval_point step index len

/-- the inner loop over a coset — verifier.rs:299-323 -/
def readCoset (known : Nat → Nat → Except VerifierError U256) (previous : List Nat) :
    List Nat → VerifierChannel → Except VerifierError (List U256 × VerifierChannel)
  | [], c => .ok ([], c)
  | n :: ns, c =>
    match env.search previous n with
    | some z => (known n z).bind fun v => (readCoset known previous ns c).map fun r => (v :: r.1, r.2)
    | none => (orPanic (c.replayField env.K false)).bind fun v => (readCoset known previous ns v.2).map fun r => (v.1 :: r.1, r.2)

/-- the loop over the cosets of a layer — verifier.rs:297-325 -/
def readCosets (known : Nat → Nat → Except VerifierError U256) (previous : List Nat) (coset_size : Nat) :
    List Nat → VerifierChannel → Except VerifierError (List (Nat × List U256) × VerifierChannel)
  | [], c => .ok ([], c)
  | i :: is, c =>
    (readCoset env known previous ((List.range coset_size).map fun j => i * coset_size + j) c).bind fun coset =>
    (readCosets known previous coset_size is coset.2).map fun r => ((i, coset.1) :: r.1, r.2)

/-- what a layer after the first knows — verifier.rs:302-306 -/
def knownFold (folds : List (Nat × U256)) (n _z : Nat) : Except VerifierError U256 :=
  match assoc folds n with
  | some x => .ok x
  | none => .error .HashMapFailure

/-- the loop over the layers — verifier.rs:293-364 -/
def friLayers (eval_x : List F) : List (Nat × Merkle.Commitment Bytes × F) → (Nat → Nat → Except VerifierError U256) → List Nat →
    List (Nat × U256) → Nat → Nat → VerifierChannel → Except VerifierError ((List Nat × List (Nat × U256) × Nat) × VerifierChannel)
  | [], _, previous, folds, _, len, c => .ok ((previous, folds, len), c)
  | (num_folds, commitment, eval_point) :: layers, known, previous, _, step, len, c =>
    let coset_size := 2 ^ num_folds
    let indices := Merkle.dedupBy id (previous.map (· / coset_size))
    (readCosets env known previous coset_size indices c).bind fun values =>
    (orPanic (values.1.mapM fun v => (fri_fold env v.2 eval_point step (coset_size / 2 * v.1) len eval_x).map fun x => (v.1, x))).bind fun folds =>
    (checkLeaves env .InvalidFriCommitment commitment indices values.1 values.2).bind fun c =>
    friLayers eval_x layers (knownFold folds) indices folds (step * coset_size) (len / coset_size) c

/-- the check of the last layer — verifier.rs:371-383; `==` compares the words — prime_field.rs:174-178 -/
def checkLast (last_layer : List U256) (previous : List Nat) (folds : List (Nat × U256)) (len : Nat) : Except VerifierError Unit :=
  match env.root len with
  | none => .error .RootUnavailable
  | some interp_root =>
    previous.foldlM (init := ()) fun _ key =>
      (orPanic (assoc folds key)).bind fun calculated =>
      (orPanic (if 2 ^ Nat.log2 last_layer.length = last_layer.length then some last_layer else none)).bind fun poly =>
      if evaluatePoly poly (env.codec.rep (interp_root ^ permute_index len key)) = calculated then .ok () else .error .OodsCalculationFailure

/-- `evaluate` — rational_expression.rs:292-313 -/
def evaluate (x : F) (trace : Nat → Int → Option U256) : Expr F → Option U256
  | .X => some (env.codec.rep x)
  | .Constant c => some (env.codec.rep c)
  | .Trace i j => trace i j
  | .Polynomial p a => (evaluate x trace a).map fun inner => evaluatePoly (p.map env.codec.rep) inner
  | .ClaimPolynomial _ _ _ _ => none
  | .Add a b => (evaluate x trace a).bind fun a => (evaluate x trace b).map fun b => add a b
  | .Neg a => (evaluate x trace a).map fun a => neg a
  | .Mul a b => (evaluate x trace a).bind fun a => (evaluate x trace b).map fun b => mul a b
  | .Inv a => (evaluate x trace a).bind fun a => (finv (env.codec.val a)).map env.codec.rep
  | .Exp a e => (evaluate x trace a).map fun a => pow a e

/-- `oods_value_from_trace_values` — verifier.rs:398-409 -/
def oods_value_from_trace_values (c : Constraints F) (coefficients : List F) (trace_values : List ((Nat × Int) × U256)) (oods_point : F) : Option U256 :=
  (c.combine coefficients).bind fun e =>
  (e.substitute_claim c.claim_polynomials).bind fun e =>
  evaluate env oods_point (fun i j => assoc trace_values (i, j)) e

/-- `oods_value_from_constraint_values` — verifier.rs:411-422 -/
def oods_value_from_constraint_values (values : List U256) (oods_point : F) : U256 :=
  (values.foldl (fun (s : U256 × F) value => (add s.1 (mul value (env.codec.rep s.2)), s.2 * oods_point)) (U256.ZERO, 1)).1

/-- what the verifier reads before the queries are drawn: the claimed values and the last layer are words -/
structure Transcript (F : Type) where
  lde_commitment : Merkle.Commitment Bytes
  constraint_coefficients : List F
  constraint_commitment : Merkle.Commitment Bytes
  oods_point : F
  trace_map : List ((Nat × Int) × U256)
  degree : Nat
  constraint_values : List U256
  oods_coefficients : List F
  layers : List (Merkle.Commitment Bytes × F)
  last_layer : List U256
  queries : List Nat

/-- the first part of `verify` — verifier.rs:189-244 -/
def readTranscript (c : Constraints F) (ch : VerifierChannel) : Except VerifierError (Transcript F × VerifierChannel) :=
  let eval_domain_size := c.trace_nrows * c.blowup
  (orPanic (ch.replayHash env.K)).bind fun lde =>
  (orMerkle (Merkle.from_size_hash eval_domain_size lde.1)).bind fun lde_commitment =>
  (orPanic (lde.2.getFields env (2 * c.expressions.length))).bind fun coefficients =>
  (orPanic (coefficients.2.replayHash env.K)).bind fun con =>
  (orMerkle (Merkle.from_size_hash eval_domain_size con.1)).bind fun constraint_commitment =>
  (orPanic (con.2.getField env)).bind fun oods_point =>
  (orPanic c.substitute).bind fun parseable =>
  (orPanic parseable.trace_arguments).bind fun trace_arguments =>
  (orPanic (readWords env trace_arguments.length oods_point.2)).bind fun trace_values =>
  (orPanic c.degree).bind fun degree =>
  let degree := Merkle.next_power_of_two degree
  (orPanic (readWords env degree trace_values.2)).bind fun constraint_values =>
  (orPanic (constraint_values.2.getFields env (trace_arguments.length + degree))).bind fun oods_coefficients =>
  (readCommitments env c.fri_layout eval_domain_size oods_coefficients.2).bind fun layers =>
  if c.blowup = 0 then .error .Panic
  else
    (orPanic (layers.2.replayLayer env.K false (layers.1.2 / c.blowup))).bind fun last =>
    (orPanic last.2.getSeed).bind fun pow_seed =>
    (orPanic (with_difficulty env.K pow_seed.1 c.pow_bits)).bind fun challenge =>
    (orPanic (pow_seed.2.replayResponse env.K)).bind fun response =>
    if challenge.verify env.K response.1 = false then .error .InvalidPoW
    else
      (orPanic (response.2.get_indices env.K true c.num_queries (Merkle.trailing_zeros eval_domain_size))).map fun queries =>
      (⟨lde_commitment, coefficients.1, constraint_commitment, oods_point.1, trace_arguments.zip trace_values.1, degree, constraint_values.1,
        oods_coefficients.1, layers.1.1, last.1, queries.1⟩, queries.2)

/-- what the first layer knows — verifier.rs:307-319 -/
def knownFirst (c : Constraints F) (t : Transcript F) (eval_x : List F) (lde_values constraint_values : List (Nat × List U256)) (_n z : Nat) :
    Except VerifierError U256 :=
  (orPanic (t.queries[z]?)).bind fun q =>
  (orPanic (eval_x[permute_index (c.trace_nrows * c.blowup) q]?)).bind fun x =>
  (orPanic (lde_values[z]?)).bind fun lde =>
  (orPanic (constraint_values[z]?)).bind fun con =>
  out_of_domain_element env x lde.2 con.2 t.oods_point t.trace_map t.constraint_values t.oods_coefficients c.trace_nrows

/-- the second part of `verify` — verifier.rs:246-395 -/
def checkTranscript (c : Constraints F) (eval_x : List F) (t : Transcript F) (ch : VerifierChannel) : Except VerifierError Unit :=
  (readLeaves env c.trace_ncolumns t.queries ch).bind fun lde_values =>
  (checkLeaves env .InvalidLDECommitment t.lde_commitment t.queries lde_values.1 lde_values.2).bind fun ch =>
  (readLeaves env t.degree t.queries ch).bind fun constraint_values =>
  (checkLeaves env .InvalidConstraintCommitment t.constraint_commitment t.queries constraint_values.1 constraint_values.2).bind fun ch =>
  if c.fri_layout = [] ∧ t.queries ≠ [] then .error .Panic
  else
    (friLayers env eval_x (c.fri_layout.zip t.layers) (knownFirst env c t eval_x lde_values.1 constraint_values.1) t.queries [] 1
      (c.trace_nrows * c.blowup) ch).bind fun r =>
    if r.2.at_end = false then .error .ProofTooLong
    else
      (checkLast env t.last_layer r.1.1 r.1.2.1 r.1.2.2).bind fun _ =>
      (orPanic (oods_value_from_trace_values env c t.constraint_coefficients t.trace_map t.oods_point)).bind fun value =>
      if value ≠ oods_value_from_constraint_values env t.constraint_values t.oods_point then .error .OodsMismatch else .ok ()

/-- `verify` — verifier.rs:178-396 -/
def verify (c : Constraints F) (proof : Bytes) : Except VerifierError Unit :=
  let eval_domain_size := c.trace_nrows * c.blowup
  (orPanic (env.root eval_domain_size)).bind fun w =>
  let eval_x := (List.range eval_domain_size).map fun i => w ^ i
  (readTranscript env c (VerifierChannel.init env.K proof c.channel_seed)).bind fun t =>
  checkTranscript env c eval_x t.1 t.2

end

end Release
end Stark
end OpenZKP
