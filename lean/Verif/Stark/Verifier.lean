import Verif.Stark.Constraints
import Verif.Stark.Fri
import Verif.Stark.PoW
import Verif.Merkle.Model

/-!
# Model of `crypto/stark/src/verifier.rs`

The build modelled has debug assertions and overflow checks: `Error.Panic` stands for a panic.  The products and sums of sizes are natural
numbers (no overflow of 64 bits).  `Env` holds what the verifier takes from elsewhere: the hash function, the representation of field elements
as 256-bit words, `FieldElement::root`, `FieldElement::generator()`, and `binary_search` of the standard library, whose result among several
equal elements is unspecified.
-/

namespace OpenZKP
namespace Stark
open FFT U256

/-- field elements and their (Montgomery) representation as reduced words -/
structure Codec (F : Type) where
  rep : F → U256
  val : U256 → F
  rep_lt : ∀ x, (rep x).toNat < PF.BASE.modulus.toNat
  val_rep : ∀ x, val (rep x) = x

/-- what prover and verifier take from other crates -/
structure Env (F : Type) where
  K : Keccak
  codec : Codec F
  root : Nat → Option F
  generator : F
  search : List Nat → Nat → Option Nat

/-! ## crypto/hash -/

/-- `MaskedKeccak` — masked_keccak.rs:6-31 -/
def maskedKeccak (K : Keccak) (data : Bytes) : Bytes := (K.hash data).take 20 ++ List.replicate 12 0

/-- `Node::hash` — merkle-tree/src/node.rs:7-14 -/
def nodeHash (K : Keccak) (a b : Bytes) : Bytes := maskedKeccak K (a ++ b)

/-- `Hashable for &[T]` with `T` a `U256` — hashable.rs:24-30, 45-59 -/
def leafHash (K : Keccak) : List U256 → Bytes
  | [x] => to_bytes_be x
  | xs => maskedKeccak K (xs.flatMap to_bytes_be)

/-- `Error` — verifier.rs:23-35, with a constructor for panics -/
inductive VerifierError where
  | RootUnavailable | InvalidPoW | InvalidLDECommitment | InvalidConstraintCommitment | InvalidFriCommitment | HashMapFailure
  | ProofTooLong | OodsCalculationFailure | OodsMismatch | FriCalculationFailure
  | Merkle (e : Merkle.Error)
  | Panic
  deriving DecidableEq

/-- a panic of a part of the model -/
def orPanic {α : Type} : Option α → Except VerifierError α
  | some a => .ok a
  | none => .error .Panic

/-- `?` on a Merkle result — verifier.rs:72-76 -/
def orMerkle {α : Type} : Except Merkle.Error α → Except VerifierError α
  | .ok a => .ok a
  | .error .Panic => .error .Panic
  | .error e => .error (.Merkle e)

/-- the checks `if proof.verify(..).is_err() { return Err(..) }` -/
def orElse {α : Type} (err : VerifierError) : Except Merkle.Error α → Except VerifierError α
  | .ok a => .ok a
  | .error .Panic => .error .Panic
  | .error _ => .error err

section
variable {F : Type} [Field F] [DecidableEq F] (env : Env F)

/-- `get_random::<FieldElement>` — channel.rs:153-165 through channel.rs:195-202 -/
def VerifierChannel.getField (c : VerifierChannel) : Option (F × VerifierChannel) :=
  (c.coin.randomField env.K).map fun r => (env.codec.val r.1, { c with coin := r.2 })

/-- `get_random::<ChallengeSeed>` — channel.rs:126-132 through channel.rs:195-202 -/
def VerifierChannel.getSeed (c : VerifierChannel) : Option (Bytes × VerifierChannel) :=
  c.coin.randomSeed.map fun r => (r.1, { c with coin := r.2 })

/-- `get_coefficients` — channel.rs:92-94 -/
def VerifierChannel.getFields (n : Nat) (c : VerifierChannel) : Option (List F × VerifierChannel) :=
  (c.coin.randomFields env.K n).map fun r => (r.1.map env.codec.val, { c with coin := r.2 })

/-- `Replayable<FieldElement>` — channel.rs:297-302 -/
def VerifierChannel.readField (c : VerifierChannel) : Option (F × VerifierChannel) :=
  (c.replayField env.K true).map fun r => (env.codec.val r.1, r.2)

/-- `replay_many::<FieldElement>` — channel.rs:22-24 -/
def VerifierChannel.readFields (n : Nat) (c : VerifierChannel) : Option (List F × VerifierChannel) :=
  VerifierChannel.replayMany (VerifierChannel.readField env) n c

/-- `replay_fri_layer` — channel.rs:99-112 -/
def VerifierChannel.readLayer (c : VerifierChannel) (n : Nat) : Option (List F × VerifierChannel) :=
  (c.replayLayer env.K true n).map fun r => (r.1.map env.codec.val, r.2)

/-- `replay_many::<Hash>` -/
def VerifierChannel.readHashes (n : Nat) (c : VerifierChannel) : Option (List Bytes × VerifierChannel) :=
  VerifierChannel.replayMany (VerifierChannel.replayHash env.K) n c

/-- a vector of field elements as a leaf -/
def elementsHash (xs : List F) : Bytes := leafHash env.K (xs.map env.codec.rep)

/-- reading the values of the queried leaves — verifier.rs:247-250, 260-266 -/
def readLeaves (width : Nat) : List Nat → VerifierChannel → Except VerifierError (List (Nat × List F) × VerifierChannel)
  | [], c => .ok ([], c)
  | i :: is, c =>
    (orPanic (c.readLayer env width)).bind fun r =>
    (readLeaves width is r.2).map fun rs => ((i, r.1) :: rs.1, rs.2)

/-- reading and checking a Merkle proof for the leaves — verifier.rs:251-257, 267-274, 342-355 -/
def checkLeaves (err : VerifierError) (commitment : Merkle.Commitment Bytes) (indices : List Nat) (values : List (Nat × List F))
    (c : VerifierChannel) : Except VerifierError VerifierChannel :=
  (orMerkle (Merkle.proof_size commitment indices)).bind fun n =>
  (orPanic (c.readHashes env n)).bind fun h =>
  (orMerkle (Merkle.from_hashes commitment indices h.1)).bind fun proof =>
  (orElse err (Merkle.verify (nodeHash env.K) proof (values.map fun v => (v.1, elementsHash env v.2)))).map fun _ => h.2

/-- the loop reading the commitments to the FRI layers — verifier.rs:223-227 -/
def readCommitments : List Nat → Nat → VerifierChannel → Except VerifierError ((List (Merkle.Commitment Bytes × F) × Nat) × VerifierChannel)
  | [], fri_size, c => .ok (([], fri_size), c)
  | num_folds :: layout, fri_size, c =>
    if 64 ≤ num_folds then .error .Panic
    else
      let fri_size := fri_size / 2 ^ num_folds
      (orPanic (c.replayHash env.K)).bind fun h =>
      (orMerkle (Merkle.from_size_hash fri_size h.1)).bind fun commitment =>
      (orPanic (h.2.getField env)).bind fun p =>
      (readCommitments layout fri_size p.2).map fun r => (((commitment, p.1) :: r.1.1, r.1.2), r.2)

/-- `out_of_domain_element` — verifier.rs:479-515; dividing by zero and an index out of range panic -/
def out_of_domain_element (query_x : F) (query_trace_values query_constraint_values : List F) (oods_point : F)
    (oods_trace_map : List ((Nat × Int) × F)) (oods_constraint_values oods_coefficients : List F) (trace_length : Nat) : Except VerifierError F :=
  let shifted_x := query_x * env.generator
  match env.root trace_length with
  | none => .error .RootUnavailable
  | some trace_generator =>
    (orPanic (oods_trace_map.mapM fun t : (Nat × Int) × F =>
      (query_trace_values[t.1.1]?).bind fun value =>
      (finv (shifted_x - trace_generator ^ t.1.2 * oods_point)).map fun inv => (value - t.2) * inv)).bind fun trace_terms =>
    (orPanic ((query_constraint_values.zip oods_constraint_values).mapM fun v : F × F =>
      (finv (shifted_x - oods_point ^ query_constraint_values.length)).map fun inv => (v.1 - v.2) * inv)).map fun constraint_terms =>
    (((trace_terms ++ constraint_terms).zip oods_coefficients).map fun t => t.1 * t.2).sum

/-- the inner loop over a coset — verifier.rs:299-323; `known` gives the value of an index that was opened before, at its position -/
def readCoset (known : Nat → Nat → Except VerifierError F) (previous : List Nat) : List Nat → VerifierChannel → Except VerifierError (List F × VerifierChannel)
  | [], c => .ok ([], c)
  | n :: ns, c =>
    match env.search previous n with
    | some z => (known n z).bind fun v => (readCoset known previous ns c).map fun r => (v :: r.1, r.2)
    | none => (orPanic (c.readField env)).bind fun v => (readCoset known previous ns v.2).map fun r => (v.1 :: r.1, r.2)

/-- the loop over the cosets of a layer — verifier.rs:297-325 -/
def readCosets (known : Nat → Nat → Except VerifierError F) (previous : List Nat) (coset_size : Nat) :
    List Nat → VerifierChannel → Except VerifierError (List (Nat × List F) × VerifierChannel)
  | [], c => .ok ([], c)
  | i :: is, c =>
    (readCoset env known previous ((List.range coset_size).map fun j => i * coset_size + j) c).bind fun coset =>
    (readCosets known previous coset_size is coset.2).map fun r => ((i, coset.1) :: r.1, r.2)

/-- the value of a key in a `BTreeMap` (an association list) -/
def assoc {α β : Type} [DecidableEq α] (l : List (α × β)) (a : α) : Option β := (l.find? fun p => p.1 = a).map Prod.snd

/-- what a layer after the first knows — verifier.rs:302-306 -/
def knownFold (folds : List (Nat × F)) (n _z : Nat) : Except VerifierError F :=
  match assoc folds n with
  | some x => .ok x
  | none => .error .HashMapFailure

/-- the loop over the layers — verifier.rs:293-364.  The indices of a layer are those of the layer before divided by the coset size, without
repetitions (the division is done at the end of the iteration before, the removal of repetitions at the beginning).  The result is
`previous_indices`, `fri_folds` and `len`. -/
def friLayers (eval_x : List F) : List (Nat × Merkle.Commitment Bytes × F) → (Nat → Nat → Except VerifierError F) → List Nat → List (Nat × F) → Nat → Nat →
    VerifierChannel → Except VerifierError ((List Nat × List (Nat × F) × Nat) × VerifierChannel)
  | [], _, previous, folds, _, len, c => .ok ((previous, folds, len), c)
  | (num_folds, commitment, eval_point) :: layers, known, previous, _, step, len, c =>
    let coset_size := 2 ^ num_folds
    let indices := Merkle.dedupBy id (previous.map (· / coset_size))
    (readCosets env known previous coset_size indices c).bind fun values =>
    (orPanic (values.1.mapM fun v => (fri_fold v.2 eval_point step (coset_size / 2 * v.1) len eval_x).map fun x => (v.1, x))).bind fun folds =>
    (checkLeaves env .InvalidFriCommitment commitment indices values.1 values.2).bind fun c =>
    friLayers eval_x layers (knownFold folds) indices folds (step * coset_size) (len / coset_size) c

/-- the check of the last layer — verifier.rs:371-383 -/
def checkLast (last_layer : List F) (previous : List Nat) (folds : List (Nat × F)) (len : Nat) : Except VerifierError Unit :=
  match env.root len with
  | none => .error .RootUnavailable
  | some interp_root =>
    previous.foldlM (init := ()) fun _ key =>
      (orPanic (assoc folds key)).bind fun calculated =>
      (orPanic (Poly.new last_layer)).bind fun poly =>
      if Poly.evaluate poly (interp_root ^ permute_index len key) = calculated then .ok () else .error .OodsCalculationFailure

/-- `oods_value_from_trace_values` — verifier.rs:398-409 -/
def oods_value_from_trace_values (c : Constraints F) (coefficients : List F) (trace_values : List ((Nat × Int) × F)) (oods_point : F) : Option F :=
  (c.combine coefficients).bind fun e =>
  (e.substitute_claim c.claim_polynomials).bind fun e =>
  e.evaluate oods_point fun i j => assoc trace_values (i, j)

/-- `oods_value_from_constraint_values` — verifier.rs:411-422 -/
def oods_value_from_constraint_values (values : List F) (oods_point : F) : F :=
  (values.foldl (fun (s : F × F) value => (s.1 + value * s.2, s.2 * oods_point)) (0, 1)).1

/-- what the verifier reads before the queries are drawn -/
structure Transcript (F : Type) where
  lde_commitment : Merkle.Commitment Bytes
  constraint_coefficients : List F
  constraint_commitment : Merkle.Commitment Bytes
  oods_point : F
  trace_map : List ((Nat × Int) × F)
  degree : Nat
  constraint_values : List F
  oods_coefficients : List F
  layers : List (Merkle.Commitment Bytes × F)
  last_layer : List F
  queries : List Nat

/-- the first part of `verify` — verifier.rs:189-244: everything up to the drawing of the queries -/
def readTranscript (c : Constraints F) (ch : VerifierChannel) : Except VerifierError (Transcript F × VerifierChannel) :=
  let eval_domain_size := c.trace_nrows * c.blowup
  (orPanic (ch.replayHash env.K)).bind fun lde =>
  (orMerkle (Merkle.from_size_hash eval_domain_size lde.1)).bind fun lde_commitment =>
  (orPanic (lde.2.getFields env (2 * c.expressions.length))).bind fun coefficients =>
  (orPanic (coefficients.2.replayHash env.K)).bind fun con =>
  (orMerkle (Merkle.from_size_hash eval_domain_size con.1)).bind fun constraint_commitment =>
  (orPanic (con.2.getField env)).bind fun oods_point =>
  (orPanic c.substitute).bind fun parseable =>
  (orPanic parseable.trace_arguments).bind fun trace_arguments =>
  (orPanic (oods_point.2.readFields env trace_arguments.length)).bind fun trace_values =>
  (orPanic c.degree).bind fun degree =>
  let degree := Merkle.next_power_of_two degree
  (orPanic (trace_values.2.readFields env degree)).bind fun constraint_values =>
  (orPanic (constraint_values.2.getFields env (trace_arguments.length + degree))).bind fun oods_coefficients =>
  (readCommitments env c.fri_layout eval_domain_size oods_coefficients.2).bind fun layers =>
  if c.blowup = 0 then .error .Panic
  else
    (orPanic (layers.2.readLayer env (layers.1.2 / c.blowup))).bind fun last =>
    (orPanic last.2.getSeed).bind fun pow_seed =>
    (orPanic (with_difficulty env.K pow_seed.1 c.pow_bits)).bind fun challenge =>
    (orPanic (pow_seed.2.replayResponse env.K)).bind fun response =>
    if challenge.verify env.K response.1 = false then .error .InvalidPoW
    else
      (orPanic (response.2.get_indices env.K true c.num_queries (Merkle.trailing_zeros eval_domain_size))).map fun queries =>
      (⟨lde_commitment, coefficients.1, constraint_commitment, oods_point.1, trace_arguments.zip trace_values.1, degree, constraint_values.1,
        oods_coefficients.1, layers.1.1, last.1, queries.1⟩, queries.2)

/-- what the first layer knows — verifier.rs:307-319 -/
def knownFirst (c : Constraints F) (t : Transcript F) (eval_x : List F) (lde_values constraint_values : List (Nat × List F)) (_n z : Nat) : Except VerifierError F :=
  (orPanic (t.queries[z]?)).bind fun q =>
  (orPanic (eval_x[permute_index (c.trace_nrows * c.blowup) q]?)).bind fun x =>
  (orPanic (lde_values[z]?)).bind fun lde =>
  (orPanic (constraint_values[z]?)).bind fun con =>
  out_of_domain_element env x lde.2 con.2 t.oods_point t.trace_map t.constraint_values t.oods_coefficients c.trace_nrows

/-- the second part of `verify` — verifier.rs:246-395: the decommitments and the checks -/
def checkTranscript (c : Constraints F) (eval_x : List F) (t : Transcript F) (ch : VerifierChannel) : Except VerifierError Unit :=
  (readLeaves env c.trace_ncolumns t.queries ch).bind fun lde_values =>
  (checkLeaves env .InvalidLDECommitment t.lde_commitment t.queries lde_values.1 lde_values.2).bind fun ch =>
  (readLeaves env t.degree t.queries ch).bind fun constraint_values =>
  (checkLeaves env .InvalidConstraintCommitment t.constraint_commitment t.queries constraint_values.1 constraint_values.2).bind fun ch =>
  if c.fri_layout = [] ∧ t.queries ≠ [] then .error .Panic
  else
    (friLayers env eval_x (c.fri_layout.zip t.layers) (knownFirst env c t eval_x lde_values.1 constraint_values.1) t.queries [] 1
      (c.trace_nrows * c.blowup) ch).bind fun r =>
    if r.2.at_end = false then .error .ProofTooLong
    else
      (checkLast env t.last_layer r.1.1 r.1.2.1 r.1.2.2).bind fun _ =>
      (orPanic (oods_value_from_trace_values c t.constraint_coefficients t.trace_map t.oods_point)).bind fun value =>
      if value ≠ oods_value_from_constraint_values t.constraint_values t.oods_point then .error .OodsMismatch else .ok ()

/-- `verify` — verifier.rs:178-396 -/
def verify (c : Constraints F) (proof : Bytes) : Except VerifierError Unit :=
  let eval_domain_size := c.trace_nrows * c.blowup
  (orPanic (env.root eval_domain_size)).bind fun w =>
  let eval_x := (List.range eval_domain_size).map fun i => w ^ i
  (readTranscript env c (VerifierChannel.init env.K proof c.channel_seed)).bind fun t =>
  checkTranscript env c eval_x t.1 t.2

end

end Stark
end OpenZKP
