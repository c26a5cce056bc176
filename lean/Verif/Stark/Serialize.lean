import Verif.Stark.Verifier
import Verif.U256.Encoding

/-!
# Model of `crypto/stark/src/solidity_seralizer.rs`

Strings are lists of characters; `push_str` appends.  `serialize` returns the string after a successful call (after an error the caller's string holds what was written
before it, which is not modelled).  `get_indices` (lines 246-262) is a copy of that of the verifier (verifier.rs:426-441).
-/

namespace OpenZKP
namespace Stark
open FFT U256

/-- the characters of a literal -/
def chars (s : String) : List Char := s.toList

/-- `format!("\"0x{}\"", encode(..))` — solidity_seralizer.rs:22, 28 -/
def solHex (b : Bytes) : List Char := ('"' :: '0' :: 'x' :: hexEncode b) ++ ['"']

/-- `sol_encode` for `Vec<T>` — solidity_seralizer.rs:41-56, on the encoded entries -/
def solVec : List (List Char) → List Char
  | [] => []
  | x :: xs => '[' :: '\n' :: (((x :: xs).dropLast.flatMap fun d => d ++ [',', '\n']) ++ (((x :: xs).getLastD []) ++ ['\n']) ++ [']'])

/-- `format!("\"name\": {}, \n", ..)` — solidity_seralizer.rs:79-82 and so on; the text after the value differs for `pow_nonce` and `fri_decommitments` -/
def solMember (name : String) (value : List Char) (after : String) : List Char := chars ("\"" ++ name ++ "\": ") ++ value ++ chars after

section
variable {F : Type} [Field F] [DecidableEq F] (env : Env F)

/-- `sol_encode` for `FieldElement` — solidity_seralizer.rs:20-24 -/
def solField (x : F) : List Char := solHex (to_bytes_be (env.codec.rep x))

/-- the inner loops over the positions of the cosets — solidity_seralizer.rs:213-221 -/
def newValues (previous : List Nat) : List Nat → VerifierChannel → Except VerifierError (List F × VerifierChannel)
  | [], c => .ok ([], c)
  | n :: ns, c =>
    match env.search previous n with
    | some _ => newValues previous ns c
    | none => (orPanic (c.readField env)).bind fun v => (newValues previous ns v.2).map fun r => (v.1 :: r.1, r.2)

/-- the loop over the layers — solidity_seralizer.rs:210-235: `fri_values` and `fri_decommitments` -/
def serializeLayers : List (Nat × Merkle.Commitment Bytes) → List Nat → VerifierChannel → Except VerifierError ((List (List F) × List (List Bytes)) × VerifierChannel)
  | [], _, c => .ok (([], []), c)
  | (num_folds, commitment) :: layers, previous, c =>
    let coset_size := 2 ^ num_folds
    let indices := Merkle.dedupBy id (previous.map (· / coset_size))
    (newValues env previous (indices.flatMap fun i => (List.range coset_size).map fun j => i * coset_size + j) c).bind fun values =>
    (orMerkle (Merkle.proof_size commitment indices)).bind fun n =>
    (orPanic (values.2.readHashes env n)).bind fun hashes =>
    (serializeLayers layers indices hashes.2).map fun r => ((values.1 :: r.1.1, hashes.1 :: r.1.2), r.2)

/-- `proof_serialize` — solidity_seralizer.rs:60-244.  The number of draws on line 121 is the length of a map from the trace arguments, which are distinct. -/
def serialize (c : Constraints F) (proof : Bytes) (result : List Char) : Except VerifierError (List Char) :=
  let eval_domain_size := c.trace_nrows * c.blowup
  let ch := VerifierChannel.init env.K proof c.channel_seed
  (orPanic (ch.replayHash env.K)).bind fun lde =>
  (orMerkle (Merkle.from_size_hash eval_domain_size lde.1)).bind fun lde_commitment =>
  (orPanic (lde.2.getFields env (2 * c.expressions.length))).bind fun coefficients =>
  (orPanic (coefficients.2.replayHash env.K)).bind fun con =>
  (orMerkle (Merkle.from_size_hash eval_domain_size con.1)).bind fun constraint_commitment =>
  (orPanic (con.2.getField env)).bind fun oods_point =>
  (orPanic c.substitute).bind fun parseable =>
  (orPanic parseable.trace_arguments).bind fun trace_arguments =>
  (orPanic (oods_point.2.readFields env trace_arguments.length)).bind fun trace_values =>
  (orPanic c.degree).bind fun degree =>
  let degree := Merkle.next_power_of_two degree
  (orPanic (trace_values.2.readFields env degree)).bind fun constraint_values =>
  (orPanic (constraint_values.2.getFields env (trace_arguments.length + degree))).bind fun oods_coefficients =>
  (readCommitments env c.fri_layout eval_domain_size oods_coefficients.2).bind fun layers =>
  if c.blowup = 0 then .error .Panic
  else
    (orPanic (layers.2.readLayer env (layers.1.2 / c.blowup))).bind fun last =>
    (orPanic (last.2.replayResponse env.K)).bind fun response =>
    (orPanic (response.2.get_indices env.K true c.num_queries (Merkle.trailing_zeros eval_domain_size))).bind fun queries =>
    (readLeaves env c.trace_ncolumns queries.1 queries.2).bind fun lde_values =>
    (orMerkle (Merkle.proof_size lde_commitment queries.1)).bind fun lde_proof_length =>
    (orPanic (lde_values.2.readHashes env lde_proof_length)).bind fun lde_hashes =>
    (readLeaves env degree queries.1 lde_hashes.2).bind fun con_values =>
    (orMerkle (Merkle.proof_size constraint_commitment queries.1)).bind fun constraint_proof_length =>
    (orPanic (con_values.2.readHashes env constraint_proof_length)).bind fun constraint_hashes =>
    if c.fri_layout = [] ∧ queries.1 ≠ [] then .error .Panic
    else
      (serializeLayers env (c.fri_layout.zip (layers.1.1.map Prod.fst)) queries.1 constraint_hashes.2).map fun fri =>
      result ++ (solMember "trace_commitment" (solHex lde.1) ", \n" ++ (solMember "constraint_commitment" (solHex con.1) ", \n" ++
        (solMember "trace_oods_values" (solVec (trace_values.1.map (solField env))) ", \n" ++
        (solMember "constraint_oods_values" (solVec (constraint_values.1.map (solField env))) ", \n" ++
        (solMember "fri_commitments" (solVec (layers.1.1.map fun l => solHex l.1.hash)) ", \n" ++
        (solMember "last_layer_coefficients" (solVec (last.1.map (solField env))) ", \n" ++
        (solMember "pow_nonce" (solHex (to_be_bytes 8 response.1)) "," ++
        (solMember "trace_values" (solVec ((lde_values.1.flatMap Prod.snd).map (solField env))) ", \n" ++
        (solMember "trace_decommitment" (solVec (lde_hashes.1.map solHex)) ", \n" ++
        (solMember "constraint_values" (solVec ((con_values.1.flatMap Prod.snd).map (solField env))) ", \n" ++
        (solMember "constraint_decommitment" (solVec (constraint_hashes.1.map solHex)) ", \n" ++
        (solMember "fri_values" (solVec (fri.1.1.map fun l => solVec (l.map (solField env)))) ", \n" ++
        solMember "fri_decommitments" (solVec (fri.1.2.map fun l => solVec (l.map solHex))) " \n"))))))))))))

end
end Stark
end OpenZKP
