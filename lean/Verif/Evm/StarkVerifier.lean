import Verif.Evm.Fri
import Verif.Evm.Recurrence

/-!
# Model of the contract `StarkVerifier` (crypto/stark-verifier-ethereum/contracts/stark_verifier.sol)

`none` is a revert.  The constraint system is a contract that is called: two functions that may revert.  Not modelled: the events of `Trace`, and that the constraint system might
call the verifier again or answer differently for equal arguments.
-/

namespace OpenZKP
namespace Evm
namespace StarkVerifier
open PrimeField MerkleVerifier Stark DefaultCs
open Recurrence (ProofParameters)

/-- `StarkProof` — proof_types.sol:12-45; the nonce of eight bytes is given as their number, big endian -/
structure StarkProof where
  public_inputs : Bytes
  trace_values : List Nat
  trace_commitment : Bytes
  constraint_values : List Nat
  constraint_commitment : Bytes
  trace_oods_values : List Nat
  constraint_oods_values : List Nat
  pow_nonce : Nat
  trace_decommitment : List Bytes
  constraint_decommitment : List Bytes
  fri_values : List (List Nat)
  fri_commitments : List Bytes
  fri_decommitments : List (List Bytes)
  last_layer_coefficients : List Nat

/-- `ConstraintSystem` — interfaces/ConstraintInterface.sol:9-28 -/
structure ConstraintSystem where
  initalize_system : Bytes → Option (ProofParameters × Coin)
  constraint_calculations : Data → Bytes → List Nat → Nat → List Nat → List Nat → Option (List Nat × Nat)

/-- what is not under the control of the verifier: the gas for the draws of a field element, what the calls of `verify_merkle_proof` find, and what the first of them leaves in the
array of the leaves -/
structure Surroundings where
  gas : Nat
  trace : Fri.Mem
  constraint : Fri.Mem
  fri : Nat → Fri.Mem
  leaves : List Bytes

variable (K : Keccak)

/-- the loop over the layers in `write_data_and_read_random` — stark_verifier.sol:109-112: `n` more layers from `i` on -/
def readEvalPoints (gas : Nat) (commitments : List Bytes) : Nat → Nat → Coin → Option (List Nat × Coin)
  | 0, _, coin => some ([], coin)
  | n + 1, i, coin =>
    commitments[i]?.bind fun root =>
    (PublicCoin.read_field_element K gas (PublicCoin.write_bytes32 K coin root)).bind fun r =>
    (readEvalPoints gas commitments n (i + 1) r.2).map fun rs => (r.1 :: rs.1, rs.2)

/-- the results of `write_data_and_read_random`, and the coin -/
structure Random where
  constraint_coefficients : List Nat
  oods_point : Nat
  oods_coefficients : List Nat
  eval_points : List Nat
  coin : Coin

/-- `write_data_and_read_random` — stark_verifier.sol:76-119; the number of coefficients is a `uint64` -/
def write_data_and_read_random (gas : Nat) (proof : StarkProof) (parameters : ProofParameters) (coin : Coin) : Option Random :=
  let coin := PublicCoin.write_bytes32 K coin proof.trace_commitment
  (PublicCoin.read_many_field_elements K gas (2 * parameters.number_of_constraints % 2 ^ 64) coin).bind fun r1 =>
  let coin := PublicCoin.write_bytes32 K r1.2 proof.constraint_commitment
  (PublicCoin.read_field_element K gas coin).bind fun r2 =>
  let coin := PublicCoin.write_many_field_elements K r2.2 proof.trace_oods_values
  let coin := PublicCoin.write_many_field_elements K coin proof.constraint_oods_values
  (PublicCoin.read_many_field_elements K gas (proof.trace_oods_values.length + proof.constraint_oods_values.length) coin).bind fun r3 =>
  (readEvalPoints K gas proof.fri_commitments parameters.fri_layout.length 0 r3.2).map fun r4 =>
  ⟨r1.1, r2.1, r3.1, r4.1, PublicCoin.write_layer K r4.2 proof.last_layer_coefficients⟩

/-- the hashes of `prepare_hashes_and_queries` — stark_verifier.sol:173-179: of `n` more groups from `i` on -/
def groupHashes (data_groups : List Nat) (data_group_size : Nat) : Nat → Nat → List Bytes → Option (List Bytes)
  | 0, _, output_hashes => some output_hashes
  | n + 1, i, output_hashes =>
    ((List.range data_group_size).mapM fun j => data_groups[i * data_group_size + j]?).bind fun group =>
    (Fri.store output_hashes i (merkle_leaf_hash K group)).bind fun output_hashes =>
    groupHashes data_groups data_group_size n (i + 1) output_hashes

/-- `prepare_hashes_and_queries` — stark_verifier.sol:165-187; the sums do not wrap (queries are below `2^64`) -/
def prepare_hashes_and_queries (data_groups : List Nat) (data_group_size : Nat) (queries : List Nat) (eval_domain_size : Nat) (output_hashes : List Bytes) (output_queries : List Nat) :
    Option (List Bytes × List Nat) :=
  if data_group_size = 0 then none
  else
    (groupHashes K data_groups data_group_size (data_groups.length / data_group_size) 0 output_hashes).bind fun output_hashes =>
    (Utils.deep_copy queries output_queries).map fun output_queries =>
    (output_hashes, output_queries.zipIdx.map fun e => if e.2 < queries.length then e.1 + eval_domain_size else e.1)

/-- `check_commitments` — stark_verifier.sol:123-161 -/
def check_commitments (s : Surroundings) (proof : StarkProof) (parameters : ProofParameters) (queries : List Nat) (log_eval_domain_size : Nat) : Option Unit :=
  let merkle_hashes := List.replicate parameters.number_of_queries (List.replicate 32 0)
  let query_copy := List.replicate queries.length 0
  let eval_domain_size := wexp 2 log_eval_domain_size
  (prepare_hashes_and_queries K proof.trace_values parameters.number_of_columns queries eval_domain_size merkle_hashes query_copy).bind fun r =>
  if verify_merkle_proof K s.trace.gas s.trace.beyond s.trace.s0 s.trace.s1 proof.trace_commitment r.1 r.2 proof.trace_decommitment = some true then
    (prepare_hashes_and_queries K proof.constraint_values parameters.constraint_degree queries eval_domain_size s.leaves query_copy).bind fun r =>
    if verify_merkle_proof K s.constraint.gas s.constraint.beyond s.constraint.s0 s.constraint.s1 proof.constraint_commitment r.1 r.2 proof.constraint_decommitment = some true then
      some ()
    else none
  else none

/-- one round of the loop of `check_out_of_domain_sample_result` — stark_verifier.sol:199-203: the state is the result and the power of the point -/
def oodsStep (oods_point : Nat) (st : Nat × Nat) (v : Nat) : Nat × Nat := (fadd st.1 (fmul_mont v st.2), fmul_mont st.2 oods_point)

/-- `check_out_of_domain_sample_result` — stark_verifier.sol:189-206 -/
def check_out_of_domain_sample_result (proof : StarkProof) (oods_point evaluated_oods_point : Nat) : Option Unit :=
  if (proof.constraint_oods_values.foldl (oodsStep oods_point) (0, to_montgomery 1)).1 = evaluated_oods_point then some () else none

/-- `verify_proof` — stark_verifier.sol:21-73; there is no `return`, so the result is `false`.  The call of `fri_check` (fri.sol:82-105) builds the context. -/
def verify_proof (s : Surroundings) (proof : StarkProof) (constraints : ConstraintSystem) : Option Bool :=
  (constraints.initalize_system proof.public_inputs).bind fun i =>
  let parameters := i.1
  (write_data_and_read_random K s.gas proof parameters i.2).bind fun r =>
  let pow := check_proof_of_work K r.coin proof.pow_nonce parameters.pow_bits
  if pow.1 = true then
    let log_eval_domain_size := (parameters.log_trace_length + parameters.log_blowup) % 256
    let queries := (get_queries K pow.2 log_eval_domain_size parameters.number_of_queries).1
    let data : Data := ⟨proof.trace_values, proof.constraint_values, proof.trace_oods_values, proof.constraint_oods_values, parameters.log_trace_length⟩
    (constraints.constraint_calculations data proof.public_inputs queries r.oods_point r.constraint_coefficients r.oods_coefficients).bind fun c =>
    (check_commitments K s proof parameters queries log_eval_domain_size).bind fun _ =>
    (Fri.fold_and_check_fri_layers K ⟨proof.fri_values, proof.fri_commitments, proof.fri_decommitments, parameters.fri_layout, r.eval_points, log_eval_domain_size, queries, c.1,
      proof.last_layer_coefficients⟩ s.fri).bind fun _ =>
    (check_out_of_domain_sample_result proof r.oods_point c.2).map fun _ => false
  else none

/-- the contract `Recurrence`; `decode` is `abi.decode` of the public input (recurrence.sol:45, 75), `behind` what the assembly finds behind arrays -/
def recurrence (decode : Bytes → Option Recurrence.PublicInput) (behind : Behind) : ConstraintSystem where
  initalize_system inputs := (decode inputs).map (Recurrence.initalize_system K)
  constraint_calculations data inputs queries oods_point constraint_coefficients oods_coefficients :=
    (decode inputs).bind fun input => Recurrence.constraint_calculations behind data input queries oods_point constraint_coefficients oods_coefficients

end StarkVerifier
end Evm
end OpenZKP
