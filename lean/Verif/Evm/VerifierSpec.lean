import Verif.Evm.StarkVerifier
import Verif.Stark.AcceptSpec

/-!
# Specification: the parts of a proof in the arrays of the contract
-/

namespace OpenZKP
namespace Evm
namespace StarkVerifier
open Stark Stark.Accept PrimeField

/-- the parts `P` are those in the arrays of the contract, for FRI with `layers` layers (the openings are not compared: the contract reads of them what it needs) -/
structure Carries (proof : StarkProof) (layers : Nat) (P : Contents) : Prop where
  trace_root : P.trace_root = proof.trace_commitment
  constraint_root : P.constraint_root = proof.constraint_commitment
  trace_values : P.trace_values.map U256.toNat = proof.trace_oods_values
  constraint_values : P.constraint_values.map U256.toNat = proof.constraint_oods_values
  fri : P.fri.length = layers ∧ P.fri.map (·.root) = proof.fri_commitments.take layers
  last_layer : P.last_layer.map U256.toNat = proof.last_layer_coefficients
  nonce : P.nonce = proof.pow_nonce
  trace_rows : P.trace_rows.flatten.map U256.toNat = proof.trace_values
  constraint_rows : P.constraint_rows.flatten.map U256.toNat = proof.constraint_values

/-- the arrays of the contract are the parts `P`, openings included -/
structure Encodes (proof : StarkProof) (P : Contents) : Prop where
  trace_root : proof.trace_commitment = P.trace_root
  constraint_root : proof.constraint_commitment = P.constraint_root
  trace_values : proof.trace_oods_values = P.trace_values.map U256.toNat
  constraint_values : proof.constraint_oods_values = P.constraint_values.map U256.toNat
  fri_roots : proof.fri_commitments = P.fri.map (·.root)
  last_layer : proof.last_layer_coefficients = P.last_layer.map U256.toNat
  nonce : proof.pow_nonce = P.nonce
  trace_rows : proof.trace_values = P.trace_rows.flatten.map U256.toNat
  trace_hashes : proof.trace_decommitment = P.trace_hashes
  constraint_rows : proof.constraint_values = P.constraint_rows.flatten.map U256.toNat
  constraint_hashes : proof.constraint_decommitment = P.constraint_hashes
  fri_values : proof.fri_values = P.fri.map (·.values.map U256.toNat)
  fri_hashes : proof.fri_decommitments = P.fri.map (·.hashes)

/-- the arrays have the lengths the constraint system asks for, for `n` queries, `columns` columns, `cells` cells in the constraints, degree `degree` and `last` coefficients of the last
layer -/
structure RightLengths (proof : StarkProof) (n columns cells degree last : Nat) : Prop where
  trace_values : proof.trace_values.length = n * columns
  constraint_values : proof.constraint_values.length = n * degree
  trace_oods_values : proof.trace_oods_values.length = cells
  constraint_oods_values : proof.constraint_oods_values.length = degree
  last_layer : proof.last_layer_coefficients.length = last

/-- all words for elements of the field are reduced -/
structure AllReduced (proof : StarkProof) : Prop where
  trace_values : ∀ v ∈ proof.trace_values, v < MODULUS
  constraint_values : ∀ v ∈ proof.constraint_values, v < MODULUS
  trace_oods_values : ∀ v ∈ proof.trace_oods_values, v < MODULUS
  constraint_oods_values : ∀ v ∈ proof.constraint_oods_values, v < MODULUS
  fri_values : ∀ vs ∈ proof.fri_values, ∀ v ∈ vs, v < MODULUS
  last_layer : ∀ v ∈ proof.last_layer_coefficients, v < MODULUS

/-- what the types of the contract demand: hashes are of 32 bytes and the nonce is one of eight bytes -/
structure Typed (proof : StarkProof) : Prop where
  trace_commitment : proof.trace_commitment.length = 32
  constraint_commitment : proof.constraint_commitment.length = 32
  pow_nonce : proof.pow_nonce < 2 ^ 64
  trace_decommitment : ∀ h ∈ proof.trace_decommitment, h.length = 32
  constraint_decommitment : ∀ h ∈ proof.constraint_decommitment, h.length = 32
  fri_commitments : ∀ h ∈ proof.fri_commitments, h.length = 32
  fri_decommitments : ∀ d ∈ proof.fri_decommitments, ∀ h ∈ d, h.length = 32

/-- memory is made of words of 32 bytes, the array of the leaves keeps its length `n`, and there is less gas than it would take to overflow the counter of the coin -/
structure Surroundings.Ok (s : Surroundings) (n : Nat) : Prop where
  gas : s.gas < 2 ^ 48
  trace : s.trace.s0.length = 32 ∧ ∀ i, (s.trace.beyond i).length = 32
  constraint : s.constraint.s0.length = 32 ∧ ∀ i, (s.constraint.beyond i).length = 32
  fri : ∀ t, (s.fri t).s0.length = 32 ∧ ∀ i, ((s.fri t).beyond i).length = 32
  leaves : s.leaves.length = n

end StarkVerifier
end Evm
end OpenZKP
