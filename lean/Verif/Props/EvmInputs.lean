import Verif.Evm.TrivialFib
import Verif.Props.Equality

/-!
# C103: the verifier contract checks the claim it is called with
-/

namespace OpenZKP
namespace Props
namespace EvmInputs
open Evm Evm.StarkVerifier Stark

/-- C103 (partial: not every constraint system - `C103_trivial_violated`): two calls of the contract `Recurrence` that start with the same coin are for the same public input, or the hash
has a collision. -/
theorem C103_recurrence_partial (K : Keccak) (i i' : Recurrence.PublicInput) (hi : i.index < 2 ^ 64) (hi' : i'.index < 2 ^ 64) (hv : i.value < 2 ^ 256) (hv' : i'.value < 2 ^ 256)
    (h : (Recurrence.initalize_system K i).2 = (Recurrence.initalize_system K i').2) :
    i = i' ∨ ∃ a b, a ≠ b ∧ a.length = b.length ∧ K.hash a = K.hash b := by
  unfold Recurrence.initalize_system at h
  have h := congrArg (·.digest) h
  by_cases e : to_be_bytes 8 i.index ++ bytes32 i.value ++ to_be_bytes 8 2 = to_be_bytes 8 i'.index ++ bytes32 i'.value ++ to_be_bytes 8 2
  · refine .inl ?_
    rw [List.append_assoc, List.append_assoc] at e
    obtain ⟨h1, h2⟩ := List.append_inj e (by rw [to_be_bytes_length, to_be_bytes_length])
    obtain ⟨h3, -⟩ := List.append_inj h2 (by rw [bytes32, bytes32, to_be_bytes_length, to_be_bytes_length])
    have e1 := Equality.to_be_bytes_inj 8 _ _ (by norm_num; omega) (by norm_num; omega) h1
    have e2 := Equality.to_be_bytes_inj 32 _ _ (by norm_num; omega) (by norm_num; omega) h3
    cases i
    cases i'
    simp only at e1 e2
    rw [e1, e2]
  · exact .inr ⟨_, _, e, by simp only [List.length_append, bytes32, to_be_bytes_length], h⟩

/-- what `TrivialFib` says is the value of the constraints and of the first layer -/
example : TrivialFib.copyLoop TrivialFib.data 0 (List.replicate 20 0) = some TrivialFib.data := by decide +kernel

/-- C103 is violated: with the constraint system `TrivialFib` the verifier accepts a proof for every public input or for none. -/
theorem C103_trivial_violated (K : Keccak) (s : Surroundings) (proof : StarkProof) (input : Bytes) :
    verify_proof K s { proof with public_inputs := input } TrivialFib.trivial_fib = verify_proof K s proof TrivialFib.trivial_fib := rfl

/-! ## a proof that is accepted, with a hash that is always zero -/

def zeroHash : Keccak := ⟨fun _ => List.replicate 32 0, fun _ => List.length_replicate⟩
def zeros : Bytes := List.replicate 32 0
def memory : Fri.Mem := ⟨400, fun _ => zeros, zeros, zeros⟩
def surroundings : Surroundings := ⟨2, memory, memory, fun _ => memory, List.replicate 20 zeros⟩
def proof : StarkProof where
  public_inputs := []
  trace_values := List.replicate 40 0
  trace_commitment := zeros
  constraint_values := List.replicate 20 0
  constraint_commitment := zeros
  trace_oods_values := [0, 0, 0, 0]
  constraint_oods_values := [TrivialFib.oods_value]
  pow_nonce := 0
  trace_decommitment := []
  constraint_decommitment := []
  fri_values := [TrivialFib.data.flatMap fun x => [PrimeField.MODULUS - x, 0, 0, 0, 0, 0, 0], List.replicate 140 0, List.replicate 60 0]
  fri_commitments := [zeros, zeros, zeros]
  fri_decommitments := [[], [], []]
  last_layer_coefficients := [0, 0, 0, 0]

/-- a proof that does not revert, so that it is accepted for every public input -/
theorem C103_accepted_violated (input : Bytes) : verify_proof zeroHash surroundings { proof with public_inputs := input } TrivialFib.trivial_fib = some false := by
  rw [C103_trivial_violated]
  decide +kernel

/-- another value out of the domain is not accepted -/
example : verify_proof zeroHash surroundings { proof with constraint_oods_values := [0] } TrivialFib.trivial_fib = none := by decide +kernel

/-- the hypotheses of `C103_recurrence_partial` -/
example : (3 < 2 ^ 64 ∧ 5 < 2 ^ 256) ∧ (Recurrence.initalize_system zeroHash ⟨5, 3⟩).2 = (Recurrence.initalize_system zeroHash ⟨5, 3⟩).2 ∧
    (Recurrence.initalize_system ⟨fun b => (b ++ zeros).take 32, fun b => by simp [zeros]⟩ ⟨2 ^ 200, 3⟩).2 ≠
      (Recurrence.initalize_system ⟨fun b => (b ++ zeros).take 32, fun b => by simp [zeros]⟩ ⟨0, 3⟩).2 := by
  refine ⟨by norm_num, rfl, ?_⟩
  intro h
  have h := congrArg (·.digest) h
  revert h
  decide +kernel

end EvmInputs
end Props
end OpenZKP
