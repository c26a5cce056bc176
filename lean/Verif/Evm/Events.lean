import Mathlib.Data.List.Basic

/-!
# Model of the gas log of the verifier contract: the `LogTrace` events of crypto/stark-verifier-ethereum/contracts

Each function below is the list of events its counterpart emits when it does not revert, in order; a call that reverts
leaves no log.  Simplified: an event is its name and its direction, without the gas left and the memory allocated
(trace.sol:11, 21-24); the values computed between two events are left out, so the numbers of turns of the loops are arguments.
-/

namespace OpenZKP
namespace Evm
namespace Events

/-- `event LogTrace` — trace.sol:11, primefield.sol:169 -/
structure Event where
  name : String
  enter : Bool
deriving DecidableEq, Repr

/-- `trace` — trace.sol:19-26, primefield.sol:177-184 -/
def trace (name : String) (enter : Bool) : List Event := [⟨name, enter⟩]

/-- `n` turns of a loop whose body emits `body` -/
def turns (n : Nat) (body : List Event) : List Event := (List.range n).flatMap fun _ => body

/-- `trace_mod` — trace.sol:13-17, primefield.sol:171-175 -/
def trace_mod (name : String) (body : List Event) : List Event := trace name true ++ body ++ trace name false

/-- `PrimeField.lookup` — primefield.sol:187-189 -/
def lookup : List Event := trace_mod "eval_x_lookup" []

/-- `oods_prepare_inverses` — default_cs.sol:103-152, `n` queries -/
def oods_prepare_inverses (n : Nat) : List Event :=
  trace "query_shifting_loop" true ++ turns n lookup ++ trace "query_shifting_loop" false ++
  trace "oods_batch_invert" true ++ trace "oods_batch_invert" false

/-- `get_polynomial_points` — default_cs.sol:30-98, `n` queries -/
def get_polynomial_points (n : Nat) : List Event :=
  trace "oods_prepare_inverses" true ++ oods_prepare_inverses n ++ trace "oods_prepare_inverses" false ++
  turns n (trace "get_polynomial_points_loop_1" true ++ trace "get_polynomial_points_loop_1" false ++
    trace "get_polynomial_points_loop_2" true ++ trace "get_polynomial_points_loop_2" false)

/-- `Recurrence.constraint_calculations` — testing_contracts/recurrence.sol:38-63; the evaluations of the constraints emit nothing -/
def constraint_calculations (n : Nat) : List Event := get_polynomial_points n

/-- `verify_merkle_proof` — merkle.sol:13-86; the assembly block leaves its loop by `break` only -/
def verify_merkle_proof : List Event := trace "verify_merkle_proof" true ++ trace "verify_merkle_proof" false

/-- `check_commitments` — stark_verifier.sol:123-161 -/
def check_commitments : List Event :=
  trace "check_commitments" true ++ verify_merkle_proof ++ verify_merkle_proof ++ trace "check_commitments" false

/-- `fold_coset` — fri.sol:264-303 -/
def fold_coset : List Event := trace "fold_coset" true ++ trace "fold_coset" false

/-- `fold_layer` — fri.sol:198-261, a layer whose queries lie in `cosets` cosets -/
def fold_layer (cosets : Nat) : List Event :=
  trace "fold_layer" true ++
  turns cosets (trace "fold_layer_collect" true ++ trace "fold_layer_collect" false ++ fold_coset) ++
  trace "fold_layer" false

/-- the loop over the layers of `fold_and_check_fri_layers` — fri.sol:134-176 -/
def fold_layers (layers : List Nat) : List Event := layers.flatMap fun cosets => fold_layer cosets ++ verify_merkle_proof

/-- `fold_and_check_fri_layers` — fri.sol:109-194; `fold_layer` truncates the queries to the cosets of the last layer (fri.sol:258-259) -/
def fold_and_check_fri_layers (n : Nat) (layers : List Nat) : List Event :=
  trace "fold_and_check_fri_layers" true ++
  trace "init_x_inv" true ++ trace "init_x_inv" false ++
  fold_layers layers ++
  trace "last_layer" true ++ turns (layers.getLast?.getD n) (trace "horner_eval" true ++ trace "horner_eval" false) ++ trace "last_layer" false ++
  trace "fold_and_check_fri_layers" false

/-- `fri_check` — fri.sol:82-105 -/
def fri_check (n : Nat) (layers : List Nat) : List Event :=
  trace "fri_check" true ++ fold_and_check_fri_layers n layers ++ trace "fri_check" false

/-- `check_out_of_domain_sample_result` — stark_verifier.sol:189-206 -/
def check_out_of_domain_sample_result : List Event :=
  trace "check_out_of_domain_sample" true ++ trace "check_out_of_domain_sample" false

/-- `verify_proof` — stark_verifier.sol:21-73, `n` queries and a layer of FRI for each entry of `layers`, the number of its cosets;
    the constraint system is the recurrence, whose `initalize_system` emits nothing (testing_contracts/recurrence.sol:69-96) -/
def verify_proof (n : Nat) (layers : List Nat) : List Event :=
  trace "verify_proof" true ++
  trace "initalize_system" true ++ trace "initalize_system" false ++
  trace "write_data_and_read_random" true ++ trace "write_data_and_read_random" false ++
  trace "get_queries" true ++ trace "get_queries" false ++
  trace "constraint_calculations" true ++ constraint_calculations n ++ trace "constraint_calculations" false ++
  check_commitments ++
  fri_check n layers ++
  check_out_of_domain_sample_result ++
  trace "verify_proof" false

end Events
end Evm
end OpenZKP
