import Verif.Evm.PrimeField
import Verif.Evm.Utils

/-!
# Model of the contract `DefaultConstraintSystem` (crypto/stark-verifier-ethereum/contracts/default_cs.sol)

`none` is a revert.  The assembly reads arrays without checking the index: the word found behind an array is given by a function (`Behind`).
The assembly that writes an array without a check (`generator_power_adjustment`) is modelled with a check: writing outside is taken as a revert; it does not happen if
`layout_rows` has `NUM_OFFSETS` elements.  The layout has offsets in bytes that are multiples of 32, as those of the contracts are; other offsets are not modelled.
-/

namespace OpenZKP
namespace Evm
namespace DefaultCs
open PrimeField

/-- the immutables of the contract and the functions it leaves open — default_cs.sol:15-25, 316-319; the first four are `uint8` -/
structure System where
  constraint_degree : Nat
  num_offsets : Nat
  num_columns : Nat
  blowup : Nat
  layout_rows : List Nat
  layout_col_major : List Nat

/-- `OodsEvaluationData` — proof_types.sol:64-71; the public inputs are those of the constraint system -/
structure Data where
  trace_values : List Nat
  constraint_values : List Nat
  trace_oods_values : List Nat
  constraint_oods_values : List Nat
  log_trace_length : Nat

/-- the words behind the arrays read without a check -/
structure Behind where
  trace_values : Nat → Nat
  coefficients : Nat → Nat
  layout : Nat → Nat
  inverses : Nat → Nat

/-- `mload` of an element without a check -/
def read (l : List Nat) (behind : Nat → Nat) (i : Nat) : Nat := l.getD i (behind i)

/-- writing an element of an array -/
def write (l : List Nat) (i x : Nat) : Option (List Nat) := if i < l.length then some (l.set i x) else none

/-- `NUM_OFFSETS+1` of type `uint8` -/
def System.stride (s : System) : Nat := (s.num_offsets + 1) % 256

/-- `generator_power_adjustment` — default_cs.sol:154-193: from position `p` on -/
def generator_power_adjustment (oods_point x : Nat) : List Nat → Nat → List Nat → Option (List Nat)
  | [], _, output => some output
  | power :: powers, p, output =>
    let shifted_oods := mulmod oods_point power MODULUS
    (write output p (addmod x (wsub MODULUS shifted_oods) MODULUS)).bind fun output => generator_power_adjustment oods_point x powers (p + 1) output

/-- the loop over the queries — default_cs.sol:130-143 -/
def shiftingLoop (s : System) (eval : EvalX) (log_eval_domain_size oods_point oods_constraint_power : Nat) (generator_powers : List Nat) :
    List Nat → Nat → List Nat → Option (List Nat)
  | [], _, batch_in => some batch_in
  | query :: queries, i, batch_in =>
    let x := fmul (lookup eval (Utils.bit_reverse query log_eval_domain_size)) GENERATOR
    (generator_power_adjustment oods_point x generator_powers (i * (s.num_offsets + 1)) batch_in).bind fun batch_in =>
    (write batch_in (i * s.stride + s.num_offsets) (fsub x oods_constraint_power)).bind fun batch_in =>
    shiftingLoop s eval log_eval_domain_size oods_point oods_constraint_power generator_powers queries (i + 1) batch_in

/-- `oods_prepare_inverses` — default_cs.sol:103-152 -/
def oods_prepare_inverses (s : System) (queries : List Nat) (eval : EvalX) (oods_point log_eval_domain_size : Nat) : Option (List Nat) :=
  let oods_point := from_montgomery oods_point
  let trace_generator := fpow eval.eval_domain_generator s.blowup
  let batch_in := List.replicate (s.stride * queries.length) 0
  let oods_constraint_power := fpow oods_point s.constraint_degree
  let generator_powers := s.layout_rows.map fun r => fpow trace_generator r
  (shiftingLoop s eval log_eval_domain_size oods_point oods_constraint_power generator_powers queries 0 batch_in).bind fun batch_in =>
  (batch_invert batch_in (List.replicate batch_in.length 0)).map fun r => r.take batch_in.length

/-- `oods_row_adjustment` — default_cs.sol:219-314: the terms of the trace for query `i` -/
def oods_row_adjustment (s : System) (b : Behind) (trace_oods_values trace_values coefficients inverses : List Nat) (i : Nat) : Nat :=
  (List.range trace_oods_values.length).foldl (init := 0) fun result k =>
    let loaded_trace_value := read trace_values b.trace_values (s.num_columns * i + read s.layout_col_major b.layout (2 * k) / 32)
    let numerator := addmod loaded_trace_value (wsub MODULUS (trace_oods_values.getD k 0)) MODULUS
    let denominator_inv := read inverses b.inverses (s.stride * i + read s.layout_col_major b.layout (2 * k + 1) / 32)
    let element := mulmod numerator denominator_inv MODULUS
    addmod result (mulmod element (read coefficients b.coefficients k) MODULUS) MODULUS

/-- the second loop for a query — default_cs.sol:71-91 -/
def constraintTerms (s : System) (data : Data) (coefficients : List Nat) (denominator_inv i result : Nat) : Option Nat :=
  (List.range s.constraint_degree).foldlM (init := result) fun result j =>
    coefficients[data.trace_oods_values.length + j]?.bind fun coef =>
    data.constraint_values[i * s.constraint_degree + j]?.bind fun loaded_constraint_value =>
    data.constraint_oods_values[j]?.map fun loaded_oods_value =>
    let numerator := addmod loaded_constraint_value (wsub MODULUS loaded_oods_value) MODULUS
    let element := mulmod numerator denominator_inv MODULUS
    addmod result (mulmod element coef MODULUS) MODULUS

/-- `get_polynomial_points` — default_cs.sol:30-98 -/
def get_polynomial_points (s : System) (b : Behind) (data : Data) (eval : EvalX) (oods_coefficients queries : List Nat) (oods_point : Nat) : Option (List Nat) :=
  (oods_prepare_inverses s queries eval oods_point ((data.log_trace_length + 4) % 256)).bind fun inverses =>
  let coefficients := oods_coefficients.map fun c => mulmod c MONTGOMERY_R_INV MODULUS
  (List.range queries.length).mapM fun i =>
    let result := oods_row_adjustment s b data.trace_oods_values data.trace_values coefficients inverses i
    inverses[i * s.stride + s.num_offsets]?.bind fun denominator_inv =>
    constraintTerms s data coefficients denominator_inv i result

/-- default_cs.sol:196 -/
def LOG2_TARGET : Nat := 8

/-- `default_fri_layout` — default_cs.sol:198-217 -/
def default_fri_layout (log_trace_len : Nat) : List Nat :=
  let num_reductions := if LOG2_TARGET < log_trace_len then log_trace_len - LOG2_TARGET else log_trace_len
  if num_reductions % 3 ≠ 0 then List.replicate (num_reductions / 3) 3 ++ [num_reductions % 3] else List.replicate (num_reductions / 3) 3

end DefaultCs
end Evm
end OpenZKP
