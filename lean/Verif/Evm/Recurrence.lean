import Verif.Evm.DefaultCs
import Verif.Evm.Coin

/-!
# Model of the constraint system `Recurrence` (crypto/stark-verifier-ethereum/contracts/testing_contracts/recurrence.sol, recurrence_trace.sol, recurence_constraint_256.sol)

`none` is a revert.  Not modelled: the decoding of the public input from its bytes (`abi.decode`).
-/

namespace OpenZKP
namespace Evm
namespace Recurrence
open PrimeField DefaultCs

/-- `ProofParameters` — proof_types.sol:49-59 -/
structure ProofParameters where
  number_of_columns : Nat
  log_trace_length : Nat
  number_of_constraints : Nat
  log_blowup : Nat
  constraint_degree : Nat
  pow_bits : Nat
  number_of_queries : Nat
  fri_layout : List Nat
  deriving DecidableEq

/-- `RecurrenceTrace` — recurrence_trace.sol:11-27 -/
def system : System where
  constraint_degree := 2
  num_offsets := 2
  num_columns := 2
  blowup := 16
  layout_rows := [0, 1]
  layout_col_major := [0, 0, 0, 32, 32, 0, 32, 32]

/-- `PublicInput` — recurrence.sol:27-30 -/
structure PublicInput where
  value : Nat
  index : Nat

/-- `initalize_system` — recurrence.sol:69-96; the log of the trace length is a `uint8` -/
def initalize_system (K : Stark.Keccak) (input : PublicInput) : ProofParameters × Coin :=
  let coin : Coin := ⟨K.hash (Stark.to_be_bytes 8 input.index ++ bytes32 input.value ++ Stark.to_be_bytes 8 2), 0⟩
  let log_trace_length := (Utils.num_bits input.index + 1) % 256
  (⟨system.num_columns, log_trace_length, 4, 4, system.constraint_degree, 10, 20, default_fri_layout log_trace_length⟩, coin)

/-- `degree_adjustment` — recurrence.sol:219-225 -/
def degree_adjustment (target_degree numerator_degree denominator_degree : Nat) : Nat := wsub (wadd target_degree denominator_degree) numerator_degree

/-- `evaluate_oods_point` — recurrence.sol:103-180; the indices are checked -/
def evaluate_oods_point (oods_point : Nat) (constraint_coefficients : List Nat) (public_input : PublicInput) (eval : EvalX) (log_trace_length : Nat) (trace_oods_values : List Nat) : Option Nat :=
  let trace_length := wshl 1 log_trace_length
  let trace_generator := fpow eval.eval_domain_generator 16
  let target_degree := wsub (wmul 2 trace_length) 1
  let non_mont_oods := fmul_mont oods_point 1
  let every_row_denom := inverse (fsub (fpow non_mont_oods trace_length) 1)
  let every_row_numb := fsub non_mont_oods (fpow trace_generator (wsub trace_length 1))
  let adjustment_every_row_2 := fpow non_mont_oods (degree_adjustment target_degree (wsub (wmul 2 trace_length) 1) trace_length)
  let adjustment_every_row_1 := fpow non_mont_oods (degree_adjustment target_degree trace_length trace_length)
  let adjustment_fixed_row := fpow non_mont_oods (degree_adjustment target_degree (wsub trace_length 1) 1)
  let last_row_denom := inverse (fsub non_mont_oods (fpow trace_generator trace_length))
  let index_row_denom := inverse (fsub non_mont_oods (fpow trace_generator public_input.index))
  match constraint_coefficients, trace_oods_values with
  | c0 :: c1 :: c2 :: c3 :: c4 :: c5 :: c6 :: c7 :: _, t0 :: t1 :: t2 :: t3 :: _ =>
    let adjustment := fadd (fmul c1 adjustment_every_row_2) c0
    let cell_squared := fmul_mont t2 t2
    let constraint_eval := fmul (fmul (fsub t1 cell_squared) every_row_numb) every_row_denom
    let result := fmul_mont adjustment constraint_eval
    let adjustment := fadd (fmul c3 adjustment_every_row_1) c2
    let constraint_eval := fmul (fmul (fsub (fsub t3 t0) t2) every_row_numb) every_row_denom
    let result := fadd result (fmul_mont adjustment constraint_eval)
    let constraint_eval := fmul (fsub t0 (to_montgomery 1)) last_row_denom
    let adjustment := fadd (fmul c5 adjustment_fixed_row) c4
    let result := fadd result (fmul_mont adjustment constraint_eval)
    let constraint_eval := fmul (fsub t0 public_input.value) index_row_denom
    let adjustment := fadd (fmul c7 adjustment_fixed_row) c6
    some (fadd result (fmul_mont adjustment constraint_eval))
  | _, _ => none

/-- the generator of the trace of 256 rows — recurence_constraint_256.sol:69 -/
def GENERATOR256 : Nat := 0x00c92ecbfd121b58bc7924d5dd51a717c4d78992d0e87cd59f1bc8d7ff0cb347

/-- `ConstraintPolyLen256` — recurence_constraint_256.sol:4-187, on the words of the call data: the point, the index (not used), the value, eight coefficients, four values -/
def constraintPolyLen256 (point value : Nat) (c0 c1 c2 c3 c4 c5 c6 c7 t0 t1 t2 t3 : Nat) : Nat :=
  -- lines 60-62
  let a480 := modexp point 256 MODULUS
  let a512 := modexp point 511 MODULUS
  let a544 := modexp point 257 MODULUS
  -- lines 65-88: the denominators
  let d672 := addmod point (wsub MODULUS (modexp GENERATOR256 150 MODULUS)) MODULUS
  let d704 := addmod point (wsub MODULUS (modexp GENERATOR256 256 MODULUS)) MODULUS
  let d736 := addmod (modexp point 256 MODULUS) (wsub MODULUS 1) MODULUS
  -- lines 89-128: the products before each, the inverse of the product of all, the inverses
  let p608 := mulmod 1 d672 MODULUS
  let p640 := mulmod p608 d704 MODULUS
  let prod := mulmod p640 d736 MODULUS
  let prod_inv := modexp prod (wsub MODULUS 2) MODULUS
  let i640 := mulmod p640 prod_inv MODULUS
  let prod_inv := mulmod prod_inv d736 MODULUS
  let i608 := mulmod p608 prod_inv MODULUS
  let prod_inv := mulmod prod_inv d704 MODULUS
  let i576 := mulmod 1 prod_inv MODULUS
  -- lines 129-147
  let numb := addmod point (wsub MODULUS (modexp GENERATOR256 255 MODULUS)) MODULUS
  let square := mulmod (mulmod 1 t2 MODULUS) t2 MODULUS
  let val := mulmod (addmod t1 (wsub MODULUS square) MODULUS) (mulmod numb i640 MODULUS) MODULUS
  let res := addmod 0 (mulmod val (wadd c0 (mulmod c1 a480 MODULUS)) MODULUS) MODULUS
  -- lines 148-166
  let val := mulmod (addmod (addmod t3 (wsub MODULUS t0) MODULUS) (wsub MODULUS t2) MODULUS) (mulmod numb i640 MODULUS) MODULUS
  let res := addmod res (mulmod val (wadd c2 (mulmod c3 a512 MODULUS)) MODULUS) MODULUS
  -- lines 167-178
  let val := mulmod (addmod t0 (wsub MODULUS 1) MODULUS) i608 MODULUS
  let res := addmod res (mulmod val (wadd c4 (mulmod c5 a544 MODULUS)) MODULUS) MODULUS
  -- lines 179-182
  let val := mulmod (addmod t0 (wsub MODULUS value) MODULUS) i576 MODULUS
  addmod res (mulmod val (wadd c6 (mulmod c7 a544 MODULUS)) MODULUS) MODULUS

/-- `evaluate_oods_point256` — recurrence.sol:182-217: the context has 15 words, filled from the fourth on; the words not filled are zero -/
def evaluate_oods_point256 (oods_point : Nat) (constraint_coefficients : List Nat) (public_input : PublicInput) (trace_oods_values : List Nat) : Option Nat :=
  let words := constraint_coefficients ++ trace_oods_values.map fun v => fmul_mont v 1
  if words.length ≤ 12 then
    let w := fun i => words.getD i 0
    some (constraintPolyLen256 (fmul_mont oods_point 1) (from_montgomery public_input.value) (w 0) (w 1) (w 2) (w 3) (w 4) (w 5) (w 6) (w 7) (w 8) (w 9) (w 10) (w 11))
  else none

/-- `constraint_calculations` — recurrence.sol:38-63: the points of the queries and the combined constraints at the out-of-domain point -/
def constraint_calculations (b : Behind) (data : Data) (input : PublicInput) (queries : List Nat) (oods_point : Nat) (constraint_coefficients oods_coefficients : List Nat) :
    Option (List Nat × Nat) :=
  (init_eval ((data.log_trace_length + 4) % 256)).bind fun eval =>
  (get_polynomial_points system b data eval oods_coefficients queries oods_point).bind fun result =>
  (if data.log_trace_length = 8 ∧ input.index = 150 then evaluate_oods_point256 oods_point constraint_coefficients input data.trace_oods_values
   else evaluate_oods_point oods_point constraint_coefficients input eval data.log_trace_length data.trace_oods_values).map fun evaluated_point =>
  (result, evaluated_point)

end Recurrence
end Evm
end OpenZKP
