import Verif.Examples.Systems

/-!
# Model of the test system `Recurrance` (crypto/stark/src/traits.rs, module `tests`), the one the contract `Recurrence` verifies
-/

namespace OpenZKP
namespace Examples
open Stark

namespace Recurrence
variable {F : Type} [Field F] [DecidableEq F]

/-- `index_value` — traits.rs:90-96: the state after `n` turns of the loop -/
def state (exponent : Nat) (initial_value : F) : Nat → F × F
  | 0 => (1, initial_value)
  | n + 1 => ((state exponent initial_value n).2 ^ exponent, (state exponent initial_value n).1 + (state exponent initial_value n).2)

/-- `seed` — traits.rs:100-108 -/
def seed (rep : F → U256) (index : Nat) (value : F) (exponent : Nat) : Bytes :=
  usizeBytes index ++ elementBytes rep value ++ (if exponent ≠ 1 then usizeBytes exponent else [])

/-- the expressions of `constraints` — traits.rs:124-128 -/
def expressions (g : F) (trace_length index : Nat) (value : F) (exponent : Nat) : List (Expr F) := [
  Expr.mul (Expr.sub (.Trace 0 1) (Expr.pow (.Trace 1 0) exponent)) (every_row g trace_length),
  Expr.mul (Expr.sub (Expr.sub (.Trace 1 1) (.Trace 0 0)) (.Trace 1 0)) (every_row g trace_length),
  Expr.mul (Expr.sub (.Trace 0 0) (.Constant 1)) (on_row g trace_length),
  Expr.mul (Expr.sub (.Trace 0 0) (.Constant value)) (on_row g index)]

/-- `constraints` — traits.rs:112-131 -/
def constraints (root : Nat → Option F) (rep : F → U256) (index : Nat) (value : F) (exponent : Nat) : Option (Constraints F) :=
  let trace_length := Merkle.next_power_of_two (index + 1)
  (root trace_length).bind fun g => system root trace_length 2 (seed rep index value exponent) (expressions g trace_length index value exponent)

/-- `trace` — traits.rs:134-144 -/
def trace (index : Nat) (secret : F) (exponent : Nat) : Option (TraceTable F) :=
  let trace_length := Merkle.next_power_of_two (index + 1)
  tableOf trace_length 2 ([(0, 0, 1), (0, 1, secret)] ++
    loop (fun _ s => (s.2 ^ exponent, s.1 + s.2)) (fun i (s : F × F) => [(i + 1, 0, s.2 ^ exponent), (i + 1, 1, s.1 + s.2)]) (trace_length - 1) 0 (1, secret))

end Recurrence
end Examples
end OpenZKP
