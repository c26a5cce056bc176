import Verif.Examples.Systems

/-!
# Model of the test system `Recurrance2` (crypto/stark/src/traits.rs, module `tests`): recurrences of any order

`none` is a panic.
-/

namespace OpenZKP
namespace Examples
open Stark

namespace Recurrence2
variable {F : Type} [Field F] [DecidableEq F]

/-- the inner loop of `index_value` — traits.rs:192-198: `next_value += coefficient * value.pow(exponent)` over the values from the window on -/
def next (values coefficients : List F) (exponents : List Nat) : F :=
  ((values.zip coefficients).zip exponents).foldl (fun next_value x => next_value + x.1.2 * x.1.1 ^ x.2) 0

/-- the first loop of `index_value` — traits.rs:186-188 -/
def writeInitial : List F → Nat → List F → Option (List F)
  | [], _, values => some values
  | v :: l, i, values => if i < values.length then writeInitial l (i + 1) (values.set i v) else none

/-- the second loop of `index_value` — traits.rs:190-200, `m` turns from `i` on -/
def valueLoop (coefficients : List F) (exponents : List Nat) (order : Nat) : Nat → Nat → List F → List F
  | 0, _, values => values
  | m + 1, i, values => valueLoop coefficients exponents order m (i + 1) (values.set i (next (values.drop (i - order)) coefficients exponents))

/-- `index_value` — traits.rs:184-202 -/
def index_value (index : Nat) (initial_values coefficients : List F) (exponents : List Nat) : Option F :=
  (writeInitial initial_values 0 (List.replicate index 0)).bind fun values =>
  (csub index 1).bind fun last =>
  (valueLoop coefficients exponents initial_values.length (index - initial_values.length) initial_values.length values)[last]?

/-- `seed` — traits.rs:206-217 -/
def seed (rep : F → U256) (index : Nat) (coefficients : List F) (exponents : List Nat) (value : F) : Bytes :=
  usizeBytes index ++ (coefficients.flatMap fun c => elementBytes rep c) ++ (exponents.flatMap fun e => usizeBytes e) ++ usizeBytes index ++ elementBytes rep value

/-- `trace_length` — traits.rs:219-221 -/
def trace_length (index : Nat) : Nat := Merkle.next_power_of_two (index + 1)

/-- `claim_polynomials` — traits.rs:223-225 -/
def claim_polynomials (value : F) : Option (List (List F)) := (Poly.new [value]).map fun p => [p]

/-- the loop that adds the terms — traits.rs:244-249, from term `i` on -/
def addTerms : Nat → List (F × Nat) → Expr F → Expr F
  | _, [], e => e
  | i, (coefficient, exponent) :: l, e => addTerms (i + 1) l (Expr.add e (Expr.mul (Expr.pow (.Trace 0 i) exponent) (.Constant coefficient)))

/-- the loop that leaves out the last rows — traits.rs:253-256, `m` turns from `i` on -/
def leaveOut (g : F) : Nat → Nat → Expr F → Expr F
  | 0, _, e => e
  | m + 1, i, e => leaveOut g m (i + 1) (Expr.mul e (Expr.sub .X (Expr.inv (Expr.pow (.Constant g) (i + 1)))))

/-- the expressions of `constraints` before the claim polynomials are substituted — traits.rs:239-257 -/
def expressions (g : F) (n last : Nat) (coefficients : List F) (exponents : List Nat) : List (Expr F) := [
  Expr.mul (Expr.sub (.Trace 0 0) (.ClaimPolynomial 0 0 .X none)) (on_row g last),
  leaveOut g coefficients.length 0
    (Expr.div (Expr.sub (addTerms 0 (coefficients.zip exponents) (.Constant 0)) (.Trace 0 coefficients.length)) (Expr.sub (Expr.pow .X n) (.Constant 1)))]

/-- `constraints` — traits.rs:229-265 -/
def constraints (root : Nat → Option F) (rep : F → U256) (index : Nat) (coefficients : List F) (exponents : List Nat) (value : F) : Option (Constraints F) :=
  (root (trace_length index)).bind fun g =>
  (csub index 1).bind fun last =>
  (claim_polynomials value).bind fun polys =>
  ((expressions g (trace_length index) last coefficients exponents).mapM (Expr.substitute_claim polys)).bind fun es =>
  system root (trace_length index) 1 (seed rep index coefficients exponents value) es

/-- the first loop of `trace` — traits.rs:272-274 -/
def traceInitial : List F → Nat → TraceTable F → Option (TraceTable F)
  | [], _, t => some t
  | v :: l, i, t => (t.set i 0 v).bind fun t => traceInitial l (i + 1) t

/-- the inner loop of `trace` — traits.rs:278-282, from term `j` on -/
def traceNext (t : TraceTable F) (start : Nat) : Nat → List (F × Nat) → F → Option F
  | _, [], next_value => some next_value
  | j, (coefficient, exponent) :: l, next_value => (t.get (start + j) 0).bind fun x => traceNext t start (j + 1) l (next_value + coefficient * x ^ exponent)

/-- the second loop of `trace` — traits.rs:276-284, `m` turns from `i` on -/
def traceLoop (terms : List (F × Nat)) (order : Nat) : Nat → Nat → TraceTable F → Option (TraceTable F)
  | 0, _, t => some t
  | m + 1, i, t => (traceNext t (i - order) 0 terms 0).bind fun v => (t.set i 0 v).bind fun t => traceLoop terms order m (i + 1) t

/-- `trace` — traits.rs:268-287 -/
def trace (index : Nat) (initial_values coefficients : List F) (exponents : List Nat) : Option (TraceTable F) :=
  (traceInitial initial_values 0 (TraceTable.new (trace_length index) 1)).bind fun t =>
  traceLoop (coefficients.zip exponents) initial_values.length (trace_length index - initial_values.length) initial_values.length t

end Recurrence2
end Examples
end OpenZKP
