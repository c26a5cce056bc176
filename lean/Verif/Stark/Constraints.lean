import Verif.Stark.Expr
import Verif.Merkle.Model

/-!
# Model of `crypto/stark/src/constraints.rs`

`usize` values are natural numbers; a subtraction below zero is a panic (`none`), as in a build with overflow
checks.  Other panics are `none` as well.
-/

namespace OpenZKP
namespace Stark
open Merkle (trailing_zeros leading_zeros)

/-- a `usize` subtraction in a build with overflow checks -/
def csub (a b : Nat) : Option Nat := if b ≤ a then some (a - b) else none

/-- `Constraints` — constraints.rs:32-69 -/
structure Constraints (F : Type) where
  channel_seed : List UInt8
  trace_nrows : Nat
  trace_ncolumns : Nat
  expressions : List (Expr F)
  blowup : Nat
  pow_bits : Nat
  num_queries : Nat
  fri_layout : List Nat
  claim_polynomials : List (List F)
  deriving DecidableEq

/-- `Error` — constraints.rs:7-9 -/
inductive ConstraintsError where
  | InvalidTraceLength
  deriving DecidableEq

/-- `default_fri_layout` — constraints.rs:73-94 -/
def default_fri_layout (trace_nrows : Nat) : List Nat :=
  let log2_trace := trailing_zeros trace_nrows
  let num_reductions := if log2_trace > 8 then log2_trace - 8 else log2_trace
  List.replicate (num_reductions / 3) 3 ++ (if num_reductions % 3 ≠ 0 then [num_reductions % 3] else [])

namespace Constraints
variable {F : Type} [Field F] [DecidableEq F]

/-- `from_expressions` — constraints.rs:102-124; `root` is `FieldElement::root` -/
def from_expressions (root : Nat → Option F) (trace_nrows trace_ncolumns : Nat) (channel_seed : List UInt8)
    (expressions : List (Expr F)) : Except ConstraintsError (Constraints F) :=
  match root trace_nrows with
  | none => .error .InvalidTraceLength
  | some _ => .ok ⟨channel_seed, trace_nrows, trace_ncolumns, expressions, 16, 0, 45, default_fri_layout trace_nrows, []⟩

/-- `from_expressions_detailed` — constraints.rs:132-173 (`cfg!(test)` is false) -/
def from_expressions_detailed (root : Nat → Option F) (trace_nrows trace_ncolumns : Nat) (channel_seed : List UInt8)
    (expressions : List (Expr F)) (blowup pow_bits num_queries : Option Nat) (fri_layout : Option (List Nat)) :
    Except ConstraintsError (Constraints F) :=
  match root trace_nrows with
  | none => .error .InvalidTraceLength
  | some _ => .ok ⟨channel_seed, trace_nrows, trace_ncolumns, expressions, blowup.getD 16, pow_bits.getD 20,
      num_queries.getD 13, fri_layout.getD (default_fri_layout trace_nrows), []⟩

/-- `Iterator::max` (core library) -/
def maxOf : List Nat → Option Nat
  | [] => none
  | a :: l => some (l.foldl max a)

/-- `degree` — constraints.rs:199-208 -/
def degree (c : Constraints F) : Option Nat :=
  (c.expressions.mapM fun e => csub e.trace_degree.1 e.trace_degree.2).bind maxOf

/-- `security_bits` — constraints.rs:211-216 -/
def security_bits (c : Constraints F) : Nat :=
  (64 - leading_zeros c.blowup) * (c.num_queries / 2) + c.pow_bits

/-- the loop of `max_proof_size` — constraints.rs:235-240 -/
def proofSizeLoop (num_queries : Nat) : List Nat → Nat → Nat → Option (Nat × Nat)
  | [], current_size, total => some (current_size, total)
  | i :: is, current_size, total =>
    (csub current_size i).bind fun current_size =>
    proofSizeLoop num_queries is current_size (total + num_queries * (current_size + 2 ^ i - 1))

/-- `max_proof_size` — constraints.rs:223-246 -/
def max_proof_size (c : Constraints F) : Option Nat :=
  let trace_len_log := trailing_zeros c.trace_nrows
  let total := c.num_queries * (trace_len_log * c.trace_ncolumns + trace_len_log)
  (csub trace_len_log 3).bind fun current_size =>
  (proofSizeLoop c.num_queries c.fri_layout current_size (total + c.num_queries * (current_size + 7))).map fun r =>
  32 * (if 2 ^ r.1 > c.num_queries then r.2 + (2 ^ r.1 - c.num_queries) else r.2)

/-- `tuples` (itertools): consecutive pairs -/
def tuples {α : Type} : List α → List (α × α)
  | a :: b :: l => (a, b) :: tuples l
  | _ => []

/-- the closure of `combine` — constraints.rs:257-263 -/
def combineOne (trace_nrows target_degree : Nat) (e : Expr F) (low high : F) : Option (Expr F) :=
  (csub trace_nrows 1).bind fun td =>
  (csub (target_degree + (e.degree td).2) (e.degree td).1).map fun adjustment_degree =>
  Expr.mul (Expr.add (.Constant low) (Expr.mul (.Constant high) (Expr.pow .X adjustment_degree))) e

/-- `combine` — constraints.rs:248-266 -/
def combine (c : Constraints F) (coefficients : List F) : Option (Expr F) :=
  if 2 * c.expressions.length = coefficients.length then
    c.degree.bind fun degree =>
    (csub (degree * c.trace_nrows) 1).bind fun target_degree =>
    ((c.expressions.zip (tuples coefficients)).mapM fun x =>
      combineOne c.trace_nrows target_degree x.1 x.2.1 x.2.2).map Expr.sum
  else none

/-- the union of two `BTreeSet`s (standard library) -/
def argUnion (s t : List (Nat × Int)) : List (Nat × Int) := t.foldl (fun s a => argInsert a s) s

/-- `trace_arguments` — constraints.rs:268-275 -/
def trace_arguments (c : Constraints F) : Option (List (Nat × Int)) :=
  (c.expressions.mapM Expr.trace_arguments).map fun l => l.foldl argUnion []

/-- `add_claim_polynomials` — constraints.rs:280-282 -/
def add_claim_polynomials (c : Constraints F) (polys : List (List F)) : Constraints F := { c with claim_polynomials := polys }

/-- `substitute` — constraints.rs:289-297 -/
def substitute (c : Constraints F) : Option (Constraints F) :=
  if c.claim_polynomials.isEmpty then some c
  else (c.expressions.mapM (Expr.substitute_claim c.claim_polynomials)).map fun es => { c with expressions := es }

end Constraints
end Stark
end OpenZKP
