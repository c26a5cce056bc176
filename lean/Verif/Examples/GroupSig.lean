import Verif.Examples.Systems
import Verif.EC.Model
import Verif.U256.Division

/-!
# Model of `crypto/stark/examples/group_sig`

`elliptic_helpers.rs` has constraints for points of the curve, for conditions and for bits; `signature.rs` is the system for a signature.  The example has no
`main` (mod.rs:4) and is written for an earlier interface: `Constraints::new` there is `from_expressions` here, with the bytes of the claim as seed.

`uint` is `U256::from(&FieldElement)`, `order` the constant `ORDER`, `SHIFT_POINT` and `GENERATOR` are the parameters `shift` and `generator`.  `none` is a panic.  A
table is filled by a list of assignments, see Examples/Systems.lean.  Not modelled: the lines that print, and the earlier version in `src/group_sig`, which
is part of no crate.
-/

namespace OpenZKP
namespace Examples
namespace GroupSig
open Stark EC

section
variable {F : Type} [Field F] [DecidableEq F]

/-! ## elliptic_helpers.rs -/

/-- `point_double` — elliptic_helpers.rs:37-51 -/
def point_double (input_x input_y output_x output_y : Expr F) : Expr F × Expr F :=
  let lambda_numb := Expr.add (Expr.mul (.Constant 3) (.Exp input_x 2)) (.Constant 1)
  let lambda_denom := Expr.mul (.Constant 2) input_y
  let new_x := Expr.sub (.Exp lambda_numb 2) (Expr.mul (.Exp lambda_denom 2) (Expr.add (Expr.mul (.Constant 2) input_x) output_x))
  let new_y := Expr.sub (Expr.mul lambda_numb (Expr.sub input_x output_x)) (Expr.mul lambda_denom (Expr.add input_y output_y))
  (new_x, new_y)

/-- `point_add` — elliptic_helpers.rs:55-62 -/
def point_add (x_p y_p x_q y_q x_out y_out : Expr F) : Expr F × Expr F :=
  let lambda_numerator := Expr.sub y_q y_p
  let lambda_denominator := Expr.sub x_q x_p
  let new_x := Expr.sub (.Exp lambda_numerator 2) (Expr.mul (.Exp lambda_denominator 2) (Expr.add (Expr.add x_p x_q) x_out))
  let new_y := Expr.sub (Expr.mul lambda_numerator (Expr.sub x_p x_out)) (Expr.mul lambda_denominator (Expr.add y_p y_out))
  (new_x, new_y)

/-- `one_or_zero` — elliptic_helpers.rs:70-72 -/
def one_or_zero (test : Expr F) : Expr F := Expr.mul test (Expr.sub (.Constant 1) test)

/-- `simple_conditional` — elliptic_helpers.rs:75-77 -/
def simple_conditional (a b test : Expr F) : Expr F := Expr.add (Expr.mul a test) (Expr.mul (Expr.sub (.Constant 1) test) b)

/-- `conditional` — elliptic_helpers.rs:65-67 -/
def conditional (a b location test : Expr F) : Expr F × Expr F := (one_or_zero test, Expr.sub (simple_conditional a b test) location)

/-- the loop of `bit_decomp_test` — elliptic_helpers.rs:87-91 -/
def bitLoop : List (Expr F) → F → Expr F → Expr F → Expr F × Expr F
  | [], _, consistency, sum => (consistency, sum)
  | bit :: decomp, power, consistency, sum =>
    bitLoop decomp (power * 2) (Expr.add consistency (one_or_zero bit)) (Expr.add sum (Expr.mul bit (.Constant power)))

/-- `bit_decomp_test` — elliptic_helpers.rs:82-93 -/
def bit_decomp_test (target : Expr F) (decomp : List (Expr F)) : Expr F × Expr F :=
  let r := bitLoop decomp 1 (.Constant 0) (.Constant 0)
  (r.1, Expr.sub r.2 target)

/-- `double` — elliptic_helpers.rs:125-131 -/
def double (p : F × F) : Option (F × F) :=
  if p.1 = 0 ∧ p.2 = 0 then none
  else (fdiv ((p.1 + p.1 + p.1) * p.1 + 1) (p.2 + p.2)).map fun lambda =>
    let new_x := lambda ^ 2 - p.1 - p.1
    (new_x, lambda * (p.1 - new_x) - p.2)

/-- `add` — elliptic_helpers.rs:134-141 -/
def add (p q : F × F) : Option (F × F) :=
  if p.1 = 0 ∧ p.2 = 0 then none
  else if q.1 = 0 ∧ q.2 = 0 then none
  else (fdiv (q.2 - p.2) (q.1 - p.1)).map fun lambda =>
    let new_x := lambda ^ 2 - (p.1 + q.1)
    (new_x, lambda * (p.1 - new_x) - p.2)

/-- the loop of `scalar_mult` — elliptic_helpers.rs:108-121, the last `k` turns, from turn `i` on -/
def scalarLoop (scalar : U256) (start offset : Nat) : Nat → Nat → F × F → F × F → Option (List (Nat × Nat × F))
  | 0, _, _, _ => some []
  | k + 1, i, n, q =>
    let bit := U256.bit scalar i
    (if bit then add n q else some q).bind fun q' =>
    (double n).bind fun n' =>
    (scalarLoop scalar start offset k (i + 1) n' q').map fun l =>
    [(start + i, offset + 1, n.1), (start + i, offset + 2, n.2), (start + i, offset + 3, q.1), (start + i, offset + 4, q.2),
      (start + i, offset, if bit then 1 else 0)] ++ l

/-- `scalar_mult` — elliptic_helpers.rs:96-122 -/
def scalar_mult (shift point : F × F) (scalar : U256) (start offset : Nat) (neg : Bool) : Option (List (Nat × Nat × F)) :=
  scalarLoop scalar start offset 256 0 point (if neg then (shift.1, -shift.2) else shift)

/-! ## signature.rs -/

/-- `on_hash_loop_rows` — signature.rs:44-47 -/
def on_hash_loop_rows (g : F) (a : Expr F) : Expr F :=
  Expr.div (Expr.mul a (Expr.sub (Expr.pow .X 256) (.Constant (g ^ (256 * (512 - 1)))))) (Expr.sub (Expr.pow .X 512) (.Constant 1))

/-- the bytes of a claim — signature.rs:24-31 -/
def claimBytes (uint : F → U256) (hash : F) (who : F × F) : Bytes :=
  U256.to_bytes_be (uint hash) ++ U256.to_bytes_be (uint who.1) ++ U256.to_bytes_be (uint who.2)

/-- `constraints` — signature.rs:34-73, with `trace_length` and `trace_columns` — signature.rs:75-81 -/
def constraints (root : Nat → Option F) (uint : F → U256) (hash : F) (who : F × F) : Option (Constraints F) :=
  (root 512).bind fun g =>
  let row_double := point_double (.Trace 1 0) (.Trace 2 0) (.Trace 1 1) (.Trace 2 1)
  let row_add := point_add (.Trace 1 0) (.Trace 2 0) (.Trace 3 0) (.Trace 4 0) (.Trace 3 1) (.Trace 4 1)
  system root 512 5 (claimBytes uint hash who) [
    on_hash_loop_rows g row_double.1,
    on_hash_loop_rows g row_double.2,
    on_hash_loop_rows g (simple_conditional row_add.1 (Expr.sub (.Trace 3 1) (.Trace 3 0)) (.Trace 0 0)),
    on_hash_loop_rows g (simple_conditional row_add.2 (Expr.sub (.Trace 4 1) (.Trace 4 0)) (.Trace 0 0))]

/-- `trace` — signature.rs:86-99; the signature is `(r, 1 / s)` -/
def trace (dbg : Bool) (uint : F → U256) (order : U256) (shift generator : F × F) (hash : F) (who signature : F × F) : Option (TraceTable F) :=
  (U256.mulmod dbg (uint hash) (uint signature.2) order).bind fun u_1 =>
  (U256.mulmod dbg (uint signature.1) (uint signature.2) order).bind fun u_2 =>
  (scalar_mult shift generator u_1 0 0 false).bind fun first =>
  (scalar_mult shift who u_2 256 0 true).bind fun second =>
  tableOf 512 5 (first ++ second)

end
end GroupSig
end Examples
end OpenZKP
