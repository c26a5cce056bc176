import Mathlib.Algebra.Field.Basic
import Mathlib.Algebra.BigOperators.Group.List.Basic

/-!
# Algorithms generic over a field (model): batch inversion and geometric series

Models `/repo/algebra/primefield/src/invert_batch.rs` and `geometric_series.rs`.  The Rust code is generic over
`FieldLike`; here the field is any Lean field, and `inv` is the correct inversion of C14.
-/

namespace OpenZKP

/-- `inv` of a `FieldLike`: `None` exactly for zero (prime_field.rs:282-291, see C14). -/
def finv {F : Type} [Field F] [DecidableEq F] (x : F) : Option F := if x = 0 then none else some x⁻¹

section batch
variable {F : Type} [Field F] [DecidableEq F]

/-- first loop — invert_batch.rs:21-24: the destination and the accumulator -/
def batchFwd : List F → F → List F × F
  | [], acc => ([], acc)
  | src :: rest, acc =>
    let r := batchFwd rest (acc * src)
    (acc :: r.1, r.2)

/-- second loop (`.rev()`, so the recursion is executed before the step) — invert_batch.rs:26-29 -/
def batchBwd : List (F × F) → F → List F × F
  | [], acc => ([], acc)
  | (src, dst) :: rest, acc =>
    let r := batchBwd rest acc
    (dst * r.2 :: r.1, r.2 * src)

/-- `invert_batch_src_dst` — invert_batch.rs:15-31; the new destination, `none` is a panic (length mismatch or
`expect`) -/
def invert_batch_src_dst (source destination : List F) : Option (List F) :=
  if source.length ≠ destination.length then none
  else
    let r := batchFwd source 1
    (finv r.2).map fun acc => (batchBwd (source.zip r.1) acc).1

/-- `invert_batch` — invert_batch.rs:33-41 -/
def invert_batch (source : List F) : Option (List F) :=
  invert_batch_src_dst source (List.replicate source.length 0)

end batch

/-- `GeometricIter` — geometric_series.rs:15-24 (`length` is a `usize`) -/
structure GeometricIter (F : Type) where
  current : F
  step : F
  length : Nat

namespace GeometricIter
variable {F : Type} [Field F]

/-- `at` — geometric_series.rs:31-33 -/
def at' (g : GeometricIter F) (index : Nat) : F := g.current * g.step ^ index

/-- `skip` — geometric_series.rs:35-39; in the debug profile the subtraction panics on underflow, in release
it wraps -/
def skip (dbg : Bool) (g : GeometricIter F) (n : Nat) : Option (GeometricIter F) :=
  if dbg && decide (g.length < n) then none
  else some ⟨g.current * g.step ^ n, g.step, (g.length + (2 ^ 64 - n)) % 2 ^ 64⟩

/-- `take` — geometric_series.rs:41-44 -/
def take (g : GeometricIter F) (n : Nat) : GeometricIter F := ⟨g.current, g.step, min g.length n⟩

/-- `step_by` — geometric_series.rs:47-52; `none` is the failing assertion -/
def step_by (g : GeometricIter F) (step : Nat) : Option (GeometricIter F) :=
  if 0 < step then some ⟨g.current, g.step ^ step, g.length / step⟩ else none

/-- `next` — geometric_series.rs:62-72 -/
def next (g : GeometricIter F) : Option F × GeometricIter F :=
  if g.length = 0 then (none, g)
  else (some g.current, ⟨g.current * g.step, g.step, g.length - 1⟩)

/-- `size_hint` — geometric_series.rs:74-76 -/
def size_hint (g : GeometricIter F) : Nat × Option Nat := (g.length, some g.length)

/-- calling `next` at most `fuel` times and collecting the items until `None` -/
def collect : Nat → GeometricIter F → List F
  | 0, _ => []
  | fuel + 1, g =>
    match g.next with
    | (some x, g') => x :: collect fuel g'
    | (none, _) => []

end GeometricIter

/-- `geometric_series` — geometric_series.rs:82-92 -/
def geometric_series {F : Type} (base step : F) : GeometricIter F := ⟨base, step, 2 ^ 64 - 1⟩

/-- `root_series` — geometric_series.rs:94-101, given the `root` function of the field -/
def root_series {F : Type} [Field F] (root : Nat → Option F) (order : Nat) : Option (GeometricIter F) :=
  (root order).map fun r => (geometric_series 1 r).take order

end OpenZKP
