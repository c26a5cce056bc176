import Verif.Stark.Constraints

/-!
# Model of `crypto/stark/src/trace_table.rs` and `crypto/stark/src/constraint_check.rs`

An `MmapVec` is a list (see the model of `utils/mmap-vec`).  `none` is a panic.
-/

namespace OpenZKP
namespace Stark
open FFT

/-- `TraceTable` — trace_table.rs:12-16 -/
structure TraceTable (F : Type) where
  trace_length : Nat
  num_columns : Nat
  values : List F
  deriving DecidableEq

/-- `Iterator::step_by` (core library): every `n`-th element from the first; panics for 0 -/
def stepBy {α : Type} (n : Nat) (l : List α) : Option (List α) :=
  if n = 0 then none else some ((List.range ((l.length + n - 1) / n)).filterMap fun k => l[k * n]?)

namespace TraceTable
variable {F : Type} [Field F] [DecidableEq F]

/-- `new` — trace_table.rs:20-30 -/
def new (trace_length num_columns : Nat) : TraceTable F :=
  ⟨trace_length, num_columns, List.replicate (trace_length * num_columns) 0⟩

/-- `generator` — trace_table.rs:40-42 -/
def generator (root : Nat → Option F) (t : TraceTable F) : Option F := root t.trace_length

/-- `Index<(usize, usize)>` — trace_table.rs:94-102 -/
def get (t : TraceTable F) (i j : Nat) : Option F :=
  if i < t.trace_length ∧ j < t.num_columns then t.values[i * t.num_columns + j]? else none

/-- an assignment through `IndexMut<(usize, usize)>` — trace_table.rs:105-111 -/
def set (t : TraceTable F) (i j : Nat) (v : F) : Option (TraceTable F) :=
  if i < t.trace_length ∧ j < t.num_columns ∧ i * t.num_columns + j < t.values.length then
    some { t with values := t.values.set (i * t.num_columns + j) v }
  else none

/-- `Index<usize>` — trace_table.rs:114-121 — and `iter_row` — trace_table.rs:44-47 -/
def row (t : TraceTable F) (i : Nat) : Option (List F) :=
  if i < t.trace_length ∧ (i + 1) * t.num_columns ≤ t.values.length then
    some ((t.values.drop (i * t.num_columns)).take t.num_columns)
  else none

/-- `iter_column` — trace_table.rs:49-51 — and `column_to_mmapvec` — trace_table.rs:60-66 -/
def column (t : TraceTable F) (j : Nat) : Option (List F) :=
  if j ≤ t.values.length then stepBy t.num_columns (t.values.drop j) else none

/-- the closure of `interpolate` — trace_table.rs:76-88 -/
def interpolateColumn (root : Nat → Option F) (t : TraceTable F) (j : Nat) : Option (List F) :=
  (t.column j).bind fun vec =>
  (ifft root vec.length (sl vec)).bind fun v =>
  Poly.new (unsl vec.length (permute vec.length v))

/-- `interpolate` — trace_table.rs:68-91 -/
def interpolate (root : Nat → Option F) (t : TraceTable F) : Option (List (List F)) :=
  (List.range t.num_columns).mapM (interpolateColumn root t)

/-- the closure `trace` of both functions of constraint_check.rs:44-56, 80-92; the subtraction `len + row - j` panics below
zero -/
def traceAt (t : TraceTable F) (row : Nat) (i : Nat) (j : Int) : Option F :=
  if 0 < j then t.get ((j.toNat + row) % t.trace_length) i
  else
    let j := j.natAbs
    if row < j then (csub (t.trace_length + row) j).bind fun r => t.get r i
    else t.get (row - j) i

/-- the inner loop of `check_constraints` — constraint_check.rs:57-61, from constraint `which` on: the first failing one -/
def checkRow (x : F) (trace : Nat → Int → Option F) : Nat → List (Expr F) → Option (Option Nat)
  | _, [] => some none
  | which, e :: es =>
    (e.check x trace).bind fun r => if r.2 then checkRow x trace (which + 1) es else some (some which)

/-- the outer loop of `check_constraints` — constraint_check.rs:42-63, with `rows` rows left -/
def checkRows (t : TraceTable F) (es : List (Expr F)) (trace_generator : F) : Nat → Nat → F → Option (Except (Nat × Nat) Unit)
  | 0, _, _ => some (.ok ())
  | rows + 1, row, current_root =>
    (checkRow current_root (t.traceAt row) 0 es).bind fun r =>
    match r with
    | some which => some (.error (row, which))
    | none => checkRows t es trace_generator rows (row + 1) (current_root * trace_generator)

/-- `check_constraints` — constraint_check.rs:34-65 -/
def check_constraints (root : Nat → Option F) (c : Constraints F) (t : TraceTable F) : Option (Except (Nat × Nat) Unit) :=
  (root t.trace_length).bind fun trace_generator =>
  checkRows t c.expressions trace_generator t.trace_length 0 1

/-- `check_specific_constraint` — constraint_check.rs:67-97 -/
def check_specific_constraint (root : Nat → Option F) (c : Constraints F) (t : TraceTable F) (row which : Nat) : Option Bool :=
  (root t.trace_length).bind fun trace_generator =>
  let x := if row = 0 then 1 else trace_generator ^ (row - 1)
  (c.expressions[which]?).bind fun e =>
  (e.check x (t.traceAt row)).map fun r => r.2

end TraceTable
end Stark
end OpenZKP
