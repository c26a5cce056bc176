import Verif.Stark.TraceTable

/-!
# Model of `crypto/stark/src/component/*.rs`

A component's `trace` may only act on the writer through `write`, so it is modelled by the list of its writes
`(polynomial, location, value)`, in order.  `none` is a panic.  The `usize` arithmetic on sizes and positions is taken to be
unbounded.  The debug assertions of `Mapped::write` are modelled for `dbg = true`.
-/

namespace OpenZKP
namespace Stark
open FFT

/-- the implementor's side of `trait Component` — component/mod.rs:51-68 -/
structure Component (F C W : Type) where
  num_polynomials : Nat
  /-- panics in `Horizontal` when the two sizes differ -/
  polynomial_size : Option Nat
  claim : W → C
  constraints : C → Option (List (Expr F))
  trace : W → Option (List (Nat × Nat × F))

/-- `Mapped::write` for a list of writes — component/mapped.rs:29-34 -/
def Mapped.writes {F : Type} (dbg : Bool) (num_polynomials polynomial_size : Nat) (map : Nat → Nat → Nat × Nat)
    (ws : List (Nat × Nat × F)) : Option (List (Nat × Nat × F)) :=
  ws.mapM fun w =>
    if dbg && !(decide (w.1 < num_polynomials) && decide (w.2.1 < polynomial_size)) then none
    else some ((map w.1 w.2.1).1, (map w.1 w.2.1).2, w.2.2)

namespace Component
variable {F : Type} [Field F] [DecidableEq F] {C W C' W' : Type}

/-- `PolynomialWriter::write` of a trace table, for a list of writes — component/mod.rs:46-48 -/
def applyWrites : TraceTable F → List (Nat × Nat × F) → Option (TraceTable F)
  | t, [] => some t
  | t, (polynomial, location, value) :: ws => (t.set location polynomial value).bind fun t => applyWrites t ws

/-- `trace_table` — component/mod.rs:77-85 -/
def trace_table (c : Component F C W) (witness : W) : Option (TraceTable F) :=
  c.polynomial_size.bind fun size =>
  (c.trace witness).bind fun ws =>
  applyWrites (TraceTable.new size c.num_polynomials) ws

/-- `check` — component/mod.rs:110-121 -/
def check (root : Nat → Option F) (c : Component F C W) (witness : W) : Option (Except (Nat × Nat) Unit) :=
  c.polynomial_size.bind fun size =>
  (c.constraints (c.claim witness)).bind fun expressions =>
  match Constraints.from_expressions root size c.num_polynomials [] expressions with
  | .ok constraints => (c.trace_table witness).bind fun trace => TraceTable.check_constraints root constraints trace
  | .error _ => none

/-- `Empty` — component/empty.rs:6-33 -/
def Empty (polynomials size : Nat) : Component F Unit Unit where
  num_polynomials := polynomials
  polynomial_size := some size
  claim := fun _ => ()
  constraints := fun _ => some []
  trace := fun _ => some []

/-! ## `Horizontal` -/

/-- the closure of `constraints` — component/horizontal.rs:60-67 -/
def shiftColumns (left_polynomials : Nat) : Expr F → Option (Expr F)
  | .Trace i j => some (.Trace (i + left_polynomials) j)
  | other => some other

/-- `Horizontal` — component/horizontal.rs:33-94 -/
def Horizontal (dbg : Bool) (left : Component F C W) (right : Component F C' W') : Component F (C × C') (W × W') where
  num_polynomials := left.num_polynomials + right.num_polynomials
  polynomial_size :=
    left.polynomial_size.bind fun l => right.polynomial_size.bind fun r => if l = r then some l else none
  claim := fun w => (left.claim w.1, right.claim w.2)
  constraints := fun claim =>
    (left.constraints claim.1).bind fun l =>
    (right.constraints claim.2).bind fun r =>
    (r.mapM fun e => Expr.map (shiftColumns left.num_polynomials) e).map fun r => l ++ r
  trace := fun w =>
    left.polynomial_size.bind fun left_size =>
    (left.trace w.1).bind fun l =>
    (Mapped.writes dbg left.num_polynomials left_size (fun polynomial location => (polynomial, location)) l).bind fun l =>
    right.polynomial_size.bind fun right_size =>
    (right.trace w.2).bind fun r =>
    (Mapped.writes dbg right.num_polynomials right_size
      (fun polynomial location => (polynomial + left.num_polynomials, location)) r).map fun r => l ++ r

/-! ## `Vertical` -/

/-- the closure of `constraints` — component/vertical.rs:65-70 -/
def powX (size : Nat) : Expr F → Option (Expr F)
  | .X => some (Expr.pow .X size)
  | other => some other

/-- the writes of the copies from number `i` on — component/vertical.rs:75-87 -/
def copies (dbg : Bool) (num_polynomials polynomial_size : Nat) (trace : W → Option (List (Nat × Nat × F))) :
    Nat → List W → Option (List (Nat × Nat × F))
  | _, [] => some []
  | i, w :: ws =>
    (trace w).bind fun l =>
    (Mapped.writes dbg num_polynomials polynomial_size (fun polynomial location => (polynomial, location + i * polynomial_size)) l).bind fun l =>
    (copies dbg num_polynomials polynomial_size trace (i + 1) ws).map fun r => l ++ r

/-- `Vertical` — component/vertical.rs:33-89 -/
def Vertical (dbg : Bool) (element : Component F C W) (size : Nat) : Component F (List C) (List W) where
  num_polynomials := element.num_polynomials
  polynomial_size := element.polynomial_size.map fun n => n * size
  claim := fun ws => ws.map element.claim
  constraints := fun claim =>
    claim.head?.bind fun first =>
    (element.constraints first).bind fun es => es.mapM fun e => Expr.map (powX size) e
  trace := fun ws =>
    element.polynomial_size.bind fun polynomial_size =>
    copies dbg element.num_polynomials polynomial_size element.trace 0 ws

/-- `Vertical::new` — component/vertical.rs:19-22 -/
def Vertical.new (dbg : Bool) (element : Component F C W) (size : Nat) : Option (Component F (List C) (List W)) :=
  if size = 2 ^ Nat.log2 size then some (Vertical dbg element size) else none

/-! ## `Fold` -/

/-- `ceil_div` — component/fold.rs:101-108 -/
def ceil_div (numerator denominator : Nat) : Option Nat :=
  if 0 < denominator then some (if numerator = 0 then 0 else 1 + (numerator - 1) / denominator) else none

/-- `map_up` — component/fold.rs:30-36 -/
def map_up (folds row column : Nat) : Nat × Nat :=
  let reduction := 2 ^ folds
  let column_folded := permute_index reduction (column % reduction)
  let column := column / reduction
  let row := row * reduction + column_folded
  (row, column)

/-- the closure of `constraints` — component/fold.rs:64-77 -/
def foldTrace (folds : Nat) : Expr F → Option (Expr F)
  | .Trace column row_offset =>
    let reduction := 2 ^ folds
    let column_offset := permute_index reduction (column % reduction)
    some (.Trace (column / reduction) ((reduction : Int) * row_offset + (column_offset : Int)))
  | other => some other

/-- the closure of `trace` — component/fold.rs:88-93 -/
def foldMap (folds polynomial location : Nat) : Nat × Nat :=
  let reduction := 2 ^ folds
  let polynomial_folded := permute_index reduction (polynomial % reduction)
  let polynomial := polynomial / reduction
  let location := location * reduction + polynomial_folded
  (polynomial, location)

/-- `Fold` — component/fold.rs:39-98 -/
def Fold (dbg : Bool) (element : Component F C W) (folds : Nat) : Component F C W where
  num_polynomials := (ceil_div element.num_polynomials (2 ^ folds)).getD 0
  polynomial_size := element.polynomial_size.map fun n => n * 2 ^ folds
  claim := element.claim
  constraints := fun claim => (element.constraints claim).bind fun es => es.mapM fun e => Expr.map (foldTrace folds) e
  trace := fun w =>
    element.polynomial_size.bind fun size =>
    (element.trace w).bind fun l => Mapped.writes dbg element.num_polynomials size (foldMap folds) l

/-- `Fold::new` — component/fold.rs:21-24; the shift by 64 or more panics (in a release build it is a shift by `folds % 64`) -/
def Fold.new (dbg : Bool) (element : Component F C W) (folds : Nat) : Option (Component F C W) :=
  if folds < 64 then some (Fold dbg element folds) else none

/-! ## `Test` -/

/-- the constraint of column `i` — component/test.rs:64-83 -/
def testConstraint (omega claim : F) (rows columns i : Nat) : Expr F :=
  let x01 : Expr F × Expr F :=
    if i = 0 ∧ columns = 1 then (.Trace 0 (-2), .Trace 0 (-1))
    else if i = 0 then (.Trace (columns - 2) (-1), .Trace (columns - 1) (-1))
    else if i = 1 then (.Trace (columns - 1) (-1), .Trace 0 0)
    else (.Trace (i - 2) 0, .Trace (i - 1) 0)
  let om : Expr F := .Constant omega
  let exceptions : Expr F :=
    if i = 0 ∧ columns = 1 then Expr.mul (Expr.sub .X (om.pow 0)) (Expr.sub .X (om.pow 1))
    else if i = 0 ∨ i = 1 then Expr.sub .X (om.pow 0)
    else .Constant 1
  Expr.div (Expr.mul (Expr.sub (Expr.sub (.Trace i 0) (Expr.mul x01.1 x01.2)) (.Constant claim)) exceptions)
    (Expr.sub (Expr.pow .X rows) (.Constant 1))

/-- the sequence written by `trace`: `x0` and the state after — component/test.rs:92-99 -/
def testSequence (claim : F) : Nat → F → F → List F
  | 0, _, _ => []
  | n + 1, x0, x1 => x0 :: testSequence claim n x1 (x0 * x1 + claim)

/-- `Test` — component/test.rs:33-108 -/
def Test (root : Nat → Option F) (rows columns : Nat) (seed : F) : Component F F (F × F) where
  num_polynomials := columns
  polynomial_size := some rows
  claim := fun w => w.1
  constraints := fun claim =>
    (root rows).map fun omega =>
    (if 1 ≤ rows * columns then [Expr.div (Expr.sub (.Trace 0 0) (.Constant seed)) (Expr.sub .X (Expr.pow (.Constant omega) 0))] else []) ++
    (if 3 ≤ rows * columns then (List.range columns).map (testConstraint omega claim rows columns) else [])
  trace := fun w =>
    some ((testSequence w.1 (rows * columns) seed w.2).zipIdx.map fun p => (p.2 % columns, p.2 / columns, p.1))

end Component
end Stark
end OpenZKP
