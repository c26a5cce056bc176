import Verif.Stark.TraceTable
import Verif.Stark.Verifier

/-!
# Model of the example systems `crypto/stark/examples/*.rs`

Each example has a claim, the constraint system of a claim, and the trace of a witness.  `root` is `FieldElement::root`, `rep` is
`as_montgomery`.  `none` is a panic.

Simplifications: the tables of round constants (`K_COEF`, `Q`) and the numbers of rounds of the examples with fixed sizes are parameters
(`constants`, `q`, `rounds`, `hashes`); a cell that was written before in the same function is not read back from the table, its value is kept in a
variable.
-/

namespace OpenZKP
namespace Examples
open Stark FFT

section
variable {F : Type} [Field F] [DecidableEq F]

/-- `on_row` — small_fib.rs:32, and the same in every example -/
def on_row (g : F) (index : Nat) : Expr F := (Expr.sub .X (Expr.pow (.Constant g) index)).inv

/-- `every_row` — small_fib.rs:33, and the same in every example -/
def every_row (g : F) (trace_length : Nat) : Expr F :=
  Expr.div (Expr.sub .X (Expr.pow (.Constant g) (trace_length - 1))) (Expr.sub (Expr.pow .X trace_length) (.Constant 1))

/-- `usize::to_be_bytes` (core library) -/
def usizeBytes (n : Nat) : Bytes := (List.range 8).map fun i => UInt8.ofNat (n / 256 ^ (7 - i))

/-- `as_montgomery().to_bytes_be()` -/
def elementBytes (rep : F → U256) (x : F) : Bytes := U256.to_bytes_be (rep x)

/-- `Constraints::from_expressions(..).unwrap()` -/
def system (root : Nat → Option F) (rows columns : Nat) (seed : Bytes) (expressions : List (Expr F)) : Option (Constraints F) :=
  match Constraints.from_expressions root rows columns seed expressions with
  | .ok c => some c
  | .error _ => none

/-- a loop that writes `cells i s` in its turn `i` and goes on with the state `step i s` -/
def loop {σ : Type} (step : Nat → σ → σ) (cells : Nat → σ → List (Nat × Nat × F)) : Nat → Nat → σ → List (Nat × Nat × F)
  | 0, _, _ => []
  | n + 1, i, s => cells i s ++ loop step cells n (i + 1) (step i s)

/-- a table of zeros with these assignments done, `(row, column, value)` -/
def tableOf (rows columns : Nat) (writes : List (Nat × Nat × F)) : Option (TraceTable F) :=
  writes.foldlM (fun t w => t.set w.1 w.2.1 w.2.2) (TraceTable.new rows columns)

/-- `periodic` with the interpolation of the constants — mimc_cubic.rs:52-61, mimc_quadratic.rs:53-62, mimc_hash.rs:165-174, mimc_tree.rs:163-172 -/
def periodic (root : Nat → Option F) (trace_length : Nat) (constants : List F) : Option (Expr F) :=
  (ifft root constants.length (sl constants)).bind fun v =>
  (Poly.new (unsl constants.length (permute constants.length v))).map fun p =>
  .Polynomial p (Expr.pow .X (trace_length / constants.length))

/-! ## small_fib.rs and large_fib.rs -/

namespace Fib

/-- `constraints` — small_fib.rs:21-42, large_fib.rs:19-40 -/
def constraints (root : Nat → Option F) (rep : F → U256) (index : Nat) (value : F) : Option (Constraints F) :=
  let seed := usizeBytes index ++ elementBytes rep value
  let trace_length := Merkle.next_power_of_two index
  (root trace_length).bind fun g =>
  system root trace_length 2 seed [
    Expr.mul (Expr.sub (.Trace 0 1) (.Trace 1 0)) (every_row g trace_length),
    Expr.mul (Expr.sub (Expr.sub (.Trace 1 1) (.Trace 0 0)) (.Trace 1 0)) (every_row g trace_length),
    Expr.mul (Expr.sub (.Trace 0 0) (.Constant 1)) (on_row g 0),
    Expr.mul (Expr.sub (.Trace 0 0) (.Constant value)) (on_row g index)]

/-- `trace` — small_fib.rs:46-56, large_fib.rs:44-54 -/
def trace (index : Nat) (secret : F) : Option (TraceTable F) :=
  let trace_length := Merkle.next_power_of_two index
  tableOf trace_length 2 ([(0, 0, 1), (0, 1, secret)] ++
    loop (fun _ s => (s.2, s.1 + s.2)) (fun i (s : F × F) => [(i + 1, 0, s.2), (i + 1, 1, s.1 + s.2)]) (trace_length - 1) 0 (1, secret))

end Fib

/-! ## mimc_cubic.rs -/

namespace Cubic

/-- `constraints` — mimc_cubic.rs:38-72; `rounds` is `ROUNDS` (8192) and `constants` is `K_COEF` (16 elements) -/
def constraints (root : Nat → Option F) (rep : F → U256) (rounds : Nat) (constants : List F) (before after : F) : Option (Constraints F) :=
  let seed := elementBytes rep before ++ elementBytes rep after
  (root rounds).bind fun g =>
  (periodic root rounds constants).bind fun k_coef =>
  system root rounds 1 seed [
    Expr.mul (Expr.sub (.Trace 0 1) (Expr.add (.Exp (.Trace 0 0) 3) k_coef)) (every_row g rounds),
    Expr.mul (Expr.sub (.Trace 0 0) (.Constant before)) (on_row g 0),
    Expr.mul (Expr.sub (.Trace 0 0) (.Constant after)) (on_row g (rounds - 1))]

/-- `trace` — mimc_cubic.rs:76-86; the assertion is the second part -/
def trace (rounds : Nat) (constants : List F) (before after : F) : Option (TraceTable F) :=
  (tableOf rounds 1 (loop (fun i prev => prev ^ 3 + constants.getD (i % 16) 0) (fun i prev => [(i, 0, prev)]) rounds 0 before)).bind fun t =>
  (t.get (rounds - 1) 0).bind fun last => if last = after then some t else none

/-- `mimc` — mimc_cubic.rs:89-95, mimc_quadratic.rs:96-102 -/
def mimc (rounds : Nat) (constants : List F) (start : F) : F :=
  ((List.range rounds).drop 1).foldl (fun prev i => prev ^ 3 + constants.getD ((i - 1) % 16) 0) start

end Cubic

/-! ## mimc_quadratic.rs -/

namespace Quadratic

/-- `constraints` — mimc_quadratic.rs:39-77 -/
def constraints (root : Nat → Option F) (rep : F → U256) (rounds : Nat) (constants : List F) (before after : F) : Option (Constraints F) :=
  let seed := elementBytes rep before ++ elementBytes rep after
  (root rounds).bind fun g =>
  (periodic root rounds constants).bind fun k_coef =>
  system root rounds 3 seed [
    Expr.mul (Expr.sub (Expr.mul (.Trace 0 0) (.Trace 0 0)) (.Trace 1 0)) (every_row g rounds),
    Expr.mul (Expr.sub (Expr.mul (.Trace 0 0) (.Trace 1 0)) (.Trace 2 0)) (every_row g rounds),
    Expr.mul (Expr.sub (.Trace 0 1) (Expr.add (.Trace 2 0) k_coef)) (every_row g rounds),
    Expr.mul (Expr.sub (.Trace 0 0) (.Constant before)) (on_row g 0),
    Expr.mul (Expr.sub (.Trace 0 0) (.Constant after)) (on_row g (rounds - 1))]

/-- `trace` — mimc_quadratic.rs:81-93 -/
def trace (rounds : Nat) (constants : List F) (before after : F) : Option (TraceTable F) :=
  (tableOf rounds 3 (loop (fun i prev => prev * prev ^ 2 + constants.getD (i % 16) 0)
    (fun i prev => [(i, 0, prev), (i, 1, prev ^ 2), (i, 2, prev * prev ^ 2)]) rounds 0 before)).bind fun t =>
  (t.get (rounds - 1) 0).bind fun last => if last = after then some t else none

end Quadratic

/-! ## mimc_hash.rs -/

namespace Hash

/-- the new left and right — mimc_hash.rs:219-222, 234-237, 250-253, 260-263; mimc_tree.rs:259-262, 277-280, 305-308, 315-318 -/
def round (q k : F) (s : F × F) : F × F := (s.1 ^ 3 + 3 * q * s.1 * s.2 ^ 2 + k, 3 * s.1 ^ 2 + q * s.2 ^ 3)

/-- `on_loop_rows` — mimc_hash.rs:176-180, mimc_tree.rs:175-179 -/
def on_loop_rows (g : F) (trace_length length : Nat) : Expr F :=
  Expr.div (Expr.sub (Expr.pow .X (trace_length / length)) (.Constant (g ^ (trace_length / length * (trace_length - 1)))))
    (Expr.sub (Expr.pow .X trace_length) (.Constant 1))

/-- the next left minus what it should be, first constraint — mimc_hash.rs:187-190, mimc_tree.rs:192-195 -/
def leftStep (q : F) (k_coef : Expr F) : Expr F :=
  Expr.sub (Expr.add (Expr.add (.Exp (.Trace 0 0) 3) (Expr.mul (Expr.mul (Expr.mul (.Constant 3) (.Constant q)) (.Trace 0 0)) (.Exp (.Trace 1 0) 2))) k_coef)
    (.Trace 0 1)

/-- the next right minus what it should be, second constraint — mimc_hash.rs:192-194, mimc_tree.rs:197-199 -/
def rightStep (q : F) : Expr F :=
  Expr.sub (Expr.add (Expr.mul (.Constant 3) (.Exp (.Trace 0 0) 2)) (Expr.mul (.Constant q) (.Exp (.Trace 1 0) 3))) (.Trace 1 1)

/-- `constraints` — mimc_hash.rs:150-206; `constants` is `K_COEF` (128 elements) -/
def constraints (root : Nat → Option F) (rep : F → U256) (q : F) (constants : List F) (before_x before_y after : F) : Option (Constraints F) :=
  let seed := elementBytes rep before_x ++ elementBytes rep before_y ++ elementBytes rep after
  let trace_length := 256
  (root trace_length).bind fun g =>
  (periodic root trace_length constants).bind fun k_coef =>
  system root trace_length 2 seed [
    Expr.mul (leftStep q k_coef) (on_loop_rows g trace_length 128),
    Expr.mul (rightStep q) (every_row g trace_length),
    Expr.mul (Expr.sub (.Trace 0 0) (.Constant before_x)) (on_row g 0),
    Expr.mul (.Trace 1 0) (on_row g 0),
    Expr.mul (Expr.sub (.Trace 0 0) (.Constant before_y)) (on_row g 128),
    Expr.mul (Expr.sub (.Trace 0 0) (.Constant after)) (on_row g 255)]

/-- a loop over some of the constants — mimc_hash.rs:249-256, 259-266; mimc_tree.rs:304-311, 314-321 -/
def rounds (q : F) (constants : List F) (s : F × F) : F × F := constants.foldl (fun s k => round q k s) s

/-- `mimc` — mimc_hash.rs:246-268; `mimc_hash` — mimc_tree.rs:301-323 -/
def mimc (q : F) (constants : List F) (x y : F) : F :=
  (rounds q (constants.take 127) (y, (rounds q constants (x, 0)).2)).1

/-- `trace` — mimc_hash.rs:210-243 -/
def trace (q : F) (constants : List F) (before_x before_y after : F) : Option (TraceTable F) :=
  let cells := fun start i (s : F × F) => [(i + start, 0, s.1), (i + start, 1, s.2)]
  let middle := (List.range 128).foldl (fun s i => round q (constants.getD i 0) s) (before_x, 0)
  (tableOf 256 2 (loop (fun i s => round q (constants.getD i 0) s) (cells 0) 128 0 (before_x, 0) ++
    loop (fun i s => round q (constants.getD i 0) s) (cells 128) 128 0 (before_y, middle.2))).bind fun t =>
  (t.get 255 0).bind fun last => if last = after then some t else none

end Hash

/-! ## mimc_tree.rs -/

namespace Tree

/-- `constraints` — mimc_tree.rs:150-218; `hashes` is 8192 -/
def constraints (root : Nat → Option F) (rep : F → U256) (q : F) (constants : List F) (hashes : Nat) (element merkle_root start_left : F) :
    Option (Constraints F) :=
  let seed := elementBytes rep element ++ elementBytes rep merkle_root
  let trace_length := 256 * hashes
  (root trace_length).bind fun g =>
  (periodic root trace_length constants).bind fun k_coef =>
  system root trace_length 2 seed [
    Expr.mul (Hash.leftStep q k_coef) (Hash.on_loop_rows g trace_length 128),
    Expr.mul (Hash.rightStep q) (Hash.on_loop_rows g trace_length 256),
    Expr.mul (Expr.mul (.Constant start_left) (Expr.sub (.Trace 0 0) (.Constant element))) (on_row g 128),
    Expr.mul (Expr.mul (Expr.sub (.Constant start_left) (.Constant 1)) (Expr.sub (.Trace 0 0) (.Constant element))) (on_row g 0),
    Expr.mul (.Trace 1 0) (Expr.div (.Constant 1) (Expr.sub (Expr.pow .X (trace_length / 256)) (.Constant 1))),
    Expr.mul (Expr.sub (.Trace 0 0) (.Constant merkle_root)) (on_row g (trace_length - 1))]

/-- `mimc_path` — mimc_tree.rs:288-298: the root from a leaf and the siblings on the path, each with its side -/
def mimc_path (q : F) (constants : List F) (x : F) (path : List (F × Bool)) : F :=
  path.foldl (fun previous node => if node.2 then Hash.mimc q constants node.1 previous else Hash.mimc q constants previous node.1) x

/-- `mimc_loop` — mimc_tree.rs:247-285: the assignments and the result -/
def mimc_loop (q : F) (constants : List F) (x y : F) (execution_increment : Nat) : List (Nat × Nat × F) × F :=
  let cells := fun start i (s : F × F) => [(i + start, 0, s.1), (i + start, 1, s.2)]
  let step := fun i s => Hash.round q (constants.getD i 0) s
  let middle := (List.range 128).foldl (fun s i => step i s) (x, 0)
  (loop step (cells execution_increment) 128 0 (x, 0) ++ loop step (cells (execution_increment + 128)) 128 0 (y, middle.2),
    ((List.range 127).foldl (fun s i => step i s) (y, middle.2)).1)

/-- the loop of `trace` — mimc_tree.rs:233-240 -/
def traceLoop (q : F) (constants : List F) : List (F × Bool) → F → Nat → List (Nat × Nat × F)
  | [], _, _ => []
  | node :: path, previous, execution_increment =>
    let r := if node.2 then mimc_loop q constants node.1 previous execution_increment else mimc_loop q constants previous node.1 execution_increment
    r.1 ++ traceLoop q constants path r.2 (execution_increment + 256)

/-- `trace` — mimc_tree.rs:228-244; the witness has as many sides as nodes -/
def trace (q : F) (constants : List F) (element merkle_root : F) (path : List (F × Bool)) : Option (TraceTable F) :=
  (tableOf (256 * path.length) 2 (traceLoop q constants path element 0)).bind fun t =>
  (csub (256 * path.length) 1).bind fun last_row =>
  (t.get last_row 0).bind fun last => if last = merkle_root then some t else none

end Tree

/-! ## vdf.rs -/

namespace Vdf

/-- `constraints` — vdf.rs:20-53; `rounds` is 1048576, and `r` is the constant `R` (3) -/
def constraints (root : Nat → Option F) (rep : F → U256) (r : F) (rounds : Nat) (c0_start c1_start c0_end c1_end : F) : Option (Constraints F) :=
  let seed := elementBytes rep c0_start ++ elementBytes rep c1_start ++ elementBytes rep c0_end ++ elementBytes rep c1_end
  (root rounds).bind fun g =>
  system root rounds 4 seed [
    Expr.mul (Expr.sub (Expr.add (Expr.mul (.Trace 0 0) (.Trace 0 0)) (Expr.mul (Expr.mul (.Constant r) (.Trace 1 0)) (.Trace 1 0))) (.Trace 2 0))
      (every_row g rounds),
    Expr.mul (Expr.sub (Expr.mul (Expr.mul (.Constant 2) (.Trace 0 0)) (.Trace 1 0)) (.Trace 3 0)) (every_row g rounds),
    Expr.mul (Expr.sub (Expr.add (Expr.mul (.Trace 0 0) (.Trace 2 0)) (Expr.mul (Expr.mul (.Constant r) (.Trace 1 0)) (.Trace 3 0))) (.Trace 0 1))
      (every_row g rounds),
    Expr.mul (Expr.sub (Expr.add (Expr.mul (.Trace 0 0) (.Trace 2 0)) (Expr.mul (.Trace 1 0) (.Trace 3 0))) (.Trace 1 1)) (every_row g rounds),
    Expr.mul (Expr.sub (.Trace 0 0) (.Constant c0_start)) (on_row g 0),
    Expr.mul (Expr.sub (.Trace 1 0) (.Constant c1_start)) (on_row g 0),
    Expr.mul (Expr.sub (.Trace 0 0) (.Constant c0_end)) (on_row g (rounds - 1)),
    Expr.mul (Expr.sub (.Trace 1 0) (.Constant c1_end)) (on_row g (rounds - 1))]

/-- the new `prev_c0` and `prev_c1` — vdf.rs:63-68 -/
def step (r : F) (s : F × F) : F × F :=
  let c2 := s.1 ^ 2 + r * s.2 ^ 2
  let c3 := 2 * s.1 * s.2
  (s.1 * c2 + r * s.2 * c3, s.1 * c2 + s.2 * c3)

/-- `trace` — vdf.rs:57-73 -/
def trace (r : F) (rounds : Nat) (c0_start c1_start c0_end c1_end : F) : Option (TraceTable F) :=
  (tableOf rounds 4 (loop (fun _ => step r) (fun i s => [(i, 0, s.1), (i, 1, s.2), (i, 2, s.1 ^ 2 + r * s.2 ^ 2), (i, 3, 2 * s.1 * s.2)]) rounds 0
    (c0_start, c1_start))).bind fun t =>
  (t.get (rounds - 1) 0).bind fun last0 => (t.get (rounds - 1) 1).bind fun last1 =>
  if last0 = c0_end then if last1 = c1_end then some t else none else none

end Vdf

end
end Examples
end OpenZKP
