import Verif.Stark.Poly
import Verif.Field.Generic

/-!
# Model of `crypto/stark/src/rational_expression.rs`

`none` is a panic: an inverse of zero, an unsubstituted claim polynomial, a closure that panics.  The sizes of
`usize` arithmetic in `degree_impl` are natural numbers (an expression whose degree exceeds 2^64 cannot be proved
anyway).  A `BTreeSet<(usize, isize)>` is its strictly ascending list of elements.
-/

namespace OpenZKP
namespace Stark

/-- `RationalExpression` — rational_expression.rs:16-31 -/
inductive Expr (F : Type) where
  | X
  | Constant (c : F)
  | Trace (i : Nat) (j : Int)
  | Polynomial (p : List F) (a : Expr F)
  | ClaimPolynomial (i : Nat) (degree_bound : Nat) (a : Expr F) (name : Option String)
  | Add (a b : Expr F)
  | Neg (a : Expr F)
  | Mul (a b : Expr F)
  | Inv (a : Expr F)
  | Exp (a : Expr F) (e : Nat)
  deriving DecidableEq, Repr

/-- the order of `(usize, isize)` (lexicographic, core library) -/
def argLt (a b : Nat × Int) : Bool := decide (a.1 < b.1) || (decide (a.1 = b.1) && decide (a.2 < b.2))

/-- `BTreeSet::insert` (standard library) on the ascending list of elements -/
def argInsert (a : Nat × Int) : List (Nat × Int) → List (Nat × Int)
  | [] => [a]
  | b :: l => if argLt a b then a :: b :: l else if a = b then b :: l else b :: argInsert a l

namespace Expr
variable {F : Type} [Field F] [DecidableEq F]

/-- `neg` — rational_expression.rs:34-36 -/
def neg (a : Expr F) : Expr F := Neg a
/-- `inv` — rational_expression.rs:38-40 -/
def inv (a : Expr F) : Expr F := Inv a
/-- `pow` — rational_expression.rs:42-44 -/
def pow (a : Expr F) (exponent : Nat) : Expr F := Exp a exponent
/-- `Add` — rational_expression.rs:106-112 -/
def add (a b : Expr F) : Expr F := Add a b
/-- `Sub` — rational_expression.rs:114-122 -/
def sub (a b : Expr F) : Expr F := add a (neg b)
/-- `Mul` — rational_expression.rs:124-130 -/
def mul (a b : Expr F) : Expr F := Mul a b
/-- `Div` — rational_expression.rs:132-140 -/
def div (a b : Expr F) : Expr F := mul a (inv b)

/-- `Sum::sum` — rational_expression.rs:142-151 -/
def sum : List (Expr F) → Expr F
  | [] => Constant 0
  | e :: es => es.foldl add e

/-- `map` — rational_expression.rs:51-67; the closure may panic -/
def map (f : Expr F → Option (Expr F)) : Expr F → Option (Expr F)
  | Polynomial p e => (map f e).bind fun e => f (Polynomial p e)
  | ClaimPolynomial i n e name => (map f e).bind fun e => f (ClaimPolynomial i n e name)
  | Add a b => (map f a).bind fun a => (map f b).bind fun b => f (Add a b)
  | Neg a => (map f a).bind fun a => f (Neg a)
  | Mul a b => (map f a).bind fun a => (map f b).bind fun b => f (Mul a b)
  | Inv a => (map f a).bind fun a => f (Inv a)
  | Exp a e => (map f a).bind fun a => f (Exp a e)
  | X => f X
  | Constant c => f (Constant c)
  | Trace i j => f (Trace i j)

/-- the closure of `substitute_claim` — rational_expression.rs:71-83: panics when the index is out of bounds or the
polynomial exceeds the degree bound -/
def substituteNode (claim_polynomials : List (List F)) : Expr F → Option (Expr F)
  | ClaimPolynomial i degree_bound a _ =>
    (claim_polynomials[i]?).bind fun p =>
    if Poly.degree p ≤ degree_bound then some (Polynomial p a) else none
  | x => some x

/-- `substitute_claim` — rational_expression.rs:69-85 -/
def substitute_claim (claim_polynomials : List (List F)) (e : Expr F) : Option (Expr F) :=
  map (substituteNode claim_polynomials) e

/-- `degree_impl` — rational_expression.rs:166-203 -/
def degree_impl (x_degree trace_degree : Nat) : Expr F → Nat × Nat
  | X => (x_degree, 0)
  | Constant _ => (0, 0)
  | Trace _ _ => (trace_degree, 0)
  | Polynomial p a =>
    let (n, d) := degree_impl x_degree trace_degree a
    (Poly.degree p * n, Poly.degree p * d)
  | ClaimPolynomial _ degree_bound a _ =>
    let (n, d) := degree_impl x_degree trace_degree a
    (degree_bound * n, degree_bound * d)
  | Add a b =>
    let (a_numerator, a_denominator) := degree_impl x_degree trace_degree a
    let (b_numerator, b_denominator) := degree_impl x_degree trace_degree b
    (max (a_numerator + b_denominator) (b_numerator + a_denominator), a_denominator + b_denominator)
  | Neg a => degree_impl x_degree trace_degree a
  | Mul a b =>
    let (an, ad) := degree_impl x_degree trace_degree a
    let (bn, bd) := degree_impl x_degree trace_degree b
    (an + bn, ad + bd)
  | Inv a =>
    let (n, d) := degree_impl x_degree trace_degree a
    (d, n)
  | Exp a e =>
    let (n, d) := degree_impl x_degree trace_degree a
    (e * n, e * d)

/-- `degree` — rational_expression.rs:157-159 -/
def degree (trace_degree : Nat) (e : Expr F) : Nat × Nat := degree_impl 1 trace_degree e
/-- `trace_degree` — rational_expression.rs:161-163 -/
def trace_degree (e : Expr F) : Nat × Nat := degree_impl 0 1 e

/-- the match on the results in the `Mul` case of `check` — rational_expression.rs:243-262 -/
def checkMul (a b : F × Bool) : F × Bool :=
  if a.2 && b.2 then (a.1 * b.1, true)
  else if a.2 && !b.2 then
    if a.1 = 0 then (0, true) else (1, false)
  else if !a.2 && b.2 then
    if b.1 = 0 then (0, true) else (1, false)
  else (1, false)

/-- `check` — rational_expression.rs:208-290 -/
def check (x : F) (trace : Nat → Int → Option F) : Expr F → Option (F × Bool)
  | X => some (x, true)
  | Constant c => some (c, true)
  | Trace i j => (trace i j).map fun v => (v, true)
  | Polynomial p a => (check x trace a).map fun r => if r.2 then (Poly.evaluate p r.1, true) else (1, false)
  | ClaimPolynomial _ _ _ _ => none
  | Add a b =>
    (check x trace a).bind fun ra => (check x trace b).map fun rb =>
    if ra.2 && rb.2 then (ra.1 + rb.1, true) else (1, false)
  | Neg a => (check x trace a).map fun r => (-r.1, r.2)
  | Mul a b => (check x trace a).bind fun ra => (check x trace b).map fun rb => checkMul ra rb
  | Inv (Inv b) =>
    (check x trace (Inv b)).bind fun r =>
    if r.2 then (if r.1 = 0 then some (1, false) else some (r.1, true)) else check x trace b
  | Inv a =>
    (check x trace a).map fun r =>
    if r.2 then (if r.1 = 0 then (1, false) else (r.1, true)) else (1, false)
  | Exp a e => (check x trace a).map fun r => if r.2 then (r.1 ^ e, true) else (1, false)

/-- `evaluate` — rational_expression.rs:292-313 -/
def evaluate (x : F) (trace : Nat → Int → Option F) : Expr F → Option F
  | X => some x
  | Constant c => some c
  | Trace i j => trace i j
  | Polynomial p a => (evaluate x trace a).map fun inner => Poly.evaluate p inner
  | ClaimPolynomial _ _ _ _ => none
  | Add a b => (evaluate x trace a).bind fun a => (evaluate x trace b).map fun b => a + b
  | Neg a => (evaluate x trace a).map fun a => -a
  | Mul a b => (evaluate x trace a).bind fun a => (evaluate x trace b).map fun b => a * b
  | Inv a => (evaluate x trace a).bind fun a => finv a
  | Exp a e => (evaluate x trace a).map fun a => a ^ e

/-- `trace_arguments_impl` — rational_expression.rs:321-336 -/
def traceArgumentsImpl : Expr F → List (Nat × Int) → Option (List (Nat × Int))
  | Trace i j, s => some (argInsert (i, j) s)
  | X, s => some s
  | Constant _, s => some s
  | Polynomial _ a, s => traceArgumentsImpl a s
  | Exp a _, s => traceArgumentsImpl a s
  | Neg a, s => traceArgumentsImpl a s
  | Inv a, s => traceArgumentsImpl a s
  | Add a b, s => (traceArgumentsImpl a s).bind fun s => traceArgumentsImpl b s
  | Mul a b, s => (traceArgumentsImpl a s).bind fun s => traceArgumentsImpl b s
  | ClaimPolynomial _ _ _ _, _ => none

/-- `trace_arguments` — rational_expression.rs:315-319 -/
def trace_arguments (e : Expr F) : Option (List (Nat × Int)) := traceArgumentsImpl e []

end Expr
end Stark
end OpenZKP
