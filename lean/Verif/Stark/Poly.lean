import Verif.FFT.Model

/-!
# Model of `crypto/stark/src/polynomial.rs`

A `DensePolynomial` is the list of its coefficients, in order of ascending degree.  The field is an arbitrary
one (`C13_field_iso` gives the connection with `PrimeField`), `root` is `FieldElement::root` and `generator`
is `FieldElement::generator()`.  `none` is a panic.
-/

namespace OpenZKP
namespace Stark
open FFT

section
variable {F : Type} [CommRing F]

/-- a vector as a slice -/
def sl (l : List F) : Slice F := fun i => l.getD i 0
/-- the first `n` elements of a slice as a vector -/
def unsl (n : Nat) (v : Slice F) : List F := (List.range n).map v

end

section
variable {F : Type} [Field F] [DecidableEq F]

namespace Poly

/-- `DensePolynomial::new` and `from_mmap_vec` — polynomial.rs:34-46: the length must be a power of two -/
def new (coefficients : List F) : Option (List F) :=
  if 2 ^ Nat.log2 coefficients.length = coefficients.length then some coefficients else none

/-- `DensePolynomial::zeros` — polynomial.rs:48-53 -/
def zeros (size : Nat) : Option (List F) :=
  if 2 ^ Nat.log2 size = size then some (List.replicate size 0) else none

/-- the loop of `degree` — polynomial.rs:73-75 -/
def degreeLoop (p : List F) : Nat → Nat
  | 0 => 0
  | d + 1 => if p.getD (d + 1) 0 = 0 then degreeLoop p d else d + 1

/-- `DensePolynomial::degree` — polynomial.rs:71-77 (the length is not zero) -/
def degree (p : List F) : Nat := degreeLoop p (p.length - 1)

/-- `DensePolynomial::evaluate` — polynomial.rs:79-86 -/
def evaluate (p : List F) (x : F) : F := p.reverse.foldl (fun result coefficient => result * x + coefficient) 0

/-- `PartialEq::eq` — polynomial.rs:24-30; `x` is the constant of line 27 -/
def eq (x : F) (p q : List F) : Bool := evaluate p x == evaluate q x

/-- `low_degree_extension` — polynomial.rs:88-113 -/
def low_degree_extension (root : Nat → Option F) (generator : F) (p : List F) (blowup : Nat) : Option (List F) :=
  (root (p.length * blowup)).bind fun w =>
  ((List.range blowup).mapM fun i =>
    let cofactor := generator * w ^ permute_index blowup i
    (fft root p.length (clone_shifted p.length (fun _ => 0) (sl p) cofactor)).map (unsl p.length)).map List.flatten

/-- the loop of `divide_out_point_into` — polynomial.rs:121-125, from the top down: coefficients and targets in
reverse order -/
def divideLoop (z c : F) : F → List F → List F → List F
  | remainder, coefficient :: cs, target :: ts =>
    (target + c * remainder) :: divideLoop z c (remainder * z + coefficient) cs ts
  | _, _, ts => ts

/-- `divide_out_point_into` — polynomial.rs:119-126: the new target -/
def divide_out_point_into (p : List F) (z c : F) (target : List F) : List F :=
  (divideLoop z c 0 p.reverse target.reverse).reverse

end Poly

end

end Stark
end OpenZKP
