import Verif.Evm.Generate

/-!
# Specification: which expressions the generator compares
-/

namespace OpenZKP
namespace Evm
namespace Generate
open Stark

/-- `f` is a subexpression of `e`, or comes from one by contracting a power of a power -/
inductive Part (e : E) : E → Prop where
  | self : Part e e
  | addLeft {a b : E} : Part e (.Add a b) → Part e a
  | addRight {a b : E} : Part e (.Add a b) → Part e b
  | mulLeft {a b : E} : Part e (.Mul a b) → Part e a
  | mulRight {a b : E} : Part e (.Mul a b) → Part e b
  | neg {a : E} : Part e (.Neg a) → Part e a
  | inv {a : E} : Part e (.Inv a) → Part e a
  | exp {a : E} {n : Nat} : Part e (.Exp a n) → Part e a
  | polynomial {p : List (ZMod PrimeField.MODULUS)} {a : E} : Part e (.Polynomial p a) → Part e a
  | claim {i n : Nat} {a : E} {name : Option String} : Part e (.ClaimPolynomial i n a name) → Part e a
  | contract {a : E} {m n : Nat} : Part e (.Exp (.Exp a m) n) → Part e (.Exp a (n * m))

/-- the expressions of these constraints, and the powers of `X` with these exponents -/
def Relevant (es : List E) (ds : List Nat) (f : E) : Prop := (∃ e ∈ es, Part e f) ∨ f = .X ∨ ∃ d ∈ ds, f = .Exp .X d

/-- no two of these expressions have the same hash -/
def NoClash (key : E → Nat) (R : E → Prop) : Prop := ∀ e f, R e → R f → key e = key f → e = f

/-- no denominator has a denominator -/
def Flat (es : List E) : Prop := ∀ e ∈ es, ∀ a b, Part e (.Inv a) → ¬ Part a (.Inv b)

end Generate
end Evm
end OpenZKP
