import Verif.Examples.Systems

/-!
# Model of the examples `crypto/stark/examples/constant.rs` and `claim_polynomial.rs`

The numbers of queries and of proof of work bits that `main` of constant.rs sets (lines 38-40) are those of `from_expressions` here.
-/

namespace OpenZKP
namespace Examples
namespace Constant
open Stark

variable {F : Type} [Field F] [DecidableEq F]

/-- `constraints` — constant.rs:16-22 -/
def constraints (root : Nat → Option F) (rep : F → U256) (value : F) : Option (Constraints F) :=
  system root 2 1 (elementBytes rep value) [Expr.div (Expr.sub (.Trace 0 0) (.Constant value)) (Expr.sub .X (.Constant 1))]

/-- `trace` — constant.rs:26-31, claim_polynomial.rs:26-31 -/
def trace (witness : F) : Option (TraceTable F) := tableOf 2 1 [(0, 0, witness), (1, 0, witness + 100)]

/-- `constraints` — claim_polynomial.rs:16-22 -/
def claimConstraints (root : Nat → Option F) (rep : F → U256) (value : F) : Option (Constraints F) :=
  system root 2 1 (elementBytes rep value)
    [Expr.div (Expr.sub (.Trace 0 0) (.ClaimPolynomial 0 0 .X (some "MyClaimPoly"))) (Expr.sub .X (.Constant 1))]

/-- `concrete_system` — claim_polynomial.rs:35-50 -/
def concrete_system (root : Nat → Option F) (rep : F → U256) (value : F) : Option (Constraints F) :=
  (Poly.new [value]).bind fun p =>
  (claimConstraints root rep value).bind fun c =>
  (c.expressions.mapM (Expr.substitute_claim [p])).bind fun expressions =>
  system root 2 1 (elementBytes rep value) expressions

end Constant
end Examples
end OpenZKP
