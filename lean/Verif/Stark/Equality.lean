import Verif.Stark.Expr
import Verif.Stark.Channel

/-!
# Model of `crypto/stark/src/rational_equality.rs`

The random point of line 12 is an argument.  The hash function is a parameter, as are the byte strings of field elements
(`as_montgomery().to_bytes_be()`) and the conversion of a digest to a field element (`U256::from_bytes_be` and `into`).
`none` is a panic.
-/

namespace OpenZKP
namespace Stark

/-- the bytes hashed for the value of a trace cell — rational_equality.rs:14-17; `offset` is written in two's complement -/
def cellPreimage {F : Type} (bytes : F → Bytes) (x : F) (column : Nat) (offset : Int) : Bytes :=
  bytes x ++ to_be_bytes 8 column ++ to_be_bytes 8 (offset % 2 ^ 64).toNat

/-- the closure `trace` — rational_equality.rs:13-21 -/
def cellValue {F : Type} (K : Keccak) (bytes : F → Bytes) (toField : Bytes → F) (x : F) (column : Nat) (offset : Int) : F :=
  toField (K.hash (cellPreimage bytes x column offset))

namespace Expr
variable {F : Type} [Field F] [DecidableEq F]

/-- the comparison of `equals` — rational_equality.rs:23-26, for the values `trace` of the trace cells -/
def equalsAt (x : F) (trace : Nat → Int → F) (a b : Expr F) : Option Bool :=
  (a.evaluate x fun i j => some (trace i j)).bind fun lhs =>
  (b.evaluate x fun i j => some (trace i j)).map fun rhs => decide (lhs = rhs)

/-- `equals` — rational_equality.rs:9-27 -/
def equals (K : Keccak) (bytes : F → Bytes) (toField : Bytes → F) (x : F) (a b : Expr F) : Option Bool :=
  equalsAt x (cellValue K bytes toField x) a b

end Expr
end Stark
end OpenZKP
