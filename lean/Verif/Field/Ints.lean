import Verif.Field.PrimeField
import Verif.U256.Conversion

/-!
# Model of the conversions between field elements and the machine integers

Models `/repo/algebra/primefield/src/convert.rs` for every integer type and both builds, and the rest of `ToPrimitive for U256`.  A signed integer of
`w` bits is its value; `none` of a conversion to a field element is a panic.
-/

namespace OpenZKP
namespace PF
open U256

/-- `-n` for a signed integer of `w` bits (core language): with overflow checks a panic for the least integer, which otherwise is returned -/
def negInt (dbg : Bool) (w : Nat) (n : Int) : Option Int :=
  if n = -2 ^ (w - 1) then (if dbg then none else some n) else some (-n)

/-- `as_sign_abs` of the signed types — convert.rs:23-36 -/
def as_sign_abs (dbg : Bool) (w : Nat) (n : Int) : Option (Bool × Int) :=
  if n ≥ 0 then some (false, n) else (negInt dbg w n).map fun a => (true, a)

/-- `U256::from` of a signed integer of `w` bits, that is, `ofInt` or `ofI128` -/
def ofSigned (w : Nat) (n : Int) : U256 := if w = 128 then ofI128 n else ofInt n

variable (P : Params)

/-- `From<i8>`, …, `From<i64>`, `From<isize>`, `From<i128>` — convert.rs:57-72 with a signed argument -/
def from_signed (dbg : Bool) (w : Nat) (n : Int) : Option U256 :=
  (as_sign_abs dbg w n).map fun s =>
  if s.1 then neg P (from_uint_reduce P (ofSigned w s.2)) else from_uint_reduce P (ofSigned w s.2)

/-- `From<u8>`, …, `From<u64>`, `From<usize>` — convert.rs:57-72, 14-20 -/
def from_u64 (n : UInt64) : U256 := from_uint_reduce P (ofU64 n)

/-- `From<u128>` — convert.rs:57-72, 14-20 -/
def from_u128 (n : Nat) : U256 := from_uint_reduce P (ofU128 n)

/-- `to_u64` of `u128` (num_traits) -/
def narrowU64 (n : Nat) : Option Nat := if n < 2 ^ 64 then some n else none

/-- `to_i64` of `u128` and of `i128` (num_traits) -/
def narrowI64 (n : Int) : Option Int := if -2 ^ 63 ≤ n ∧ n < 2 ^ 63 then some n else none

/-- `to_u64` of a `U256` — u256_traits.rs:101-103 -/
def u256_to_u64 (u : U256) : Option Nat := (u256_to_u128 u).bind narrowU64

/-- `to_i64` of a `U256` — u256_traits.rs:105-107 -/
def u256_to_i64 (u : U256) : Option Int := (u256_to_u128 u).bind fun n => narrowI64 n

/-- `to_u64` — convert.rs:95-97 -/
def to_u64 (x : U256) : Option Nat := (to_u128 P x).bind narrowU64

/-- `to_i64` — convert.rs:99-101 -/
def to_i64 (x : U256) : Option Int := (to_i128 P x).bind narrowI64

end PF
end OpenZKP
