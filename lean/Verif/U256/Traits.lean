import Verif.U256.Conversion

/-!
# The number traits implemented for `U256` (model)

Models what is left of `/repo/algebra/u256/src/binary.rs` and `u256_traits.rs`.  `none` is a panic.
-/

namespace OpenZKP
namespace U256

/-- `u64::count_ones` (core library): number of binary digits equal to one -/
def popcount64 (x : UInt64) : Nat := (List.range 64).countP fun i => x.toNat.testBit i

/-- `u64::count_zeros` (core library) -/
def zerocount64 (x : UInt64) : Nat := (List.range 64).countP fun i => !x.toNat.testBit i

/-- `count_ones` — binary.rs:38-43 -/
def count_ones (x : U256) : Nat := popcount64 x.l0 + popcount64 x.l1 + popcount64 x.l2 + popcount64 x.l3

/-- `count_zeros` — binary.rs:46-51 -/
def count_zeros (x : U256) : Nat := zerocount64 x.l0 + zerocount64 x.l1 + zerocount64 x.l2 + zerocount64 x.l3

/-- `rotate_left` — binary.rs:84-86: `todo!()` -/
def rotate_left (_ : U256) (_ : Nat) : Option U256 := none

/-- `rotate_right` — binary.rs:89-91: `todo!()` -/
def rotate_right (_ : U256) (_ : Nat) : Option U256 := none

/-- `BitAnd<u64>` — binary.rs:95-102 -/
def and_u64 (x : U256) (m : UInt64) : UInt64 := x.l0 &&& m

/-- `mul_add`, `mul_add_assign` — u256_traits.rs:43-60 -/
def mul_add (x a b : U256) : U256 := add (mul x a) b

/-- `Num::from_str_radix` — u256_traits.rs:62-68: `todo!()` -/
def from_str_radix (_ : List Char) (_ : Nat) : Option U256 := none

/-- `Bounded::min_value`, `max_value` — u256_traits.rs:7-16 -/
def min_value : U256 := ZERO
/-- see `min_value` -/
def max_value : U256 := MAX

end U256
end OpenZKP
