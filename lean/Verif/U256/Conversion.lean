import Verif.U256.Basic

/-! # Model of the integer conversions of conversion.rs -/

namespace OpenZKP
namespace U256

/-- `n as u64` for an integer of any primitive type (core language: truncation of the two's complement) -/
def asU64 (n : Int) : UInt64 := UInt64.ofNat (n % 2 ^ 64).toNat

/-- `n as iW` for an unsigned integer (core language) -/
def asSigned (w : Nat) (n : Nat) : Int :=
  if n % 2 ^ w < 2 ^ (w - 1) then (n % 2 ^ w : Nat) else (n % 2 ^ w : Nat) - (2 ^ w : Nat)

/-- `From<i8>` … `From<i64>`, `From<isize>` — conversion.rs:90-117, macro `impl_from_int` -/
def ofInt (n : Int) : U256 :=
  if n ≥ 0 then ⟨asU64 n, 0, 0, 0⟩
  else ⟨asU64 n, 0xffffffffffffffff, 0xffffffffffffffff, 0xffffffffffffffff⟩

/-- `From<i128>` — conversion.rs:119-137; `>>` on a signed integer rounds down -/
def ofI128 (n : Int) : U256 :=
  if n ≥ 0 then ⟨asU64 n, asU64 (n / 2 ^ 64), 0, 0⟩
  else ⟨asU64 n, asU64 (n / 2 ^ 64), 0xffffffffffffffff, 0xffffffffffffffff⟩

/-- `as_u8`, `as_u16`, `as_u32`, `as_u64`, `as_usize` — conversion.rs:139-156, for `w` bits -/
def as_uint (w : Nat) (x : U256) : Nat := x.l0.toNat % 2 ^ w

/-- `as_i8`, `as_i16`, `as_i32`, `as_i64`, `as_isize` — conversion.rs:139-161, for `w` bits -/
def as_int (w : Nat) (x : U256) : Int := asSigned w x.l0.toNat

/-- `as_i128` — conversion.rs:169-173: the second limb is shifted inside a 128-bit signed integer -/
def as_i128 (x : U256) : Int := asSigned 128 (x.l0.toNat ||| (x.l1.toNat <<< 64))

end U256
end OpenZKP
