import Verif.U256.Basic

/-!
# Inverse modulo 2^256 (model)

Models `Inv for &U256` — /repo/algebra/u256/src/division.rs:99-124.
-/

namespace OpenZKP
namespace U256

/-- One Newton step on `Wrapping<u64>`: `r *= Wrapping(2) - c * r` — division.rs:112-115 -/
def newton64 (c r : UInt64) : UInt64 := r * (2 - c * r)

/-- The Newton step on `Wrapping<u128>` — division.rs:117 (values below `2^128`) -/
def newton128 (c r : Nat) : Nat := r * ((2 + 2 ^ 128 - c * r % 2 ^ 128) % 2 ^ 128) % 2 ^ 128

/-- `Inv for &U256` — division.rs:103-123 -/
def inv (x : U256) : Option U256 :=
  if bit x 0 then
    let c := x.l0
    let r := (3 * c) ^^^ 2
    let r := newton64 c r
    let r := newton64 c r
    let r := newton64 c r
    let r := newton64 c r
    let r := newton128 (as_u128 x) r.toNat
    let r := ofU128 r
    some (mul r (sub ⟨2, 0, 0, 0⟩ (mul r x)))
  else none

end U256
end OpenZKP
