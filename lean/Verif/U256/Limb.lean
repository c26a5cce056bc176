/-!
# Limb operations (model)

Models `/repo/algebra/u256/src/algorithms/limb_operations.rs`.

`u64` is `UInt64` (wrapping arithmetic, as in a release build).  `u128` values are
natural numbers explicitly reduced modulo `2^128` where the Rust code computes in
`u128`.
-/

namespace OpenZKP

/-- `adc` — limb_operations.rs:3-8. `ret` is the `u128` intermediate. -/
def adc (a b carry : UInt64) : UInt64 × UInt64 :=
  let ret := (a.toNat + b.toNat + carry.toNat) % 2 ^ 128
  (UInt64.ofNat ret, UInt64.ofNat (ret / 2 ^ 64))

/-- `sbb` — limb_operations.rs:12-17. `u128::wrapping_sub` is `a + 2^128 - x` modulo `2^128`. -/
def sbb (a b borrow : UInt64) : UInt64 × UInt64 :=
  let ret := (a.toNat + 2 ^ 128 - (b.toNat + borrow.toNat) % 2 ^ 128) % 2 ^ 128
  (UInt64.ofNat ret, UInt64.ofNat (ret / 2 ^ 127))

/-- `mac` — limb_operations.rs:22-27. -/
def mac (a b c carry : UInt64) : UInt64 × UInt64 :=
  let ret := (a.toNat + b.toNat * c.toNat + carry.toNat) % 2 ^ 128
  (UInt64.ofNat ret, UInt64.ofNat (ret / 2 ^ 64))

/-- `msb` — limb_operations.rs:31-37. -/
def msb (a b c borrow : UInt64) : UInt64 × UInt64 :=
  let ret := (a.toNat + 2 ^ 128 - (b.toNat * c.toNat + borrow.toNat) % 2 ^ 128) % 2 ^ 128
  (UInt64.ofNat ret, 0 - UInt64.ofNat (ret / 2 ^ 64))

/-- `div_2_1` — limb_operations.rs:41-50. Division by zero panics in Rust; callers check. The
quotient is truncated to 64 bits, as in the source. -/
def div_2_1 (lo hi d : UInt64) : UInt64 × UInt64 :=
  let n := hi.toNat * 2 ^ 64 + lo.toNat
  (UInt64.ofNat (n / d.toNat), UInt64.ofNat (n % d.toNat))

-- Only a hint for the elaborator (do not unfold 128-bit arithmetic while checking definitional
-- equality); no logical effect.
attribute [irreducible] adc sbb mac msb div_2_1

end OpenZKP
