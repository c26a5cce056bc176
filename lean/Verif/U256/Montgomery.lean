import Verif.U256.Basic

/-!
# Montgomery arithmetic (model)

Models `/repo/algebra/u256/src/algorithms/montgomery/{mod,generic,proth}.rs`, the trait
`Montgomery` of `/repo/algebra/u256/src/traits/mod.rs:278-360`, `reduce_1` and the compile-time
conversion of `/repo/utils/macros-lib/src/lib.rs:95-188`.

The unrolled code repeats the same block of statements four times; the model writes the block once.
Every plain `+` on `u64` that could overflow is reported by a `Bool` next to the result
(`true`: the debug profile panics; the release profile wraps as modelled).
-/

namespace OpenZKP
namespace U256

/-- `MontgomeryParameters` — traits/mod.rs:278-295 -/
structure Mont where
  modulus : U256
  m64 : UInt64
  r1 : U256
  r2 : U256
  r3 : U256

/-- `reduce_1` — arch/generic/mod.rs -/
def reduce_1 (s modulus : U256) : U256 := if ge s modulus then sub s modulus else s

/-- `generic::redc_inline` — generic.rs:79-114 -/
def redcGeneric (M : Mont) (lo hi : U256) : U256 :=
  let m := M.modulus
  let ui := lo.l0 * M.m64
  let (_a0, carry) := mac lo.l0 ui m.l0 0
  let (a1, carry) := mac lo.l1 ui m.l1 carry
  let (a2, carry) := mac lo.l2 ui m.l2 carry
  let (a3, carry) := mac lo.l3 ui m.l3 carry
  let (a4, carry2) := adc hi.l0 0 carry
  let ui := a1 * M.m64
  let (_a1, carry) := mac a1 ui m.l0 0
  let (a2, carry) := mac a2 ui m.l1 carry
  let (a3, carry) := mac a3 ui m.l2 carry
  let (a4, carry) := mac a4 ui m.l3 carry
  let (a5, carry2) := adc hi.l1 carry2 carry
  let ui := a2 * M.m64
  let (_a2, carry) := mac a2 ui m.l0 0
  let (a3, carry) := mac a3 ui m.l1 carry
  let (a4, carry) := mac a4 ui m.l2 carry
  let (a5, carry) := mac a5 ui m.l3 carry
  let (a6, carry2) := adc hi.l2 carry2 carry
  let ui := a3 * M.m64
  let (_a3, carry) := mac a3 ui m.l0 0
  let (a4, carry) := mac a4 ui m.l1 carry
  let (a5, carry) := mac a5 ui m.l2 carry
  let (a6, carry) := mac a6 ui m.l3 carry
  let (a7, _) := adc hi.l3 carry2 carry
  let r : U256 := ⟨a4, a5, a6, a7⟩
  if ge r m then sub r m else r

/-- One of the four blocks of `generic::mul_redc_inline` — generic.rs:123-133, 134-144, 145-155,
156-166 (in the first block the accumulator `a` is zero).  The flag reports overflow of
`a4 + carry`. -/
def mulRedcRow (M : Mont) (y a : U256) (x : UInt64) : U256 × Bool :=
  let m := M.modulus
  let (a0, carry) := mac a.l0 x y.l0 0
  let (a1, carry) := mac a.l1 x y.l1 carry
  let (a2, carry) := mac a.l2 x y.l2 carry
  let (a3, carry) := mac a.l3 x y.l3 carry
  let a4 := carry
  let k := a0 * M.m64
  let (_a, carry) := mac a0 k m.l0 0
  let (a0, carry) := mac a1 k m.l1 carry
  let (a1, carry) := mac a2 k m.l2 carry
  let (a2, carry) := mac a3 k m.l3 carry
  (⟨a0, a1, a2, a4 + carry⟩, decide (2 ^ 64 ≤ a4.toNat + carry.toNat))

/-- `generic::mul_redc_inline` — generic.rs:119-174, with the overflow flag -/
def mulRedcGeneric (M : Mont) (x y : U256) : U256 × Bool :=
  let (a, o0) := mulRedcRow M y ZERO x.l0
  let (a, o1) := mulRedcRow M y a x.l1
  let (a, o2) := mulRedcRow M y a x.l2
  let (a, o3) := mulRedcRow M y a x.l3
  (if ge a M.modulus then sub a M.modulus else a, o0 || o1 || o2 || o3)

/-- One of the four blocks of `to_montgomery_const` — generic.rs:13-23, 24-34, 35-45, 46-56.  It differs
from `mulRedcRow` in how `k` is computed. -/
def toMontRow (m r2 : U256) (m64 : UInt64) (a : U256) (x : UInt64) : U256 × Bool :=
  let k := (x * r2.l0 + a.l0) * m64
  let (a0, carry) := mac a.l0 x r2.l0 0
  let (a1, carry) := mac a.l1 x r2.l1 carry
  let (a2, carry) := mac a.l2 x r2.l2 carry
  let (a3, carry) := mac a.l3 x r2.l3 carry
  let a4 := carry
  let (_a, carry) := mac a0 k m.l0 0
  let (a0, carry) := mac a1 k m.l1 carry
  let (a1, carry) := mac a2 k m.l2 carry
  let (a2, carry) := mac a3 k m.l3 carry
  (⟨a0, a1, a2, a4 + carry⟩, decide (2 ^ 64 ≤ a4.toNat + carry.toNat))

/-- `to_montgomery_const` — generic.rs:9-74, with the overflow flag.  The first block's
`k = x0·r2_0·m64` is the row formula with accumulator zero. -/
def to_montgomery_const (x m : U256) (m64 : UInt64) (r2 : U256) : U256 × Bool :=
  let (a, o0) := toMontRow m r2 m64 ZERO x.l0
  let (a, o1) := toMontRow m r2 m64 a x.l1
  let (a, o2) := toMontRow m r2 m64 a x.l2
  let (a, o3) := toMontRow m r2 m64 a x.l3
  let (a0, borrow) := sbb a.l0 m.l0 0
  let (a1, borrow) := sbb a.l1 m.l1 borrow
  let (a2, borrow) := sbb a.l2 m.l2 borrow
  let (a3, borrow) := sbb a.l3 m.l3 borrow
  let (a0, carry) := adc a0 (borrow * m.l0) 0
  let (a1, carry) := adc a1 (borrow * m.l1) carry
  let (a2, carry) := adc a2 (borrow * m.l2) carry
  let (a3, _) := adc a3 (borrow * m.l3) carry
  (⟨a0, a1, a2, a3⟩, o0 || o1 || o2 || o3)

/-- `is_proth` — proth.rs:12-15 -/
def is_proth (M : Mont) : Bool := M.modulus.l0 == 1 && M.modulus.l1 == 0 && M.modulus.l2 == 0

/-- `proth::redc_inline` — proth.rs:24-54 -/
def redcProth (m3 : UInt64) (lo hi : U256) : U256 :=
  let (a0, carry0) := sbb 0 lo.l0 0
  let (a1, carry0) := sbb 0 lo.l1 carry0
  let (a2, carry0) := sbb 0 lo.l2 carry0
  let (a3, carry1) := mac lo.l3 a0 m3 0
  let (a3, carry0) := sbb 0 a3 carry0
  let (a4, carry0) := adc 0 hi.l0 carry0
  let (a5, carry0) := adc 0 hi.l1 carry0
  let (a6, carry0) := adc 0 hi.l2 carry0
  let (a7, _) := adc 0 hi.l3 carry0
  let (a4, carry1) := mac a4 a1 m3 carry1
  let (a5, carry1) := mac a5 a2 m3 carry1
  let (a6, carry1) := mac a6 a3 m3 carry1
  let (a7, _) := adc a7 0 carry1
  let (r0, carry) := sbb a4 1 0
  let (r1, carry) := sbb a5 0 carry
  let (r2, carry) := sbb a6 0 carry
  let (r3, carry) := sbb a7 m3 carry
  if carry = 0 then ⟨r0, r1, r2, r3⟩ else ⟨a4, a5, a6, a7⟩

/-- `proth::mul_redc_inline` — proth.rs:59-102, with the overflow flag of `a7 + carry + carry1` -/
def mulRedcProth (m3 : UInt64) (x y : U256) : U256 × Bool :=
  let (a0, carry) := mac 0 x.l0 y.l0 0
  let (a1, carry) := mac 0 x.l0 y.l1 carry
  let (a2, carry) := mac 0 x.l0 y.l2 carry
  let (a3, carry) := mac 0 x.l0 y.l3 carry
  let a4 := carry
  let (k, carry) := sbb 0 a0 0
  let (a3, carry1) := mac a3 k m3 0
  let (a1, carry) := mac a1 x.l1 y.l0 carry
  let (a2, carry) := mac a2 x.l1 y.l1 carry
  let (a3, carry) := mac a3 x.l1 y.l2 carry
  let (a4, carry) := mac a4 x.l1 y.l3 carry
  let a5 := carry
  let (k, carry) := sbb 0 a1 0
  let (a4, carry1) := mac a4 k m3 carry1
  let (a2, carry) := mac a2 x.l2 y.l0 carry
  let (a3, carry) := mac a3 x.l2 y.l1 carry
  let (a4, carry) := mac a4 x.l2 y.l2 carry
  let (a5, carry) := mac a5 x.l2 y.l3 carry
  let a6 := carry
  let (k, carry) := sbb 0 a2 0
  let (a5, carry1) := mac a5 k m3 carry1
  let (a3, carry) := mac a3 x.l3 y.l0 carry
  let (a4, carry) := mac a4 x.l3 y.l1 carry
  let (a5, carry) := mac a5 x.l3 y.l2 carry
  let (a6, carry) := mac a6 x.l3 y.l3 carry
  let a7 := carry
  let (k, carry) := sbb 0 a3 0
  let (a6, carry1) := adc a6 0 carry1
  let (a4, carry) := adc a4 0 carry
  let (a5, carry) := adc a5 0 carry
  let (a6, carry) := mac a6 k m3 carry
  let r : U256 := ⟨a4, a5, a6, a7 + carry + carry1⟩
  let m : U256 := ⟨1, 0, 0, m3⟩
  (if ge r m then sub r m else r, decide (2 ^ 64 ≤ a7.toNat + carry.toNat + carry1.toNat))

/-- `redc_inline` — montgomery/mod.rs:14-20 -/
def redc (M : Mont) (lo hi : U256) : U256 :=
  if is_proth M then redcProth M.modulus.l3 lo hi else redcGeneric M lo hi

/-- `square_redc_inline` — montgomery/mod.rs:23-27 -/
def square_redc (M : Mont) (x : U256) : U256 :=
  let (lo, hi) := square_full x
  redc M lo hi

/-- `mul_redc_inline` — montgomery/mod.rs:30-38, with the overflow flag -/
def mul_redc_flag (M : Mont) (x y : U256) : U256 × Bool :=
  if is_proth M then mulRedcProth M.modulus.l3 x y else mulRedcGeneric M x y

/-- `mul_redc_inline` — montgomery/mod.rs:30-38 -/
def mul_redc (M : Mont) (x y : U256) : U256 := (mul_redc_flag M x y).1

/-- `Montgomery::to_montgomery` — traits/mod.rs:298-302 -/
def to_montgomery (M : Mont) (x : U256) : U256 := mul_redc M x M.r2

/-- `Montgomery::from_montgomery` — traits/mod.rs:304-307 -/
def from_montgomery (M : Mont) (x : U256) : U256 := redc M x ZERO

/-- `Montgomery::mul_mod` — traits/mod.rs:349-356 -/
def mont_mul_mod (M : Mont) (x y : U256) : U256 := mul_redc M (mul_redc M x M.r2) y

/-! ## The compile-time conversion of the `field_element!` macro -/

/-- the macro's own `sbb` (its borrow is all ones, and only its top bit is read) —
macros-lib/src/lib.rs:172-177 -/
def macroSbb (a b borrow : UInt64) : UInt64 × UInt64 :=
  let ret := (a.toNat + 2 ^ 128 - (b.toNat + (borrow >>> 63).toNat)) % 2 ^ 128
  (UInt64.ofNat ret, UInt64.ofNat (ret / 2 ^ 64))

/-- the macro's constants — macros-lib/src/lib.rs:96-103 -/
def macroM : U256 := ⟨1, 0, 0, 576460752303423505⟩
def macroR2 : U256 := ⟨18446741271209837569, 5151653887, 18446744073700081664, 576413109808302096⟩

/-- `montgomery_convert` — macros-lib/src/lib.rs:95-188.  The blocks are those of
`to_montgomery_const`; the final reduction compares limbs lexicographically from the top. -/
def montgomery_convert (x : U256) : U256 × Bool :=
  let m := macroM
  let (a, o0) := toMontRow m macroR2 0xffffffffffffffff ZERO x.l0
  let (a, o1) := toMontRow m macroR2 0xffffffffffffffff a x.l1
  let (a, o2) := toMontRow m macroR2 0xffffffffffffffff a x.l2
  let (a, o3) := toMontRow m macroR2 0xffffffffffffffff a x.l3
  let r :=
    if ge a m then
      let (a0, borrow) := macroSbb a.l0 m.l0 0
      let (a1, borrow) := macroSbb a.l1 m.l1 borrow
      let (a2, borrow) := macroSbb a.l2 m.l2 borrow
      let (a3, _) := macroSbb a.l3 m.l3 borrow
      ⟨a0, a1, a2, a3⟩
    else a
  (r, o0 || o1 || o2 || o3)

/-! ## The two instances -/

/-- `Parameters for Proth` — /repo/algebra/primefield/src/proth_field.rs:14-29 -/
def PROTH : Mont where
  modulus := ⟨1, 0, 0, 0x0800000000000011⟩
  m64 := 0xffffffffffffffff
  r1 := ⟨0xffffffffffffffe1, 0xffffffffffffffff, 0xffffffffffffffff, 0x07fffffffffffdf0⟩
  r2 := ⟨0xfffffd737e000401, 0x00000001330fffff, 0xffffffffff6f8000, 0x07ffd4ab5e008810⟩
  r3 := ⟨0xcc7177d1406df18e, 0x7545706677ffcc06, 0xf47d84f836300018, 0x038e5f79873c0a6d⟩

/-- `Parameters for Order` — /repo/algebra/elliptic-curve/src/scalar_field.rs:10-21 -/
def ORDER : Mont where
  modulus := ⟨0x1e66a241adc64d2f, 0xb781126dcae7b232, 0xffffffffffffffff, 0x0800000000000010⟩
  m64 := 0xbb6b3c4ce8bde631
  r1 := ⟨0x51925a0bf4fca74f, 0xc75ec4b46df16bee, 0x0000000000000008, 0x07fffffffffffdf1⟩
  r2 := ⟨0x6021b3f1ea1c688d, 0x509cf64d14ce60b9, 0xbaf0ab4cf78bbabb, 0x07d9e57c2333766e⟩
  r3 := ⟨0x81147668fddd0429, 0x1da2136eb8b3f20e, 0x1f0d9dedfedfda50, 0x01b2ba88ca1fe18a⟩

end U256
end OpenZKP
