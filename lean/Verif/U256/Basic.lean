import Verif.U256.Limb

/-!
# `U256` (model)

Models `/repo/algebra/u256/src/{u256,additive,multiplicative,binary,conversion}.rs`.
A `U256` is four little-endian 64-bit limbs.  `&mut self` methods return the new value.
-/

namespace OpenZKP

/-- `struct U256([u64; 4])` — u256.rs:22 (limb 0 least significant). -/
@[ext] structure U256 where
  l0 : UInt64
  l1 : UInt64
  l2 : UInt64
  l3 : UInt64
deriving DecidableEq, Repr, Inhabited

namespace U256

/-- `ZERO` — u256.rs:34 -/
def ZERO : U256 := ⟨0, 0, 0, 0⟩
/-- `ONE` — u256.rs:33 -/
def ONE : U256 := ⟨1, 0, 0, 0⟩
/-- `MAX` — u256.rs:27-32 -/
def MAX : U256 := ⟨0xffffffffffffffff, 0xffffffffffffffff, 0xffffffffffffffff, 0xffffffffffffffff⟩

/-- `limb` — u256.rs:55-57: out-of-range limbs read as zero. -/
def limb (x : U256) (i : Nat) : UInt64 :=
  match i with
  | 0 => x.l0 | 1 => x.l1 | 2 => x.l2 | 3 => x.l3 | _ => 0

/-- `Ord::cmp` — u256.rs:80-98: most significant limb first. -/
def cmp (a b : U256) : Ordering :=
  let t := compare a.l3 b.l3
  if t ≠ .eq then t else
  let t := compare a.l2 b.l2
  if t ≠ .eq then t else
  let t := compare a.l1 b.l1
  if t ≠ .eq then t else
  compare a.l0 b.l0

/-- `a < b` through `PartialOrd` — u256.rs:72-78. -/
def lt (a b : U256) : Bool := cmp a b == .lt
/-- `a >= b`. -/
def ge (a b : U256) : Bool := cmp a b != .lt
/-- `a > b`. -/
def gt (a b : U256) : Bool := cmp a b == .gt

/-! ## additive.rs -/

/-- `add_full_inline` — additive.rs:20-26 -/
def add_full (a b : U256) : U256 × UInt64 :=
  let (c0, carry) := adc a.l0 b.l0 0
  let (c1, carry) := adc a.l1 b.l1 carry
  let (c2, carry) := adc a.l2 b.l2 carry
  let (c3, carry) := adc a.l3 b.l3 carry
  (⟨c0, c1, c2, c3⟩, carry)

/-- `add_inline`, `+`, `+=` — additive.rs:31-37 -/
def add (a b : U256) : U256 := (add_full a b).1

/-- `sub_full_inline` — additive.rs:43-49 -/
def sub_full (a b : U256) : U256 × UInt64 :=
  let (c0, borrow) := sbb a.l0 b.l0 0
  let (c1, borrow) := sbb a.l1 b.l1 borrow
  let (c2, borrow) := sbb a.l2 b.l2 borrow
  let (c3, borrow) := sbb a.l3 b.l3 borrow
  (⟨c0, c1, c2, c3⟩, borrow)

/-- `sub_inline`, `-`, `-=` — additive.rs:54-60 -/
def sub (a b : U256) : U256 := (sub_full a b).1

/-- `neg_inline`, unary `-` — additive.rs:82-103 -/
def neg (a : U256) : U256 := sub ZERO a

/-- `Sum for U256` — additive.rs:105-109 (the fold starts at `ONE`, as in the source). -/
def sum (l : List U256) : U256 := l.foldl add ONE

/-! ## multiplicative.rs -/

/-- `square_full_inline` — multiplicative.rs:25-51 -/
def square_full (x : U256) : U256 × U256 :=
  let (r1, carry) := mac 0 x.l0 x.l1 0
  let (r2, carry) := mac 0 x.l0 x.l2 carry
  let (r3, r4) := mac 0 x.l0 x.l3 carry
  let (r3, carry) := mac r3 x.l1 x.l2 0
  let (r4, r5) := mac r4 x.l1 x.l3 carry
  let (r5, r6) := mac r5 x.l2 x.l3 0
  let r7 := r6 >>> 63
  let r6 := (r6 <<< 1) ||| (r5 >>> 63)
  let r5 := (r5 <<< 1) ||| (r4 >>> 63)
  let r4 := (r4 <<< 1) ||| (r3 >>> 63)
  let r3 := (r3 <<< 1) ||| (r2 >>> 63)
  let r2 := (r2 <<< 1) ||| (r1 >>> 63)
  let r1 := r1 <<< 1
  let (r0, carry) := mac 0 x.l0 x.l0 0
  let (r1, carry) := adc r1 0 carry
  let (r2, carry) := mac r2 x.l1 x.l1 carry
  let (r3, carry) := adc r3 0 carry
  let (r4, carry) := mac r4 x.l2 x.l2 carry
  let (r5, carry) := adc r5 0 carry
  let (r6, carry) := mac r6 x.l3 x.l3 carry
  let (r7, _) := adc r7 0 carry
  (⟨r0, r1, r2, r3⟩, ⟨r4, r5, r6, r7⟩)

/-- `square_inline` — multiplicative.rs:56-58 -/
def square (x : U256) : U256 := (square_full x).1

/-- `mul_full_inline(u64)` — multiplicative.rs:72-78 -/
def mul_u64_full (x : U256) (rhs : UInt64) : U256 × UInt64 :=
  let (r0, carry) := mac 0 x.l0 rhs 0
  let (r1, carry) := mac 0 x.l1 rhs carry
  let (r2, carry) := mac 0 x.l2 rhs carry
  let (r3, carry) := mac 0 x.l3 rhs carry
  (⟨r0, r1, r2, r3⟩, carry)

/-- `mul_inline(u64)`, `* u64`, `*= u64` — multiplicative.rs:61-66, 195-237 -/
def mul_u64 (x : U256) (rhs : UInt64) : U256 := (mul_u64_full x rhs).1

/-- `mul_inline(&U256)`, `*`, `*=` — multiplicative.rs:85-101 -/
def mul (x y : U256) : U256 :=
  let (r0, carry) := mac 0 x.l0 y.l0 0
  let (r1, carry) := mac 0 x.l0 y.l1 carry
  let (r2, carry) := mac 0 x.l0 y.l2 carry
  let (r3, _) := mac 0 x.l0 y.l3 carry
  let (r1, carry) := mac r1 x.l1 y.l0 0
  let (r2, carry) := mac r2 x.l1 y.l1 carry
  let (r3, _) := mac r3 x.l1 y.l2 carry
  let (r2, carry) := mac r2 x.l2 y.l0 0
  let (r3, _) := mac r3 x.l2 y.l1 carry
  let (r3, _) := mac r3 x.l3 y.l0 0
  ⟨r0, r1, r2, r3⟩

/-- `mul_full_inline(&U256)` — multiplicative.rs:109-130 -/
def mul_full (x y : U256) : U256 × U256 :=
  let (r0, carry) := mac 0 x.l0 y.l0 0
  let (r1, carry) := mac 0 x.l0 y.l1 carry
  let (r2, carry) := mac 0 x.l0 y.l2 carry
  let (r3, r4) := mac 0 x.l0 y.l3 carry
  let (r1, carry) := mac r1 x.l1 y.l0 0
  let (r2, carry) := mac r2 x.l1 y.l1 carry
  let (r3, carry) := mac r3 x.l1 y.l2 carry
  let (r4, r5) := mac r4 x.l1 y.l3 carry
  let (r2, carry) := mac r2 x.l2 y.l0 0
  let (r3, carry) := mac r3 x.l2 y.l1 carry
  let (r4, carry) := mac r4 x.l2 y.l2 carry
  let (r5, r6) := mac r5 x.l2 y.l3 carry
  let (r3, carry) := mac r3 x.l3 y.l0 0
  let (r4, carry) := mac r4 x.l3 y.l1 carry
  let (r5, carry) := mac r5 x.l3 y.l2 carry
  let (r6, r7) := mac r6 x.l3 y.l3 carry
  (⟨r0, r1, r2, r3⟩, ⟨r4, r5, r6, r7⟩)

/-- The loop of `pow` — multiplicative.rs:141-147: state (result, square), remaining exponent `e`. -/
def powLoop (result sq : U256) (e : Nat) : U256 :=
  if h : 0 < e then
    powLoop (if e % 2 = 1 then mul result sq else result) (square sq) (e / 2)
  else result
termination_by e
decreasing_by omega

/-- `Pow<u64>` — multiplicative.rs:137-149 -/
def pow (x : U256) (e : UInt64) : U256 := powLoop ONE x e.toNat

/-- `Product for U256` — multiplicative.rs:239-243 -/
def product (l : List U256) : U256 := l.foldl mul ONE

/-! ## binary.rs -/

/-- `u64::leading_zeros` (core library): 64 minus the bit length. -/
def clz64 (x : UInt64) : Nat := if x.toNat = 0 then 64 else 63 - Nat.log2 x.toNat

/-- `u64::trailing_zeros` (core library): number of times 2 divides, 64 for zero. -/
def ctz64Aux : Nat → Nat → Nat
  | 0, _ => 0
  | fuel + 1, n => if n % 2 = 1 then 0 else 1 + ctz64Aux fuel (n / 2)
/-- see `ctz64Aux` -/
def ctz64 (x : UInt64) : Nat := ctz64Aux 64 x.toNat

/-- `bit` — binary.rs:23-35 -/
def bit (x : U256) (i : Nat) : Bool :=
  if i < 64 then (x.l0 >>> UInt64.ofNat i) &&& 1 == 1
  else if i < 128 then (x.l1 >>> UInt64.ofNat (i - 64)) &&& 1 == 1
  else if i < 192 then (x.l2 >>> UInt64.ofNat (i - 128)) &&& 1 == 1
  else if i < 256 then (x.l3 >>> UInt64.ofNat (i - 192)) &&& 1 == 1
  else false

/-- `leading_zeros` — binary.rs:54-66 -/
def leading_zeros (x : U256) : Nat :=
  if x.l3 > 0 then clz64 x.l3
  else if x.l2 > 0 then 64 + clz64 x.l2
  else if x.l1 > 0 then 128 + clz64 x.l1
  else if x.l0 > 0 then 192 + clz64 x.l0
  else 256

/-- `trailing_zeros` — binary.rs:69-81 -/
def trailing_zeros (x : U256) : Nat :=
  if x.l0 > 0 then ctz64 x.l0
  else if x.l1 > 0 then 64 + ctz64 x.l1
  else if x.l2 > 0 then 128 + ctz64 x.l2
  else if x.l3 > 0 then 192 + ctz64 x.l3
  else 256

/-- `bits` — traits/binary.rs:36-38 with `num_bits() = 256` (binary.rs:17-20) -/
def bits (x : U256) : Nat := 256 - leading_zeros x

/-- `most_significant_bit` — traits/binary.rs:41-43: `255.checked_sub(leading_zeros)` -/
def most_significant_bit (x : U256) : Option Nat :=
  if leading_zeros x ≤ 255 then some (255 - leading_zeros x) else none

/-- `Not` — binary.rs:108-114 -/
def not (x : U256) : U256 := ⟨~~~x.l0, ~~~x.l1, ~~~x.l2, ~~~x.l3⟩
/-- `BitAndAssign` — binary.rs:119-124 -/
def and (x y : U256) : U256 := ⟨x.l0 &&& y.l0, x.l1 &&& y.l1, x.l2 &&& y.l2, x.l3 &&& y.l3⟩
/-- `BitOrAssign` — binary.rs:129-134 -/
def or (x y : U256) : U256 := ⟨x.l0 ||| y.l0, x.l1 ||| y.l1, x.l2 ||| y.l2, x.l3 ||| y.l3⟩
/-- `BitXorAssign` — binary.rs:139-144 -/
def xor (x y : U256) : U256 := ⟨x.l0 ^^^ y.l0, x.l1 ^^^ y.l1, x.l2 ^^^ y.l2, x.l3 ^^^ y.l3⟩

/-- `u64 << n` for `n < 64`. -/
def shl64 (x : UInt64) (n : Nat) : UInt64 := x <<< UInt64.ofNat n
/-- `u64 >> n` for `n < 64`. -/
def shr64 (x : UInt64) (n : Nat) : UInt64 := x >>> UInt64.ofNat n

/-- `shl_assign`, `<<` — binary.rs:149-222 -/
def shl (x : U256) (n : Nat) : U256 :=
  if n = 0 then x
  else if n < 64 then
    ⟨shl64 x.l0 n, shl64 x.l1 n ||| shr64 x.l0 (64 - n), shl64 x.l2 n ||| shr64 x.l1 (64 - n),
      shl64 x.l3 n ||| shr64 x.l2 (64 - n)⟩
  else if n = 64 then ⟨0, x.l0, x.l1, x.l2⟩
  else if n < 128 then
    ⟨0, shl64 x.l0 (n - 64), shl64 x.l1 (n - 64) ||| shr64 x.l0 (128 - n),
      shl64 x.l2 (n - 64) ||| shr64 x.l1 (128 - n)⟩
  else if n = 128 then ⟨0, 0, x.l0, x.l1⟩
  else if n < 192 then
    ⟨0, 0, shl64 x.l0 (n - 128), shl64 x.l1 (n - 128) ||| shr64 x.l0 (192 - n)⟩
  else if n = 192 then ⟨0, 0, 0, x.l0⟩
  else if n < 256 then ⟨0, 0, 0, shl64 x.l0 (n - 192)⟩
  else ⟨0, 0, 0, 0⟩

/-- `shr_assign`, `>>` — binary.rs:226-298 -/
def shr (x : U256) (n : Nat) : U256 :=
  if n = 0 then x
  else if n < 64 then
    ⟨shr64 x.l0 n ||| shl64 x.l1 (64 - n), shr64 x.l1 n ||| shl64 x.l2 (64 - n),
      shr64 x.l2 n ||| shl64 x.l3 (64 - n), shr64 x.l3 n⟩
  else if n = 64 then ⟨x.l1, x.l2, x.l3, 0⟩
  else if n < 128 then
    ⟨shr64 x.l1 (n - 64) ||| shl64 x.l2 (128 - n), shr64 x.l2 (n - 64) ||| shl64 x.l3 (128 - n),
      shr64 x.l3 (n - 64), 0⟩
  else if n = 128 then ⟨x.l2, x.l3, 0, 0⟩
  else if n < 192 then ⟨shr64 x.l2 (n - 128) ||| shl64 x.l3 (192 - n), shr64 x.l3 (n - 128), 0, 0⟩
  else if n = 192 then ⟨x.l3, 0, 0, 0⟩
  else if n < 256 then ⟨shr64 x.l3 (n - 192), 0, 0, 0⟩
  else ⟨0, 0, 0, 0⟩

/-! ## conversion.rs -/

/-- `From<u64>` (and the smaller unsigned types, `usize`) — conversion.rs:64-80 -/
def ofU64 (n : UInt64) : U256 := ⟨n, 0, 0, 0⟩
/-- `From<bool>` — conversion.rs:58-62 -/
def ofBool (b : Bool) : U256 := ⟨if b then 1 else 0, 0, 0, 0⟩
/-- `From<u128>` — conversion.rs:82-88; the argument is a `u128` given as a natural number. -/
def ofU128 (n : Nat) : U256 := ⟨UInt64.ofNat n, UInt64.ofNat (n / 2 ^ 64), 0, 0⟩
/-- `as_u128` — conversion.rs:164-166 -/
def as_u128 (x : U256) : Nat := x.l0.toNat + x.l1.toNat * 2 ^ 64

/-- `u64::from_be_bytes` (core library). -/
def u64_from_be_bytes (b : List UInt8) : UInt64 :=
  b.foldl (fun acc x => acc * 256 + x.toUInt64) 0

/-- `from_bytes_be` — conversion.rs:13-20. The Rust argument type is `[u8; 32]`; a list of another
length is rejected (`none`). -/
def from_bytes_be (n : List UInt8) : Option U256 :=
  if n.length = 32 then
    some ⟨u64_from_be_bytes ((n.drop 24).take 8), u64_from_be_bytes ((n.drop 16).take 8),
      u64_from_be_bytes ((n.drop 8).take 8), u64_from_be_bytes (n.take 8)⟩
  else none

/-- The loop of `to_bytes_be` — conversion.rs:27-30: bytes are produced from index 31 downwards. -/
def toBytesLoop : Nat → U256 → List UInt8 → List UInt8
  | 0, _, acc => acc
  | k + 1, n, acc => toBytesLoop k (shr n 8) (n.l0.toUInt8 :: acc)

/-- `to_bytes_be` — conversion.rs:22-32 -/
def to_bytes_be (x : U256) : List UInt8 := toBytesLoop 32 x []

end U256
end OpenZKP
