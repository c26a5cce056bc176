import Mathlib.Data.Rat.Floor
import Mathlib.Data.Nat.Log

/-!
# Model of `utils/logging-allocator/src/size_bytes.rs` and of the messages of `LoggingAllocator::alloc`

A `f32` obtained from a `usize` is a whole number and is modelled by it.  `f32::log10` is a parameter, since its precision is not specified by
the standard library; its results are rational numbers.  The division by a power of ten and the digits written by the formatter are not modelled:
the result is what is handed to the formatter.  `none` is a panic, here of a build with overflow checks; without them the difference wraps and
the formatter is asked for about `2^64` digits.
-/

namespace OpenZKP
namespace Utils
namespace SizeBytes

/-- `usize as f32` (core language): the nearest number with a significand of 24 bits, of two the one that is even -/
def asF32 (n : Nat) : Nat :=
  let e := Nat.log2 n - 23
  let q := n / 2 ^ e
  let r := n % 2 ^ e
  (if 2 ^ e < 2 * r ∨ (2 * r = 2 ^ e ∧ q % 2 = 1) then q + 1 else q) * 2 ^ e

/-- what is written: the number divided by a power of ten, the number of decimals if one is given, and the unit (`unit` is 0 for B, 3 for kB, 6
for MB, 9 for GB, 12 for TB) -/
structure Shown where
  size : Nat
  unit : Nat
  precision : Option Nat
  deriving DecidableEq

/-- a subtraction of `usize` values: a panic if it is out of range -/
def usizeSub (a b : Nat) : Option Nat := if b ≤ a then some (a - b) else none

/-- the number of decimals — size_bytes.rs:27, 34, 41: `digits - (size.log10().floor() as usize)` -/
def decimals (log10 : Nat → ℚ) (digits size : Nat) : Option Nat := usizeSub digits ⌊log10 size⌋.toNat

/-- `fmt` — size_bytes.rs:17-46; the literals `1.0e3`, `1.0e6`, `1.0e9` are exact, `1.0e12` is not -/
def fmt (log10 : Nat → ℚ) (bytes : Nat) : Option Shown :=
  let size := asF32 bytes
  if size < 10 ^ 3 then some ⟨size, 0, none⟩
  else if size < 10 ^ 6 then (decimals log10 5 size).map fun p => ⟨size, 3, some p⟩
  else if size < 10 ^ 9 then (decimals log10 8 size).map fun p => ⟨size, 6, some p⟩
  else if size < asF32 (10 ^ 12) then (decimals log10 11 size).map fun p => ⟨size, 9, some p⟩
  else some ⟨size, 12, none⟩

/-- the level of a message -/
inductive Level | info | warn | error
  deriving DecidableEq

/-- the message of `alloc` — logging_allocator.rs:76-105, with the limits of `new` (26-32), when all levels are logged: nothing for small
allocations, otherwise the level and the two sizes shown.  `none` is a panic while the message is written. -/
def allocMessage (log10 : Nat → ℚ) (size allocated : Nat) : Option (Option (Level × Shown × Shown)) :=
  if size < 1000000 then some none
  else
    let level := if size < 10000000 then Level.info else if size < 100000000 then .warn else .error
    (fmt log10 size).bind fun s => (fmt log10 allocated).map fun a => some (level, s, a)

/-- the three sizes of `log_statistics` — logging_allocator.rs:61-69 -/
def log_statistics (log10 : Nat → ℚ) (total allocated largest : Nat) : Option (Shown × Shown × Shown) :=
  (fmt log10 total).bind fun t => (fmt log10 allocated).bind fun a => (fmt log10 largest).map fun l => (t, a, l)

end SizeBytes
end Utils
end OpenZKP
