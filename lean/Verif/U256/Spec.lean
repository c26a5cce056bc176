import Verif.U256.Basic
import Mathlib.Data.Nat.Size

/-! # Specification of `U256`: the integer a value stands for -/

namespace OpenZKP

/-- The natural number a `U256` represents. -/
def U256.toNat (x : U256) : Nat :=
  x.l0.toNat + 2 ^ 64 * x.l1.toNat + 2 ^ 128 * x.l2.toNat + 2 ^ 192 * x.l3.toNat

/-- The natural number denoted by a big-endian byte string. -/
def beValue (b : List UInt8) : Nat := b.foldl (fun acc x => 256 * acc + x.toNat) 0

/-- Number of 64-bit limbs of an integer (without leading zero limbs). -/
def numLimbs (b : Nat) : Nat := (Nat.size b + 63) / 64

/-- The condition under which Knuth's algorithm D, dividing a `len - 1`-limb number `a` by an `n`-limb
number `b` (`n = numLimbs b`), never meets a partial remainder whose two top limbs equal the two top
limbs of the divisor.  Both operands are first shifted left by `s` bits so that the divisor fills its
limbs; `(a·2^s / B^(j+1)) mod (b·2^s)` is the partial remainder before quotient digit `j`. -/
def SafeDiv (len a b : Nat) : Prop :=
  let n := numLimbs b
  let s := 64 * n - Nat.size b
  n ≤ 1 ∨ ∀ j, j < len - n →
    (a * 2 ^ s / (2 ^ 64) ^ (j + 1) % (b * 2 ^ s)) / (2 ^ 64) ^ (n - 2)
      < (b * 2 ^ s) / (2 ^ 64) ^ (n - 2)

end OpenZKP
