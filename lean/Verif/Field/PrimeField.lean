import Verif.U256.Lehmer
import Verif.U256.Montgomery

/-!
# Prime fields (model)

Models `/repo/algebra/primefield/src/prime_field.rs`, `convert.rs`, `ops.rs` and `proth_field.rs`, with
`UInt = U256`.  A `PrimeField<P>` value is its Montgomery representation, a `U256` (the struct has one
non-phantom field).  `debug_assert!`s that a representation is below the modulus are not modelled as panics;
`Props/Field.lean` shows that every operation returns one below the modulus, so they never fire on values
made by the API.  The exception is `from_uint`, whose argument comes from the caller.
-/

namespace OpenZKP
namespace PF
open U256

/-- `trait Parameters` — prime_field.rs:46-68 (`generator` is in Montgomery form). -/
structure Params extends Mont where
  generator : U256
  order : U256

/-- `Proth` — proth_field.rs:13-29 -/
def BASE : Params where
  toMont := PROTH
  generator := ⟨0xffffffffffffffa1, 0xffffffffffffffff, 0xffffffffffffffff, 0x07fffffffffff9b0⟩
  order := ⟨0, 0, 0, 0x0800000000000011⟩

/-- `Order` — /repo/algebra/elliptic-curve/src/scalar_field.rs:10-21 -/
def SCALAR : Params where
  toMont := U256.ORDER
  generator := ⟨3, 0, 0, 0⟩
  order := ⟨0x1e66a241adc64d2e, 0xb781126dcae7b232, 0xffffffffffffffff, 0x0800000000000010⟩

variable (P : Params)

/-- `to_uint` and `From<PrimeField> for U256` — prime_field.rs:132-137, 440-452 -/
def to_uint (x : U256) : U256 := from_montgomery P.toMont x

/-- `from_uint` — prime_field.rs:142-145; `none` is the failing `debug_assert!` of the debug profile -/
def from_uint (dbg : Bool) (u : U256) : Option U256 :=
  if dbg && !lt u P.modulus then none else some (to_montgomery P.toMont u)

/-- `from_uint_reduce` — prime_field.rs:148-154; also `From<U256>`, `From<u64>`, ... (convert.rs:57-70
with an unsigned argument) -/
def from_uint_reduce (u : U256) : U256 := mul_redc P.toMont (redc P.toMont u ZERO) P.r3

/-- `zero` — prime_field.rs:204-208 -/
def zero : U256 := ZERO
/-- `is_zero` — prime_field.rs:210-213 -/
def is_zero (x : U256) : Bool := x == ZERO
/-- `one` — prime_field.rs:216-220 -/
def one : U256 := P.r1
/-- `is_one` — prime_field.rs:222-228 -/
def is_one (x : U256) : Bool := x == P.r1
/-- `generator` — prime_field.rs:101-103 -/
def generator : U256 := P.generator
/-- `PartialEq` — prime_field.rs:174-178 -/
def eq (x y : U256) : Bool := x == y

/-- `add_inline` — prime_field.rs:231-238 -/
def add (x y : U256) : U256 := reduce_1 (U256.add x y) P.modulus

/-- `sub_inline` — prime_field.rs:240-252 -/
def sub (x y : U256) : U256 :=
  if gt y x then U256.add (U256.sub x y) P.modulus else U256.sub x y

/-- `neg_inline` — prime_field.rs:254-263 -/
def neg (x : U256) : U256 := if is_zero x then zero else U256.sub P.modulus x

/-- `square_inline` — prime_field.rs:265-270 -/
def square (x : U256) : U256 := square_redc P.toMont x

/-- `mul_inline` — prime_field.rs:272-280 -/
def mul (x y : U256) : U256 := mul_redc P.toMont x y

/-- `double` — prime_field.rs:156-160 -/
def double (x : U256) : U256 := add P x x
/-- `triple` — prime_field.rs:162-166 -/
def triple (x : U256) : U256 := add P (add P x x) x

/-- `inv` — prime_field.rs:282-291 with `inv_redc` of /repo/algebra/u256/src/functions.rs:44-48.  The outer
`none` is a panic (debug profile only). -/
def inv (dbg : Bool) (x : U256) : Option (Option U256) :=
  (inv_mod dbg x P.modulus).map fun r => r.map fun ni => mul_redc P.toMont ni P.r3

/-- `/` — ops.rs:137-190: multiplication by the inverse; `none` is a panic (`expect`, or debug profile) -/
def div (dbg : Bool) (x y : U256) : Option U256 :=
  (inv P dbg y).bind fun r => r.map fun ni => mul P x ni

/-- `Sum` — ops.rs:192-202 -/
def sum (l : List U256) : U256 := l.foldl (add P) zero
/-- `Product` — ops.rs:204-214 -/
def product (l : List U256) : U256 := l.foldl (mul P) (one P)

/-- one iteration of the loop of `pow` — prime_field.rs:324-331; state (result, square) -/
def powStep (bit : Nat → Bool) (msb : Nat) (s : U256 × U256) (i : Nat) : U256 × U256 :=
  (if bit i then mul P s.1 s.2 else s.1, if i < msb then square P s.2 else s.2)

/-- `Pow<&Exponent>` — prime_field.rs:315-338, for an exponent given by `most_significant_bit` and `bit` -/
def powBits (msb : Option Nat) (bit : Nat → Bool) (x : U256) : U256 :=
  match msb with
  | some msb => ((List.range (msb + 1)).foldl (powStep P bit msb) (one P, x)).1
  | none => one P

/-- `pow(&U256)` -/
def powU (x e : U256) : U256 := powBits P (most_significant_bit e) (bit e) x

/-- `most_significant_bit` of a `usize` — /repo/algebra/u256/src/traits/binary.rs:41-43, 62-64 -/
def msb64 (e : UInt64) : Option Nat := if clz64 e ≤ 63 then some (63 - clz64 e) else none
/-- `bit` of a `usize` — traits/binary.rs:53-55 (called with `i ≤ 63` only) -/
def bit64 (e : UInt64) (i : Nat) : Bool := (e >>> UInt64.ofNat i) &&& 1 == 1

/-- `pow(usize)` — prime_field.rs:293-299 -/
def pow (x : U256) (e : UInt64) : U256 := powBits P (msb64 e) (bit64 e) x

/-- `pow(isize)` — prime_field.rs:301-313; the exponent is the integer value of the `isize`.  `abs` of the
least value panics in the debug profile and wraps to itself in release, which `as usize` makes `2^63`. -/
def powI (dbg : Bool) (x : U256) (e : Int) : Option (Option U256) :=
  if dbg && e == -2 ^ 63 then none
  else
    let abs : UInt64 := UInt64.ofNat e.natAbs
    if e < 0 then (inv P dbg x).map fun r => r.map fun n => pow P n abs
    else some (some (pow P x abs))

/-- `root(usize)` — prime_field.rs:345-357 -/
def root (n : UInt64) : Option U256 :=
  match div_rem_u64 P.order n with
  | some (q, rem) => if rem == 0 then some (powU P P.generator q) else none
  | none => some (one P)

/-- `root(&U256)` — prime_field.rs:369-379; outer `none` is a panic (debug profile only) -/
def rootU (dbg : Bool) (n : U256) : Option (Option U256) :=
  match div_rem dbg P.order n with
  | none => none
  | some (some (q, rem)) => some (if rem == ZERO then some (powU P P.generator q) else none)
  | some none => some (some (one P))

/-- `is_quadratic_residue` — prime_field.rs:387-389 -/
def is_quadratic_residue (x : U256) : Bool := powU P x (shr P.modulus 1) != neg P (one P)

/-- one iteration of the loop of `square_root` — prime_field.rs:419-427; state (root, c) -/
def sqrtStep (tz : Nat) (inverse : U256) (s : U256 × U256) (i : Nat) : U256 × U256 :=
  (if powU P (mul P (square P s.1) inverse) (shl ONE (tz - i - 1)) == neg P (one P) then mul P s.1 s.2 else s.1,
   square P s.2)

/-- the part of `square_root` before the loop: `root` and `c` — prime_field.rs:402-416 -/
def sqrtInit (x : U256) : U256 × U256 :=
  let tz := trailing_zeros P.order
  let significant := shr P.order tz
  (powU P x (shr (U256.add significant ONE) 1), powU P P.generator significant)

/-- `square_root` — prime_field.rs:394-430; outer `none` is a panic -/
def square_root (dbg : Bool) (x : U256) : Option (Option U256) :=
  if is_zero x then some (some zero)
  else if !is_quadratic_residue P x then some none
  else
    match inv P dbg x with
    | some (some inverse) =>
      let tz := trailing_zeros P.order
      some (some ((List.range' 1 (tz - 1)).foldl (sqrtStep P tz inverse) (sqrtInit P x)).1)
    | _ => none

/-- `From<i64>` and the smaller signed types — convert.rs:36-70; the argument is the integer value.  `-MIN`
panics in the debug profile for `i64`; the release value (`MIN` converted by `From<i64> for U256`) is not
modelled, hence the precondition in the property. -/
def from_i64 (v : Int) : U256 :=
  if v < 0 then neg P (from_uint_reduce P (ofU64 (UInt64.ofNat v.natAbs)))
  else from_uint_reduce P (ofU64 (UInt64.ofNat v.natAbs))

/-- `to_u128` — convert.rs:78-80 with `ToPrimitive for U256`, /repo/algebra/u256/src/u256_traits.rs:87-95 -/
def u256_to_u128 (u : U256) : Option Nat := if lt u ⟨0, 0, 1, 0⟩ then some (as_u128 u) else none

/-- `to_u128` — convert.rs:78-80 -/
def to_u128 (x : U256) : Option Nat := u256_to_u128 (to_uint P x)

/-- `to_i128` of a `U256` — u256_traits.rs:97-99 (and `u128::to_i128` of num_traits) -/
def u256_to_i128 (u : U256) : Option Int :=
  (u256_to_u128 u).bind fun n => if n < 2 ^ 127 then some (n : Int) else none

/-- `to_i128` — convert.rs:82-92 (`checked_neg` of a non-negative number always succeeds) -/
def to_i128 (x : U256) : Option Int :=
  let val := to_uint P x
  if lt val (shr P.modulus 1) then u256_to_i128 val
  else (u256_to_i128 (U256.sub P.modulus val)).map fun v => -v

end PF
end OpenZKP
