import Verif.U256.Division

/-!
# Decimal and hexadecimal strings, and random sampling (model)

Models `/repo/algebra/u256/src/encoding.rs` and `rand.rs`.  Strings are lists of characters.
-/

namespace OpenZKP
namespace U256

/-- `ParseError` — encoding.rs:76-81 -/
inductive ParseError
  | Empty
  | Overflow
  | InnerError
deriving DecidableEq, Repr

/-- `u64::from_str_radix` (core library) on a one-character string: the value of a decimal digit, or an error -/
def digit10 (c : Char) : Option UInt64 :=
  if '0'.toNat ≤ c.toNat ∧ c.toNat ≤ '9'.toNat then some (UInt64.ofNat (c.toNat - '0'.toNat)) else none

/-- `max10` — encoding.rs:15-20 -/
def max10 : U256 := ⟨0x999999999999999a, 0x9999999999999999, 0x9999999999999999, 0x1999999999999999⟩

/-- The loop of `from_decimal_str` — encoding.rs:28-38.  `none` is a panic: `s[i..=i]` cuts a character of
several bytes (all characters before it are ASCII digits, so byte and character positions agree). -/
def decLoop : List Char → U256 → Option (Except ParseError U256)
  | [], result => some (.ok result)
  | c :: cs, result =>
    if gt result max10 then some (.error .Overflow)
    else if 128 ≤ c.toNat then none
    else
      match digit10 c with
      | none => some (.error .InnerError)
      | some d =>
        let result := mul result (ofU64 10)
        if lt (add result (ofU64 d)) result then some (.error .Overflow)
        else decLoop cs (add result (ofU64 d))

/-- `from_decimal_str` — encoding.rs:13-40 -/
def from_decimal_str (s : List Char) : Option (Except ParseError U256) :=
  if s.isEmpty then some (.error .Empty) else decLoop s ZERO

/-- the character of a digit below ten: `u64::to_string` (core library) on such a number -/
def charOf (d : Nat) : Char := Char.ofNat ('0'.toNat + d)

/-- The loop of `to_decimal_string` — encoding.rs:48-53: the digits, least significant first.  `none` is a
panic of the division (or fuel running out); only the fuel argument is an artefact of the model. -/
def toDecLoop (dbg : Bool) : Nat → U256 → Option (List Char)
  | 0, copy => if gt copy ZERO then none else some []
  | fuel + 1, copy =>
    if gt copy ZERO then
      (rem dbg copy (ofU64 10)).bind fun digit =>
      (div dbg copy (ofU64 10)).bind fun copy =>
      (toDecLoop dbg fuel copy).map fun r => charOf digit.l0.toNat :: r
    else some []

/-- `to_decimal_string` — encoding.rs:42-58 -/
def to_decimal_string (dbg : Bool) (x : U256) : Option (List Char) :=
  if x = ZERO then some ['0'] else (toDecLoop dbg 256 x).map List.reverse

/-! ## hexadecimal -/

/-- value of a hexadecimal digit as in the `hex` crate (upper and lower case) -/
def hexVal (c : Char) : Option Nat :=
  if '0'.toNat ≤ c.toNat ∧ c.toNat ≤ '9'.toNat then some (c.toNat - '0'.toNat)
  else if 'a'.toNat ≤ c.toNat ∧ c.toNat ≤ 'f'.toNat then some (c.toNat - 'a'.toNat + 10)
  else if 'A'.toNat ≤ c.toNat ∧ c.toNat ≤ 'F'.toNat then some (c.toNat - 'A'.toNat + 10)
  else none

/-- `hex::decode`; `none` is an error (odd length or bad digit) -/
def hexDecode : List Char → Option (List UInt8)
  | [] => some []
  | [_] => none
  | a :: b :: r =>
    match hexVal a, hexVal b, hexDecode r with
    | some x, some y, some l => some (UInt8.ofNat (16 * x + y) :: l)
    | _, _, _ => none

/-- `trim_start_matches("0x")`: removes the prefix as often as it occurs -/
def trim0x : List Char → List Char
  | '0' :: 'x' :: r => trim0x r
  | s => s

/-- `from_hex_str` — encoding.rs:64-71; `none` is a panic -/
def from_hex_str (s : List Char) : Option U256 :=
  let t := trim0x s
  let byte_string := List.replicate (64 - t.length) '0' ++ t
  (hexDecode byte_string).bind fun bytes => from_bytes_be (bytes.take 32)

/-- hexadecimal digit of the `hex` crate -/
def hexChar (d : Nat) : Char := if d < 10 then Char.ofNat ('0'.toNat + d) else Char.ofNat ('a'.toNat + (d - 10))

/-- `hex::encode` -/
def hexEncode (l : List UInt8) : List Char := l.flatMap fun b => [hexChar (b.toNat / 16), hexChar (b.toNat % 16)]

/-- `to_hex_string` — encoding.rs:60-62 -/
def to_hex_string (x : U256) : List Char := '0' :: 'x' :: hexEncode (to_bytes_be x)

/-! ## rand.rs -/

/-- `UniformU256` — rand.rs:18-22 -/
inductive Uniform
  | Full
  | Ranged (low range : U256)

/-- `UniformU256::new` — rand.rs:31-39 -/
def Uniform.new (low high : U256) : Uniform := .Ranged low (sub high low)

/-- `UniformU256::new_inclusive` — rand.rs:41-53 -/
def Uniform.new_inclusive (low high : U256) : Uniform :=
  if low = ZERO ∧ high = MAX then .Full else .Ranged low (add (sub high low) ONE)

/-- the rejection loop of `sample` — rand.rs:61-65, on the list of the values `rng.gen()` will return; `none`:
the loop is still running when the list ends.  The initial `U256::MAX` always enters the loop, since
`range ≤ MAX`. -/
def sampleLoop (range : U256) (shift : Nat) : List U256 → Option U256
  | [] => none
  | w :: ws => if ge (shr w shift) range then sampleLoop range shift ws else some (shr w shift)

/-- `sample` — rand.rs:55-69 -/
def Uniform.sample : Uniform → List U256 → Option U256
  | .Full, ws => ws.head?
  | .Ranged low range, ws => (sampleLoop range (leading_zeros range) ws).map fun r => add r low

end U256
end OpenZKP
