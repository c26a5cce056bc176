import Verif.U256.Encoding
import Verif.U256.Montgomery

/-!
# Literal macros `hex!`, `u256h!` and `field_element!` (model)

Models `/repo/utils/macros-lib/src/lib.rs`.  The argument of a macro is the value of the string literal
written between its parentheses; `parse_string` (lib.rs:46-68), which takes it out of the token stream, is
left out.  `none` is a compile error.  The result is the value of the constant the macro expands to.
-/

namespace OpenZKP
namespace U256

/-- `parse_hex` and `hex!` — macros-lib/src/lib.rs:70-78, 190-200 -/
def hexMacro (s : List Char) : Option (List UInt8) := hexDecode s

/-- The inner loop of `bytes_to_limbs` — macros-lib/src/lib.rs:90-96: `n` iterations are left, the next is
`j`, the limb is `r`, the iterator still yields `it`.  Second component: the rest of the iterator, or `none`
when it ended and the function returned. -/
def limbLoop : Nat → Nat → List UInt8 → UInt64 → UInt64 × Option (List UInt8)
  | 0, _, it, r => (r, some it)
  | _ + 1, _, [], r => (r, none)
  | n + 1, j, b :: it, r => limbLoop n (j + 1) it (r ||| (b.toUInt64 <<< UInt64.ofNat (8 * j)))

/-- The outer loop of `bytes_to_limbs` — macros-lib/src/lib.rs:87-99: the last `n` limbs of the result,
which start as zero. -/
def limbsLoop : Nat → List UInt8 → List UInt64
  | 0, _ => []
  | n + 1, it =>
    match limbLoop 8 0 it 0 with
    | (r, none) => r :: List.replicate n 0
    | (r, some it) => r :: limbsLoop n it

/-- `bytes_to_limbs` — macros-lib/src/lib.rs:80-100 (the last case does not occur: there are four limbs) -/
def bytes_to_limbs (bytes : List UInt8) : Option U256 :=
  if bytes.length > 32 then none
  else match limbsLoop 4 bytes.reverse with
    | [c0, c1, c2, c3] => some ⟨c0, c1, c2, c3⟩
    | _ => none

/-- `u256h!` — macros-lib/src/lib.rs:202-219 -/
def u256hMacro (s : List Char) : Option U256 := (hexDecode s).bind bytes_to_limbs

/-- `field_element!` — macros-lib/src/lib.rs:221-237.  The result is the Montgomery representation of the
constant.  An arithmetic overflow in the macro is a panic of the compiler (debug profile): also an error. -/
def fieldElementMacro (s : List Char) : Option U256 :=
  (hexDecode s).bind fun bytes => (bytes_to_limbs bytes).bind fun limbs =>
    match montgomery_convert limbs with
    | (c, false) => some c
    | (_, true) => none

end U256
end OpenZKP
