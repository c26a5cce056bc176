import Mathlib.Data.List.Basic

/-!
# Model of the contract library `PrimeField` (crypto/stark-verifier-ethereum/contracts/primefield.sol)

Solidity 0.6: the arithmetic of words is modulo `2^256` and never reverts.  A word is a natural number below `2^256`; the operations of the machine are
written out below.  `none` is a revert.  Not modelled: gas (a call of the precompiled contract for powers does not fail), the `LogTrace` events.
-/

namespace OpenZKP
namespace Evm

/-- the number of words -/
def W : Nat := 2 ^ 256

/-- `ADD`, and `+` on `uint256` -/
def wadd (a b : Nat) : Nat := (a + b) % W
/-- `SUB`, and `-` on `uint256` -/
def wsub (a b : Nat) : Nat := (a + (W - b)) % W
/-- `MUL`, and `*` on `uint256` -/
def wmul (a b : Nat) : Nat := (a * b) % W
/-- `ADDMOD` -/
def addmod (a b n : Nat) : Nat := if n = 0 then 0 else (a + b) % n
/-- `MULMOD` -/
def mulmod (a b n : Nat) : Nat := if n = 0 then 0 else (a * b) % n
/-- `SHR`, and `>>` on `uint256` -/
def wshr (a s : Nat) : Nat := if s < 256 then a / 2 ^ s else 0
/-- `SHL`, and `<<` on `uint256` -/
def wshl (a s : Nat) : Nat := if s < 256 then a * 2 ^ s % W else 0
/-- `**` on `uint256` -/
def wexp (a n : Nat) : Nat := a ^ n % W
/-- `base ^ exponent % modulus` by repeated squaring, so that it can be computed; the first argument is the number of bits of the exponent -/
def squareLoop (modulus : Nat) : Nat → Nat → Nat → Nat
  | 0, _, _ => 1 % modulus
  | bits + 1, base, exponent =>
    if exponent % 2 = 1 then squareLoop modulus bits (base * base % modulus) (exponent / 2) * base % modulus else squareLoop modulus bits (base * base % modulus) (exponent / 2)
/-- the precompiled contract 5 (EIP-198) for operands of 32 bytes; `modexp_eq` says what it is -/
def modexp (base exponent modulus : Nat) : Nat := if modulus = 0 then 0 else squareLoop modulus (Nat.log2 exponent + 1) base exponent

namespace PrimeField

/-- primefield.sol:5 -/
def MODULUS : Nat := 0x0800000000000011000000000000000000000000000000000000000000000001
/-- primefield.sol:6 -/
def MODULUS_MASK : Nat := 0x0fffffffffffffffffffffffffffffffffffffffffffffffffffffffffffffff
/-- primefield.sol:7 -/
def MONTGOMERY_R : Nat := 0x7fffffffffffdf0ffffffffffffffffffffffffffffffffffffffffffffffe1
/-- primefield.sol:8 -/
def MONTGOMERY_R_INV : Nat := 0x40000000000001100000000000012100000000000000000000000000000000
/-- primefield.sol:9 -/
def GENERATOR : Nat := 3
/-- primefield.sol:10 -/
def ONE : Nat := 1
/-- primefield.sol:201 -/
def MODULUS_SUB_2 : Nat := 0x0800000000000010ffffffffffffffffffffffffffffffffffffffffffffffff

/-- primefield.sol:12-14 (and `from_montgomery_bytes`, 16-18) -/
def from_montgomery (value : Nat) : Nat := mulmod value MONTGOMERY_R_INV MODULUS
/-- primefield.sol:28-30 -/
def to_montgomery (value : Nat) : Nat := mulmod value MONTGOMERY_R MODULUS
/-- primefield.sol:32-34 -/
def fmul (a b : Nat) : Nat := mulmod a b MODULUS
/-- primefield.sol:36-38 -/
def fmul_mont (a b : Nat) : Nat := fmul (fmul a b) MONTGOMERY_R_INV
/-- primefield.sol:40-42 -/
def fadd (a b : Nat) : Nat := addmod a b MODULUS
/-- primefield.sol:44-46 -/
def fsub (a b : Nat) : Nat := addmod a (wsub MODULUS b) MODULUS
/-- primefield.sol:53-74 -/
def expmod (base exponent modulus : Nat) : Nat := modexp base exponent modulus
/-- primefield.sol:48-50 -/
def fpow (value exp : Nat) : Nat := expmod value exp MODULUS
/-- primefield.sol:76-79 -/
def inverse (value : Nat) : Nat := expmod value (wsub MODULUS 2) MODULUS

/-- primefield.sol:82-86; `none` reverts.  `2**log_order` is zero for `log_order = 256` and up, which `uint8` excludes. -/
def generator_power (log_order : Nat) : Option Nat :=
  let maybe_exact := wsub MODULUS 1 / wexp 2 log_order
  if wmul maybe_exact (wexp 2 log_order) = wsub MODULUS 1 then some (expmod GENERATOR maybe_exact MODULUS) else none

/-- primefield.sol:89-92; `%` by zero reverts -/
def root (order : Nat) : Option Nat :=
  if order = 0 then none
  else if wsub MODULUS 1 % order = 0 then some (expmod GENERATOR (wsub MODULUS 1 / order) MODULUS) else none

/-- one step of the loops of `horner_eval` — primefield.sol:115-117 -/
def hornerStep (x result c : Nat) : Nat := wadd (mulmod result x MODULUS) c

/-- the unrolled loop — primefield.sol:112-139; the list has the coefficients from the last one down to the first -/
def hornerEight (x : Nat) : List Nat → Nat → Nat × List Nat
  | c7 :: c6 :: c5 :: c4 :: c3 :: c2 :: c1 :: c0 :: c :: rest, result =>
    hornerEight x (c :: rest) (hornerStep x (hornerStep x (hornerStep x (hornerStep x (hornerStep x (hornerStep x (hornerStep x (hornerStep x result c7) c6) c5) c4) c3) c2) c1) c0)
  | l, result => (result, l)

/-- the base loop and the last value — primefield.sol:140-152 -/
def hornerBase (x : Nat) : List Nat → Nat → Nat
  | [], result => result
  | [c], result => addmod (mulmod result x MODULUS) c MODULUS
  | c :: rest, result => hornerBase x rest (hornerStep x result c)

/-- `horner_eval` — primefield.sol:96-155 -/
def horner_eval (coefficients : List Nat) (x : Nat) : Nat :=
  let r := hornerEight x coefficients.reverse 0
  hornerBase x r.2 r.1

/-- `EvalX` — primefield.sol:159-163 -/
structure EvalX where
  eval_domain_generator : Nat
  log_eval_domain_size : Nat
  eval_domain_size : Nat

/-- `lookup` — primefield.sol:187-189 -/
def lookup (eval_x : EvalX) (index : Nat) : Nat := fpow eval_x.eval_domain_generator index

/-- `init_eval` — primefield.sol:192-199; `uint64(2)**n` wraps -/
def init_eval (log_eval_domain_size : Nat) : Option EvalX :=
  (generator_power log_eval_domain_size).map fun g => ⟨g, log_eval_domain_size, 2 ^ log_eval_domain_size % 2 ^ 64⟩

/-- the first loop of `batch_invert` — primefield.sol:248-258: the products of the elements so far -/
def batchProducts : List Nat → Nat → List Nat × Nat
  | [], carried => ([], carried)
  | x :: xs, carried =>
    let carried := mulmod carried x MODULUS
    let r := batchProducts xs carried
    (carried :: r.1, r.2)

/-- the second loop of `batch_invert` — primefield.sol:269-286, on the inputs and products from the last ones down; the product of the slot before
is the head of what remains.  After the loop the first slot is set (287-289). -/
def batchInverses : List Nat → List Nat → Nat → List Nat
  | x :: xs, _ :: before :: products, carried => mulmod carried before MODULUS :: batchInverses xs (before :: products) (mulmod carried x MODULUS)
  | _, _, carried => [carried]

/-- `batch_invert` — primefield.sol:207-291: the words written from the first slot of the output array on.  For an empty array this is one word beyond it. -/
def batch_invert (input_data output_data : List Nat) : Option (List Nat) :=
  if input_data.length = output_data.length then
    let r := batchProducts input_data 1
    some (batchInverses input_data.reverse r.1.reverse (modexp r.2 MODULUS_SUB_2 MODULUS)).reverse
  else none

end PrimeField
end Evm
end OpenZKP
