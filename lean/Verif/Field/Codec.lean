import Verif.Field.PrimeField
import Verif.U256.Encoding
import Verif.EC.Model

/-!
# Encodings of numbers, field elements, points, keys and signatures (model)

Models `/repo/algebra/primefield/src/parity_codec.rs`, `serde.rs`, the `serde` part of
`/repo/algebra/u256/src/conversion.rs`, and the derived implementations (`derive(Encode, Decode)`) of
`U256`, `Affine`, `PublicKey`, `PrivateKey` and `Signature`.

`Input` is the list of bytes that remain to be read.  The result of a decoder is `none` for a panic,
`error` for an `Err` (the kind of error is not modelled), and otherwise the value with the remaining input.
`serde`'s data model is reduced to what these implementations use: a string for human-readable formats,
32 bytes for the others.  The implementations of `serde` derived for structures are not modelled.
-/

namespace OpenZKP
namespace Codec
open U256 PF EC

/-- What a decoder returns. -/
abbrev Decoded (α : Type) := Option (Except Unit (α × List UInt8))

/-- `u64::to_le_bytes` and the like: `k` bytes, least significant first (core library) -/
def leBytes : Nat → Nat → List UInt8
  | 0, _ => []
  | k + 1, n => UInt8.ofNat n :: leBytes k (n / 256)

/-- `u64::from_le_bytes` (core library), as a number -/
def leNat : List UInt8 → Nat
  | [] => 0
  | b :: l => b.toNat + 256 * leNat l

/-- `Encode for u64` (parity-scale-codec) -/
def encodeU64 (v : UInt64) : List UInt8 := leBytes 8 v.toNat

/-- `Decode for u64` (parity-scale-codec): an error if fewer than 8 bytes remain -/
def decodeU64 (input : List UInt8) : Decoded UInt64 :=
  if input.length < 8 then some (.error ()) else some (.ok (UInt64.ofNat (leNat (input.take 8)), input.drop 8))

/-- run a second decoder on the remaining input: the `?` of the derived implementations -/
def andThen {α β : Type} (r : Decoded α) (f : α → List UInt8 → Decoded β) : Decoded β :=
  match r with
  | none => none
  | some (.error e) => some (.error e)
  | some (.ok (a, rest)) => f a rest

/-- `derive(Encode) for U256` — /repo/algebra/u256/src/u256.rs:17: the limbs in order -/
def encodeU256 (x : U256) : List UInt8 := encodeU64 x.l0 ++ encodeU64 x.l1 ++ encodeU64 x.l2 ++ encodeU64 x.l3

/-- `derive(Decode) for U256` — /repo/algebra/u256/src/u256.rs:17 -/
def decodeU256 (input : List UInt8) : Decoded U256 :=
  andThen (decodeU64 input) fun l0 input =>
  andThen (decodeU64 input) fun l1 input =>
  andThen (decodeU64 input) fun l2 input =>
  andThen (decodeU64 input) fun l3 input => some (.ok (⟨l0, l1, l2, l3⟩, input))

/-- `Encode for PrimeField` — primefield/src/parity_codec.rs:10-31 -/
def encodeField (P : Params) (x : U256) : List UInt8 := encodeU256 (to_uint P x)

/-- `Decode for PrimeField` — primefield/src/parity_codec.rs:33-41 -/
def decodeField (P : Params) (dbg : Bool) (input : List UInt8) : Decoded U256 :=
  andThen (decodeU256 input) fun u input => (from_uint P dbg u).map fun x => .ok (x, input)

/-- `derive(Encode) for Affine` — /repo/algebra/elliptic-curve/src/curve.rs:17; also `PublicKey`,
/repo/crypto/elliptic-curve-crypto/src/public_key.rs:13.  One byte for the variant, then the fields. -/
def encodeAffine : Affine U256 → List UInt8
  | .Zero => [0]
  | .Point x y => 1 :: (encodeField BASE x ++ encodeField BASE y)

/-- `derive(Decode) for Affine` — /repo/algebra/elliptic-curve/src/curve.rs:17; also `PublicKey` -/
def decodeAffine (dbg : Bool) : List UInt8 → Decoded (Affine U256)
  | [] => some (.error ())
  | tag :: input =>
    if tag = 0 then some (.ok (.Zero, input))
    else if tag = 1 then
      andThen (decodeField BASE dbg input) fun x input =>
      andThen (decodeField BASE dbg input) fun y input => some (.ok (.Point x y, input))
    else some (.error ())

/-- `derive(Encode) for Signature` — /repo/crypto/elliptic-curve-crypto/src/signature.rs:9 (fields `r`, `w`) -/
def encodeSignature (s : U256 × U256) : List UInt8 := encodeField SCALAR s.1 ++ encodeField SCALAR s.2

/-- `derive(Decode) for Signature` — /repo/crypto/elliptic-curve-crypto/src/signature.rs:9 -/
def decodeSignature (dbg : Bool) (input : List UInt8) : Decoded (U256 × U256) :=
  andThen (decodeField SCALAR dbg input) fun r input =>
  andThen (decodeField SCALAR dbg input) fun w input => some (.ok ((r, w), input))

/-- What the `serde` implementations hand to a format. -/
inductive Serial
  | string (s : List Char)
  | bytes (b : List UInt8)

/-- `Serialize for U256` — u256/src/conversion.rs:35-44 -/
def serializeU256 (human : Bool) (x : U256) : Serial :=
  if human then .string (to_hex_string x) else .bytes (to_bytes_be x)

/-- `Deserialize for U256` — u256/src/conversion.rs:46-56.  A string where bytes are expected, bytes
where a string is expected, or a wrong number of bytes is an error of the format. -/
def deserializeU256 (human : Bool) (v : Serial) : Option (Except Unit U256) :=
  match human, v with
  | true, .string s => (from_hex_str s).map .ok
  | false, .bytes b => if b.length = 32 then (from_bytes_be b).map .ok else some (.error ())
  | _, _ => some (.error ())

/-- `Serialize for PrimeField` — primefield/src/serde.rs:7-18 -/
def serializeField (P : Params) (human : Bool) (x : U256) : Serial := serializeU256 human (to_uint P x)

/-- `Deserialize for PrimeField` — primefield/src/serde.rs:20-32 -/
def deserializeField (P : Params) (dbg human : Bool) (v : Serial) : Option (Except Unit U256) :=
  match deserializeU256 human v with
  | none => none
  | some (.error e) => some (.error e)
  | some (.ok u) => (from_uint P dbg u).map .ok

end Codec
end OpenZKP
