import Verif.U256.ShiftLemmas
import Verif.Field.PrimeField

/-!
# Model of `crypto/stark/src/channel.rs`

The hash function (Keccak-256 of the `tiny-keccak` crate) is a parameter: any function from byte strings to 32
bytes.  Arrays and vectors of bytes are lists.  `none` is a panic (a slice out of range, a failing
`debug_assert!`, or the 64-bit counter overflowing; the release build would let the counter wrap).
Field elements are their Montgomery representation, as in `Field/PrimeField.lean`.
-/

namespace OpenZKP
namespace Stark
open U256

abbrev Bytes := List UInt8

/-- `Keccak::v256` on the concatenation of its inputs (tiny-keccak): an arbitrary function with 32-byte results -/
structure Keccak where
  hash : Bytes → Bytes
  len : ∀ x, (hash x).length = 32

/-- `to_be_bytes` of an unsigned integer of `k` bytes (core library) -/
def to_be_bytes : Nat → Nat → Bytes
  | 0, _ => []
  | k + 1, n => to_be_bytes k (n / 256) ++ [UInt8.ofNat n]

/-- `PublicCoin` — channel.rs:30-33 -/
structure PublicCoin where
  digest : Bytes
  counter : Nat
  deriving DecidableEq

/-- `PublicCoin::default` (derived) -/
def PublicCoin.default : PublicCoin := ⟨List.replicate 32 0, 0⟩

/-- `ProverChannel` — channel.rs:37-40 -/
structure ProverChannel where
  coin : PublicCoin
  proof : Bytes

/-- `VerifierChannel` — channel.rs:44-48 -/
structure VerifierChannel where
  coin : PublicCoin
  proof : Bytes
  proof_index : Nat

variable (K : Keccak)

namespace PublicCoin

/-- `seed` — channel.rs:51-56 -/
def seed (_ : PublicCoin) (s : Bytes) : PublicCoin := ⟨K.hash s, 0⟩

/-- `Writable<&[u8]>::write` — channel.rs:204-215 -/
def write (c : PublicCoin) (data : Bytes) : PublicCoin := ⟨K.hash (c.digest ++ data), 0⟩

/-- the counter increment of channel.rs:128, 181: `none` if the `u64` overflows -/
def bump (c : PublicCoin) : Option PublicCoin :=
  if c.counter + 1 < 2 ^ 64 then some { c with counter := c.counter + 1 } else none

/-- `get_random::<ChallengeSeed>` — channel.rs:126-132 -/
def randomSeed (c : PublicCoin) : Option (Bytes × PublicCoin) :=
  c.bump.map fun c' => (c.digest, c')

/-- `get_random::<[u8; 32]>` — channel.rs:173-184 -/
def randomBytes (c : PublicCoin) : Option (Bytes × PublicCoin) :=
  c.bump.map fun c' => (K.hash (c.digest ++ List.replicate 24 0 ++ to_be_bytes 8 c.counter), c')

/-- `get_random::<U256>` — channel.rs:167-171 -/
def randomU256 (c : PublicCoin) : Option (U256 × PublicCoin) :=
  (randomBytes K c).bind fun r => (from_bytes_be r.1).map fun x => (x, r.2)

/-- `MASK` — channel.rs:155-156 -/
def MASK : U256 := ⟨0xffffffffffffffff, 0xffffffffffffffff, 0xffffffffffffffff, 0x0fffffffffffffff⟩

/-- the loop of `get_random::<FieldElement>` — channel.rs:157-163; `fuel` bounds the iterations -/
def randomFieldLoop : Nat → PublicCoin → Option (U256 × PublicCoin)
  | 0, _ => none
  | fuel + 1, c =>
    (randomU256 K c).bind fun r =>
    let seed := U256.and r.1 MASK
    if lt seed PF.BASE.modulus then some (seed, r.2) else randomFieldLoop fuel r.2

/-- `get_random::<FieldElement>` — channel.rs:153-165: the counter overflows after at most 2^64 iterations -/
def randomField (c : PublicCoin) : Option (U256 × PublicCoin) := randomFieldLoop K (2 ^ 64) c

/-- several draws: `get_coefficients` — channel.rs:92-94, and the prover's equivalent
(prover.rs:430-432, 463-465) -/
def randomFields : Nat → PublicCoin → Option (List U256 × PublicCoin)
  | 0, c => some ([], c)
  | n + 1, c => (randomField K c).bind fun r => (randomFields n r.2).map fun rs => (r.1 :: rs.1, rs.2)

end PublicCoin

namespace ProverChannel

/-- `default` followed by `initialize` — channel.rs:35-40, 69-73 -/
def init (s : Bytes) : ProverChannel := ⟨PublicCoin.seed K PublicCoin.default s, []⟩

/-- `Writable<&[u8]>` — channel.rs:221-226 -/
def write (c : ProverChannel) (data : Bytes) : ProverChannel := ⟨c.coin.write K data, c.proof ++ data⟩

/-- `Writable<proof_of_work::Response>` — channel.rs:134-138 -/
def writeResponse (c : ProverChannel) (nonce : Nat) : ProverChannel := c.write K (to_be_bytes 8 nonce)
/-- `Writable<&Hash>` — channel.rs:228-232 (also `Writable<&Commitment>`, channel.rs:234-238) -/
def writeHash (c : ProverChannel) (h : Bytes) : ProverChannel := c.write K h
/-- `Writable<&zkp_merkle_tree::Proof>` — channel.rs:240-246 -/
def writeHashes (c : ProverChannel) (hs : List Bytes) : ProverChannel := hs.foldl (writeHash K) c
/-- `Writable<&[FieldElement]>` — channel.rs:249-259 -/
def writeLayer (c : ProverChannel) (xs : List U256) : ProverChannel := c.write K (xs.flatMap to_bytes_be)
/-- `Writable<U256>` and `Writable<&FieldElement>` — channel.rs:261-265, 277-281 -/
def writeU256 (c : ProverChannel) (x : U256) : ProverChannel := c.write K (to_bytes_be x)
/-- `Writable<Vec<U256>>` — channel.rs:269-275 -/
def writeU256s (c : ProverChannel) (xs : List U256) : ProverChannel := xs.foldl (writeU256 K) c

end ProverChannel

namespace VerifierChannel

/-- `new` — channel.rs:76-82 — followed by `initialize` — channel.rs:84-86 -/
def init (proof s : Bytes) : VerifierChannel := ⟨PublicCoin.seed K PublicCoin.default s, proof, 0⟩

/-- `at_end` — channel.rs:88-90 -/
def at_end (c : VerifierChannel) : Bool := c.proof_index == c.proof.length

/-- read `n` bytes and advance: the common part of channel.rs:100-104, 114-123, 142-147.  The slice
`proof[from..to]` panics (`none`) when it is out of range. -/
def read (c : VerifierChannel) (n : Nat) : Option (Bytes × VerifierChannel) :=
  if c.proof_index + n ≤ c.proof.length then
    let data := (c.proof.drop c.proof_index).take n
    some (data, ⟨c.coin.write K data, c.proof, c.proof_index + n⟩)
  else none

/-- `Replayable<proof_of_work::Response>` — channel.rs:140-151 -/
def replayResponse (c : VerifierChannel) : Option (Nat × VerifierChannel) :=
  (c.read K 8).map fun r => ((u64_from_be_bytes r.1).toNat, r.2)
/-- `Replayable<Hash>` — channel.rs:283-288 -/
def replayHash (c : VerifierChannel) : Option (Bytes × VerifierChannel) := c.read K 32
/-- `Replayable<U256>` — channel.rs:290-295 -/
def replayU256 (c : VerifierChannel) : Option (U256 × VerifierChannel) :=
  (c.read K 32).bind fun r => (from_bytes_be r.1).map fun x => (x, r.2)
/-- `FieldElement::from_montgomery` — prime_field.rs:118-124, with its `debug_assert!` -/
def fromMontgomery (dbg : Bool) (x : U256) : Option U256 :=
  if dbg && !lt x PF.BASE.modulus then none else some x
/-- `Replayable<FieldElement>` — channel.rs:297-302 -/
def replayField (dbg : Bool) (c : VerifierChannel) : Option (U256 × VerifierChannel) :=
  (c.replayU256 K).bind fun r => (fromMontgomery dbg r.1).map fun x => (x, r.2)
/-- `replay_many` — channel.rs:22-24 -/
def replayMany {α : Type} (f : VerifierChannel → Option (α × VerifierChannel)) :
    Nat → VerifierChannel → Option (List α × VerifierChannel)
  | 0, c => some ([], c)
  | n + 1, c => (f c).bind fun r => (replayMany f n r.2).map fun rs => (r.1 :: rs.1, rs.2)
/-- `chunks_exact(32)` (standard library) -/
def chunks32 : Nat → Bytes → List Bytes
  | 0, _ => []
  | n + 1, b => b.take 32 :: chunks32 n (b.drop 32)
/-- `replay_fri_layer` — channel.rs:99-112 -/
def replayLayer (dbg : Bool) (c : VerifierChannel) (size : Nat) : Option (List U256 × VerifierChannel) :=
  (c.read K (32 * size)).bind fun r =>
  ((chunks32 size r.1).mapM fun b => (from_bytes_be b).bind (fromMontgomery dbg)).map fun xs => (xs, r.2)

end VerifierChannel

end Stark
end OpenZKP
