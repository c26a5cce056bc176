import Verif.Evm.Coin

/-!
# Model of the contract `MerkleVerifier` (crypto/stark-verifier-ethereum/contracts/merkle.sol)

The assembly keeps nodes in a ring buffer over the two arrays `indices` and `leaves`.  They have the same length and are always read and written at the same
positions, so the model keeps one array of pairs; positions count elements instead of bytes.  The 64 bytes of scratch space are two hashes `s0` and `s1`, with
arbitrary contents at the start.  The decommitment is read without a check of its length: `dec` is the memory from its first element on.  `none` is a revert,
in the loop for lack of gas.  Not modelled: that `leaves` and `indices` are overwritten (the callers do not read them again).
-/

namespace OpenZKP
namespace Evm
namespace MerkleVerifier
open Stark

variable (K : Keccak)

/-- `HASH_MASK` — merkle.sol:7 — applied to a hash: the last twelve bytes are cleared -/
def mask (b : Bytes) : Bytes := b.take 20 ++ List.replicate 12 0

/-- the loop — merkle.sol:44-83 -/
def merkleLoop (root : Bytes) (dec : Nat → Bytes) : Nat → List (Nat × Bytes) → Nat → Nat → Nat → Bytes → Bytes → Option Bool
  | 0, _, _, _, _, _, _ => none
  | gas + 1, ring, read, write, d, s0, s1 =>
    match ring[read]? with
    | none => none
    | some (index, leaf) =>
      let s0 := if index % 2 = 0 then leaf else s0
      let s1 := if index % 2 = 0 then s1 else leaf
      let read := (read + 1) % ring.length
      if index = 1 then some (decide (s1 = root))
      else
        match ring[read]? with
        | none => none
        | some (next, next_leaf) =>
          if index ||| 1 = next then
            let s1 := next_leaf
            let read := (read + 1) % ring.length
            merkleLoop root dec gas (ring.set write (index / 2, mask (K.hash (s0 ++ s1)))) read ((write + 1) % ring.length) d s0 s1
          else
            let s0' := if index % 2 = 0 then s0 else dec d
            let s1' := if index % 2 = 0 then dec d else s1
            merkleLoop root dec gas (ring.set write (index / 2, mask (K.hash (s0' ++ s1')))) read ((write + 1) % ring.length) (d + 1) s0' s1'

/-- the memory from the first element of an array on -/
def behind (l : List Bytes) (beyond : Nat → Bytes) (i : Nat) : Bytes := l.getD i (beyond i)

/-- `verify_merkle_proof` — merkle.sol:13-86; `beyond` is the memory behind the decommitment, `s0` and `s1` are the scratch space -/
def verify_merkle_proof (gas : Nat) (beyond : Nat → Bytes) (s0 s1 : Bytes) (root : Bytes) (leaves : List Bytes) (indices : List Nat) (decommitment : List Bytes) :
    Option Bool :=
  if leaves.length ≠ indices.length then none
  else if leaves.length = 0 then none
  else merkleLoop K root (behind decommitment beyond) gas (indices.zip leaves) 0 0 0 s0 s1

/-- `merkle_leaf_hash` — merkle.sol:88-102 -/
def merkle_leaf_hash : List Nat → Bytes
  | [x] => bytes32 x
  | xs => mask (K.hash (xs.flatMap bytes32))

end MerkleVerifier
end Evm
end OpenZKP
