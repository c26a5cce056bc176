import Verif.Evm.PrimeField
import Verif.Evm.Utils
import Verif.Stark.Channel
import Verif.U256.Spec

/-!
# Model of the contract libraries `PublicCoin`, `ProofOfWork` and of `get_queries`
(crypto/stark-verifier-ethereum/contracts/public_coin.sol, proof_of_work.sol, fri.sol)

A `bytes32` is a list of 32 bytes, a `uint256` a natural number below `2^256`, and `bytes32(x)`, `uint256(b)` convert between them, big endian.
`keccak256` is an arbitrary function with results of 32 bytes.  A `Coin memory` argument is returned.  `none` is a revert, here only for lack of gas: the loops
without a bound of their own take the number of iterations the gas allows as an argument.
-/

namespace OpenZKP
namespace Evm
open Stark

/-- `bytes32(x)` -/
def bytes32 (x : Nat) : Bytes := to_be_bytes 32 x
/-- `uint256(b)` -/
def uint256 (b : Bytes) : Nat := beValue b

/-- `Coin` — public_coin.sol:7-10: a digest and a `uint64` counter -/
abbrev Coin := Stark.PublicCoin

namespace PublicCoin
variable (K : Keccak)

/-- `publicCoinHash` — public_coin.sol:95-97 -/
def publicCoinHash (a b : Bytes) : Bytes := K.hash (a ++ b)
/-- `publicCoinHasher` — public_coin.sol:99-101 -/
def publicCoinHasher (data : Bytes) : Bytes := K.hash data

/-- `write_bytes32` — public_coin.sol:14-18 -/
def write_bytes32 (coin : Coin) (data : Bytes) : Coin := ⟨publicCoinHash K coin.digest data, 0⟩
/-- `write_many_bytes32` — public_coin.sol:21-25 -/
def write_many_bytes32 (coin : Coin) (data : List Bytes) : Coin := data.foldl (write_bytes32 K) coin
/-- `write_many_field_elements` — public_coin.sol:27-32 -/
def write_many_field_elements (coin : Coin) (data : List Nat) : Coin := data.foldl (fun coin x => write_bytes32 K coin (bytes32 x)) coin
/-- `write_bytes8` — public_coin.sol:35-39: the argument is the number of the eight bytes, big endian -/
def write_bytes8 (coin : Coin) (x : Nat) : Coin := ⟨publicCoinHasher K (coin.digest ++ to_be_bytes 8 x), 0⟩
/-- `write_layer` — public_coin.sol:42-47: packed encoding pads the elements of an array to 32 bytes -/
def write_layer (coin : Coin) (data : List Nat) : Coin := ⟨publicCoinHasher K (coin.digest ++ data.flatMap bytes32), 0⟩

/-- `read_bytes32` — public_coin.sol:51-55: the counter wraps -/
def read_bytes32 (coin : Coin) : Bytes × Coin := (publicCoinHash K coin.digest (bytes32 coin.counter), ⟨coin.digest, (coin.counter + 1) % 2 ^ 64⟩)

/-- `read_field_element` — public_coin.sol:57-65 -/
def read_field_element : Nat → Coin → Option (Nat × Coin)
  | 0, _ => none
  | gas + 1, coin =>
    let r := read_bytes32 K coin
    let result := uint256 r.1 &&& PrimeField.MODULUS_MASK
    if PrimeField.MODULUS ≤ result then read_field_element gas r.2 else some (result, r.2)

/-- `read_many_field_elements` — public_coin.sol:67-73 -/
def read_many_field_elements (gas : Nat) : Nat → Coin → Option (List Nat × Coin)
  | 0, coin => some ([], coin)
  | n + 1, coin => (read_field_element K gas coin).bind fun r => (read_many_field_elements gas n r.2).map fun rs => (r.1 :: rs.1, rs.2)

/-- the reads of `read_many_bytes32` — public_coin.sol:78-80 -/
def readBytesLoop : Nat → Coin → List Bytes × Coin
  | 0, coin => ([], coin)
  | n + 1, coin =>
    let r := read_bytes32 K coin
    let rs := readBytesLoop n r.2
    (r.1 :: rs.1, rs.2)

/-- `read_many_bytes32` — public_coin.sol:76-81: there is no `return`, so the result is the empty array -/
def read_many_bytes32 (n : Nat) (coin : Coin) : List Bytes × Coin := ([], (readBytesLoop K n coin).2)

/-- `init_coin` — public_coin.sol:84-89 -/
def init_coin (data : Bytes) : Coin := ⟨publicCoinHasher K data, 0⟩

end PublicCoin

variable (K : Keccak)

/-- `check_proof_of_work` — proof_of_work.sol:11-21 -/
def check_proof_of_work (coin : Coin) (pow_nonce pow_bits : Nat) : Bool × Coin :=
  let seed := K.hash ([0x01, 0x23, 0x45, 0x67, 0x89, 0xab, 0xcd, 0xed] ++ coin.digest ++ [UInt8.ofNat pow_bits])
  let response := K.hash (seed ++ to_be_bytes 8 pow_nonce)
  let coin := PublicCoin.write_bytes8 K coin pow_nonce
  let treshold := wshr (W - 1) pow_bits
  (decide (uint256 response ≤ treshold), coin)

/-- the body of the inner loop of `get_queries` — fri.sol:67-75: the state is the random word and the array -/
def queryStep (num_queries bit_mask i : Nat) (st : Nat × List Nat) (j : Nat) : Nat × List Nat :=
  if 4 * i + j < num_queries then (wshl st.1 64, st.2.set (4 * i + j) (st.1 / 2 ^ 192 &&& bit_mask)) else st

/-- the body of the outer loop of `get_queries` — fri.sol:65-76 -/
def queryBlock (num_queries bit_mask : Nat) (st : List Nat × Coin) (i : Nat) : List Nat × Coin :=
  let r := PublicCoin.read_bytes32 K st.2
  (((List.range 4).foldl (queryStep num_queries bit_mask i) (uint256 r.1, st.1)).2, r.2)

/-- `get_queries` — fri.sol:55-79 -/
def get_queries (coin : Coin) (max_bit_length num_queries : Nat) : List Nat × Coin :=
  let bit_mask := wsub (wexp 2 max_bit_length) 1
  let r := (List.range (num_queries / 4 + 1)).foldl (queryBlock K num_queries bit_mask) (List.replicate num_queries 0, coin)
  (Utils.sort r.1, r.2)

end Evm
end OpenZKP
