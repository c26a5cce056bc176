import Verif.Evm.PrimeField

/-!
# Model of the contract library `Utils` (crypto/stark-verifier-ethereum/contracts/utils.sol)
-/

namespace OpenZKP
namespace Evm
namespace Utils

/-- the loop of `bit_reverse` — utils.sol:8-11 -/
def bitReverseLoop : Nat → Nat → Nat → Nat
  | 0, _, r => r
  | k + 1, n, r => bitReverseLoop k (n / 2) (wmul r 2 ||| (n % 2))

/-- `bit_reverse` — utils.sol:5-13 -/
def bit_reverse (num number_of_bits : Nat) : Nat := bitReverseLoop number_of_bits num 0

/-- the reversal of a byte by a multiplication and a remainder — utils.sol:20 -/
def reverseByte (b : Nat) : Nat := (wmul b 0x0202020202 &&& 0x010884422010) % 1023

/-- `bit_reverse2` — utils.sol:16-36 -/
def bit_reverse2 (num number_of_bits : Nat) : Nat :=
  let result := reverseByte (num &&& 0xff)
  let result := wshl result 8
  let num := wshr num 8
  let result := result ||| reverseByte (num &&& 0xff)
  let result := wshl result 8
  let num := wshr num 8
  let result := result ||| reverseByte (num &&& 0xff)
  let result := wshl result 8
  let num := wshr num 8
  let result := result ||| reverseByte (num &&& 0xff)
  let result := wshl result 8
  let num := wshr num 8
  let result := result ||| reverseByte num
  wshr result (wsub 40 number_of_bits)

/-- one `if` of `num_bits`: shift by `s` if the number has more than `s` bits -/
def numBitsStep (s : Nat) (st : Nat × Nat) : Nat × Nat := if 2 ^ s ≤ st.2 then (st.1 + s, st.2 / 2 ^ s) else st

/-- `num_bits` — utils.sol:38-64; the arithmetic of `uint8` is modulo 256 -/
def num_bits (data : Nat) : Nat :=
  let st := numBitsStep 32 (0, data)
  let st := numBitsStep 16 st
  let st := numBitsStep 8 st
  let st := numBitsStep 4 st
  let st := numBitsStep 2 st
  let st := numBitsStep 1 st
  (st.1 + st.2 % 256 + 255) % 256

/-- the inner loop of `sort` — utils.sol:84-87: the element at `j` moves towards the front; the list is the part before it, last element first -/
def sortInsert (x : Nat) : List Nat → List Nat
  | [] => [x]
  | y :: before => if x < y then y :: sortInsert x before else x :: y :: before

/-- `sort` — utils.sol:81-89: the sorted part is kept with its last element first -/
def sort (data : List Nat) : List Nat := (data.foldl (fun sorted x => sortInsert x sorted) []).reverse

/-- `truncate` — utils.sol:99-121 -/
def truncate {α : Type} (data : List α) (to_len : Nat) : Option (List α) := if to_len ≤ data.length then some (data.take to_len) else none

/-- `deep_copy` — utils.sol:66-76: out of range reverts -/
def deep_copy {α : Type} (a b : List α) : Option (List α) := if a.length ≤ b.length then some (a ++ b.drop a.length) else none

end Utils
end Evm
end OpenZKP
