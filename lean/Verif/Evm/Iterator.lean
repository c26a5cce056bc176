import Verif.Evm.PrimeField

/-!
# Model of the contract library `Iterators` (crypto/stark-verifier-ethereum/contracts/iterator.sol)

Iterators and arrays live in memory and are used through references, so a call changes what every holder of the reference sees.  A reference is the place in the list of the iterators
or of the arrays of the memory.  `none` is a revert.  Not modelled: the addresses, and gas.
-/

namespace OpenZKP
namespace Evm
namespace Iterators

/-- `IteratorUint` — iterator.sol:9-12; the array is given by its reference -/
structure IteratorUint where
  index : Nat
  data_pointer : Nat
deriving DecidableEq

/-- the iterators and the arrays in memory -/
structure Memory where
  iterators : List IteratorUint
  arrays : List (List Nat)
deriving DecidableEq

/-- `init_iterator` — iterator.sol:16-19: the new iterator is the last in the list; the reference of an array always leads to one -/
def init_iterator (m : Memory) (data : Nat) : Option Memory :=
  m.arrays[data]?.map fun _ => { m with iterators := m.iterators ++ [⟨0, data⟩] }

/-- `next` — iterator.sol:22-25: the access is checked, the sum wraps -/
def next (m : Memory) (iterator : Nat) : Option (Nat × Memory) :=
  m.iterators[iterator]?.bind fun it =>
  m.arrays[it.data_pointer]?.bind fun data =>
  data[it.index]?.map fun result =>
  (result, { m with iterators := m.iterators.set iterator { it with index := wadd it.index 1 } })

/-- `has_next` — iterator.sol:28-30 -/
def has_next (m : Memory) (iterator : Nat) : Option Bool :=
  m.iterators[iterator]?.bind fun it =>
  m.arrays[it.data_pointer]?.map fun data => decide (it.index < data.length)

/-- what a contract that uses the library does with the memory: the three functions, and `data[place] = value` -/
inductive Call where
  | init (data : Nat)
  | next (iterator : Nat)
  | has_next (iterator : Nat)
  | store (data place value : Nat)
deriving DecidableEq

/-- what it gets back -/
inductive Answer where
  | none
  | value (v : Nat)
  | bool (b : Bool)
deriving DecidableEq

/-- one call; an assignment is checked as an access is -/
def step (m : Memory) : Call → Option (Answer × Memory)
  | .init data => (init_iterator m data).map fun m => (.none, m)
  | .next i => (next m i).map fun r => (.value r.1, r.2)
  | .has_next i => (has_next m i).map fun b => (.bool b, m)
  | .store data place value =>
    m.arrays[data]?.bind fun l => if place < l.length then some (.none, { m with arrays := m.arrays.set data (l.set place value) }) else none

/-- calls one after the other; a revert ends the transaction -/
def run (m : Memory) : List Call → Option (List Answer × Memory)
  | [] => some ([], m)
  | c :: l => (step m c).bind fun r => (run r.2 l).map fun rs => (r.1 :: rs.1, rs.2)

/-- the use the library is made for (iterator.sol:5-7), `while (it.has_next()) { out.push(it.next()); }`, with gas for at most `gas` rounds -/
def drain : Nat → Memory → Nat → Option (List Nat × Memory)
  | 0, _, _ => none
  | gas + 1, m, i =>
    (has_next m i).bind fun b =>
    if b = true then (next m i).bind fun r => (drain gas r.2 i).map fun rs => (r.1 :: rs.1, rs.2) else some ([], m)

end Iterators
end Evm
end OpenZKP
