import Mathlib.Data.Fintype.Basic
import Mathlib.Data.List.Basic
import Mathlib.Logic.Function.Basic

/-!
# Model of `utils/logging-allocator/src/logging_allocator.rs`

`n` threads run `alloc` and `dealloc` in any interleaving of their atomic operations.  All atomic operations are `Relaxed`: a
read-modify-write acts on the latest value of its location, but a plain load, and a compare-exchange that fails, may return any value the location
ever had (this allows more than the memory model does).  A weak compare-exchange may fail spuriously.  Counters are `usize` of 64 bits.

Simplifications: a block is represented by its size, since the statistics do not depend on addresses; the log messages (lines 76-105; see SizeBytes.lean)
have no effect on the counters, and the allocations they make are calls of the same thread before the step `System.alloc`.  `realloc` and
`alloc_zeroed` are the defaults of `GlobalAlloc`, which call `alloc` and `dealloc`.
-/

namespace OpenZKP
namespace Utils

/-- `usize::MAX + 1` -/
def usizeModulus : Nat := 2 ^ 64

/-- where a thread is, with the local variables it holds -/
inductive PC
  /-- not inside the allocator -/
  | idle
  /-- `System.alloc` has succeeded; next is `allocated.fetch_add` — line 110 -/
  | countAllocated (size : Nat)
  /-- next is `total_allocated.fetch_add` — line 111 -/
  | countTotal (size allocated : Nat)
  /-- next is `num_allocations.fetch_add` — line 112 -/
  | countNum (size allocated : Nat)
  /-- next is the load of `fetch_max(peak_allocated, allocated)` — lines 114, 130 -/
  | peakLoad (size allocated : Nat)
  /-- at the head of the loop of that `fetch_max`, holding `prev` — line 131 -/
  | peakLoop (size allocated prev : Nat)
  /-- next is the load of `fetch_max(largest_allocated, size)` — lines 115, 130 -/
  | largestLoad (size : Nat)
  /-- at the head of the loop of that `fetch_max`, holding `prev` — line 131 -/
  | largestLoop (size prev : Nat)
  /-- `System.dealloc` has been called; next is `allocated.fetch_sub` — line 122 -/
  | countFree (size : Nat)
  deriving DecidableEq

/-- `LoggingAllocator` — logging_allocator.rs:11-21 — with the threads using it, and the heap.
`peak_allocated` and `largest_allocated` are lists of all values they had, the latest first. -/
structure Allocator (n : Nat) where
  reject : Nat
  allocated : Nat
  peak_allocated : List Nat
  total_allocated : Nat
  largest_allocated : List Nat
  num_allocations : Nat
  threads : Fin n → PC
  /-- blocks returned to a caller and not given back -/
  owned : List Nat

/-- what happens next -/
inductive Action
  /-- an idle thread calls `alloc`; `ok` tells whether the system has memory -/
  | alloc (size : Nat) (ok : Bool)
  /-- an idle thread calls `dealloc` on a block of this size -/
  | dealloc (size : Nat)
  /-- a thread inside the allocator does its next atomic operation; if it is a load, or a compare-exchange that fails, it returns the value
  `age` updates ago; `fails` makes a compare-exchange fail spuriously -/
  | advance (age : Nat) (fails : Bool)
  deriving DecidableEq

namespace Allocator
variable {n : Nat}

/-- `LoggingAllocator::new` — logging_allocator.rs:27-39 -/
def new (n : Nat) : Allocator n where
  reject := 1000000000000
  allocated := 0
  peak_allocated := [0]
  total_allocated := 0
  largest_allocated := [0]
  num_allocations := 0
  threads := fun _ => .idle
  owned := []

/-- the thread `i` goes on to `pc` -/
def goto (s : Allocator n) (i : Fin n) (pc : PC) : Allocator n := { s with threads := Function.update s.threads i pc }

/-- `AtomicUsize::fetch_add` -/
def fetch_add (counter amount : Nat) : Nat := (counter + amount) % usizeModulus

/-- `AtomicUsize::fetch_sub` -/
def fetch_sub (counter amount : Nat) : Nat := (counter + (usizeModulus - amount % usizeModulus)) % usizeModulus

/-- one turn of the loop in `fetch_max` — logging_allocator.rs:131-136: either the loop is done (with the location's new history), or it
continues with another `prev` -/
def fetchMaxTurn (history : List Nat) (value prev age : Nat) (fails : Bool) : Option (List Nat ⊕ Nat) :=
  if prev < value then
    if fails = false ∧ history.head? = some prev then some (.inl (value :: history))
    else (history[age]?).map .inr
  else some (.inl history)

/-- one atomic operation of thread `i`; `none` if the action is not possible — `alloc`: logging_allocator.rs:75-118, `dealloc`: 120-123 -/
def step (s : Allocator n) (i : Fin n) : Action → Option (Allocator n)
  | .alloc size ok =>
    match s.threads i with
    | .idle =>
      if size < s.reject then
        if ok then some (s.goto i (.countAllocated size)) else some s
      else some s
    | _ => none
  | .dealloc size =>
    match s.threads i with
    | .idle =>
      if size ∈ s.owned then some { s.goto i (.countFree size) with owned := s.owned.erase size } else none
    | _ => none
  | .advance age fails =>
    match s.threads i with
    | .idle => none
    | .countAllocated size =>
      some { s.goto i (.countTotal size s.allocated) with allocated := fetch_add s.allocated size }
    | .countTotal size allocated => some { s.goto i (.countNum size allocated) with total_allocated := fetch_add s.total_allocated size }
    | .countNum size allocated => some { s.goto i (.peakLoad size allocated) with num_allocations := fetch_add s.num_allocations 1 }
    | .peakLoad size allocated => (s.peak_allocated[age]?).map fun prev => s.goto i (.peakLoop size allocated prev)
    | .peakLoop size allocated prev =>
      (fetchMaxTurn s.peak_allocated allocated prev age fails).map fun
        | .inl history => { s.goto i (.largestLoad size) with peak_allocated := history }
        | .inr next => s.goto i (.peakLoop size allocated next)
    | .largestLoad size => (s.largest_allocated[age]?).map fun prev => s.goto i (.largestLoop size prev)
    | .largestLoop size prev =>
      (fetchMaxTurn s.largest_allocated size prev age fails).map fun
        | .inl history => { s.goto i .idle with largest_allocated := history, owned := size :: s.owned }
        | .inr next => s.goto i (.largestLoop size next)
    | .countFree size => some { s.goto i .idle with allocated := fetch_sub s.allocated size }

/-- a whole schedule -/
def run (s : Allocator n) : List (Fin n × Action) → Option (Allocator n)
  | [] => some s
  | (i, a) :: rest => (s.step i a).bind fun s' => run s' rest

end Allocator
end Utils
end OpenZKP
