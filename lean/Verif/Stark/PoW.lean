import Verif.Stark.Channel
import Mathlib.Data.List.Sort

/-!
# Model of `crypto/stark/src/proof_of_work.rs`

`verify` is modelled as is.  The parallel `solve` is a transition system: each of `N` threads runs the loop body of
proof_of_work.rs:86-93 and `fetch_min`, one atomic operation per step, in any interleaving.  The shared `AtomicU64`
is the list of all values ever stored (latest first).  All operations are `Relaxed`: a load, or the value
returned by a failing `compare_exchange_weak`, may be any value stored so far (this allows more than the coherence
rules of the memory model do); a failure may be spurious; a success reads the latest value.
-/

namespace OpenZKP
namespace Stark
open U256

/-- `Challenge` — proof_of_work.rs:18-21 -/
structure Challenge where
  seed : Bytes
  difficulty : Nat

/-- `ChallengeSeed::with_difficulty` — proof_of_work.rs:34-42; `none` is the `unwrap` of a failed `u8::try_from` -/
def with_difficulty (K : Keccak) (seed : Bytes) (difficulty : Nat) : Option Challenge :=
  if difficulty < 256 then
    some ⟨K.hash ([0x01, 0x23, 0x45, 0x67, 0x89, 0xab, 0xcd, 0xed] ++ seed ++ [UInt8.ofNat difficulty]), difficulty⟩
  else none

/-- `Challenge::verify` — proof_of_work.rs:46-57 -/
def Challenge.verify (K : Keccak) (c : Challenge) (nonce : Nat) : Bool :=
  match from_bytes_be (K.hash (c.seed ++ to_be_bytes 8 nonce)) with
  | some x => decide (c.difficulty ≤ leading_zeros x)
  | none => false

/-- `solve` without the standard library — proof_of_work.rs:62-74: the first nonce from `nonce` on, `none` if the
64-bit range ends -/
def solveFrom (valid : Nat → Bool) : Nat → Nat → Option Nat
  | 0, _ => none
  | fuel + 1, nonce => if valid nonce then some nonce else solveFrom valid fuel (nonce + 1)
/-- `solve` without the standard library — proof_of_work.rs:62-74 -/
def solveSequential (valid : Nat → Bool) : Option Nat := solveFrom valid (2 ^ 64) 0

/-- `u64::max_value()` -/
def U64MAX : Nat := 2 ^ 64 - 1

/-- The position of a thread in the code -/
inductive PC where
  /-- about to call `verify` — line 87 -/
  | check (nonce : Nat)
  /-- about to load in `fetch_min` — line 117 -/
  | minLoad (nonce : Nat)
  /-- at the `while` of `fetch_min` with `prev` — line 118 -/
  | minLoop (nonce prev : Nat)
  /-- about to load at line 90 -/
  | test (nonce : Nat)
  /-- left the loop -/
  | done
  /-- overflow of the range in a debug build -/
  | panicked
  deriving DecidableEq

/-- The values stored so far, latest first, and the threads -/
structure PState (N : Nat) where
  hist : List Nat
  pc : Fin N → PC

/-- before the threads start — proof_of_work.rs:84-86: thread `offset` starts with nonce `offset` -/
def PState.init (N : Nat) : PState N := ⟨[U64MAX], fun i => .check i⟩

/-- One step of the thread `i` — proof_of_work.rs:86-93 and `fetch_min`, 115-126 -/
inductive Step (dbg : Bool) (valid : Nat → Bool) {N : Nat} : PState N → PState N → Prop
  | check_valid (s) (i n) : s.pc i = .check n → valid n = true → Step dbg valid s ⟨s.hist, Function.update s.pc i (.minLoad n)⟩
  | check_invalid (s) (i n) : s.pc i = .check n → valid n = false → Step dbg valid s ⟨s.hist, Function.update s.pc i (.test n)⟩
  | load (s) (i n v) : s.pc i = .minLoad n → v ∈ s.hist → Step dbg valid s ⟨s.hist, Function.update s.pc i (.minLoop n v)⟩
  | min_exit (s) (i n prev) : s.pc i = .minLoop n prev → ¬ prev > n →
      Step dbg valid s ⟨s.hist, Function.update s.pc i (.test n)⟩
  | cas_success (s) (i n prev) : s.pc i = .minLoop n prev → prev > n → s.hist.head? = some prev →
      Step dbg valid s ⟨n :: s.hist, Function.update s.pc i (.test n)⟩
  | cas_failure (s) (i n prev v) : s.pc i = .minLoop n prev → prev > n → v ∈ s.hist →
      Step dbg valid s ⟨s.hist, Function.update s.pc i (.minLoop n v)⟩
  | test_break (s) (i n v) : s.pc i = .test n → v ∈ s.hist → n ≥ v →
      Step dbg valid s ⟨s.hist, Function.update s.pc i .done⟩
  | test_next (s) (i n v) : s.pc i = .test n → v ∈ s.hist → ¬ n ≥ v →
      Step dbg valid s ⟨s.hist, Function.update s.pc i
        (if n + N < 2 ^ 64 then .check (n + N) else if dbg then .panicked else .check ((n + N) % 2 ^ 64))⟩

/-- the states reachable from the start -/
inductive Reachable (dbg : Bool) (valid : Nat → Bool) {N : Nat} : PState N → Prop
  | init : Reachable dbg valid (PState.init N)
  | step {s t} : Reachable dbg valid s → Step dbg valid s t → Reachable dbg valid t

/-- the nonce returned by `solve` — proof_of_work.rs:97-99: the latest value -/
def PState.result {N : Nat} (s : PState N) : Option Nat := s.hist.head?

end Stark
end OpenZKP
