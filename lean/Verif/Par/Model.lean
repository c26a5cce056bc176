/-!
# Parallel loops (model)

Models what the code uses of `rayon`: `par_chunks_mut(..).for_each`, `par_iter_mut().for_each` and their `enumerate`/`zip` forms
(`/repo/algebra/primefield/src/fft/{mod,radix_sqrt}.rs`, `/repo/crypto/merkle-tree/src/tree.rs`, `/repo/crypto/stark/src/prover.rs`).

The body of such a loop is a *task*: a program that reads and writes cells of the memory one at a time.  A state is a memory and what is left
of every task.  A *schedule* is any sequence of task numbers; each entry lets that task do its next access.  Every way in which a pool of
threads can run the tasks, whatever their number and however they steal work, is such a sequence.  Accesses are atomic and seen by all tasks at
once (sequential consistency): the theorems show that no two tasks touch the same cell with one of them writing, and for such programs that is what
the memory model of Rust guarantees.
-/

namespace OpenZKP.Par

/-- a program that accesses cells with addresses in `A` holding values in `α` and ends with a result in `β` or panics; for example
`*hash = Node(&previous[i << 1], ..).hash()` — tree.rs:113 — is two reads followed by a write -/
inductive Prog (A α β : Type) where
  | pure (b : β)
  | panic
  | read (a : A) (k : α → Prog A α β)
  | write (a : A) (x : α) (k : Prog A α β)

variable {A α β γ ι : Type}

namespace Prog

/-- one program after another: `;` of Rust (no line of its own) -/
def bind : Prog A α β → (β → Prog A α γ) → Prog A α γ
  | .pure b, f => f b
  | .panic, _ => .panic
  | .read a k, f => .read a fun x => (k x).bind f
  | .write a x k, f => .write a x (k.bind f)

instance : Monad (Prog A α) where
  pure := .pure
  bind := bind

/-- the program that panics if a computation without memory accesses does: `.unwrap()` -/
def ofOption : Option β → Prog A α β
  | some b => .pure b
  | none => .panic

/-- `slice[j]` for a slice of `len` elements whose element `j` is at `addr j` -/
def get (addr : Nat → A) (len j : Nat) : Prog A α α := if j < len then .read (addr j) .pure else .panic

/-- `slice[j] = x` -/
def set (addr : Nat → A) (len j : Nat) (x : α) : Prog A α Unit := if j < len then .write (addr j) x (.pure ()) else .panic

/-- `for i in l { body(i) }` with a local variable carried along -/
def loop (body : β → ι → Prog A α β) : List ι → β → Prog A α β
  | [], b => .pure b
  | i :: l, b => (body b i).bind (loop body l)

/-- the program run alone: its result and the memory it leaves; `none` is a panic -/
def run [DecidableEq A] : Prog A α β → (A → α) → Option (β × (A → α))
  | .pure b, m => some (b, m)
  | .panic, _ => none
  | .read a k, m => run (k (m a)) m
  | .write a x k, m => run k fun a' => if a' = a then x else m a'

end Prog

/-- the memory and what is left of the tasks -/
structure State (A α : Type) where
  mem : A → α
  tasks : Nat → Prog A α Unit

/-- task `i` replaced -/
def setTask (tasks : Nat → Prog A α Unit) (i : Nat) (p : Prog A α Unit) : Nat → Prog A α Unit := fun k => if k = i then p else tasks k

/-- task `i` does its next access; a task that ended or panicked does nothing -/
def step [DecidableEq A] (s : State A α) (i : Nat) : State A α :=
  match s.tasks i with
  | .pure _ => s
  | .panic => s
  | .read a k => ⟨s.mem, setTask s.tasks i (k (s.mem a))⟩
  | .write a x k => ⟨fun a' => if a' = a then x else s.mem a', setTask s.tasks i k⟩

/-- the state after a schedule -/
def exec [DecidableEq A] (schedule : List Nat) (s : State A α) : State A α := schedule.foldl step s

/-- the tasks of `for_each` over `n` items -/
def forEach (n : Nat) (body : Nat → Prog A α Unit) : Nat → Prog A α Unit := fun i => if i < n then body i else .pure ()

/-- every task has ended: `for_each` returns -/
def Finished (s : State A α) : Prop := ∀ i, s.tasks i = .pure ()

/-- **Every execution of the parallel loop ends in the same memory.**  From memory `m`: no task ever panics; once every task has had a certain
number of turns the loop has ended, in whatever order the turns came; and whenever it has ended, the memory is `m'`. -/
def Always [DecidableEq A] (n : Nat) (body : Nat → Prog A α Unit) (m m' : A → α) : Prop :=
  (∀ schedule i, (exec schedule ⟨m, forEach n body⟩).tasks i ≠ .panic) ∧
  (∃ turns, ∀ schedule : List Nat, (∀ i < n, turns ≤ schedule.count i) → Finished (exec schedule ⟨m, forEach n body⟩)) ∧
  (∀ schedule, Finished (exec schedule ⟨m, forEach n body⟩) → (exec schedule ⟨m, forEach n body⟩).mem = m')

/-- number of chunks of `par_chunks_mut(size)` on a slice of `len` elements -/
def numChunks (len size : Nat) : Nat := (len + size - 1) / size

/-- length of chunk `i` -/
def chunkLen (len size i : Nat) : Nat := min size (len - i * size)

end OpenZKP.Par
