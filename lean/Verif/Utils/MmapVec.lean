import Mathlib.Data.List.Basic

/-!
# Model of `utils/mmap-vec/src/mmap_vec.rs`

The mapped memory is a list of `capacity` slots; `none` is memory nothing has been written to, which holds zero bits.  `drops` is the
list of the values whose destructor has run so far.  `none` as a result is a panic.  The size of an element and the byte size of the mapping
are not modelled.
-/

namespace OpenZKP
namespace Utils

/-- `MmapVec` — mmap_vec.rs:25-30 -/
structure MmapVec (T : Type) where
  slots : List (Option T)
  length : Nat
  capacity : Nat
  drops : List T
  deriving DecidableEq

namespace MmapVec
variable {T : Type}

/-- `with_capacity` — mmap_vec.rs:34-49 -/
def with_capacity (capacity : Nat) : MmapVec T := ⟨List.replicate capacity none, 0, capacity, []⟩

/-- `zero_initialized` — mmap_vec.rs:59-63 -/
def zero_initialized (len : Nat) : MmapVec T := { with_capacity len with length := len }

/-- `is_empty` — mmap_vec.rs:66-68 -/
def is_empty (v : MmapVec T) : Bool := decide (v.length = 0)

/-- `len` — mmap_vec.rs:71-73 -/
def len (v : MmapVec T) : Nat := v.length

/-- `deref` — mmap_vec.rs:182-184; `zero` is the value whose bits are zero -/
def as_slice (zero : T) (v : MmapVec T) : List T := (v.slots.take v.length).map fun s => s.getD zero

/-- an indexed read through `deref` -/
def get (zero : T) (v : MmapVec T) (i : Nat) : Option T := (as_slice zero v)[i]?

/-- an indexed assignment through `deref_mut` — mmap_vec.rs:189-191: the old value is dropped -/
def set (v : MmapVec T) (i : Nat) (x : T) : Option (MmapVec T) :=
  if i < v.length then
    match v.slots[i]? with
    | some old => some { v with slots := v.slots.set i (some x), drops := v.drops ++ old.toList }
    | none => none
  else none

/-- `push` — mmap_vec.rs:75-82 -/
def push (v : MmapVec T) (next : T) : Option (MmapVec T) :=
  if v.length = v.capacity then none
  else
    let «end» := v.length
    let v := { v with length := v.length + 1 }
    v.set «end» next

/-- `truncate` — mmap_vec.rs:88-106: runs the destructors of the tail; the bits stay where they are -/
def truncate (v : MmapVec T) (length : Nat) : MmapVec T :=
  if length ≥ v.length then v
  else { v with length := length, drops := v.drops ++ ((v.slots.take v.length).drop length).flatMap Option.toList }

/-- `clear` — mmap_vec.rs:84-86 -/
def clear (v : MmapVec T) : MmapVec T := v.truncate 0

/-- `n` times `push` -/
def pushMany : MmapVec T → List T → Option (MmapVec T)
  | v, [] => some v
  | v, x :: xs => (v.push x).bind fun v => pushMany v xs

/-- `resize` — mmap_vec.rs:108-116: the loop pushes until the length is `size` -/
def resize (v : MmapVec T) (size : Nat) (fill : T) : Option (MmapVec T) :=
  if size > v.capacity then none
  else (v.pushMany (List.replicate (size - v.length) fill)).map fun v => { v with length := size }

/-- assign the values to the slots from `start` on, dropping what was there (`clone_from_slice`, core library) -/
def assignFrom : MmapVec T → Nat → List T → Option (MmapVec T)
  | v, _, [] => some v
  | v, start, x :: xs => (v.set start x).bind fun v => assignFrom v (start + 1) xs

/-- `extend_from_slice` — mmap_vec.rs:118-125 -/
def extend_from_slice (v : MmapVec T) (slice : List T) : Option (MmapVec T) :=
  if v.length + slice.length > v.capacity then none
  else
    let start := v.length
    let v := { v with length := v.length + slice.length }
    v.assignFrom start slice

/-- `Extend::extend`, by value and by reference — mmap_vec.rs:157-174 -/
def extend (v : MmapVec T) (xs : List T) : Option (MmapVec T) := v.pushMany xs

/-- `clone` — mmap_vec.rs:149-155 -/
def clone (zero : T) (v : MmapVec T) : Option (MmapVec T) := (with_capacity v.capacity).extend (v.as_slice zero)

/-- `eq` — mmap_vec.rs:140-147 -/
def eq [DecidableEq T] (zero : T) (v w : MmapVec T) : Bool :=
  if v.length ≠ w.length then false
  else ((v.as_slice zero).zip (w.as_slice zero)).all fun p => decide (p.1 = p.2)

end MmapVec
end Utils
end OpenZKP
