import Mathlib.Data.List.Sort
import Mathlib.Data.Nat.Bitwise

/-!
# Model of `crypto/merkle-tree`

`usize` has 64 bits.  Machine words are natural numbers; where the code can leave the range of a word the
model says what happens (a shift loses the high bits, an addition or subtraction out of range is a panic).
Errors are values of `Error`; `Error.Panic` stands for a panic (debug assertion, failed `assert!`, out-of-range
access, arithmetic overflow).
The node hash (`Node(a, b).hash()`, node.rs:7-14, masked Keccak) is a parameter `H`, the hash type a type `α`.
-/

namespace OpenZKP
namespace Merkle

/-- result.rs:7-15, with a constructor for panics -/
inductive Error where
  | TreeToLarge | NumLeavesNotPowerOfTwo | IndexOutOfRange | DuplicateLeafMismatch | NotEnoughHashes
  | RootHashMismatch | Panic
  deriving DecidableEq, Repr

/-- `usize::is_power_of_two` (core library) -/
def isPow2 (s : Nat) : Bool := 2 ^ Nat.log2 s == s

/-- `usize::leading_zeros` (core library) -/
def leading_zeros (n : Nat) : Nat := if n = 0 then 64 else 63 - Nat.log2 n

/-- `usize::trailing_zeros` (core library), with the number of bits still to look at -/
def tzLoop : Nat → Nat → Nat
  | 0, _ => 0
  | k + 1, n => if n % 2 = 1 then 0 else 1 + tzLoop k (n / 2)
/-- `usize::trailing_zeros` (core library) -/
def trailing_zeros (n : Nat) : Nat := tzLoop 64 n

/-- `usize::next_power_of_two` (core library) -/
def next_power_of_two (n : Nat) : Nat := if n ≤ 1 then 1 else 2 ^ (Nat.log2 (n - 1) + 1)

/-! ## index.rs: an `Index` is the number `1 << depth | offset` -/
namespace Index

/-- `max_size` — index.rs:46-48 -/
def max_size : Nat := 2 ^ 63
/-- `size_at_depth` — index.rs:50-54 (the shift is only defined for `depth < 64`) -/
def size_at_depth (depth : Nat) : Nat := 2 ^ depth
/-- `depth_for_size` — index.rs:56-59 -/
def depth_for_size (size : Nat) : Nat := trailing_zeros (next_power_of_two size)
/-- `root` — index.rs:61-63 -/
def root : Nat := 1
/-- `from_size_offset` — index.rs:84-89; `require!` returns the error -/
def from_size_offset (size offset : Nat) : Except Error Nat :=
  if isPow2 size = false then .error .NumLeavesNotPowerOfTwo
  else if ¬ size ≤ max_size then .error .TreeToLarge
  else if ¬ offset < size then .error .IndexOutOfRange
  else .ok (size ||| offset)
/-- `from_depth_offset` — index.rs:91-93 -/
def from_depth_offset (depth offset : Nat) : Except Error Nat := from_size_offset (size_at_depth depth) offset
/-- `as_index` — index.rs:95-97 -/
def as_index (i : Nat) : Nat := i - 1
/-- `depth` — index.rs:99-101 -/
def depth (i : Nat) : Nat := 64 - leading_zeros i - 1
/-- `offset` — index.rs:103-105 -/
def offset (i : Nat) : Nat := i - 2 ^ depth i
/-- `is_root` — index.rs:107-109 -/
def is_root (i : Nat) : Bool := i == 1
/-- `is_left` — index.rs:111-113 -/
def is_left (i : Nat) : Bool := i % 2 == 0
/-- `is_right` — index.rs:115-117 -/
def is_right (i : Nat) : Bool := i != 1 && i % 2 == 1
/-- `is_left_most` — index.rs:119-121 -/
def is_left_most (i : Nat) : Bool := isPow2 i
/-- `is_right_most` — index.rs:123-125; the addition overflows (`none`, a panic) for the largest word -/
def is_right_most (i : Nat) : Option Bool := if i + 1 < 2 ^ 64 then some (isPow2 (i + 1)) else none
/-- `parent` — index.rs:127-133 -/
def parent (i : Nat) : Option Nat := if is_root i then none else some (i / 2)
/-- `sibling` — index.rs:135-141 -/
def sibling (i : Nat) : Option Nat := if is_root i then none else some (i ^^^ 1)
/-- `left_neighbor` — index.rs:143-149 -/
def left_neighbor (i : Nat) : Option Nat := if is_left_most i then none else some (i - 1)
/-- `right_neighbor` — index.rs:151-157; the outer `none` is a panic -/
def right_neighbor (i : Nat) : Option (Option Nat) :=
  (is_right_most i).map fun b => if b then none else some (i + 1)
/-- `left_child` — index.rs:159-161; the shift drops the top bit -/
def left_child (i : Nat) : Nat := i * 2 % 2 ^ 64
/-- `right_child` — index.rs:163-165 -/
def right_child (i : Nat) : Nat := (i * 2 % 2 ^ 64) ||| 1
/-- `last_common_ancestor` — index.rs:167-176 -/
def last_common_ancestor (i j : Nat) : Nat :=
  let a := i * 2 ^ leading_zeros i % 2 ^ 64
  let b := j * 2 ^ leading_zeros j % 2 ^ 64
  let prefix_length := leading_zeros (a ^^^ b)
  a / 2 ^ (64 - prefix_length)

end Index

/-! ## commitment.rs -/

/-- `Commitment` — commitment.rs:12-17 -/
structure Commitment (α : Type) where
  size : Nat
  hash : α

/-- `Commitment::from_size_hash` — commitment.rs:20-29 -/
def from_size_hash {α : Type} (size : Nat) (hash : α) : Except Error (Commitment α) :=
  if size = 0 ∨ isPow2 size = true then .ok ⟨size, hash⟩ else .error .NumLeavesNotPowerOfTwo

/-- `Vec::dedup_by_key` (standard library): of each run of equal keys keep the first; here after a given
element -/
def dedupAfter {β : Type} (key : β → Nat) (last : β) : List β → List β
  | [] => []
  | x :: xs => if key x = key last then dedupAfter key last xs else x :: dedupAfter key x xs
/-- `Vec::dedup_by_key` (standard library) -/
def dedupBy {β : Type} (key : β → Nat) : List β → List β
  | [] => []
  | x :: xs => x :: dedupAfter key x xs

/-- `sort_indices` — commitment.rs:41-49; sorting (standard library) is modelled by insertion sort -/
def sort_indices {α : Type} (c : Commitment α) (indices : List Nat) : Except Error (List Nat) :=
  (indices.mapM fun i => Index.from_size_offset c.size i).map fun is =>
    dedupBy id (is.insertionSort (· ≤ ·))

/-- the loop of `proof_size` — commitment.rs:60-63: subtract for each adjacent pair -/
def proofSizeLoop (size : Nat) : List Nat → Except Error Nat
  | a :: b :: rest =>
    let d := Index.depth (Index.last_common_ancestor a b) + 2
    if d ≤ size then proofSizeLoop (size - d) (b :: rest) else .error .Panic
  | _ => .ok size

/-- `proof_size` — commitment.rs:52-65 -/
def proof_size {α : Type} (c : Commitment α) (indices : List Nat) : Except Error Nat :=
  (sort_indices c indices).bind fun is => proofSizeLoop (trailing_zeros c.size * is.length) is

/-! ## proof.rs -/

/-- `Proof` — proof.rs:13-19 -/
structure Proof (α : Type) where
  commitment : Commitment α
  indices : List Nat
  hashes : List α

/-- `Proof::from_hashes` — proof.rs:22-40 -/
def from_hashes {α : Type} (c : Commitment α) (indices : List Nat) (hashes : List α) : Except Error (Proof α) :=
  (sort_indices c indices).bind fun _ =>
  (proof_size c indices).bind fun n =>
  if hashes.length = n then .ok ⟨c, indices, hashes⟩ else .error .NotEnoughHashes

section
variable {α : Type} [DecidableEq α] (H : α → α → α)

/-- the condition on adjacent nodes in `verify` — proof.rs:61-67 -/
def noMismatch : List (Nat × α) → Bool
  | a :: b :: rest => (a.1 != b.1 || a.2 == b.2) && noMismatch (b :: rest)
  | _ => true

/-- The loop reconstructing the root — proof.rs:76-106.  The state is the queue of nodes and the hashes not
used yet; besides the outcome the model returns the pairs of hashes that were given to the node hash.
`fuel` bounds the number of iterations. -/
def verifyLoop (root : α) : Nat → List (Nat × α) → List α → Except Error (List (α × α))
  | 0, _, _ => .error .Panic
  | _ + 1, [], _ => .ok []
  | fuel + 1, (current, hash) :: nodes, hashes =>
    match Index.parent current with
    | some parent =>
      if Index.is_left current then
        match nodes with
        | (next, next_hash) :: nodes' =>
          if Index.sibling current = some next then
            (verifyLoop root fuel (nodes' ++ [(parent, H hash next_hash)]) hashes).map ((hash, next_hash) :: ·)
          else
            match hashes with
            | h :: hashes => (verifyLoop root fuel (nodes ++ [(parent, H hash h)]) hashes).map ((hash, h) :: ·)
            | [] => .error .NotEnoughHashes
        | [] =>
          match hashes with
          | h :: hashes => (verifyLoop root fuel (nodes ++ [(parent, H hash h)]) hashes).map ((hash, h) :: ·)
          | [] => .error .NotEnoughHashes
      else
        match hashes with
        | h :: hashes => (verifyLoop root fuel (nodes ++ [(parent, H h hash)]) hashes).map ((h, hash) :: ·)
        | [] => .error .NotEnoughHashes
    | none => if hash = root then verifyLoop root fuel nodes hashes else .error .RootHashMismatch

/-- the leaf nodes of `verify`, sorted — proof.rs:50-60 -/
def leafNodes (size : Nat) (leafs : List (Nat × α)) : Except Error (List (Nat × α)) :=
  (leafs.mapM fun l => (Index.from_size_offset size l.1).map fun i => (i, l.2)).map fun nodes =>
    nodes.insertionSort (fun a b => a.1 ≤ b.1)

/-- `Proof::verify` — proof.rs:46-107, on the leaf hashes; returns the inputs of the node hash.  Every node is
processed at most once per level of the tree, so 65 iterations per leaf suffice (proved). -/
def verifyTrace (p : Proof α) (leafs : List (Nat × α)) : Except Error (List (α × α)) :=
  (leafNodes p.commitment.size leafs).bind fun nodes =>
  if noMismatch nodes = false then .error .DuplicateLeafMismatch
  else
    let nodes := dedupBy Prod.fst nodes
    verifyLoop H p.commitment.hash (65 * nodes.length + 1) nodes p.hashes

/-- `Proof::verify` — proof.rs:46-107 -/
def verify (p : Proof α) (leafs : List (Nat × α)) : Except Error Unit := (verifyTrace H p leafs).map fun _ => ()

end

/-! ## tree.rs -/
section
variable {α : Type} (H : α → α → α)

/-- `compute` — tree.rs:24-36; `leaves` are the leaf hashes.  `fuel` is the recursion depth. -/
def compute (leaves : List α) : Nat → Nat → Except Error α
  | 0, _ => .error .Panic
  | fuel + 1, index =>
    let leaf_depth := Index.depth_for_size leaves.length
    if ¬ Index.depth index ≤ leaf_depth then .error .Panic
    else if Index.depth index = leaf_depth then
      match leaves[Index.offset index]? with
      | some h => .ok h
      | none => .error .Panic
    else
      (compute leaves fuel (Index.left_child index)).bind fun l =>
      (compute leaves fuel (Index.right_child index)).bind fun r => .ok (H l r)

/-- `Tree` — tree.rs:46-50 -/
structure Tree (α : Type) where
  commitment : Commitment α
  nodes : List α
  leaves : List α

/-- the node array for the layer at `depth` computed from the layer below — tree.rs:105-108; `previous` is the
part of the array after this layer -/
def upperLayer (previous : List α) (n : Nat) : Except Error (List α) :=
  (List.range n).mapM fun i =>
    match previous[2 * i]?, previous[2 * i + 1]? with
    | some l, some r => .ok (H l r)
    | _, _ => .error .Panic

/-- "Upper layers" — tree.rs:99-109: from the layer at depth `d` down to the root.  The array is filled from
its end, so the model builds it by prepending each layer. -/
def upperLayers : Nat → List α → Except Error (List α)
  | 0, nodes => .ok nodes
  | d + 1, nodes => (upperLayer H nodes (2 ^ d)).bind fun layer => upperLayers d (layer ++ nodes)

/-- `from_leaves_skip_layers` — tree.rs:58-129; `zero` is `Hash::default()` -/
def from_leaves_skip_layers (zero : α) (leaves : List α) (skip_layers : Nat) : Except Error (Tree α) :=
  let size := leaves.length
  if size = 0 then (from_size_hash size zero).map fun c => ⟨c, [], leaves⟩
  else if isPow2 size = false then .error .NumLeavesNotPowerOfTwo
  else if ¬ size ≤ Index.max_size then .error .TreeToLarge
  else
    let leaf_depth := Index.depth_for_size size
    (if skip_layers ≤ leaf_depth then
      let depth := leaf_depth - skip_layers
      ((List.range (2 ^ depth)).mapM fun i =>
        (Index.from_depth_offset depth i).bind fun idx => compute H leaves 65 idx).bind fun layer =>
      upperLayers H depth layer
    else .ok []).bind fun nodes =>
    (match nodes with
      | [] => compute H leaves 65 Index.root
      | n :: _ => .ok n).bind fun root_hash =>
    (from_size_hash size root_hash).map fun c => ⟨c, nodes, leaves⟩

/-- `from_leaves` — tree.rs:54-56 -/
def from_leaves (zero : α) (leaves : List α) : Except Error (Tree α) := from_leaves_skip_layers H zero leaves 1

/-- `node_hash` — tree.rs:147-162 -/
def node_hash (t : Tree α) : Nat → Nat → Except Error α
  | 0, _ => .error .Panic
  | fuel + 1, index =>
    match t.nodes[Index.as_index index]? with
    | some h => .ok h
    | none =>
      let leaf_depth := Index.depth_for_size t.leaves.length
      if ¬ Index.depth index ≤ leaf_depth then .error .Panic
      else if Index.depth index = leaf_depth then
        match t.leaves[Index.offset index]? with
        | some h => .ok h
        | none => .error .Panic
      else
        (node_hash t fuel (Index.left_child index)).bind fun l =>
        (node_hash t fuel (Index.right_child index)).bind fun r => .ok (H l r)

/-- the loop of `open` — tree.rs:170-191: the queue of indices, and the hashes in order -/
def openLoop (t : Tree α) : Nat → List Nat → Except Error (List α)
  | 0, _ => .error .Panic
  | _ + 1, [] => .ok []
  | fuel + 1, current :: indices =>
    match Index.parent current with
    | none => openLoop t fuel indices
    | some parent =>
      match Index.sibling current with
      | none => .error .Panic
      | some sibling =>
        match indices ++ [parent] with
        | next :: rest =>
          if next = sibling then openLoop t fuel rest
          else (node_hash H t 65 sibling).bind fun h => (openLoop t fuel (next :: rest)).map (h :: ·)
        | [] => .error .Panic

/-- `open` — tree.rs:164-193 -/
def openAt (t : Tree α) (indices : List Nat) : Except Error (Proof α) :=
  (sort_indices t.commitment indices).bind fun is =>
  (openLoop H t (65 * is.length + 1) is).bind fun hashes =>
  from_hashes t.commitment (is.map Index.offset) hashes

end

end Merkle
end OpenZKP
