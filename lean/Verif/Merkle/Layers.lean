import Verif.Merkle.Model

/-!
# Layers and concatenation of Merkle tree positions (model)

Models what is left of `/repo/crypto/merkle-tree/src/index.rs`.
-/

namespace OpenZKP
namespace Merkle
namespace Index

/-- `from_index` — index.rs:65-67; `none` is the overflow of the addition -/
def from_index (index : Nat) : Option Nat := if index + 1 < 2 ^ 64 then some (index + 1) else none

/-- `LayerIter` — index.rs:194-198 -/
structure LayerIter where
  size : Nat
  offset : Nat

/-- `iter_layer` — index.rs:69-74; `none` is the overflow of the shift -/
def iter_layer (depth : Nat) : Option LayerIter := if depth < 64 then some ⟨2 ^ depth, 0⟩ else none

/-- `next` — index.rs:204-212: the item, if any, and the iterator afterwards; an error is the failing
`unwrap` -/
def LayerIter.next (s : LayerIter) : Except Error (Option Nat × LayerIter) :=
  if s.offset < s.size then
    (from_size_offset s.size s.offset).map fun item => (some item, { s with offset := s.offset + 1 })
  else .ok (none, s)

/-- `layer_range` — index.rs:76-81: first and last array position; an error is the overflow of the shift
or the failing `unwrap` -/
def layer_range (depth : Nat) : Except Error (Nat × Nat) :=
  if depth < 64 then
    (from_depth_offset depth 0).bind fun start =>
    (from_depth_offset depth (size_at_depth depth - 1)).map fun last => (as_index start, as_index last)
  else .error .Panic

/-- `concat` — index.rs:179-184; the shift drops the high bits -/
def concat (i other : Nat) : Nat :=
  let other_depth := depth other
  let other_path := other ^^^ 2 ^ other_depth
  (i * 2 ^ other_depth % 2 ^ 64) ||| other_path

end Index
end Merkle
end OpenZKP
