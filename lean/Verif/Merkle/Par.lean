import Verif.Merkle.Layers
import Verif.Par.Model

/-!
# The parallel loops that build a Merkle tree (model)

Models `for_each` of `/repo/crypto/merkle-tree/src/tree.rs` as it is used in `from_leaves_skip_layers`.  The array of nodes is the memory; the leaves are
behind a shared reference and nothing writes them.
-/

namespace OpenZKP
namespace Merkle
open Par

variable {α : Type} (H : α → α → α)

/-- the task for node `i` of the lowest layer kept — tree.rs:95-97; the closure gets one element, the one at `start + i` -/
def leafTask (leaves : List α) (depth start i : Nat) : Prog Nat α Unit :=
  (Prog.ofOption ((Index.from_depth_offset depth i).bind fun index => compute H leaves 65 index).toOption).bind fun h =>
  Prog.set (fun _ => start + i) 1 0 h

/-- the task for node `i` of an upper layer — tree.rs:106-108; `previous` are the nodes from `split` on -/
def upperTask (nodesLen split start i : Nat) : Prog Nat α Unit :=
  (Prog.get (fun j => split + j) (nodesLen - split) (i <<< 1)).bind fun l =>
  (Prog.get (fun j => split + j) (nodesLen - split) (i <<< 1 ||| 1)).bind fun r =>
  Prog.set (fun _ => start + i) 1 0 (H l r)

/-- "Upper layers" — tree.rs:100-109, for any schedule: the layers above the one at the given depth are filled in one after the other, each by a
parallel loop -/
def UpperLayersAlways (nodesLen : Nat) : Nat → (Nat → α) → (Nat → α) → Prop
  | 0, m, m' => m' = m
  | depth + 1, m, m' => ∃ index first last m1, Index.from_depth_offset (depth + 1) 0 = .ok index ∧ Index.as_index index ≤ nodesLen ∧
      Index.layer_range depth = .ok (first, last) ∧ last < Index.as_index index ∧
      Always (last - first + 1) (upperTask H nodesLen (Index.as_index index) first) m m1 ∧ UpperLayersAlways nodesLen depth m1 m'

/-- the array of nodes of `from_leaves_skip_layers` — tree.rs:77-110, for any schedule: its length and its contents when every execution ends -/
def NodesAlways (zero : α) (leaves : List α) (skip_layers nodesLen : Nat) (m' : Nat → α) : Prop :=
  let depth := Index.depth_for_size leaves.length - skip_layers
  ∃ index first last m1, Index.from_depth_offset depth (Index.size_at_depth depth - 1) = .ok index ∧ nodesLen = Index.as_index index + 1 ∧
    Index.layer_range depth = .ok (first, last) ∧ last < nodesLen ∧
    Always (last - first + 1) (leafTask H leaves depth first) (fun _ => zero) m1 ∧ UpperLayersAlways H nodesLen depth m1 m'

end Merkle
end OpenZKP
