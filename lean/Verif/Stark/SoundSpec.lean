import Verif.Stark.AcceptSpec
import Verif.Merkle.TreeLemmas

/-!
# Specification: what an accepted proof says about committed tables

The tables (rows of the trace, rows of the constraint polynomial, FRI layers) behind the roots in a proof are arbitrary: nothing says that they come
from polynomials.  `Chain` is what the verifier checks about them at one queried position, and `Collision` the other possibility.
-/

namespace OpenZKP
namespace Stark
namespace Accept
open FFT U256 Props Merkle

section
variable {F : Type} [Field F] [DecidableEq F] (env : Env F)

/-- the bytes of a leaf -/
def leafBytes (row : List F) : Bytes := words (row.map env.codec.rep)

/-- a node of the Merkle tree of the `2^k` rows `R`, `d` levels above the leaves -/
def tableNode (R : Nat → List F) (d o : Nat) : Bytes := subtree (nodeHash env.K) (fun i => elementsHash env (R i)) d o

/-- `root` is the Merkle root of the `2^k` rows `R` (see C33 for how it is computed) -/
def Commits (k : Nat) (root : Bytes) (R : Nat → List F) : Prop := root = tableNode env R k 0

/-- what is hashed in building this tree: leaves, and pairs of siblings -/
def TableInput (k : Nat) (R : Nat → List F) (x : Bytes) : Prop :=
  (∃ i < 2 ^ k, x = leafBytes env (R i)) ∨
  ∃ d o, d < k ∧ o < 2 ^ (k - 1 - d) ∧ x = tableNode env R d (2 * o) ++ tableNode env R d (2 * o + 1)

/-- what is hashed in checking an opening -/
def OpeningInput (size : Nat) (root : Bytes) (hashes : List Bytes) (indices : List Nat) (leaves : List (List F)) (x : Bytes) : Prop :=
  (∃ leaf ∈ leaves, x = leafBytes env leaf) ∨
  ∃ inputs, Merkle.verifyTrace (nodeHash env.K) ⟨⟨size, root⟩, indices, hashes⟩ (indices.zip (leaves.map (elementsHash env))) = .ok inputs ∧
    ∃ u ∈ inputs, x = u.1 ++ u.2

/-- the opening and the tree hash different strings to the same (masked) hash -/
def Collision (k : Nat) (root : Bytes) (hashes : List Bytes) (indices : List Nat) (leaves : List (List F)) (R : Nat → List F) : Prop :=
  ∃ x y, OpeningInput env (2 ^ k) root hashes indices leaves x ∧ TableInput env k R y ∧ x ≠ y ∧ maskedKeccak env.K x = maskedKeccak env.K y

/-- a layer of FRI as leaves: cosets of `2^n` consecutive values -/
def cosetRows (n : Nat) (L : Nat → F) (j : Nat) : List F := (List.range (2 ^ n)).map fun i => L (j * 2 ^ n + i)

/-- the roots of the layers `Ls` are those in the proof -/
def LayersCommit : List Nat → List Layer → List (Nat → F) → Nat → Prop
  | [], [], [], _ => True
  | n :: ns, l :: ls, L :: Ls, m => Commits env (m - n) l.root (cosetRows n L) ∧ LayersCommit ns ls Ls (m - n)
  | _, _, _, _ => False

/-- some layer's opening collides with the layer -/
def LayersCollide : List Nat → List Layer → List (Nat → F) → Nat → Prop
  | n :: ns, l :: ls, L :: Ls, m => (∃ indices leaves, Collision env (m - n) l.root l.hashes indices leaves (cosetRows n L)) ∨ LayersCollide ns ls Ls (m - n)
  | _, _, _, _ => False

omit [DecidableEq F] in
/-- What is checked at position `q` of a layer with `2^m` points `w^(rev m q)`: the layer has the value `v` there, the next one has at the coset's
position the fold of the coset, and so on; the fold of the last one is the value of the last polynomial. -/
def Chain (last : List F) : List Nat → List (Nat → F) → List F → F → Nat → F → Nat → Prop
  | [], [], [], w, m, v, q => v = ∑ i ∈ Finset.range last.length, last.getD i 0 * (w ^ rev m q) ^ i
  | n :: ns, L :: Ls, a :: as, w, m, v, q => L q = v ∧ Chain last ns Ls as (w ^ 2 ^ n) (m - n) (foldMany n w m a L (q / 2 ^ n)) (q / 2 ^ n)
  | _, _, _, _, _, _, _ => False

end
end Accept
end Stark
end OpenZKP
