import Verif.Merkle.Sort
import Verif.Merkle.IndexLemmas

/-! The hashes of a tree -/

namespace OpenZKP
namespace Merkle

variable {α : Type}

/-- the hash of the node of height `h` above leaf `o * 2 ^ h` -/
def subtree (H : α → α → α) (leaf : Nat → α) : Nat → Nat → α
  | 0, o => leaf o
  | h + 1, o => H (subtree H leaf h (2 * o)) (subtree H leaf h (2 * o + 1))

/-- the hash of the node with heap index `i` in a tree of depth `k` -/
def nodeAt (H : α → α → α) (leaf : Nat → α) (k i : Nat) : α :=
  subtree H leaf (k - Nat.log 2 i) (i - 2 ^ Nat.log 2 i)

theorem nodeAt_step (H : α → α → α) (leaf : Nat → α) {k p : Nat} (hp : 1 ≤ p) (hl : Nat.log 2 p < k) :
    nodeAt H leaf k p = H (nodeAt H leaf k (2 * p)) (nodeAt H leaf k (2 * p + 1)) := by
  unfold nodeAt
  obtain ⟨b1, b2⟩ := level_bounds hp
  rw [log_double hp, log_double_add hp, show k - Nat.log 2 p = k - (Nat.log 2 p + 1) + 1 by omega, subtree,
    show 2 * p - 2 ^ (Nat.log 2 p + 1) = 2 * (p - 2 ^ Nat.log 2 p) by rw [pow_succ]; omega,
    show 2 * p + 1 - 2 ^ (Nat.log 2 p + 1) = 2 * (p - 2 ^ Nat.log 2 p) + 1 by rw [pow_succ]; omega]

theorem nodeAt_leaf (H : α → α → α) (leaf : Nat → α) {k o : Nat} (ho : o < 2 ^ k) :
    nodeAt H leaf k (2 ^ k + o) = leaf o := by
  unfold nodeAt
  rw [log_level ho, Nat.sub_self, Nat.add_sub_cancel_left, subtree]

theorem nodeAt_root (H : α → α → α) (leaf : Nat → α) (k : Nat) : nodeAt H leaf k 1 = subtree H leaf k 0 := by
  unfold nodeAt
  simp

theorem lt_of_log {i k : Nat} (hi : 1 ≤ i) (hk : k ≤ 63) (h : Nat.log 2 i ≤ k) : i < 2 ^ 64 := by
  have := (level_bounds hi).2
  exact this.trans_le (Nat.pow_le_pow_right (by norm_num) (by omega))

theorem left_child_eq {i k : Nat} (hi : 1 ≤ i) (hk : k ≤ 63) (h : Nat.log 2 i < k) : Index.left_child i = 2 * i := by
  have := lt_of_log (i := 2 * i) (by omega) hk (by rw [log_double hi]; omega)
  unfold Index.left_child
  rw [Nat.mod_eq_of_lt (by omega), mul_comm]

theorem right_child_eq {i k : Nat} (hi : 1 ≤ i) (hk : k ≤ 63) (h : Nat.log 2 i < k) :
    Index.right_child i = 2 * i + 1 := by
  have e := left_child_eq hi hk h
  unfold Index.left_child at e
  unfold Index.right_child
  rw [e]
  exact (Nat.two_pow_add_eq_or_of_lt (i := 1) (b := 1) (by norm_num) i).symm

theorem offset_eq {i : Nat} (hi : 1 ≤ i) (h : i < 2 ^ 64) : Index.offset i = i - 2 ^ Nat.log 2 i := by
  unfold Index.offset
  rw [depth_eq_log i hi h]

theorem offset_lt {i : Nat} (hi : 1 ≤ i) : i - 2 ^ Nat.log 2 i < 2 ^ Nat.log 2 i := by
  have := level_bounds hi
  rw [pow_succ] at this
  omega

section
variable (H : α → α → α) {leaves : List α} {leaf : Nat → α} {k : Nat} (hk : k ≤ 63) (hlen : leaves.length = 2 ^ k)
  (hleaf : ∀ o, o < 2 ^ k → leaves[o]? = some (leaf o))
include hk hlen hleaf

theorem compute_eq (fuel i : Nat) (hi : 1 ≤ i) (hl : Nat.log 2 i ≤ k) (hf : k - Nat.log 2 i < fuel) :
    compute H leaves fuel i = .ok (nodeAt H leaf k i) := by
  induction fuel generalizing i with
  | zero => omega
  | succ fuel ih =>
    have hlt := lt_of_log hi hk hl
    unfold compute
    dsimp only
    rw [hlen, depth_for_size_two_pow k (by omega), depth_eq_log i hi hlt, if_neg (by omega)]
    by_cases e : Nat.log 2 i = k
    · rw [if_pos e, offset_eq hi hlt, hleaf _ (by rw [← e]; exact offset_lt hi)]
      dsimp only
      unfold nodeAt
      rw [e, Nat.sub_self, subtree]
    · rw [if_neg e, left_child_eq hi hk (by omega), right_child_eq hi hk (by omega),
        ih (2 * i) (by omega) (by rw [log_double hi]; omega) (by rw [log_double hi]; omega),
        ih (2 * i + 1) (by omega) (by rw [log_double_add hi]; omega) (by rw [log_double_add hi]; omega),
        nodeAt_step H leaf hi (by omega)]
      rfl

theorem node_hash_eq (t : Tree α) (ht : t.leaves = leaves)
    (hn : ∀ j h, t.nodes[j]? = some h → h = nodeAt H leaf k (j + 1))
    (fuel i : Nat) (hi : 1 ≤ i) (hl : Nat.log 2 i ≤ k) (hf : k - Nat.log 2 i < fuel) :
    node_hash H t fuel i = .ok (nodeAt H leaf k i) := by
  induction fuel generalizing i with
  | zero => omega
  | succ fuel ih =>
    have hlt := lt_of_log hi hk hl
    unfold node_hash Index.as_index
    cases hc : t.nodes[i - 1]? with
    | some h =>
      dsimp only
      rw [hn _ _ hc, Nat.sub_add_cancel hi]
    | none =>
      dsimp only
      rw [ht, hlen, depth_for_size_two_pow k (by omega), depth_eq_log i hi hlt, if_neg (by omega)]
      by_cases e : Nat.log 2 i = k
      · rw [if_pos e, offset_eq hi hlt, hleaf _ (by rw [← e]; exact offset_lt hi)]
        dsimp only
        unfold nodeAt
        rw [e, Nat.sub_self, subtree]
      · rw [if_neg e, left_child_eq hi hk (by omega), right_child_eq hi hk (by omega),
          ih (2 * i) (by omega) (by rw [log_double hi]; omega) (by rw [log_double hi]; omega),
          ih (2 * i + 1) (by omega) (by rw [log_double_add hi]; omega) (by rw [log_double_add hi]; omega),
          nodeAt_step H leaf hi (by omega)]
        rfl
end

/-- the nodes with indices from `a` up to `b` -/
def nodesFrom (T : Nat → α) (a b : Nat) : List α := (List.range (b - a)).map fun j => T (a + j)

theorem nodesFrom_get (T : Nat → α) (a b j : Nat) : (nodesFrom T a b)[j]? = if j < b - a then some (T (a + j)) else none := by
  unfold nodesFrom
  rw [List.getElem?_map]
  split
  · next h => rw [List.getElem?_range h]; rfl
  · next h => rw [List.getElem?_eq_none (by simpa using h)]; rfl

theorem nodesFrom_append (T : Nat → α) {a b c : Nat} (h1 : a ≤ b) (h2 : b ≤ c) :
    nodesFrom T a b ++ nodesFrom T b c = nodesFrom T a c := by
  apply List.ext_getElem?
  intro j
  rw [List.getElem?_append]
  rw [show (nodesFrom T a b).length = b - a by simp [nodesFrom]]
  simp only [nodesFrom_get]
  by_cases h : j < b - a
  · simp [h, show j < c - a by omega]
  · by_cases h' : j < c - a
    · simp [h, h', show j - (b - a) < c - b by omega, show b + (j - (b - a)) = a + j by omega]
    · simp [h, h', show ¬ j - (b - a) < c - b by omega]

theorem upperLayers_eq (H : α → α → α) (leaf : Nat → α) {k : Nat} (D : Nat) (hD : D ≤ k) (d : Nat) (hd : d ≤ D) :
    upperLayers H d (nodesFrom (nodeAt H leaf k) (2 ^ d) (2 ^ (D + 1))) =
      .ok (nodesFrom (nodeAt H leaf k) 1 (2 ^ (D + 1))) := by
  induction d with
  | zero => rfl
  | succ d ih =>
    have hp : (2 : Nat) ^ (d + 1 + 1) ≤ 2 ^ (D + 1) := Nat.pow_le_pow_right (by norm_num) (by omega)
    have e2 : (2 : Nat) ^ (d + 1 + 1) = 2 * 2 ^ (d + 1) := by ring
    have e1 : (2 : Nat) ^ (d + 1) = 2 * 2 ^ d := by ring
    have hpos : 0 < (2 : Nat) ^ d := by positivity
    unfold upperLayers upperLayer
    rw [mapM_ok _ (fun i => nodeAt H leaf k (2 ^ d + i))]
    · show upperLayers H d (_ ++ _) = _
      rw [show (List.map (fun i => nodeAt H leaf k (2 ^ d + i)) (List.range (2 ^ d))) =
        nodesFrom (nodeAt H leaf k) (2 ^ d) (2 ^ (d + 1)) by
          unfold nodesFrom; rw [show 2 ^ (d + 1) - 2 ^ d = 2 ^ d by omega],
        nodesFrom_append _ (by omega) (by omega)]
      exact ih (by omega)
    · intro i hi
      rw [List.mem_range] at hi
      rw [nodesFrom_get, nodesFrom_get, if_pos (by omega), if_pos (by omega)]
      dsimp only
      rw [nodeAt_step H leaf (p := 2 ^ d + i) (by omega) (by rw [log_level hi]; omega), e1,
        show 2 * 2 ^ d + 2 * i = 2 * (2 ^ d + i) by ring, show 2 * 2 ^ d + (2 * i + 1) = 2 * (2 ^ d + i) + 1 by ring]

/-- building a tree: the nodes kept are a prefix of the nodes of the tree in heap order -/
theorem from_leaves_eq (H : α → α → α) (zero : α) {leaves : List α} {leaf : Nat → α} {k : Nat} (hk : k ≤ 63)
    (hlen : leaves.length = 2 ^ k) (hleaf : ∀ o, o < 2 ^ k → leaves[o]? = some (leaf o)) (skip : Nat) :
    ∃ t, from_leaves_skip_layers H zero leaves skip = .ok t ∧ t.leaves = leaves ∧
      t.commitment = ⟨2 ^ k, nodeAt H leaf k 1⟩ ∧ (∀ j h, t.nodes[j]? = some h → h = nodeAt H leaf k (j + 1)) ∧
      t.nodes.length = 2 ^ (k + 1 - skip) - 1 := by
  have hpos : 0 < (2 : Nat) ^ k := by positivity
  have h63 : (2 : Nat) ^ k ≤ 2 ^ 63 := Nat.pow_le_pow_right (by norm_num) hk
  have hroot : compute H leaves 65 Index.root = .ok (nodeAt H leaf k 1) :=
    compute_eq H hk hlen hleaf 65 1 (by norm_num) (by simp) (by simp; omega)
  have hcommit : ∀ x : α, from_size_hash (2 ^ k) x = .ok ⟨2 ^ k, x⟩ := by
    intro x; unfold from_size_hash; rw [if_pos (Or.inr (isPow2_two_pow k))]
  unfold from_leaves_skip_layers
  dsimp only
  rw [hlen, if_neg (by omega), isPow2_two_pow, if_neg (by simp), if_neg (by unfold Index.max_size; omega),
    depth_for_size_two_pow k (by omega)]
  by_cases hs : skip ≤ k
  · rw [if_pos hs]
    have hlog : ∀ i, i < 2 ^ (k - skip) → Nat.log 2 (2 ^ (k - skip) + i) = k - skip := fun i h => log_level h
    rw [mapM_ok _ (fun i => nodeAt H leaf k (2 ^ (k - skip) + i))]
    · have e : (List.map (fun i => nodeAt H leaf k (2 ^ (k - skip) + i)) (List.range (2 ^ (k - skip)))) =
          nodesFrom (nodeAt H leaf k) (2 ^ (k - skip)) (2 ^ (k - skip + 1)) := by
        unfold nodesFrom
        rw [show 2 ^ (k - skip + 1) - 2 ^ (k - skip) = 2 ^ (k - skip) by rw [pow_succ]; omega]
      rw [e]
      have hu : upperLayers H (k - skip) (nodesFrom (nodeAt H leaf k) (2 ^ (k - skip)) (2 ^ (k - skip + 1))) = _ :=
        upperLayers_eq H leaf (k := k) (k - skip) (by omega) (k - skip) le_rfl
      have hlen2 : 1 < 2 ^ (k - skip + 1) := Nat.one_lt_two_pow (by omega)
      refine ⟨⟨⟨2 ^ k, nodeAt H leaf k 1⟩, nodesFrom (nodeAt H leaf k) 1 (2 ^ (k - skip + 1)), leaves⟩, ?_, rfl, rfl, ?_, ?_⟩
      · simp only [Except.bind]
        rw [hu]
        simp only []
        have hh : (nodesFrom (nodeAt H leaf k) 1 (2 ^ (k - skip + 1)))[0]? = some (nodeAt H leaf k 1) := by
          rw [nodesFrom_get, if_pos (by omega)]
        generalize nodesFrom (nodeAt H leaf k) 1 (2 ^ (k - skip + 1)) = ns at hh
        cases ns with
        | nil => simp at hh
        | cons n ns =>
          simp only [List.getElem?_cons_zero, Option.some.injEq] at hh
          subst hh
          simp only [hcommit]
          rfl
      · intro j h hj
        simp only [nodesFrom_get] at hj
        split at hj
        · cases hj; rw [add_comm]
        · cases hj
      · simp only [nodesFrom, List.length_map, List.length_range]
        rw [show k + 1 - skip = k - skip + 1 by omega]
    · intro i hi
      rw [List.mem_range] at hi
      unfold Index.from_depth_offset Index.size_at_depth
      rw [from_size_offset_ok (by omega) hi]
      exact compute_eq H hk hlen hleaf 65 _ (by omega) (by rw [hlog i hi]; omega) (by omega)
  · rw [if_neg hs]
    refine ⟨⟨⟨2 ^ k, nodeAt H leaf k 1⟩, [], leaves⟩, ?_, rfl, rfl, by simp, ?_⟩
    · simp only [Except.bind]
      rw [hroot]
      simp only [hcommit]
      rfl
    · rw [show k + 1 - skip = 0 by omega]; rfl

end Merkle
end OpenZKP
