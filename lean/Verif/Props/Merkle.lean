import Verif.Merkle.Main
import Mathlib.Algebra.BigOperators.Group.Finset.Basic
import Mathlib.Tactic.IntervalCases

/-!
# Merkle trees: C29 – C33
-/

namespace OpenZKP
namespace Props
open Merkle

/-! ## C29: node indices -/

/-- The node at depth `d` and position `o` of the complete binary tree, as observed through `depth` and `offset` -/
structure IsNode (i d o : Nat) : Prop where
  valid : 1 ≤ i ∧ i < 2 ^ 64
  depth : Index.depth i = d
  offset : Index.offset i = o

theorem isNode_iff {i d o : Nat} : IsNode i d o ↔ d ≤ 63 ∧ o < 2 ^ d ∧ i = 2 ^ d + o := by
  constructor
  · rintro ⟨⟨h1, h2⟩, h3, h4⟩
    rw [depth_eq_log i h1 h2] at h3
    rw [offset_eq h1 h2, h3] at h4
    have hl : Nat.log 2 i < 64 := by rw [Nat.log_lt_iff_lt_pow (by norm_num) (by omega)]; exact h2
    have hb := level_bounds h1
    rw [h3, pow_succ] at hb
    exact ⟨by omega, by omega, by omega⟩
  · rintro ⟨h1, h2, rfl⟩
    have hpos : 0 < 2 ^ d := by positivity
    have hlog := log_level h2
    have hlt := lt_of_log (i := 2 ^ d + o) (by omega) h1 hlog.le
    refine ⟨⟨by omega, hlt⟩, ?_, ?_⟩
    · rw [depth_eq_log _ (by omega) hlt, hlog]
    · rw [offset_eq (by omega) hlt, hlog]; omega

/-- C29 (construction): `from_size_offset` succeeds exactly for a power of two up to `max_size` and an offset
below it, and then returns the node at that level and position. -/
theorem C29_from_size_offset (size offset i : Nat) :
    Index.from_size_offset size offset = .ok i ↔
      ∃ d, size = 2 ^ d ∧ size ≤ Index.max_size ∧ offset < size ∧ IsNode i d offset := by
  rw [from_size_offset_iff]
  unfold Index.max_size
  constructor
  · rintro ⟨k, h1, rfl, h2, rfl⟩
    exact ⟨k, rfl, Nat.pow_le_pow_right (by norm_num) h1, h2, isNode_iff.2 ⟨h1, h2, rfl⟩⟩
  · rintro ⟨k, rfl, h1, h2, h3⟩
    obtain ⟨h4, _, rfl⟩ := isNode_iff.1 h3
    exact ⟨k, h4, rfl, h2, rfl⟩

/-- C29 (construction): which error is returned otherwise. -/
theorem C29_from_size_offset_errors (size offset : Nat) :
    (Index.from_size_offset size offset = .error .NumLeavesNotPowerOfTwo ↔ ¬ ∃ d, size = 2 ^ d) ∧
    (Index.from_size_offset size offset = .error .TreeToLarge ↔ (∃ d, size = 2 ^ d) ∧ Index.max_size < size) ∧
    (Index.from_size_offset size offset = .error .IndexOutOfRange ↔
      (∃ d, size = 2 ^ d) ∧ size ≤ Index.max_size ∧ size ≤ offset) := by
  rw [← isPow2_iff]
  unfold Index.from_size_offset
  cases h : isPow2 size
  · simp
  · by_cases h1 : size ≤ Index.max_size
    · by_cases h2 : offset < size
      · simp [h1, h2]
      · simp [h1, h2, Nat.le_of_not_lt h2]
    · simp [h1, Nat.lt_of_not_le h1]

/-- C29 (construction): by depth and offset. -/
theorem C29_from_depth_offset (d o : Nat) (hd : d ≤ 63) :
    (o < 2 ^ d → ∃ i, Index.from_depth_offset d o = .ok i ∧ IsNode i d o) ∧
    (2 ^ d ≤ o → Index.from_depth_offset d o = .error .IndexOutOfRange) := by
  unfold Index.from_depth_offset Index.size_at_depth
  refine ⟨fun h => ⟨_, from_size_offset_ok hd h, isNode_iff.2 ⟨hd, h, rfl⟩⟩, fun h => ?_⟩
  exact (C29_from_size_offset_errors _ _).2.2.2 ⟨⟨d, rfl⟩, Nat.pow_le_pow_right (by norm_num) hd, h⟩

/-- C29 (completeness): every index is the node of exactly one depth and offset, and conversely; the array
position `as_index` counts the nodes before it in breadth-first order. -/
theorem C29_bijection :
    (∀ i, 1 ≤ i → i < 2 ^ 64 → ∃ d o, d ≤ 63 ∧ o < 2 ^ d ∧ IsNode i d o) ∧
    (∀ d o, d ≤ 63 → o < 2 ^ d → ∃ i, IsNode i d o ∧ ∀ j, IsNode j d o → j = i) ∧
    (∀ i d o, IsNode i d o → Index.as_index i = (∑ e ∈ Finset.range d, 2 ^ e) + o) := by
  refine ⟨?_, ?_, ?_⟩
  · intro i h1 h2
    have hl : Nat.log 2 i < 64 := by rw [Nat.log_lt_iff_lt_pow (by norm_num) (by omega)]; exact h2
    have hb := level_bounds h1
    rw [pow_succ] at hb
    exact ⟨Nat.log 2 i, i - 2 ^ Nat.log 2 i, by omega, by omega, isNode_iff.2 ⟨by omega, by omega, by omega⟩⟩
  · intro d o h1 h2
    exact ⟨2 ^ d + o, isNode_iff.2 ⟨h1, h2, rfl⟩, fun j hj => (isNode_iff.1 hj).2.2⟩
  · intro i d o h
    obtain ⟨_, _, rfl⟩ := isNode_iff.1 h
    have hg : ∀ d, ∑ e ∈ Finset.range d, 2 ^ e = 2 ^ d - 1 := by
      intro d
      induction d with
      | zero => rfl
      | succ d ih =>
        rw [Finset.sum_range_succ, ih, pow_succ]
        have : 0 < 2 ^ d := by positivity
        omega
    have : 0 < 2 ^ d := by positivity
    rw [hg, Index.as_index]
    omega

/-- C29 (navigation upwards): parent and sibling. -/
theorem C29_parent_sibling {i d o : Nat} (h : IsNode i d o) :
    (Index.is_root i = true ↔ d = 0) ∧
    (d = 0 → Index.parent i = none ∧ Index.sibling i = none) ∧
    (0 < d → (∃ p, Index.parent i = some p ∧ IsNode p (d - 1) (o / 2)) ∧
      (∃ s, Index.sibling i = some s ∧ IsNode s d (if o % 2 = 0 then o + 1 else o - 1) ∧ Index.sibling s = some i ∧
        Index.parent s = Index.parent i)) ∧
    (0 < d → (Index.is_left i = true ↔ o % 2 = 0) ∧ (Index.is_right i = true ↔ o % 2 = 1)) := by
  obtain ⟨h1, h2, rfl⟩ := isNode_iff.1 h
  have hroot : Index.is_root (2 ^ d + o) = true ↔ d = 0 := by
    unfold Index.is_root
    rw [beq_iff_eq]
    constructor
    · intro e
      by_contra hd
      obtain ⟨d', rfl⟩ : ∃ d', d = d' + 1 := ⟨d - 1, by omega⟩
      have : 0 < 2 ^ d' := by positivity
      rw [pow_succ] at e; omega
    · rintro rfl; simp at h2 ⊢; omega
  refine ⟨hroot, ?_, ?_, ?_⟩
  · intro hd
    unfold Index.parent Index.sibling
    rw [if_pos (hroot.2 hd), if_pos (hroot.2 hd)]
    exact ⟨rfl, rfl⟩
  · intro hd
    obtain ⟨d', rfl⟩ : ∃ d', d = d' + 1 := ⟨d - 1, by omega⟩
    have hpos : 0 < 2 ^ d' := by positivity
    have hp2 : 2 ≤ 2 ^ (d' + 1) + o := by rw [pow_succ]; omega
    refine ⟨⟨(2 ^ (d' + 1) + o) / 2, parent_eq hp2, isNode_iff.2 ⟨by omega, ?_, ?_⟩⟩,
      ⟨_, sibling_eq hp2, ?_, ?_, ?_⟩⟩
    · rw [pow_succ] at h2; simp only [Nat.add_sub_cancel]; omega
    · rw [pow_succ]; simp only [Nat.add_sub_cancel]; omega
    · rw [isNode_iff]
      rw [pow_succ] at h2
      refine ⟨h1, ?_, ?_⟩
      · rw [pow_succ]; split <;> omega
      · rw [xor_one, pow_succ]; split <;> split <;> omega
    · rw [sibling_eq (by rw [xor_one]; split <;> rw [pow_succ] at * <;> omega), Nat.xor_assoc, Nat.xor_self, Nat.xor_zero]
    · rw [parent_eq (by rw [xor_one]; split <;> rw [pow_succ] at * <;> omega), parent_eq hp2]
      rw [xor_one]; congr 1; split <;> omega
  · intro hd
    obtain ⟨d', rfl⟩ : ∃ d', d = d' + 1 := ⟨d - 1, by omega⟩
    have hpos : 0 < 2 ^ d' := by positivity
    unfold Index.is_left Index.is_right
    simp only [beq_iff_eq, Bool.and_eq_true, bne_iff_ne, ne_eq]
    rw [pow_succ]
    constructor
    · omega
    · constructor
      · rintro ⟨_, h⟩; omega
      · intro h; omega

/-- C29 (navigation downwards): children, whose parent is the node again. -/
theorem C29_children {i d o : Nat} (h : IsNode i d o) (hd : d < 63) :
    IsNode (Index.left_child i) (d + 1) (2 * o) ∧ IsNode (Index.right_child i) (d + 1) (2 * o + 1) ∧
    Index.parent (Index.left_child i) = some i ∧ Index.parent (Index.right_child i) = some i ∧
    Index.sibling (Index.left_child i) = some (Index.right_child i) ∧
    Index.is_left (Index.left_child i) = true ∧ Index.is_right (Index.right_child i) = true := by
  obtain ⟨h1, h2, rfl⟩ := isNode_iff.1 h
  have hpos : 0 < 2 ^ d := by positivity
  rw [left_child_eq (k := 63) (by omega) le_rfl (by rw [log_level h2]; exact hd),
    right_child_eq (k := 63) (by omega) le_rfl (by rw [log_level h2]; exact hd)]
  refine ⟨isNode_iff.2 ⟨by omega, by rw [pow_succ]; omega, by rw [pow_succ]; ring⟩,
    isNode_iff.2 ⟨by omega, by rw [pow_succ]; omega, by rw [pow_succ]; ring⟩, ?_, ?_, ?_, ?_, ?_⟩
  · rw [parent_eq (by omega)]; congr 1; omega
  · rw [parent_eq (by omega)]; congr 1; omega
  · rw [sibling_eq (by omega), xor_one, if_pos (by omega)]
  · unfold Index.is_left; rw [beq_iff_eq]; omega
  · unfold Index.is_right; simp only [beq_iff_eq, Bool.and_eq_true, bne_iff_ne, ne_eq]; omega

/-- C29 (navigation sideways): neighbours exist exactly away from the borders.  `right_neighbor` is undefined
(overflow) only for the very last index. -/
theorem C29_neighbors {i d o : Nat} (h : IsNode i d o) :
    (Index.is_left_most i = true ↔ o = 0) ∧
    (o = 0 → Index.left_neighbor i = none) ∧
    (0 < o → ∃ j, Index.left_neighbor i = some j ∧ IsNode j d (o - 1)) ∧
    (i + 1 < 2 ^ 64 →
      (Index.is_right_most i = some true ↔ o + 1 = 2 ^ d) ∧
      (o + 1 = 2 ^ d → Index.right_neighbor i = some none) ∧
      (o + 1 < 2 ^ d → ∃ j, Index.right_neighbor i = some (some j) ∧ IsNode j d (o + 1))) := by
  obtain ⟨h1, h2, rfl⟩ := isNode_iff.1 h
  have hpos : 0 < 2 ^ d := by positivity
  have hp : ∀ x, x < 2 ^ d → (isPow2 (2 ^ d + x) = true ↔ x = 0) := by
    intro x hx
    rw [isPow2_iff]
    constructor
    · rintro ⟨k, hk⟩
      have := log_level hx
      rw [hk, Nat.log_pow (by norm_num)] at this
      subst this; omega
    · rintro rfl; exact ⟨d, rfl⟩
  have hlm := hp o h2
  have hrm : isPow2 (2 ^ d + o + 1) = true ↔ o + 1 = 2 ^ d := by
    by_cases e : o + 1 = 2 ^ d
    · rw [show 2 ^ d + o + 1 = 2 ^ (d + 1) by rw [pow_succ]; omega]
      simp [isPow2_two_pow, e]
    · rw [add_assoc, hp (o + 1) (by omega)]
      omega
  refine ⟨hlm, ?_, ?_, ?_⟩
  · intro e
    unfold Index.left_neighbor Index.is_left_most
    rw [if_pos (hlm.2 e)]
  · intro e
    unfold Index.left_neighbor Index.is_left_most
    rw [if_neg (by rw [hlm]; omega)]
    exact ⟨_, rfl, isNode_iff.2 ⟨h1, by omega, by omega⟩⟩
  · intro hi
    unfold Index.right_neighbor Index.is_right_most
    rw [if_pos hi]
    refine ⟨by rw [Option.some.injEq, hrm], ?_, ?_⟩
    · intro e
      simp [hrm.2 e]
    · intro e
      have : isPow2 (2 ^ d + o + 1) = false := by
        rw [Bool.eq_false_iff, Ne, hrm]; omega
      rw [this]
      exact ⟨_, rfl, isNode_iff.2 ⟨h1, e, by ring⟩⟩

/-- `a` lies on the path from node `i` to the root: it is reached by some number of `parent` steps -/
inductive OnPath (i : Nat) : Nat → Prop
  | refl : OnPath i i
  | step {a p : Nat} : OnPath i a → Index.parent a = some p → OnPath i p

theorem onPath_iff {i a : Nat} (hi : 1 ≤ i) : OnPath i a ↔ 1 ≤ a ∧ ∃ j, a = i / 2 ^ j := by
  constructor
  · intro h
    induction h with
    | refl => exact ⟨hi, 0, by simp⟩
    | step _ hp ih =>
      obtain ⟨h1, j, rfl⟩ := ih
      by_cases e : i / 2 ^ j = 1
      · rw [e] at hp; cases hp
      · rw [parent_eq (by omega), Option.some.injEq] at hp
        subst hp
        exact ⟨by omega, j + 1, by rw [Nat.div_div_eq_div_mul, pow_succ]⟩
  · rintro ⟨h1, j, rfl⟩
    induction j with
    | zero => simp; exact .refl
    | succ j ih =>
      have e : i / 2 ^ (j + 1) = i / 2 ^ j / 2 := by rw [Nat.div_div_eq_div_mul, pow_succ]
      rw [e] at h1 ⊢
      exact (ih (by omega)).step (parent_eq (by omega))

/-- C29 (last common ancestor; partial): for two nodes neither of which is on the other's path to the root, the
result is on both paths and every node on both paths is on the path of the result.  Missing: equal nodes and
pairs of a node and its ancestor, where the code is wrong (`C29_lca_violated`). -/
theorem C29_lca_partial {x y : Nat} (hx : 1 ≤ x ∧ x < 2 ^ 64) (hy : 1 ≤ y ∧ y < 2 ^ 64)
    (hxy : ¬ OnPath x y) (hyx : ¬ OnPath y x) :
    OnPath x (Index.last_common_ancestor x y) ∧ OnPath y (Index.last_common_ancestor x y) ∧
    ∀ c, OnPath x c → OnPath y c → OnPath (Index.last_common_ancestor x y) c := by
  rw [onPath_iff hx.1] at hxy
  rw [onPath_iff hy.1] at hyx
  obtain ⟨h1, h2, h3, h4⟩ := lca_correct hx.1 hx.2 hy.1 hy.2 (fun j e => hyx ⟨hx.1, j, e⟩) (fun j e => hxy ⟨hy.1, j, e⟩)
  rw [onPath_iff hx.1, onPath_iff hy.1]
  refine ⟨⟨h1, h2⟩, ⟨h1, h3⟩, ?_⟩
  intro c hc1 hc2
  rw [onPath_iff hx.1] at hc1
  rw [onPath_iff hy.1] at hc2
  rw [onPath_iff h1]
  exact ⟨hc1.1, h4 c hc1.1 hc1.2 hc2.2⟩

/-- C29: the "last common ancestor" of a node with itself, and of a node with an ancestor, need not even be a node
on the path. -/
theorem C29_lca_violated :
    Index.last_common_ancestor 5 5 = 5 * 2 ^ 61 ∧ ¬ OnPath 5 (Index.last_common_ancestor 5 5) ∧
    Index.last_common_ancestor 2 9 = 4 ∧ ¬ OnPath 2 (Index.last_common_ancestor 2 9) := by
  have e1 : Index.last_common_ancestor 5 5 = 5 * 2 ^ 61 := by decide +kernel
  have e2 : Index.last_common_ancestor 2 9 = 4 := by decide +kernel
  refine ⟨e1, ?_, e2, ?_⟩
  · rw [e1, onPath_iff (by norm_num)]
    rintro ⟨_, j, h⟩
    have : 5 / 2 ^ j ≤ 5 := Nat.div_le_self _ _
    omega
  · rw [e2, onPath_iff (by norm_num)]
    rintro ⟨_, j, h⟩
    have : 2 / 2 ^ j ≤ 2 := Nat.div_le_self _ _
    omega

/-- C29: the last index has no defined right neighbour: the addition overflows. -/
theorem C29_right_most_violated : Index.right_neighbor (2 ^ 64 - 1) = none ∧ IsNode (2 ^ 64 - 1) 63 (2 ^ 63 - 1) :=
  ⟨by decide +kernel, isNode_iff.2 ⟨by norm_num, by norm_num, by norm_num⟩⟩

-- a concrete node, its relatives, and a pair meeting the hypotheses of the ancestor theorem
example : IsNode 13 3 5 := isNode_iff.2 ⟨by norm_num, by norm_num, by norm_num⟩
example : Index.parent 13 = some 6 ∧ Index.sibling 13 = some 12 ∧ Index.right_neighbor 13 = some (some 14) ∧
    Index.last_common_ancestor 13 7 = 3 ∧ Index.left_child 13 = 26 := by decide +kernel
example : ¬ OnPath 13 7 ∧ ¬ OnPath 7 13 := by
  rw [onPath_iff (by norm_num), onPath_iff (by norm_num)]
  constructor
  · rintro ⟨_, j, h⟩
    rcases j with _ | _ | j
    · simp at h
    · simp at h
    · have : 13 / 2 ^ (j + 1 + 1) ≤ 13 / 2 ^ 2 := Nat.div_le_div_left (Nat.pow_le_pow_right (by norm_num) (by omega)) (by norm_num)
      omega
  · rintro ⟨_, j, h⟩
    have : 7 / 2 ^ j ≤ 7 := Nat.div_le_self _ _
    omega

/-! ## C30: openings verify -/

section
variable {α : Type} [DecidableEq α] (H : α → α → α) (zero : α)

/-- C30: For leaves of any power-of-two length, any number of skipped layers, any list of positions and any list of
claims for exactly these positions (in any order, with repetitions) stating the true leaf hashes: the tree is
built, opening succeeds, and the proof verifies.  The same holds for the proof a verifier rebuilds from the
commitment, the positions it knows (`is`, in any order) and the hashes. -/
theorem C30_open_verify (leaves : List α) (k : Nat) (hk : k ≤ 63) (hlen : leaves.length = 2 ^ k) (skip : Nat)
    (indices : List Nat) (claims : List (Nat × α))
    (hset : ∀ i, i ∈ indices ↔ ∃ c ∈ claims, c.1 = i) (htrue : ∀ c ∈ claims, leaves[c.1]? = some c.2) :
    ∃ t p, from_leaves_skip_layers H zero leaves skip = .ok t ∧ openAt H t indices = .ok p ∧
      p.commitment = t.commitment ∧ verify H p claims = .ok () ∧
      ∀ is, (∀ i, i ∈ is ↔ i ∈ indices) →
        ∃ p', from_hashes t.commitment is p.hashes = .ok p' ∧ verify H p' claims = .ok () := by
  obtain ⟨leaf, hleaf⟩ := leaf_fun hlen
  obtain ⟨t, ht, hl, hc, hn, _⟩ := from_leaves_eq H zero hk hlen hleaf skip
  have htrue' : ∀ c ∈ claims, c.1 < 2 ^ k ∧ c.2 = leaf c.1 := by
    intro c hc
    have := htrue c hc
    have hlt : c.1 < leaves.length := by
      by_contra hge
      rw [List.getElem?_eq_none (by omega)] at this
      cases this
    rw [hlen] at hlt
    rw [hleaf _ hlt] at this
    exact ⟨hlt, (Option.some.inj this).symm⟩
  obtain ⟨p, n, ho, hpc, _, _, hpl, hfrom, hv⟩ := verify_ok H hk hc (node_hash_fuel hk hlen hleaf hl hn) indices claims hset htrue'
  refine ⟨t, p, ht, ho, hpc, ?_, ?_⟩
  · have := hv p.indices []
    rw [List.append_nil, ← hpc] at this
    exact this
  · intro is his
    refine ⟨⟨t.commitment, is, p.hashes⟩, ?_, ?_⟩
    · rw [hfrom is p.hashes his, if_pos hpl]
    · have := hv is []
      rwa [List.append_nil] at this

/-- C30: the empty tree opens (at no position) and verifies. -/
theorem C30_empty_tree (skip : Nat) :
    ∃ t p, from_leaves_skip_layers H zero [] skip = .ok t ∧ openAt H t [] = .ok p ∧ verify H p [] = .ok () :=
  ⟨_, _, rfl, rfl, rfl⟩

/-- C30: other numbers of leaves are rejected, and so is opening at a position outside the tree. -/
theorem C30_rejects (leaves : List α) (skip : Nat) :
    (leaves ≠ [] → (¬ ∃ k, leaves.length = 2 ^ k) →
      from_leaves_skip_layers H zero leaves skip = .error .NumLeavesNotPowerOfTwo) ∧
    (∀ t, from_leaves_skip_layers H zero leaves skip = .ok t → ∀ indices, (∃ i ∈ indices, leaves.length ≤ i) →
      openAt H t indices = .error .IndexOutOfRange ∨ (leaves = [] ∧ openAt H t indices = .error .NumLeavesNotPowerOfTwo)) := by
  constructor
  · intro h1 h2
    unfold from_leaves_skip_layers
    dsimp only
    rw [if_neg (by simpa using h1), if_pos]
    rw [← isPow2_iff] at h2
    simpa using h2
  · intro t ht indices hi
    have key : ∀ (c : Commitment α) (e : Error), (∀ o, c.size ≤ o → Index.from_size_offset c.size o = .error e) →
        (∀ o e', Index.from_size_offset c.size o = .error e' → e' = e) → c.size = leaves.length →
        sort_indices c indices = .error e := by
      intro c e h1 h2 h3
      have hm : ∀ is : List Nat, (∃ i ∈ is, leaves.length ≤ i) →
          (is.mapM fun i => Index.from_size_offset c.size i) = .error e := by
        intro is
        induction is with
        | nil => rintro ⟨i, hi, _⟩; cases hi
        | cons x is ih =>
          rintro ⟨i, hi, hb⟩
          rw [List.mapM_cons]
          cases hx : Index.from_size_offset c.size x with
          | error e' => rw [h2 x e' hx]; rfl
          | ok y =>
            rcases List.mem_cons.1 hi with rfl | hi
            · rw [h1 i (by omega)] at hx; cases hx
            · have := ih ⟨i, hi, hb⟩
              rw [this]; rfl
      unfold sort_indices
      rw [hm indices hi]; rfl
    by_cases h0 : leaves = []
    · subst h0
      right
      refine ⟨rfl, ?_⟩
      have ht' : t = ⟨⟨0, zero⟩, [], []⟩ := by
        have : from_leaves_skip_layers H zero [] skip = .ok ⟨⟨0, zero⟩, [], []⟩ := rfl
        rw [this] at ht; cases ht; rfl
      subst ht'
      unfold openAt
      rw [key ⟨0, zero⟩ .NumLeavesNotPowerOfTwo (fun o _ => rfl) (fun o e' h => by
        have : Index.from_size_offset 0 o = .error .NumLeavesNotPowerOfTwo := rfl
        rw [this] at h; cases h; rfl) rfl]
      rfl
    · left
      by_cases hk : ∃ k, k ≤ 63 ∧ leaves.length = 2 ^ k
      · obtain ⟨k, hk, hlen⟩ := hk
        obtain ⟨leaf, hleaf⟩ := leaf_fun hlen
        obtain ⟨t', ht', _, hc, _⟩ := from_leaves_eq H zero hk hlen hleaf skip
        rw [ht'] at ht
        cases ht
        unfold openAt
        rw [hc, key ⟨2 ^ k, _⟩ .IndexOutOfRange (fun o ho =>
          (C29_from_size_offset_errors _ _).2.2.2 ⟨⟨k, rfl⟩, Nat.pow_le_pow_right (by norm_num) hk, ho⟩) (fun o e' h => by
          by_cases ho : o < 2 ^ k
          · rw [from_size_offset_ok hk ho] at h; cases h
          · rw [(C29_from_size_offset_errors (2 ^ k) o).2.2.2 ⟨⟨k, rfl⟩, Nat.pow_le_pow_right (by norm_num) hk, by omega⟩] at h
            cases h; rfl) hlen.symm]
        rfl
      · exfalso
        unfold from_leaves_skip_layers at ht
        dsimp only at ht
        rw [if_neg (by simpa using h0)] at ht
        split at ht
        · cases ht
        · next hp =>
          obtain ⟨k, hk'⟩ := (isPow2_iff _).1 (by simpa using hp)
          split at ht
          · cases ht
          · next hs =>
            push Not at hs
            unfold Index.max_size at hs
            rw [hk'] at hs
            exact hk ⟨k, (Nat.pow_le_pow_iff_right (by norm_num)).1 hs, hk'⟩

end

-- a tree of four leaves opened at positions given out of order and twice
example : ∃ t p, from_leaves (fun a b => 10 * a + b) 0 [1, 2, 3, 4] = .ok t ∧ t.commitment.hash = 154 ∧
    openAt (fun a b => 10 * a + b) t [3, 0, 3] = .ok p ∧ p.hashes = [2, 3] ∧
    verify (fun a b => 10 * a + b) p [(3, 4), (0, 1), (0, 1)] = .ok () := by
  refine ⟨_, _, rfl, ?_, rfl, ?_, ?_⟩ <;> decide +kernel

/-! ## C31: proof sizes -/

section
variable {α : Type} [DecidableEq α] (H : α → α → α) (zero : α)

/-- C31: For any tree and positions, `proof_size` succeeds with some `n`; the opening carries exactly `n` hashes; and
for these positions (in any order or multiplicity) `from_hashes` accepts exactly the lists of `n` hashes. -/
theorem C31_proof_size (leaves : List α) (k : Nat) (hk : k ≤ 63) (hlen : leaves.length = 2 ^ k) (skip : Nat)
    (indices : List Nat) (hi : ∀ i ∈ indices, i < leaves.length) :
    ∃ t p n, from_leaves_skip_layers H zero leaves skip = .ok t ∧ openAt H t indices = .ok p ∧
      proof_size t.commitment indices = .ok n ∧ p.hashes.length = n ∧
      ∀ is hs, (∀ i, i ∈ is ↔ i ∈ indices) →
        (hs.length = n → from_hashes t.commitment is hs = .ok ⟨t.commitment, is, hs⟩) ∧
        (hs.length ≠ n → from_hashes t.commitment is hs = .error .NotEnoughHashes) := by
  obtain ⟨leaf, hleaf⟩ := leaf_fun hlen
  obtain ⟨t, ht, hl, hc, hn, _⟩ := from_leaves_eq H zero hk hlen hleaf skip
  obtain ⟨s, p, n, ho, _, _, _, _, hps, hpl, hfrom, _⟩ := open_ok H hk hc (node_hash_fuel hk hlen hleaf hl hn) indices
    (by rwa [hlen] at hi)
  refine ⟨t, p, n, ht, ho, hps, hpl, fun is hs his => ?_⟩
  rw [hfrom is hs his]
  exact ⟨fun h => if_pos h, fun h => if_neg h⟩

end

example : proof_size (⟨8, ()⟩ : Commitment Unit) [5, 0, 5, 4] = .ok 3 := by rfl

/-! ## C32: binding -/

section
variable {α : Type} [DecidableEq α] (H : α → α → α)

/-- C32: Two accepted proofs (arbitrary, possibly adversarial, data) against one commitment with different claims for
one position yield a collision of the node hash, found among the inputs on which the two runs of `verify` called the
node hash.  `verifyTrace` is `verify` returning these inputs (`C32_trace`). -/
theorem C32_binding (p₁ p₂ : Proof α) (hc : p₁.commitment = p₂.commitment) (claims₁ claims₂ : List (Nat × α))
    (tr₁ tr₂ : List (α × α)) (h₁ : verifyTrace H p₁ claims₁ = .ok tr₁) (h₂ : verifyTrace H p₂ claims₂ = .ok tr₂)
    (i : Nat) (x₁ x₂ : α) (m₁ : (i, x₁) ∈ claims₁) (m₂ : (i, x₂) ∈ claims₂) (hne : x₁ ≠ x₂) :
    ∃ u ∈ tr₁, ∃ v ∈ tr₂, u ≠ v ∧ H u.1 u.2 = H v.1 v.2 := by
  have a1 := verifyTrace_auth H p₁ claims₁ tr₁ h₁ _ m₁
  have a2 := verifyTrace_auth H p₂ claims₂ tr₂ h₂ _ m₂
  rw [← hc] at a2
  exact a1.binding H a2 hne

theorem C32_trace (p : Proof α) (claims : List (Nat × α)) :
    verify H p claims = .ok () ↔ ∃ tr, verifyTrace H p claims = .ok tr := by
  unfold verify
  cases verifyTrace H p claims with
  | error e => simp [Except.map]
  | ok tr => simp [Except.map]

/-- C32: If a proof against the commitment of a tree is accepted with a wrong leaf, then a collision of the node hash is among
the inputs on which `verify` called it: `tr` in checking this proof, `tr'` in checking the opening of the tree at the position. -/
theorem C32_tree (zero : α) (leaves : List α) (t : Merkle.Tree α) (skip : Nat)
    (ht : from_leaves_skip_layers H zero leaves skip = .ok t) (p : Proof α) (hc : p.commitment = t.commitment)
    (claims : List (Nat × α)) (h : verify H p claims = .ok ()) (c : Nat × α) (hcm : c ∈ claims) (hne : leaves[c.1]? ≠ some c.2) :
    ∃ leaf tr p' tr', leaves[c.1]? = some leaf ∧ verifyTrace H p claims = .ok tr ∧ openAt H t [c.1] = .ok p' ∧ verifyTrace H p' [(c.1, leaf)] = .ok tr' ∧
      ∃ u ∈ tr, ∃ v ∈ tr', u ≠ v ∧ H u.1 u.2 = H v.1 v.2 := by
  obtain ⟨tr, htr⟩ := (C32_trace H p claims).1 h
  -- the position is in range and the size a power of two
  have hrange : ∃ k, k ≤ 63 ∧ t.commitment.size = 2 ^ k ∧ c.1 < 2 ^ k := by
    unfold verifyTrace at htr
    obtain ⟨nodes, h1, _⟩ := bind_ok_inv htr
    unfold leafNodes at h1
    obtain ⟨ns, h3, _⟩ := map_ok_inv h1
    have hf := mapM_ok_inv _ _ _ h3
    obtain ⟨j, hj, rfl⟩ := List.getElem_of_mem hcm
    have := (List.forall₂_iff_get.1 hf).2 j hj (by rw [← hf.length_eq]; exact hj)
    obtain ⟨z, hz, _⟩ := map_ok_inv this
    obtain ⟨k, hk, hs, ho, _⟩ := (from_size_offset_iff _ _ _).1 hz
    rw [hc] at hs ho
    rw [hs] at ho
    exact ⟨k, hk, hs, ho⟩
  obtain ⟨k, hk, hs, hlt⟩ := hrange
  have hlen : leaves.length = 2 ^ k := by
    have hsz : t.commitment.size = leaves.length := by
      unfold from_leaves_skip_layers at ht
      dsimp only at ht
      have hfs : ∀ (n : Nat) (x : α) c', from_size_hash n x = .ok c' → c'.size = n := by
        intro n x c' h
        unfold from_size_hash at h
        split at h
        · cases h; rfl
        · cases h
      split at ht
      · obtain ⟨c', e, rfl⟩ := map_ok_inv ht
        exact hfs _ _ _ e
      · split at ht
        · cases ht
        · split at ht
          · cases ht
          · obtain ⟨_, _, e⟩ := bind_ok_inv ht
            obtain ⟨_, _, e⟩ := bind_ok_inv e
            obtain ⟨c', e', rfl⟩ := map_ok_inv e
            exact hfs _ _ _ e'
    rw [← hsz, hs]
  obtain ⟨leaf, hleaf⟩ := leaf_fun hlen
  rw [hleaf _ hlt, Ne, Option.some.injEq] at hne
  obtain ⟨t', p', ht', ho, hpc', hv', _⟩ := C30_open_verify H zero leaves k hk hlen skip [c.1] [(c.1, leaf c.1)]
    (by intro i; simp [eq_comm]) (by
      intro d hd
      rw [List.mem_singleton] at hd
      subst hd
      exact hleaf _ hlt)
  rw [ht] at ht'
  cases ht'
  obtain ⟨tr', htr'⟩ := (C32_trace H p' _).1 hv'
  obtain ⟨u, hu, v, hv, huv, he⟩ := C32_binding H p p' (by rw [hpc', hc]) _ _ tr tr' htr htr' c.1 c.2 (leaf c.1) hcm (by simp) (Ne.symm hne)
  exact ⟨leaf c.1, tr, p', tr', hleaf _ hlt, htr, ho, htr', u, hu, v, hv, huv, he⟩

/-- C32: in particular, with a collision-free node hash, `verify` accepts only the true leaves of a tree. -/
theorem C32_collision_free (hH : ∀ a b c d, H a b = H c d → a = c ∧ b = d) (zero : α) (leaves : List α) (t : Merkle.Tree α) (skip : Nat)
    (ht : from_leaves_skip_layers H zero leaves skip = .ok t) (p : Proof α) (hc : p.commitment = t.commitment)
    (claims : List (Nat × α)) (h : verify H p claims = .ok ()) :
    ∀ c ∈ claims, leaves[c.1]? = some c.2 := by
  intro c hcm
  by_contra hne
  obtain ⟨_, _, _, _, _, _, _, _, u, _, v, _, huv, he⟩ := C32_tree H zero leaves t skip ht p hc claims h c hcm hne
  obtain ⟨e1, e2⟩ := hH _ _ _ _ he
  exact huv (Prod.ext e1 e2)

end

-- two accepted proofs with different claims: for a node hash with a collision
example : ∃ tr₁ tr₂, verifyTrace (fun a b : Nat => a + b) ⟨⟨2, 3⟩, [0], [2]⟩ [(0, 1)] = .ok tr₁ ∧
    verifyTrace (fun a b : Nat => a + b) ⟨⟨2, 3⟩, [0], [3]⟩ [(0, 0)] = .ok tr₂ ∧ tr₁ = [(1, 2)] ∧ tr₂ = [(0, 3)] :=
  ⟨_, _, rfl, rfl, rfl, rfl⟩

-- a wrong leaf accepted against the commitment of a tree
example : ∃ t, from_leaves_skip_layers (fun a b : Nat => a + b) 0 [1, 2] 0 = .ok t ∧
    verify (fun a b : Nat => a + b) ⟨t.commitment, [0], [3]⟩ [(0, 0)] = .ok () ∧ [1, 2][0]? ≠ some 0 := ⟨_, rfl, rfl, by simp⟩

/-! ## C33: skipped layers -/

section
variable {α : Type} [DecidableEq α] (H : α → α → α) (zero : α)

/-- C33: Trees built with different numbers of skipped layers have the same commitment (or fail with the same error)
and give the same result for every opening (including errors). -/
theorem C33_skip_layers (leaves : List α) (skip₁ skip₂ : Nat) :
    (from_leaves_skip_layers H zero leaves skip₁).map (·.commitment) =
      (from_leaves_skip_layers H zero leaves skip₂).map (·.commitment) ∧
    ∀ t₁ t₂, from_leaves_skip_layers H zero leaves skip₁ = .ok t₁ → from_leaves_skip_layers H zero leaves skip₂ = .ok t₂ →
      ∀ indices, openAt H t₁ indices = openAt H t₂ indices := by
  by_cases h0 : leaves = []
  · subst h0
    refine ⟨rfl, ?_⟩
    intro t₁ t₂ h1 h2
    have e : ∀ skip, from_leaves_skip_layers H zero [] skip = .ok ⟨⟨0, zero⟩, [], []⟩ := fun _ => rfl
    rw [e] at h1 h2
    cases h1; cases h2
    intro _; rfl
  · by_cases hp : isPow2 leaves.length = true
    · obtain ⟨k, hlen⟩ := (isPow2_iff _).1 hp
      by_cases hk : k ≤ 63
      · obtain ⟨leaf, hleaf⟩ := leaf_fun hlen
        obtain ⟨t₁, e1, l1, c1, n1, _⟩ := from_leaves_eq H zero hk hlen hleaf skip₁
        obtain ⟨t₂, e2, l2, c2, n2, _⟩ := from_leaves_eq H zero hk hlen hleaf skip₂
        rw [e1, e2]
        refine ⟨by simp only [Except.map]; rw [c1, c2], ?_⟩
        intro u₁ u₂ h1 h2
        cases h1; cases h2
        intro indices
        unfold openAt
        rw [c1, c2]
        cases hs : sort_indices (⟨2 ^ k, nodeAt H leaf k 1⟩ : Commitment α) indices with
        | error e => rfl
        | ok s =>
          simp only [Except.bind]
          rw [openLoop_congr H t₁ t₂ (k := k) (fun i h1 h2 => by
            rw [node_hash_fuel hk hlen hleaf l1 n1 i h1 h2, node_hash_fuel hk hlen hleaf l2 n2 i h1 h2])]
          -- the sorted indices are nodes of the last level
          unfold sort_indices at hs
          obtain ⟨is, h3, rfl⟩ := map_ok_inv hs
          have hf := mapM_ok_inv _ _ _ h3
          intro x hx
          rw [(sort_dedup_spec is).2] at hx
          obtain ⟨j, hj, rfl⟩ := List.getElem_of_mem hx
          have := (List.forall₂_iff_get.1 hf).2 j (by rw [hf.length_eq]; exact hj) hj
          obtain ⟨k', hk', hs', ho', e⟩ := (from_size_offset_iff _ _ _).1 this
          simp only [List.get_eq_getElem] at e ho'
          have hpos : 0 < 2 ^ k := by positivity
          rw [e]
          exact ⟨by omega, (log_level ho').le⟩
      · have : ∀ skip, from_leaves_skip_layers H zero leaves skip = .error .TreeToLarge := by
          intro skip
          unfold from_leaves_skip_layers
          dsimp only
          rw [if_neg (by simpa using h0), hp, if_neg (by simp), if_pos]
          unfold Index.max_size
          rw [hlen, Nat.pow_le_pow_iff_right (by norm_num)]
          exact hk
        rw [this, this]
        exact ⟨rfl, fun _ _ h => by cases h⟩
    · have : ∀ skip, from_leaves_skip_layers H zero leaves skip = .error .NumLeavesNotPowerOfTwo := by
        intro skip
        unfold from_leaves_skip_layers
        dsimp only
        rw [if_neg (by simpa using h0), if_pos (by simpa using hp)]
      rw [this, this]
      exact ⟨rfl, fun _ _ h => by cases h⟩

/-- C33: and the commitment is the root of the tree of hashes of the leaves, computed recursively. -/
theorem C33_root (leaves : List α) (leaf : Nat → α) (k : Nat) (hk : k ≤ 63) (hlen : leaves.length = 2 ^ k)
    (hleaf : ∀ o, o < 2 ^ k → leaves[o]? = some (leaf o)) (skip : Nat) :
    ∃ t, from_leaves_skip_layers H zero leaves skip = .ok t ∧ t.commitment = ⟨2 ^ k, subtree H leaf k 0⟩ ∧
      t.nodes.length = 2 ^ (k + 1 - skip) - 1 := by
  obtain ⟨t, e, _, c, _, l⟩ := from_leaves_eq H zero hk hlen hleaf skip
  exact ⟨t, e, by rw [c, nodeAt_root], l⟩

end

example : ∀ s < 5, (from_leaves_skip_layers (fun a b => 10 * a + b) 0 [1, 2, 3, 4] s).map (fun t => (t.commitment.hash, t.nodes)) =
    .ok (154, [[154, 12, 34, 1, 2, 3, 4], [154, 12, 34], [154], [], []][s]!) := by
  intro s hs
  interval_cases s <;> rfl

end Props
end OpenZKP
