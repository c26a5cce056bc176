import Verif.Merkle.Layers
import Verif.Props.Merkle

/-!
# C29: layers and concatenation of node positions
-/

namespace OpenZKP
namespace Props
open Merkle

/-- `n` calls of `next`: the items, and the iterator afterwards -/
def nextTimes : Nat → Index.LayerIter → Except Error (List (Option Nat) × Index.LayerIter)
  | 0, s => .ok ([], s)
  | n + 1, s => s.next.bind fun r => (nextTimes n r.2).map fun t => (r.1 :: t.1, t.2)

/-- C29 (layers): the iterator over the layer at a depth yields its nodes from left to right, each once, and
then stays at the end; for a depth of 64 or more the call overflows. -/
theorem C29_iter_layer (d : Nat) :
    (d ≤ 63 → ∃ s, Index.iter_layer d = some s ∧
      ∀ n, ∃ items s', nextTimes n s = .ok (items, s') ∧ items.length = n ∧
        ∀ (k : Nat) (h : k < items.length),
          (k < 2 ^ d → ∃ i, items[k] = some i ∧ IsNode i d k) ∧ (2 ^ d ≤ k → items[k] = none)) ∧
    (64 ≤ d → Index.iter_layer d = none) := by
  refine ⟨fun hd => ?_, fun hd => by rw [Index.iter_layer, if_neg (by omega)]⟩
  refine ⟨⟨2 ^ d, 0⟩, by rw [Index.iter_layer, if_pos (by omega)], ?_⟩
  have step : ∀ n o, o ≤ 2 ^ d → ∃ items s', nextTimes n ⟨2 ^ d, o⟩ = .ok (items, s') ∧ items.length = n ∧
      ∀ (k : Nat) (h : k < items.length),
        (o + k < 2 ^ d → ∃ i, items[k] = some i ∧ IsNode i d (o + k)) ∧ (2 ^ d ≤ o + k → items[k] = none) := by
    intro n
    induction n with
    | zero => intro o _; exact ⟨[], _, rfl, rfl, fun k h => absurd h (by simp)⟩
    | succ n ih =>
      intro o ho
      rw [nextTimes, Index.LayerIter.next]
      dsimp only
      by_cases hlt : o < 2 ^ d
      · rw [if_pos hlt]
        rw [from_size_offset_ok hd hlt]
        obtain ⟨items, s', e, hl, hk⟩ := ih (o + 1) (by omega)
        refine ⟨some (2 ^ d + o) :: items, s', ?_, by simp [hl], ?_⟩
        · simp only [Except.map, Except.bind, e]
        · intro k h
          cases k with
          | zero => exact ⟨fun _ => ⟨_, rfl, isNode_iff.2 ⟨hd, hlt, rfl⟩⟩, fun h2 => absurd h2 (by omega)⟩
          | succ k =>
            have := hk k (by simpa using h)
            rw [show o + 1 + k = o + (k + 1) by omega] at this
            simpa using this
      · rw [if_neg hlt]
        obtain ⟨items, s', e, hl, hk⟩ := ih o ho
        refine ⟨none :: items, s', ?_, by simp [hl], ?_⟩
        · simp only [Except.map, Except.bind, e]
        · intro k h
          refine ⟨fun h2 => absurd h2 (by omega), fun _ => ?_⟩
          cases k with
          | zero => rfl
          | succ k =>
            rw [List.getElem_cons_succ]
            exact (hk k (by simpa using h)).2 (by omega)
  intro n
  obtain ⟨items, s', e, hl, hk⟩ := step n 0 (Nat.zero_le _)
  refine ⟨items, s', e, hl, fun k h => ?_⟩
  have := hk k h
  rwa [Nat.zero_add] at this

/-- C29 (layers): the array positions of the layer at a depth are exactly those between the two ends of
`layer_range`; `from_index` gives the node at an array position. -/
theorem C29_layer_range (d : Nat) (hd : d ≤ 63) :
    ∃ a b, Index.layer_range d = .ok (a, b) ∧
      ∀ n, (a ≤ n ∧ n ≤ b) ↔ ∃ i o, Index.from_index n = some i ∧ Index.as_index i = n ∧ IsNode i d o := by
  have hp : 0 < 2 ^ d := by positivity
  have h63 : (2 : Nat) ^ d ≤ 2 ^ 63 := Nat.pow_le_pow_right (by norm_num) hd
  refine ⟨2 ^ d - 1, 2 ^ d + (2 ^ d - 1) - 1, ?_, ?_⟩
  · unfold Index.layer_range Index.from_depth_offset Index.size_at_depth
    rw [if_pos (by omega), from_size_offset_ok hd hp, from_size_offset_ok hd (show 2 ^ d - 1 < 2 ^ d by omega)]
    rfl
  · intro n
    unfold Index.from_index
    constructor
    · rintro ⟨h1, h2⟩
      refine ⟨n + 1, n + 1 - 2 ^ d, by rw [if_pos (by omega)], rfl, isNode_iff.2 ⟨hd, by omega, by omega⟩⟩
    · rintro ⟨i, o, e, -, h⟩
      obtain ⟨_, ho, hi⟩ := isNode_iff.1 h
      by_cases hn : n + 1 < 2 ^ 64
      · rw [if_pos hn, Option.some.injEq] at e
        omega
      · rw [if_neg hn] at e; simp at e

theorem or_low (a p e : Nat) (h : p < 2 ^ e) : (a * 2 ^ e) ||| p = a * 2 ^ e + p := by
  rw [← Nat.shiftLeft_eq, Nat.shiftLeft_add_eq_or_of_lt h]

theorem xor_top (p e : Nat) (h : p < 2 ^ e) : (2 ^ e + p) ^^^ 2 ^ e = p := by
  have e1 : 2 ^ e + p = 2 ^ e ^^^ p := by
    have := or_low 1 p e h
    rw [one_mul] at this
    rw [← this]
    apply Nat.eq_of_testBit_eq
    intro i
    rw [Nat.testBit_or, Nat.testBit_xor, Nat.testBit_two_pow]
    by_cases hi : e = i
    · subst hi
      rw [Nat.testBit_lt_two_pow h]; simp
    · simp [hi]
  rw [e1, Nat.xor_comm, ← Nat.xor_assoc, Nat.xor_self, Nat.zero_xor]

/-- C29 (concatenation; partial): if the tree has room for it, `concat` follows the path of the second node
below the first: the depths add up, and the offset is that of the path.  Missing: nodes too deep, for which the
code is wrong (`C29_concat_violated`). -/
theorem C29_concat_partial {i j d e o p : Nat} (hi : IsNode i d o) (hj : IsNode j e p) (hde : d + e ≤ 63) :
    IsNode (Index.concat i j) (d + e) (o * 2 ^ e + p) := by
  have hdj := hj.depth
  obtain ⟨hd, ho, rfl⟩ := isNode_iff.1 hi
  obtain ⟨he, hp, rfl⟩ := isNode_iff.1 hj
  have hlt : (2 ^ d + o) * 2 ^ e < 2 ^ 64 := by
    have h1 : 2 ^ d + o < 2 ^ (d + 1) := by rw [pow_succ]; omega
    calc (2 ^ d + o) * 2 ^ e < 2 ^ (d + 1) * 2 ^ e := by
          apply Nat.mul_lt_mul_of_pos_right h1; positivity
      _ = 2 ^ (d + 1 + e) := by rw [← pow_add]
      _ ≤ 2 ^ 64 := Nat.pow_le_pow_right (by norm_num) (by omega)
  have ec : Index.concat (2 ^ d + o) (2 ^ e + p) = 2 ^ (d + e) + (o * 2 ^ e + p) := by
    unfold Index.concat
    dsimp only
    rw [hdj, Nat.mod_eq_of_lt hlt, xor_top p e hp, or_low _ p e hp, pow_add]
    ring
  rw [ec]
  refine isNode_iff.2 ⟨hde, ?_, rfl⟩
  have : o * 2 ^ e + p < (o + 1) * 2 ^ e := by rw [Nat.add_mul]; omega
  refine lt_of_lt_of_le this ?_
  rw [pow_add]
  exact Nat.mul_le_mul_right _ (by omega)

/-- C29 (concatenation): the root changes nothing on either side, and going to a child and then on is
concatenation with the rest of the path. -/
theorem C29_concat_root {i d o : Nat} (hi : IsNode i d o) :
    Index.concat Index.root i = i ∧ Index.concat i Index.root = i ∧
    (d < 63 → Index.concat i (Index.left_child Index.root) = Index.left_child i ∧
      Index.concat i (Index.right_child Index.root) = Index.right_child i) := by
  have hr : IsNode Index.root 0 0 := isNode_iff.2 ⟨by omega, by norm_num, rfl⟩
  have uniq : ∀ {a b d o}, IsNode a d o → IsNode b d o → a = b := fun h h' =>
    (isNode_iff.1 h).2.2.trans (isNode_iff.1 h').2.2.symm
  have hd := (isNode_iff.1 hi).1
  refine ⟨?_, ?_, fun h => ⟨?_, ?_⟩⟩
  · have := C29_concat_partial hr hi (by omega)
    simp only [Nat.zero_add, Nat.zero_mul] at this
    exact uniq this hi
  · have := C29_concat_partial hi hr (by omega)
    simp only [Nat.add_zero, pow_zero, Nat.mul_one] at this
    exact uniq this hi
  · have hl : IsNode (Index.left_child Index.root) 1 0 := isNode_iff.2 ⟨by omega, by norm_num, by decide⟩
    have h1 := C29_concat_partial hi hl (by omega)
    have h2 := (C29_children hi h).1
    refine uniq h1 ?_
    simpa [Nat.mul_comm] using h2
  · have hl : IsNode (Index.right_child Index.root) 1 1 := isNode_iff.2 ⟨by omega, by norm_num, by decide⟩
    have h1 := C29_concat_partial hi hl (by omega)
    have h2 := (C29_children hi h).2.1
    refine uniq h1 ?_
    simpa [Nat.mul_comm] using h2

/-- C29 violated (concatenation): below the deepest layer the result is a node of another place, or no node
at all, without a panic. -/
theorem C29_concat_violated :
    IsNode (2 ^ 63) 63 0 ∧ IsNode 2 1 0 ∧ Index.concat (2 ^ 63) 2 = 0 ∧
    IsNode (2 ^ 63 + 1) 63 1 ∧ IsNode 3 1 1 ∧ IsNode (Index.concat (2 ^ 63 + 1) 3) 1 1 := by
  refine ⟨isNode_iff.2 ⟨by omega, by norm_num, rfl⟩, isNode_iff.2 ⟨by omega, by norm_num, rfl⟩, by decide +kernel,
    isNode_iff.2 ⟨by omega, by norm_num, rfl⟩, isNode_iff.2 ⟨by omega, by norm_num, rfl⟩, ?_⟩
  rw [show Index.concat (2 ^ 63 + 1) 3 = 3 by decide +kernel]
  exact isNode_iff.2 ⟨by omega, by norm_num, rfl⟩

/-- Instances: node 1 of layer 2 below node 2 of layer 3 is node 9 of layer 5; the positions of layer 3. -/
example : IsNode 10 3 2 ∧ IsNode 5 2 1 ∧ IsNode (Index.concat 10 5) 5 9 ∧
    Index.layer_range 3 = .ok (7, 14) := by
  have h1 : IsNode 10 3 2 := isNode_iff.2 ⟨by omega, by norm_num, rfl⟩
  have h2 : IsNode 5 2 1 := isNode_iff.2 ⟨by omega, by norm_num, rfl⟩
  exact ⟨h1, h2, C29_concat_partial h1 h2 (by omega), by rfl⟩

end Props
end OpenZKP
