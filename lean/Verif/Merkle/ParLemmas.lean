import Verif.Merkle.Par
import Verif.Merkle.TreeLemmas
import Verif.Par.Frame

namespace OpenZKP
namespace Merkle
open Par

variable {α : Type}

/-- a parallel loop in which task `i` writes one cell, `start + i`, having read only cells that no task writes -/
theorem always_cells (n start : Nat) (body : Nat → Prog Nat α Unit) (R : Nat → Prop) (m : Nat → α) (x : Nat → α) (hR : ∀ a, R a → ¬ (start ≤ a ∧ a < start + n))
    (huses : ∀ i < n, (body i).Uses (fun a => a = start + i) R)
    (hrun : ∀ i < n, (body i).run m = some ((), fun a => if a = start + i then x a else m a)) :
    Always n body m fun a => if start ≤ a ∧ a < start + n then x a else m a := by
  refine always_of_disjoint n body (fun i a => i < n ∧ a = start + i) R m _ ?_ ?_ ?_ ?_ ?_
  · rintro i j hij a ⟨_, h1⟩ ⟨_, h2⟩; omega
  · rintro i a h1 ⟨h2, h3⟩; exact hR a h1 (by omega)
  · intro i hi
    rw [show (fun a => i < n ∧ a = start + i) = fun a => a = start + i from funext fun a => propext ⟨fun h => h.2, fun h => ⟨hi, h⟩⟩]
    exact huses i hi
  · intro i hi
    refine ⟨_, hrun i hi, ?_⟩
    rintro a ⟨_, h⟩
    rw [if_pos h, if_pos (by omega)]
  · intro a ha
    rw [if_neg]
    rintro ⟨h1, h2⟩
    exact ha (a - start) (by omega) ⟨by omega, by omega⟩

theorem layer_range_eq {d : Nat} (hd : d ≤ 63) : Index.layer_range d = .ok (2 ^ d - 1, 2 ^ (d + 1) - 2) := by
  have hp : 0 < 2 ^ d := by positivity
  unfold Index.layer_range Index.from_depth_offset Index.size_at_depth
  rw [if_pos (by omega), from_size_offset_ok hd hp, from_size_offset_ok hd (show 2 ^ d - 1 < 2 ^ d by omega)]
  unfold Index.as_index
  have e : 2 ^ (d + 1) - 2 = 2 ^ d + (2 ^ d - 1) - 1 := by rw [pow_succ]; omega
  rw [e]
  rfl

theorem uses_ofOption {A α β : Type} {W R : A → Prop} (o : Option β) : (Prog.ofOption o : Prog A α β).Uses W R := by cases o <;> trivial

section
variable (H : α → α → α) (zero : α) {leaves : List α} {leaf : Nat → α} {k : Nat} (hk : k ≤ 63) (hlen : leaves.length = 2 ^ k)
  (hleaf : ∀ o, o < 2 ^ k → leaves[o]? = some (leaf o))

/-- the array with the layers from depth `d` to depth `D` filled in -/
def filled (k D d : Nat) (leaf : Nat → α) : Nat → α := fun a => if 2 ^ d - 1 ≤ a ∧ a < 2 ^ (D + 1) - 1 then nodeAt H leaf k (a + 1) else zero

include hk hlen hleaf in
theorem leaf_layer_always (D : Nat) (hD : D ≤ k) : Always (2 ^ D) (leafTask H leaves D (2 ^ D - 1)) (fun _ => zero) (filled H zero k D D leaf) := by
  have hp : 0 < 2 ^ D := by positivity
  have := always_cells (2 ^ D) (2 ^ D - 1) (leafTask H leaves D (2 ^ D - 1)) (fun _ => False) (fun _ => zero) (fun a => nodeAt H leaf k (a + 1)) (fun _ h => h.elim) ?_ ?_
  · convert this using 1
    unfold filled
    funext a
    rw [pow_succ]
    refine if_congr ?_ rfl rfl
    omega
  · intro i _
    exact Prog.uses_bind _ _ (uses_ofOption _) fun _ => Prog.uses_set _ _ _ _ fun _ _ => rfl
  · intro i hi
    unfold leafTask Index.from_depth_offset Index.size_at_depth
    rw [from_size_offset_ok (by omega) hi]
    have hlog := log_level hi
    have hc := compute_eq H hk hlen hleaf 65 (2 ^ D + i) (by omega) (by rw [hlog]; exact hD) (by omega)
    simp only [Except.bind, hc, Except.toOption, Prog.ofOption, Prog.run_bind, Prog.run, Option.bind_some]
    unfold Prog.set
    rw [if_pos (by norm_num)]
    simp only [Prog.run]
    congr 2
    funext a
    by_cases h : a = 2 ^ D - 1 + i
    · rw [if_pos h, if_pos h, h]
      congr 1; omega
    · rw [if_neg h, if_neg h]

theorem upper_layer_always (D d : Nat) (hD : D ≤ k) (hd : d < D) :
    Always (2 ^ d) (upperTask H (2 ^ (D + 1) - 1) (2 ^ (d + 1) - 1) (2 ^ d - 1)) (filled H zero k D (d + 1) leaf) (filled H zero k D d leaf) := by
  have hp : 0 < 2 ^ d := by positivity
  have e1 : 2 ^ (d + 1) = 2 * 2 ^ d := by ring
  have hle : 2 ^ (d + 1 + 1) ≤ 2 ^ (D + 1) := Nat.pow_le_pow_right (by norm_num) (by omega)
  have e2 : 2 ^ (d + 1 + 1) = 2 * 2 ^ (d + 1) := by ring
  have := always_cells (2 ^ d) (2 ^ d - 1) (upperTask H (2 ^ (D + 1) - 1) (2 ^ (d + 1) - 1) (2 ^ d - 1)) (fun a => 2 ^ (d + 1) - 1 ≤ a) (filled H zero k D (d + 1) leaf)
    (fun a => nodeAt H leaf k (a + 1)) (fun a h => by omega) ?_ ?_
  · convert this using 1
    funext a
    unfold filled
    by_cases h : 2 ^ d - 1 ≤ a ∧ a < 2 ^ d - 1 + 2 ^ d
    · rw [if_pos h, if_pos (by omega)]
    · rw [if_neg h]
      refine if_congr ?_ rfl rfl
      omega
  · intro i _
    have g : ∀ j, (Prog.get (α := α) (fun j => 2 ^ (d + 1) - 1 + j) (2 ^ (D + 1) - 1 - (2 ^ (d + 1) - 1)) j).Uses (fun a => a = 2 ^ d - 1 + i) (fun a => 2 ^ (d + 1) - 1 ≤ a) :=
      fun j => Prog.uses_get _ _ _ fun j _ => Or.inr (by omega)
    exact Prog.uses_bind _ _ (g _) fun _ => Prog.uses_bind _ _ (g _) fun _ => Prog.uses_set _ _ _ _ fun _ _ => rfl
  · intro i hi
    have hor : i <<< 1 ||| 1 = 2 * i + 1 := by
      have := (Nat.two_pow_add_eq_or_of_lt (i := 1) (b := 1) (by norm_num) i).symm
      rw [Nat.shiftLeft_eq, pow_one, Nat.mul_comm]
      rw [pow_one] at this
      exact this
    have hsh : i <<< 1 = 2 * i := by rw [Nat.shiftLeft_eq, pow_one, Nat.mul_comm]
    unfold upperTask
    rw [hor, hsh]
    unfold Prog.get Prog.set
    rw [if_pos (by omega), if_pos (by omega)]
    simp only [if_pos (show 0 < 1 by norm_num), Prog.run_bind, Prog.run, Option.bind_some]
    congr 2
    funext a
    by_cases h : a = 2 ^ d - 1 + i
    · rw [if_pos h, if_pos h, h]
      unfold filled
      rw [if_pos (by omega), if_pos (by omega), show 2 ^ d - 1 + i + 1 = 2 ^ d + i by omega,
        nodeAt_step H leaf (p := 2 ^ d + i) (by omega) (by rw [log_level hi]; omega)]
      congr 2 <;> omega
    · rw [if_neg h, if_neg h]

theorem upper_layers_always (D : Nat) (hD : D ≤ k) (hk : k ≤ 63) (d : Nat) (hd : d ≤ D) (m' : Nat → α) :
    UpperLayersAlways H (2 ^ (D + 1) - 1) d (filled H zero k D d leaf) m' ↔ m' = filled H zero k D 0 leaf := by
  induction d generalizing m' with
  | zero => exact Iff.rfl
  | succ d ih =>
    have hp : 0 < 2 ^ d := by positivity
    have e1 : 2 ^ (d + 1) = 2 * 2 ^ d := by ring
    have hle : 2 ^ (d + 1 + 1) ≤ 2 ^ (D + 1) := Nat.pow_le_pow_right (by norm_num) (by omega)
    have e2 : 2 ^ (d + 1 + 1) = 2 * 2 ^ (d + 1) := by ring
    have hidx : Index.from_depth_offset (d + 1) 0 = .ok (2 ^ (d + 1) + 0) := by
      unfold Index.from_depth_offset Index.size_at_depth
      exact from_size_offset_ok (by omega) (by positivity)
    have hlast : 2 ^ (d + 1) - 2 - (2 ^ d - 1) + 1 = 2 ^ d := by omega
    have hup := upper_layer_always H zero (leaf := leaf) D d hD (by omega)
    unfold UpperLayersAlways
    constructor
    · rintro ⟨index, first, last, m1, h1, h2, h3, h4, h5, h6⟩
      rw [hidx] at h1; cases h1
      rw [layer_range_eq (by omega)] at h3; cases h3
      rw [hlast] at h5
      rw [always_unique h5 hup, ih (by omega)] at h6
      exact h6
    · intro h
      refine ⟨_, _, _, filled H zero k D d leaf, hidx, ?_, layer_range_eq (by omega), ?_, ?_, (ih (by omega) m').2 h⟩
      · unfold Index.as_index; omega
      · unfold Index.as_index; omega
      · rw [hlast]; exact hup

include hk hlen hleaf in
theorem nodes_always (skip : Nat) (hskip : skip ≤ k) (nodesLen : Nat) (m' : Nat → α) :
    NodesAlways H zero leaves skip nodesLen m' ↔ nodesLen = 2 ^ (k - skip + 1) - 1 ∧ m' = filled H zero k (k - skip) 0 leaf := by
  have hp : 0 < 2 ^ (k - skip) := by positivity
  have hidx : Index.from_depth_offset (k - skip) (2 ^ (k - skip) - 1) = .ok (2 ^ (k - skip) + (2 ^ (k - skip) - 1)) := by
    unfold Index.from_depth_offset Index.size_at_depth
    exact from_size_offset_ok (by omega) (by omega)
  have e1 : 2 ^ (k - skip + 1) = 2 * 2 ^ (k - skip) := by ring
  have hlast : 2 ^ (k - skip + 1) - 2 - (2 ^ (k - skip) - 1) + 1 = 2 ^ (k - skip) := by omega
  have hl := leaf_layer_always H zero hk hlen hleaf (k - skip) (by omega)
  have hn : Index.as_index (2 ^ (k - skip) + (2 ^ (k - skip) - 1)) + 1 = 2 ^ (k - skip + 1) - 1 := by unfold Index.as_index; omega
  unfold NodesAlways
  dsimp only
  rw [hlen, depth_for_size_two_pow k (by omega)]
  unfold Index.size_at_depth
  constructor
  · rintro ⟨index, first, last, m1, h1, h2, h3, h4, h5, h6⟩
    rw [hidx] at h1; cases h1
    rw [hn] at h2
    rw [layer_range_eq (by omega)] at h3; cases h3
    rw [hlast] at h5
    rw [always_unique h5 hl, h2, upper_layers_always H zero _ (by omega) hk _ le_rfl] at h6
    exact ⟨h2, h6⟩
  · rintro ⟨rfl, rfl⟩
    refine ⟨_, _, _, _, hidx, hn.symm, layer_range_eq (by omega), by omega, ?_, (upper_layers_always H zero _ (by omega) hk _ le_rfl _).2 rfl⟩
    rw [hlast]; exact hl
end

end Merkle
end OpenZKP
