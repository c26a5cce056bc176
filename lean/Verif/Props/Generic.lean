import Verif.Field.Generic
import Mathlib.Algebra.Field.Rat
import Mathlib.Algebra.BigOperators.Ring.List
import Mathlib.Tactic.FieldSimp
import Mathlib.Tactic.Ring
import Mathlib.Tactic.NormNum

/-!
# Properties C17 (batch inversion) and C18 (geometric series)
-/

namespace OpenZKP.Props
open OpenZKP

section
variable {F : Type} [Field F] [DecidableEq F]

theorem batchFwd_acc (l : List F) (acc : F) : (batchFwd l acc).2 = acc * l.prod := by
  induction l generalizing acc with
  | nil => simp [batchFwd]
  | cons x l ih => simp only [batchFwd, ih, List.prod_cons, mul_assoc]

theorem batchFwd_length (l : List F) (acc : F) : (batchFwd l acc).1.length = l.length := by
  induction l generalizing acc with
  | nil => rfl
  | cons x l ih => simp only [batchFwd, List.length_cons, ih]

theorem batch_run (l : List F) (hl : ∀ x ∈ l, x ≠ 0) (acc : F) (ha : acc ≠ 0) :
    batchBwd (l.zip (batchFwd l acc).1) (acc * l.prod)⁻¹ = (l.map fun x => x⁻¹, acc⁻¹) := by
  induction l generalizing acc with
  | nil => simp [batchBwd]
  | cons x l ih =>
    have hx : x ≠ 0 := hl x (by simp)
    have := ih (fun y hy => hl y (by simp [hy])) (acc * x) (mul_ne_zero ha hx)
    rw [List.prod_cons, ← mul_assoc]
    simp only [batchFwd, List.zip_cons_cons, batchBwd, this, List.map_cons]
    congr 1
    · congr 1; field_simp
    · field_simp

/-- C17: on a list without zeros the result is the list of inverses, in order; if an element is zero, the call
panics; so does a destination of the wrong length. -/
theorem C17_invert_batch (source : List F) :
    ((∀ x ∈ source, x ≠ 0) → invert_batch source = some (source.map fun x => x⁻¹)) ∧
    ((∃ x ∈ source, x = 0) → invert_batch source = none) ∧
    (∀ destination : List F, destination.length = source.length →
      invert_batch_src_dst source destination = invert_batch source) ∧
    (∀ destination : List F, destination.length ≠ source.length →
      invert_batch_src_dst source destination = none) := by
  have hlen : source.length = (List.replicate source.length (0 : F)).length := by simp
  refine ⟨fun h => ?_, fun h => ?_, fun d hd => ?_, fun d hd => ?_⟩
  · have hp : source.prod ≠ 0 := by
      intro hc
      rw [List.prod_eq_zero_iff] at hc
      exact h 0 hc rfl
    unfold invert_batch invert_batch_src_dst
    rw [if_neg (not_not.2 hlen)]
    dsimp only
    rw [batchFwd_acc, finv, if_neg (by rw [one_mul]; exact hp), Option.map_some, batch_run source h 1 one_ne_zero]
  · obtain ⟨x, hx, rfl⟩ := h
    unfold invert_batch invert_batch_src_dst
    rw [if_neg (not_not.2 hlen)]
    dsimp only
    rw [batchFwd_acc, finv, if_pos, Option.map_none]
    rw [one_mul, List.prod_eq_zero_iff]; exact hx
  · unfold invert_batch invert_batch_src_dst
    rw [if_neg (not_not.2 hd.symm), if_neg (not_not.2 hlen)]
  · unfold invert_batch_src_dst
    rw [if_pos (fun e => hd e.symm)]

end

example : invert_batch [(2 : ℚ), 3, 7] = some [1 / 2, 1 / 3, 1 / 7] := by
  have := (C17_invert_batch [(2 : ℚ), 3, 7]).1 (by simp)
  rw [this]; norm_num

section
variable {F : Type} [Field F]

/-- The items an iterator yields, in order. -/
def items (g : GeometricIter F) : List F := g.collect g.length

theorem collect_eq (fuel : Nat) (g : GeometricIter F) (h : g.length ≤ fuel) :
    g.collect fuel = (List.range g.length).map fun i => g.current * g.step ^ i := by
  induction fuel generalizing g with
  | zero =>
    have : g.length = 0 := by omega
    simp [GeometricIter.collect, this]
  | succ fuel ih =>
    obtain ⟨c, s, n⟩ := g
    dsimp only at h ⊢
    cases n with
    | zero => simp [GeometricIter.collect, GeometricIter.next]
    | succ n =>
      rw [GeometricIter.collect]
      simp only [GeometricIter.next, Nat.add_one_sub_one, if_neg (Nat.succ_ne_zero n)]
      rw [ih _ (by dsimp only; omega), List.range_succ_eq_map]
      simp only [List.map_cons, List.map_map, pow_zero, mul_one]
      congr 1
      apply List.map_congr_left
      intro i _
      simp only [Function.comp, Nat.succ_eq_add_one, pow_succ]
      ring

/-- C18: the `i`-th item is `base·step^i`, the iterator ends exactly after `length` items (more calls of `next`
yield nothing), `size_hint` is exact and `at` agrees with the items. -/
theorem C18_items (g : GeometricIter F) :
    (items g).length = g.length ∧ (∀ i, i < g.length → (items g)[i]? = some (g.current * g.step ^ i)) ∧
    (∀ extra, g.collect (g.length + extra) = items g) ∧
    g.size_hint = ((items g).length, some (items g).length) ∧
    (∀ i, i < g.length → (items g)[i]? = some (g.at' i)) := by
  have e : items g = (List.range g.length).map fun i => g.current * g.step ^ i := collect_eq _ _ (le_refl _)
  have hget : ∀ i, i < g.length → (items g)[i]? = some (g.current * g.step ^ i) := by
    intro i hi; rw [e]; simp [hi]
  refine ⟨by rw [e]; simp, hget, fun extra => ?_, ?_, hget⟩
  · rw [e]; exact collect_eq _ _ (by omega)
  · rw [e]; simp [GeometricIter.size_hint]

/-- C18: `take` keeps a prefix, and `skip` of at most `length` items drops a prefix, in both profiles. -/
theorem C18_take_skip (g : GeometricIter F) (n : Nat) (hl : g.length < 2 ^ 64) :
    items (g.take n) = (items g).take n ∧
    (n ≤ g.length → ∀ dbg, ∃ g', g.skip dbg n = some g' ∧ items g' = (items g).drop n) := by
  have e : ∀ g : GeometricIter F, items g = (List.range g.length).map fun i => g.current * g.step ^ i :=
    fun g => collect_eq _ _ (le_refl _)
  constructor
  · rw [e, e]
    simp only [GeometricIter.take, ← List.map_take]
    rw [List.take_range, Nat.min_comm]
  · intro hn dbg
    refine ⟨⟨g.current * g.step ^ n, g.step, g.length - n⟩, ?_, ?_⟩
    · unfold GeometricIter.skip
      rw [if_neg (by simp; intro _; exact hn)]
      congr 2
      rw [show g.length + (2 ^ 64 - n) = (g.length - n) + 2 ^ 64 by omega, Nat.add_mod_right,
        Nat.mod_eq_of_lt (by omega)]
    · rw [e, e]
      apply List.ext_getElem
      · simp
      · intro i h1 h2
        simp only [List.getElem_map, List.getElem_range, List.getElem_drop]
        rw [pow_add, mul_assoc]

/-- C18 (partial: the standard `step_by` also yields the item after the last full step when `k` does not divide
the length): `step_by(k)` yields `⌊length/k⌋` items, the `i`-th being item `k·i`. -/
theorem C18_step_by_partial (g : GeometricIter F) (k : Nat) (hk : 0 < k) :
    ∃ g', g.step_by k = some g' ∧ (items g').length = g.length / k ∧
      ∀ i, i < g.length / k → (items g')[i]? = (items g)[k * i]? := by
  refine ⟨⟨g.current, g.step ^ k, g.length / k⟩, if_pos hk, ?_, ?_⟩
  · rw [(C18_items _).1]
  · intro i hi
    rw [(C18_items (⟨g.current, g.step ^ k, g.length / k⟩ : GeometricIter F)).2.1 i hi, (C18_items g).2.1, pow_mul]
    calc k * i < k * (g.length / k) := Nat.mul_lt_mul_of_pos_left hi hk
      _ ≤ g.length := Nat.mul_div_le _ _

/-- C18: a step of zero panics, as the standard `step_by` does. -/
theorem C18_step_by_zero (g : GeometricIter F) : g.step_by 0 = none := rfl

/-- C18: `geometric_series(base, step)`, and the series of powers of a root of unity. -/
theorem C18_series (base step : F) (root : Nat → Option F) (order : Nat) (w : F) (hw : root order = some w)
    (ho : order < 2 ^ 64) :
    (∀ i, i < 2 ^ 64 - 1 → (geometric_series base step).at' i = base * step ^ i) ∧
    ∃ g, root_series root order = some g ∧ items g = (List.range order).map fun i => w ^ i := by
  refine ⟨fun i _ => rfl, (geometric_series 1 w).take order, by rw [root_series, hw]; rfl, ?_⟩
  have e : ∀ g : GeometricIter F, items g = (List.range g.length).map fun i => g.current * g.step ^ i :=
    fun g => collect_eq _ _ (le_refl _)
  rw [e]
  simp only [GeometricIter.take, geometric_series, one_mul]
  congr 2; omega

end

/-- C18 is false of `step_by` as an iterator adapter: three items stepped by two should give two items (the first
and the third), the code gives one. -/
theorem C18_step_by_violated : ∃ g : GeometricIter ℚ, (items g) = [1, 2, 4] ∧
    ∃ g', g.step_by 2 = some g' ∧ items g' = [1] := by
  refine ⟨⟨1, 2, 3⟩, ?_, ⟨1, 2 ^ 2, 1⟩, ?_, ?_⟩
  · norm_num [items, GeometricIter.collect, GeometricIter.next]
  · norm_num [GeometricIter.step_by]
  · norm_num [items, GeometricIter.collect, GeometricIter.next]

/-- C18 is false of `skip` past the end: it panics in the debug profile, and in release the iterator becomes
(almost) endless instead of empty. -/
theorem C18_skip_violated : ∃ g : GeometricIter ℚ, g.length = 1 ∧ g.skip true 2 = none ∧
    ∃ g', g.skip false 2 = some g' ∧ (items g').length = 2 ^ 64 - 1 := by
  refine ⟨⟨1, 2, 1⟩, rfl, rfl, ⟨1 * 2 ^ 2, 2, 2 ^ 64 - 1⟩, rfl, ?_⟩
  rw [(C18_items _).1]

end OpenZKP.Props
