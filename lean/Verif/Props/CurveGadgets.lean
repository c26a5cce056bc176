import Verif.Examples.GroupSig
import Verif.Examples.Rows
import Verif.EC.Concrete

/-!
# Property C98: the constraints for points, conditions and bits of the example group_sig

`value x tr e` is the value of an expression without divisions at `x` with the cells `tr` (Props/Trace.lean); a constraint holds where its value is zero.  The points of
the curve and their sum are Mathlib's (EC/Spec.lean).
-/

namespace OpenZKP
namespace Props
namespace CurveGadgets
open Stark EC Examples Examples.GroupSig WeierstrassCurve.Affine

section
variable {F : Type} [Field F] [DecidableEq F] {β : F}

/-! ## Lemmas -/

theorem value_exp (x : F) (tr : Nat → Int → F) (a : Expr F) (k : Nat) : value x tr (.Exp a k) = value x tr a ^ k := rfl

theorem slope_ne {x : F} (h : (curve β).Nonsingular x 0) : 3 * x ^ 2 + 1 ≠ 0 := by
  have := (nonsingular_iff' _ _).1 h
  simp only [c1, c2, c3, c4] at this
  obtain ⟨-, h1 | h1⟩ := this
  · intro e; apply h1; linear_combination -e
  · exact absurd (by ring) h1

theorem twice_ne (h2 : (2 : F) ≠ 0) {y : F} (hy : y ≠ 0) : y + y ≠ 0 := by
  intro e
  rcases mul_eq_zero.1 (show 2 * y = 0 by linear_combination e) with h | h
  · exact h2 h
  · exact hy h

/-- the doubling equations, cleared of denominators -/
theorem double_iff (h2 : (2 : F) ≠ 0) {x y u v : F} (h : (curve β).Nonsingular x y) :
    ((3 * x ^ 2 + 1) ^ 2 - (2 * y) ^ 2 * (2 * x + u) = 0 ∧ (3 * x ^ 2 + 1) * (x - u) - 2 * y * (y + v) = 0) ↔
    ofPoint (Point.some x y h + Point.some x y h) = .Point u v := by
  by_cases hy : y = 0
  · subst hy
    rw [double_zero_coords h, ofPoint_zero]
    constructor
    · rintro ⟨e, -⟩
      exact absurd (pow_eq_zero_iff (two_ne_zero)|>.1 (by linear_combination e)) (slope_ne h)
    · intro e; cases e
  · have hyy := twice_ne h2 hy
    have hm : (3 * x * x + 1) / (y + y) * (y + y) = 3 * x * x + 1 := div_mul_cancel₀ _ hyy
    rw [double_coords h hyy _ hm]
    generalize (3 * x * x + 1) / (y + y) = m at hm
    constructor
    · rintro ⟨e1, e2⟩
      have u1 : m * m - x - x = u := by
        apply mul_left_cancel₀ (pow_ne_zero 2 hyy)
        linear_combination e1 + (m * (y + y) + 3 * x * x + 1) * hm
      rw [u1]
      congr 1
      apply mul_left_cancel₀ hyy
      linear_combination e2 + (x - u) * hm
    · intro e
      injection e with e1 e2
      rw [e1] at e2
      subst e1 e2
      constructor
      · linear_combination (-(m * (y + y) + 3 * x * x + 1)) * hm
      · linear_combination (-(x - (m * m - x - x))) * hm

/-- the addition equations, cleared of denominators -/
theorem add_iff {x y x' y' u v : F} (h : (curve β).Nonsingular x y) (h' : (curve β).Nonsingular x' y') (hne : Point.some x y h ≠ Point.some x' y' h') :
    ((y' - y) ^ 2 - (x' - x) ^ 2 * (x + x' + u) = 0 ∧ (y' - y) * (x - u) - (x' - x) * (y + v) = 0) ↔
    ofPoint (Point.some x y h + Point.some x' y' h') = .Point u v := by
  by_cases hx : x = x'
  · subst hx
    have hy : y ≠ y' := by rintro rfl; exact hne rfl
    rw [(opposite h h' hy).2, ofPoint_zero]
    constructor
    · rintro ⟨e, -⟩
      exact absurd (sub_eq_zero.1 (pow_eq_zero_iff (two_ne_zero)|>.1 (show (y - y') ^ 2 = 0 by linear_combination e))) hy
    · intro e; cases e
  · have hd : x - x' ≠ 0 := sub_ne_zero.2 hx
    have hm : (y - y') / (x - x') * (x - x') = y - y' := div_mul_cancel₀ _ hd
    rw [add_coords h h' hx _ hm]
    generalize (y - y') / (x - x') = m at hm
    constructor
    · rintro ⟨e1, e2⟩
      have u1 : m * m - x - x' = u := by
        apply mul_left_cancel₀ (pow_ne_zero 2 hd)
        linear_combination e1 + (m * (x - x') + y - y') * hm
      rw [u1]
      congr 1
      apply mul_left_cancel₀ hd
      linear_combination -e2 + (x - u) * hm
    · intro e
      injection e with e1 e2
      rw [e1] at e2
      subst e1 e2
      constructor
      · linear_combination (-(m * (x - x') + y - y')) * hm
      · linear_combination (x - (m * m - x - x')) * hm

/-! ## C98: the constraints -/

/-- C98: the two constraints for doubling hold exactly when the output is the double of the input, for every point of the curve (if the double is the point at
infinity they hold for no output). -/
theorem C98_double (h2 : (2 : F) ≠ 0) (x : F) (tr : Nat → Int → F) (input_x input_y output_x output_y : Expr F)
    (h : (curve β).Nonsingular (value x tr input_x) (value x tr input_y)) :
    (value x tr (point_double input_x input_y output_x output_y).1 = 0 ∧ value x tr (point_double input_x input_y output_x output_y).2 = 0) ↔
    ofPoint (Point.some _ _ h + Point.some _ _ h) = .Point (value x tr output_x) (value x tr output_y) := by
  rw [← double_iff h2 h]
  simp only [point_double, value_sub, value_add, value_mul, value_exp, value_const]

/-- C98, **partial**: the two constraints for an addition hold exactly when the output is the sum of the inputs, for every two different points of the curve. -/
theorem C98_add_partial (x : F) (tr : Nat → Int → F) (x_p y_p x_q y_q x_out y_out : Expr F)
    (h : (curve β).Nonsingular (value x tr x_p) (value x tr y_p)) (h' : (curve β).Nonsingular (value x tr x_q) (value x tr y_q))
    (hne : Point.some _ _ h ≠ Point.some _ _ h') :
    (value x tr (point_add x_p y_p x_q y_q x_out y_out).1 = 0 ∧ value x tr (point_add x_p y_p x_q y_q x_out y_out).2 = 0) ↔
    ofPoint (Point.some _ _ h + Point.some _ _ h') = .Point (value x tr x_out) (value x tr y_out) := by
  rw [← add_iff h h' hne]
  simp only [point_add, value_sub, value_add, value_mul, value_exp]

/-- C98 is violated for an addition of a point to itself: the constraints hold for every output. -/
theorem C98_add_violated (x : F) (tr : Nat → Int → F) (x_p y_p x_q y_q x_out y_out : Expr F) (hx : value x tr x_p = value x tr x_q) (hy : value x tr y_p = value x tr y_q) :
    value x tr (point_add x_p y_p x_q y_q x_out y_out).1 = 0 ∧ value x tr (point_add x_p y_p x_q y_q x_out y_out).2 = 0 := by
  simp only [point_add, value_sub, value_add, value_mul, value_exp, hx, hy]
  constructor <;> ring

/-- C98: the constraints of a condition hold exactly when the test is 1 and the location is the first value, or the test is 0 and the location is the second. -/
theorem C98_conditional (x : F) (tr : Nat → Int → F) (a b location test : Expr F) :
    (value x tr (conditional a b location test).1 = 0 ∧ value x tr (conditional a b location test).2 = 0) ↔
    (value x tr test = 1 ∧ value x tr location = value x tr a) ∨ (value x tr test = 0 ∧ value x tr location = value x tr b) := by
  simp only [conditional, one_or_zero, simple_conditional, value_sub, value_add, value_mul, value_const]
  generalize value x tr test = t
  generalize value x tr location = l
  constructor
  · rintro ⟨h1, h2⟩
    rcases mul_eq_zero.1 h1 with h | h
    · right; subst h; exact ⟨rfl, by linear_combination -h2⟩
    · left
      have : t = 1 := by linear_combination -h
      subst this; exact ⟨rfl, by linear_combination -h2⟩
  · rintro (⟨rfl, rfl⟩ | ⟨rfl, rfl⟩) <;> constructor <;> ring

theorem bitLoop_value (x : F) (tr : Nat → Int → F) (decomp : List (Expr F)) (power : F) (c s : Expr F) :
    value x tr (bitLoop decomp power c s).1 = value x tr c + (decomp.map fun b => value x tr b * (1 - value x tr b)).sum ∧
    value x tr (bitLoop decomp power c s).2 = value x tr s + power * ∑ i ∈ Finset.range decomp.length, 2 ^ i * value x tr (decomp.getD i .X) := by
  induction decomp generalizing power c s with
  | nil => simp [bitLoop]
  | cons b l ih =>
    obtain ⟨h1, h2⟩ := ih (power * 2) (Expr.add c (one_or_zero b)) (Expr.add s (Expr.mul b (.Constant power)))
    rw [bitLoop, h1, h2]
    simp only [value_add, one_or_zero, value_mul, value_sub, value_const, List.map_cons, List.sum_cons, List.length_cons]
    refine ⟨by ring, ?_⟩
    rw [Finset.sum_range_succ']
    simp only [List.getD_cons_succ, List.getD_cons_zero, pow_zero, one_mul, pow_succ]
    rw [mul_add, Finset.mul_sum, Finset.mul_sum]
    have : ∀ i ∈ Finset.range l.length, power * 2 * (2 ^ i * value x tr (l.getD i .X)) = power * (2 ^ i * 2 * value x tr (l.getD i .X)) := fun i _ => by ring
    rw [Finset.sum_congr rfl this]
    ring

/-- C98, **partial**: if all entries are 0 or 1, the constraints of a decomposition hold exactly when the entries are the binary digits, the least first, of an integer with
the target as residue. -/
theorem C98_bits_partial (x : F) (tr : Nat → Int → F) (target : Expr F) (decomp : List (Expr F)) (hb : ∀ b ∈ decomp, value x tr b = 0 ∨ value x tr b = 1) :
    (value x tr (bit_decomp_test target decomp).1 = 0 ∧ value x tr (bit_decomp_test target decomp).2 = 0) ↔
    value x tr target = ∑ i ∈ Finset.range decomp.length, 2 ^ i * value x tr (decomp.getD i .X) := by
  obtain ⟨h1, h2⟩ := bitLoop_value x tr decomp 1 (.Constant 0) (.Constant 0)
  have h0 : (decomp.map fun b => value x tr b * (1 - value x tr b)).sum = 0 := by
    apply List.sum_eq_zero
    intro v hv
    obtain ⟨b, hb', rfl⟩ := List.mem_map.1 hv
    rcases hb b hb' with h | h <;> rw [h] <;> ring
  rw [h0] at h1
  simp only [bit_decomp_test, value_sub, h1, h2, value_const]
  constructor
  · rintro ⟨-, h⟩; linear_combination -h
  · intro h; exact ⟨by ring, by rw [h]; ring⟩

/-- C98 is violated: the constraints of a decomposition in two digits hold for the target 1 and the entries -1/5 and 3/5. -/
theorem C98_bits_violated (h2 : (2 : F) ≠ 0) (h3 : (3 : F) ≠ 0) (h5 : (5 : F) ≠ 0) (x : F) (tr : Nat → Int → F) :
    ∃ a b : F, ¬ (a = 0 ∨ a = 1) ∧ ¬ (b = 0 ∨ b = 1) ∧
      value x tr (bit_decomp_test (.Constant 1) [.Constant a, .Constant b]).1 = 0 ∧ value x tr (bit_decomp_test (.Constant 1) [.Constant a, .Constant b]).2 = 0 := by
  refine ⟨-1 / 5, 3 / 5, ?_, ?_, ?_, ?_⟩
  · rintro (h | h)
    · rw [div_eq_zero_iff] at h
      rcases h with h | h
      · exact one_ne_zero (by linear_combination -h)
      · exact h5 h
    · rw [div_eq_iff h5] at h
      rcases mul_eq_zero.1 (show (2 : F) * 3 = 0 by linear_combination -h) with h | h
      · exact h2 h
      · exact h3 h
  · rintro (h | h)
    · rw [div_eq_zero_iff] at h
      rcases h with h | h
      · exact h3 h
      · exact h5 h
    · rw [div_eq_iff h5] at h
      exact h2 (by linear_combination -h)
  · simp only [bit_decomp_test, bitLoop, one_or_zero, value_sub, value_add, value_mul, value_const]
    field_simp
    ring
  · simp only [bit_decomp_test, bitLoop, one_or_zero, value_sub, value_add, value_mul, value_const]
    field_simp
    ring

/-! ## The table of a scalar multiplication -/

/-- the coordinates of a point (0 and 0 for the point at infinity) -/
def coords (P : Pt β) : F × F :=
  match ofPoint P with
  | .Zero => (0, 0)
  | .Point x y => (x, y)

/-- Row `i`: the digit, the multiple `2 ^ i P`, and the sum of `S` and the multiples of the digits before. -/
def rowCells (S P : Pt β) (k start offset i : Nat) : List (Nat × Nat × F) :=
  [(start + i, offset + 1, (coords ((2 ^ i) • P)).1), (start + i, offset + 2, (coords ((2 ^ i) • P)).2),
    (start + i, offset + 3, (coords (S + (k % 2 ^ i) • P)).1), (start + i, offset + 4, (coords (S + (k % 2 ^ i) • P)).2),
    (start + i, offset, if k.testBit i then 1 else 0)]

/-- The computation meets neither the point at infinity nor an addition of a point to itself. -/
structure Regular (S P : Pt β) (k : Nat) : Prop where
  shift : S ≠ 0
  doubles : ∀ i < 256, (2 ^ (i + 1)) • P ≠ 0
  apart : ∀ i < 256, k.testBit i = true → (2 ^ i) • P ≠ S + (k % 2 ^ i) • P ∧ (2 ^ i) • P ≠ -(S + (k % 2 ^ i) • P)

theorem coords_some {x y : F} (h : (curve β).Nonsingular x y) : coords (Point.some x y h) = (x, y) := rfl

theorem double_coords_eq (h2 : (2 : F) ≠ 0) (P : Pt β) (h : P + P ≠ 0) : GroupSig.double (coords P) = some (coords (P + P)) := by
  cases P with
  | zero => exact absurd (add_zero _) h
  | some x y hn =>
    have hy : y ≠ 0 := by
      rintro rfl
      exact h (double_zero_coords hn)
    have hyy := twice_ne h2 hy
    have hm : ((x + x + x) * x + 1) / (y + y) * (y + y) = 3 * x * x + 1 := by rw [div_mul_cancel₀ _ hyy]; ring
    have e := double_coords hn hyy _ hm
    unfold GroupSig.double
    rw [coords_some, if_neg (fun hc => hy hc.2), fdiv, if_neg hyy, Option.map_some]
    unfold coords
    rw [e]
    simp only [pow_two]

theorem add_coords_eq (hβ : β ≠ 0) (P Q : Pt β) (hP : P ≠ 0) (hQ : Q ≠ 0) (h1 : P ≠ Q) (h3 : P ≠ -Q) : GroupSig.add (coords P) (coords Q) = some (coords (P + Q)) := by
  have origin : ∀ {x y : F}, (curve β).Nonsingular x y → ¬ (x = 0 ∧ y = 0) := by
    rintro x y hn ⟨rfl, rfl⟩
    have := equation_of hn
    exact hβ (by linear_combination -this)
  cases P with
  | zero => exact absurd rfl hP
  | some x y hn =>
    cases Q with
    | zero => exact absurd rfl hQ
    | some x' y' hn' =>
      have hx : x ≠ x' := by
        rintro rfl
        by_cases hy : y = y'
        · subst hy; exact h1 rfl
        · exact h3 (eq_neg_of_add_eq_zero_left (opposite hn hn' hy).2)
      have hd : x' - x ≠ 0 := sub_ne_zero.2 (Ne.symm hx)
      have hm : (y' - y) / (x' - x) * (x - x') = y - y' := by
        have := div_mul_cancel₀ (y' - y) hd
        linear_combination -this
      have e := add_coords hn hn' hx _ hm
      unfold GroupSig.add
      rw [coords_some, coords_some, if_neg (origin hn), if_neg (origin hn'), fdiv, if_neg hd, Option.map_some]
      unfold coords
      rw [e]
      simp only [pow_two, sub_sub]

theorem mod_succ (k i : Nat) : k % 2 ^ (i + 1) = (if k.testBit i then 2 ^ i else 0) + k % 2 ^ i := by
  rw [Nat.mod_pow_succ, Nat.testBit_eq_decide_div_mod_eq]
  rcases Nat.mod_two_eq_zero_or_one (k / 2 ^ i) with e | e
  · rw [e, mul_zero, add_zero, if_neg (by simp), zero_add]
  · rw [e, mul_one, if_pos (by simp), add_comm]

theorem sums_ne (S P : Pt β) (k : Nat) (h : Regular S P k) (i : Nat) (hi : i ≤ 256) : S + (k % 2 ^ i) • P ≠ 0 := by
  induction i with
  | zero => rw [pow_zero, Nat.mod_one, zero_smul, add_zero]; exact h.shift
  | succ i ih =>
    rw [mod_succ]
    split
    · next hb =>
      intro e
      apply (h.apart i (by omega) hb).2
      rw [eq_neg_iff_add_eq_zero, ← e, add_smul]
      abel
    · rw [zero_add]; exact ih (by omega)

theorem loop_eq (h2 : (2 : F) ≠ 0) (hβ : β ≠ 0) (S P : Pt β) (scalar : U256) (h : Regular S P scalar.toNat) (start offset : Nat) (m i : Nat) (hi : i + m = 256) :
    scalarLoop scalar start offset m i (coords ((2 ^ i) • P)) (coords (S + (scalar.toNat % 2 ^ i) • P)) =
      some ((List.range' i m).flatMap (rowCells S P scalar.toNat start offset)) := by
  induction m generalizing i with
  | zero => rfl
  | succ m ih =>
    have hd : (2 ^ i) • P + (2 ^ i) • P = (2 ^ (i + 1)) • P := by rw [← add_smul, pow_succ, mul_two]
    have hne : (2 ^ i) • P ≠ 0 := by
      intro e
      apply h.doubles i (by omega)
      rw [← hd, e, add_zero]
    have hq : (if U256.bit scalar i then GroupSig.add (coords ((2 ^ i) • P)) (coords (S + (scalar.toNat % 2 ^ i) • P)) else
        some (coords (S + (scalar.toNat % 2 ^ i) • P))) = some (coords (S + (scalar.toNat % 2 ^ (i + 1)) • P)) := by
      rw [C05_bit, mod_succ]
      split
      · next hb =>
        obtain ⟨a1, a2⟩ := h.apart i (by omega) hb
        rw [add_coords_eq hβ _ _ hne (sums_ne S P _ h i (by omega)) a1 a2, add_smul]
        congr 2
        abel
      · rw [zero_add]
    rw [scalarLoop, hq, Option.bind_some, double_coords_eq h2 _ (by rw [hd]; exact h.doubles i (by omega)), Option.bind_some, hd, ih (i + 1) (by omega), Option.map_some,
      List.range'_succ, List.flatMap_cons, C05_bit]
    rfl

/-- C98, **partial**: unless the point at infinity or an addition of a point to itself is met, `scalar_mult` fills 256 rows with the binary digits of the scalar, the multiples `2 ^ i P`
and the sums of the shift point (or its opposite) and the multiples of the digits in the rows before. -/
theorem C98_scalar_mult_partial (h2 : (2 : F) ≠ 0) (hβ : β ≠ 0) (S P : Pt β) (scalar : U256) (start offset : Nat) (neg : Bool)
    (h : Regular (if neg then -S else S) P scalar.toNat) :
    scalar_mult (coords S) (coords P) scalar start offset neg =
      some ((List.range 256).flatMap (rowCells (if neg then -S else S) P scalar.toNat start offset)) := by
  have e := loop_eq h2 hβ _ P scalar h start offset 256 0 (by omega)
  rw [pow_zero, one_smul, Nat.mod_one, zero_smul, add_zero] at e
  unfold scalar_mult
  rw [List.range_eq_range', ← e]
  cases neg with
  | false => rfl
  | true =>
    have : ((coords S).1, -(coords S).2) = coords (-S) := by
      unfold coords
      rw [← neg_eq]
      cases S with
      | zero => simp [ofPoint, Affine.neg]
      | some x y hn => rfl
    simp only [if_true, this]

/-- C98, **partial**: the last row has the sum of the shift point and the multiple of the point, for a scalar of at most 255 bits. -/
theorem C98_last_row_partial (S P : Pt β) (k : Nat) (hk : k < 2 ^ 255) (start offset : Nat) :
    rowCells S P k start offset 255 = [(start + 255, offset + 1, (coords ((2 ^ 255) • P)).1), (start + 255, offset + 2, (coords ((2 ^ 255) • P)).2),
      (start + 255, offset + 3, (coords (S + k • P)).1), (start + 255, offset + 4, (coords (S + k • P)).2), (start + 255, offset, 0)] := by
  unfold rowCells
  rw [Nat.mod_eq_of_lt hk, Nat.testBit_lt_two_pow hk]
  rfl

theorem coords_inj (hβ : β ≠ 0) {P Q : Pt β} (h : coords P = coords Q) : P = Q := by
  have origin : ∀ {x y : F}, (curve β).Nonsingular x y → ¬ ((0, 0) = (x, y)) := by
    intro x y hn e
    have := equation_of hn
    injection e with e1 e2
    rw [← e1, ← e2] at this
    exact hβ (by linear_combination -this)
  cases P with
  | zero =>
    cases Q with
    | zero => rfl
    | some x y hn => exact absurd h (origin hn)
  | some x y hn =>
    cases Q with
    | zero => exact absurd h.symm (origin hn)
    | some x' y' hn' =>
      obtain ⟨rfl, rfl⟩ := Prod.mk.inj h
      rfl

/-- C98 is violated for a scalar of 256 bits: the last row does not have the sum of the shift point and the multiple of the point. -/
theorem C98_last_row_violated (hβ : β ≠ 0) (S P : Pt β) (k : Nat) (hk : 2 ^ 255 ≤ k) (hk' : k < 2 ^ 256) (h : Regular S P k) (start offset : Nat) :
    ∃ x y : F, (start + 255, offset + 3, x) ∈ rowCells S P k start offset 255 ∧ (start + 255, offset + 4, y) ∈ rowCells S P k start offset 255 ∧
      (x, y) ≠ coords (S + k • P) := by
  refine ⟨_, _, List.mem_cons_of_mem _ (List.mem_cons_of_mem _ List.mem_cons_self), List.mem_cons_of_mem _ (List.mem_cons_of_mem _ (List.mem_cons_of_mem _ List.mem_cons_self)), ?_⟩
  intro e
  have e' := coords_inj hβ e
  have hm : k = 2 ^ 255 + k % 2 ^ 255 := by omega
  have hne : (2 ^ 255) • P ≠ 0 := by
    intro e0
    apply h.doubles 255 (by norm_num)
    rw [pow_succ, mul_two, add_smul, e0, add_zero]
  apply hne
  have e1 := add_left_cancel e'
  generalize k % 2 ^ 255 = r at e1 hm
  rw [hm, add_smul] at e1
  exact left_eq_add.1 (by rw [add_comm] at e1; exact e1)

end

/-! ## Concrete points -/

theorem smul_G_eq (a b : Nat) : a • G = b • G ↔ a % PF.SCALAR.modulus.toNat = b % PF.SCALAR.modulus.toNat := by
  rw [nsmul_eq_nsmul_iff_modEq, order_G]
  rfl

/-- `Regular` for multiples of the generator, as a condition on residues -/
theorem regular_of (s p k : Nat) (h0 : s % PF.SCALAR.modulus.toNat ≠ 0) (h1 : ∀ i < 256, 2 ^ (i + 1) * p % PF.SCALAR.modulus.toNat ≠ 0)
    (h2 : ∀ i < 256, k.testBit i = true → 2 ^ i * p % PF.SCALAR.modulus.toNat ≠ (s + k % 2 ^ i * p) % PF.SCALAR.modulus.toNat ∧
      (2 ^ i * p + (s + k % 2 ^ i * p)) % PF.SCALAR.modulus.toNat ≠ 0) : Regular (s • G) (p • G) k := by
  have z : ∀ a : Nat, a • G = 0 ↔ a % PF.SCALAR.modulus.toNat = 0 := by
    intro a
    rw [← zero_smul ℕ G, smul_G_eq, Nat.zero_mod]
  refine ⟨?_, ?_, ?_⟩
  · rw [Ne, z]; exact h0
  · intro i hi
    rw [smul_smul, Ne, z]
    exact h1 i hi
  · intro i hi hb
    rw [smul_smul, smul_smul, ← add_smul, Ne, Ne, smul_G_eq, eq_neg_iff_add_eq_zero, ← add_smul, z]
    exact h2 i hi hb

/-- The generator of the curve, the shift point `7 G` and a scalar of 256 bits meet the hypotheses of `C98_scalar_mult_partial` and `C98_last_row_violated`. -/
theorem regular_example : Regular (7 • G) G (2 ^ 255 + 2 ^ 100 + 5) := by
  have := regular_of 7 1 (2 ^ 255 + 2 ^ 100 + 5) (by decide +kernel) (by decide +kernel) (by decide +kernel)
  rwa [one_smul] at this

theorem BETA_ne : BETA ≠ 0 := by rw [BETA_eq]; decide +kernel

-- C98_scalar_mult_partial, C98_last_row_violated
example (start offset : Nat) (scalar : U256) (h : scalar.toNat = 2 ^ 255 + 2 ^ 100 + 5) :
    scalar_mult (coords (7 • G)) (coords G) scalar start offset false = some ((List.range 256).flatMap (rowCells (7 • G) G scalar.toNat start offset)) :=
  C98_scalar_mult_partial two_ne BETA_ne _ _ _ _ _ false (by rw [h]; exact regular_example)

example : (⟨5, 2 ^ 36, 0, 2 ^ 63⟩ : U256).toNat = 2 ^ 255 + 2 ^ 100 + 5 := by decide +kernel

example (start offset : Nat) := C98_last_row_violated BETA_ne (7 • G) G (2 ^ 255 + 2 ^ 100 + 5) (by norm_num) (by norm_num) regular_example start offset

-- C98_double: the generator, and a cell for each coordinate
example : ∃ (tr : Nat → Int → Fp) (h : (curve BETA).Nonsingular (value 0 tr (.Trace 1 0)) (value 0 tr (.Trace 2 0))),
    ofPoint (Point.some _ _ h + Point.some _ _ h) = .Point (value 0 tr (.Trace 1 1)) (value 0 tr (.Trace 2 1)) := by
  have hne : G + G ≠ 0 := by
    have := regular_example.doubles 0 (by norm_num)
    rwa [zero_add, pow_one, two_smul] at this
  cases e : ofPoint (G + G) with
  | Zero =>
    exfalso
    cases h : G + G with
    | zero => exact hne h
    | some x y hn => rw [h] at e; cases e
  | Point u v =>
    refine ⟨fun c o => if o = 0 then (if c = 1 then (coords G).1 else (coords G).2) else (if c = 1 then u else v), generator_nonsingular, ?_⟩
    exact e

-- C98_add_partial: the generator and its opposite are different
example : G ≠ -G := by
  intro h
  have := regular_example.doubles 0 (by norm_num)
  rw [zero_add, pow_one, two_smul] at this
  exact this (eq_neg_iff_add_eq_zero.1 h)

-- C98_bits_partial: 6 is 0 + 2 + 4
example : ∀ b ∈ ([.Constant 0, .Constant 1, .Constant 1] : List (Expr ℚ)), value 0 (fun _ _ => 0) b = 0 ∨ value 0 (fun _ _ => 0) b = 1 := by
  intro b hb
  fin_cases hb <;> simp [value]

end CurveGadgets
end Props
end OpenZKP
