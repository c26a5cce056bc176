import Verif.EC.Spec
import Mathlib.Tactic.LinearCombination
import Mathlib.Tactic.FieldSimp
import Mathlib.Tactic.Ring

/-! # The affine and Jacobian formulas compute the group law -/

namespace OpenZKP
namespace EC

open WeierstrassCurve.Affine

variable {F : Type} [Field F] [DecidableEq F] {β : F}

theorem c1 : (curve β).a₁ = 0 := rfl
theorem c2 : (curve β).a₂ = 0 := rfl
theorem c3 : (curve β).a₃ = 0 := rfl
theorem c4 : (curve β).a₄ = 1 := rfl
theorem c6 : (curve β).a₆ = β := rfl

theorem nonsingular_of_eq (hΔ : (4 : F) + 27 * β ^ 2 ≠ 0) {x y : F} (h : y * y = x * x * x + x + β) (h2 : (2 : F) ≠ 0) :
    (curve β).Nonsingular x y := by
  rw [nonsingular_iff']
  refine ⟨by rw [equation_iff']; simp only [c1, c2, c3, c4, c6]; linear_combination h, ?_⟩
  simp only [c1, c2, c3, c4, c6]
  by_contra hc
  push Not at hc
  obtain ⟨h1, h3⟩ := hc
  have hy : y = 0 := by
    have : 2 * y = 0 := by linear_combination h3
    exact (mul_eq_zero.1 this).resolve_left h2
  subst hy
  have h1' : 3 * x ^ 2 + 1 = 0 := by linear_combination -h1
  have h0 : x ^ 3 + x + β = 0 := by linear_combination -h
  apply hΔ
  -- 4 + 27 β² with β = -x³ - x and 3x² = -1
  have hb : β = -(x ^ 3 + x) := by linear_combination h0
  rw [hb]
  linear_combination (9 * x ^ 4 + 15 * x ^ 2 + 4) * h1'

theorem equation_of {x y : F} (h : (curve β).Nonsingular x y) : y * y = x * x * x + x + β := by
  have := (equation_iff' _ _).1 h.1
  simp only [c1, c2, c3, c4, c6] at this
  linear_combination this

theorem ofPoint_inj {P Q : Pt β} (h : ofPoint P = ofPoint Q) : P = Q := by
  cases P <;> cases Q <;> simp_all [ofPoint]

theorem ofPoint_zero : ofPoint (0 : Pt β) = .Zero := rfl

theorem neg_eq (P : Pt β) : Affine.neg (ofPoint P) = ofPoint (-P) := by
  cases P with
  | zero => rfl
  | some x y h =>
    rw [Point.neg_some]
    simp [Affine.neg, ofPoint, c1, c3]

/-- what the group law says in coordinates -/
theorem add_coords {x₁ y₁ x₂ y₂ : F} (h₁ : (curve β).Nonsingular x₁ y₁) (h₂ : (curve β).Nonsingular x₂ y₂)
    (hx : x₁ ≠ x₂) (m : F) (hm : m * (x₁ - x₂) = y₁ - y₂) :
    ofPoint (Point.some x₁ y₁ h₁ + Point.some x₂ y₂ h₂) =
      .Point (m * m - x₁ - x₂) (m * (x₁ - (m * m - x₁ - x₂)) - y₁) := by
  have hsub : x₁ - x₂ ≠ 0 := sub_ne_zero.2 hx
  have hm' : (curve β).slope x₁ x₂ y₁ y₂ = m := by
    rw [slope_of_X_ne hx, ← hm, mul_div_assoc, div_self hsub, mul_one]
  rw [Point.add_of_X_ne hx]
  simp only [ofPoint, addX, addY, negAddY, negY, hm', c1, c2, c3]
  congr 1 <;> ring

theorem double_coords {x y : F} (h : (curve β).Nonsingular x y) (hy : y + y ≠ 0) (m : F)
    (hm : m * (y + y) = 3 * x * x + 1) :
    ofPoint (Point.some x y h + Point.some x y h) =
      .Point (m * m - x - x) (m * (x - (m * m - x - x)) - y) := by
  have hne : y ≠ (curve β).negY x y := by
    simp only [negY, c1, c3]
    intro e
    apply hy
    linear_combination e
  have hm' : (curve β).slope x x y y = m := by
    rw [slope_of_Y_ne rfl hne]
    simp only [negY, c1, c2, c3, c4]
    rw [div_eq_iff (by intro e; apply hy; linear_combination e)]
    linear_combination -hm
  rw [Point.add_self_of_Y_ne hne]
  simp only [ofPoint, addX, addY, negAddY, negY, hm', c1, c2, c3]
  congr 1 <;> ring

theorem double_zero_coords {x : F} (h : (curve β).Nonsingular x 0) :
    Point.some x 0 h + Point.some x 0 h = (0 : Pt β) :=
  Point.add_self_of_Y_eq (by simp [negY, c1, c3])

theorem opposite {x y₁ y₂ : F} (h₁ : (curve β).Nonsingular x y₁) (h₂ : (curve β).Nonsingular x y₂)
    (h : y₁ ≠ y₂) : y₁ = -y₂ ∧ (Point.some x y₁ h₁ + Point.some x y₂ h₂ : Pt β) = 0 := by
  have e1 := equation_of h₁
  have e2 := equation_of h₂
  have : (y₁ - y₂) * (y₁ + y₂) = 0 := by linear_combination e1 - e2
  have h' : y₁ = -y₂ := by
    rcases mul_eq_zero.1 this with h' | h'
    · exact absurd (sub_eq_zero.1 h') h
    · linear_combination h'
  exact ⟨h', Point.add_of_Y_eq rfl (by simp [negY, c1, c3, h'])⟩

theorem double_eq (h2 : (2 : F) ≠ 0) (P : Pt β) : Affine.double (ofPoint P) = some (ofPoint (P + P)) := by
  cases P with
  | zero => rfl
  | some x y h =>
    simp only [ofPoint, Affine.double]
    by_cases hy : y = 0
    · subst hy
      rw [if_pos rfl, double_zero_coords h]
    · have hyy : y + y ≠ 0 := by
        intro e
        have : 2 * y = 0 := by linear_combination e
        rcases mul_eq_zero.1 this with h' | h'
        · exact h2 h'
        · exact hy h'
      rw [if_neg hy, fdiv, if_neg hyy, Option.map_some]
      have hm : ((x + x + x) * x + 1) / (y + y) * (y + y) = 3 * x * x + 1 := by
        rw [div_mul_cancel₀ _ hyy]; ring
      have := double_coords h hyy _ hm
      exact congrArg some this.symm

theorem add_eq (h2 : (2 : F) ≠ 0) (P Q : Pt β) :
    Affine.add (ofPoint P) (ofPoint Q) = some (ofPoint (P + Q)) := by
  cases P with
  | zero => exact congrArg (fun x => some (ofPoint x)) (zero_add Q).symm
  | some x₁ y₁ h₁ =>
    cases Q with
    | zero => exact congrArg (fun x => some (ofPoint x)) (add_zero (Point.some x₁ y₁ h₁)).symm
    | some x₂ y₂ h₂ =>
      have hd := double_eq h2 (Point.some x₁ y₁ h₁)
      simp only [ofPoint, Affine.add] at hd ⊢
      by_cases hx : x₁ = x₂
      · subst hx
        rw [if_pos rfl]
        by_cases hy : y₁ = y₂
        · subst hy
          rw [if_pos rfl]; exact hd
        · rw [if_neg hy, (opposite h₁ h₂ hy).2]
      · have hsub : x₁ - x₂ ≠ 0 := sub_ne_zero.2 hx
        rw [if_neg hx, fdiv, if_neg hsub, Option.map_some]
        exact congrArg some (add_coords h₁ h₂ hx _ (div_mul_cancel₀ _ hsub)).symm

/-! ## Jacobian coordinates -/

theorem toAffine_zero {j : Jacobian F} (h : j.z = 0) : Jacobian.toAffine j = .Zero := by
  unfold Jacobian.toAffine finv
  rw [if_pos h]

theorem toAffine_ne {j : Jacobian F} (h : j.z ≠ 0) :
    Jacobian.toAffine j = .Point (j.x * (j.z⁻¹ * j.z⁻¹)) (j.y * (j.z⁻¹ * (j.z⁻¹ * j.z⁻¹))) := by
  unfold Jacobian.toAffine finv
  rw [if_neg h]

theorem represents_zero_iff {j : Jacobian F} : Represents j (0 : Pt β) ↔ j.z = 0 := by
  unfold Represents
  rw [ofPoint_zero]
  by_cases h : j.z = 0
  · simp [toAffine_zero h, h]
  · simp [toAffine_ne h, h]

theorem represents_some_iff {j : Jacobian F} {x y : F} (h : (curve β).Nonsingular x y) :
    Represents j (Point.some x y h) ↔ j.z ≠ 0 ∧ j.x = x * j.z ^ 2 ∧ j.y = y * j.z ^ 3 := by
  unfold Represents
  by_cases hz : j.z = 0
  · rw [toAffine_zero hz]
    simp [ofPoint, hz]
  · rw [toAffine_ne hz]
    simp only [ofPoint, Affine.Point.injEq, ne_eq, hz, not_false_eq_true, true_and]
    constructor
    · rintro ⟨h1, h2⟩
      rw [← h1, ← h2]
      constructor <;> field_simp
    · rintro ⟨h1, h2⟩
      rw [h1, h2]
      constructor <;> field_simp

theorem represents_ZERO : Represents (Jacobian.ZERO : Jacobian F) (0 : Pt β) := represents_zero_iff.2 rfl

theorem represents_ofAffine (P : Pt β) : Represents (Jacobian.ofAffine (ofPoint P)) P := by
  cases P with
  | zero => exact represents_ZERO
  | some x y h => exact (represents_some_iff h).2 ⟨one_ne_zero, by simp [ofPoint, Jacobian.ofAffine],
      by simp [ofPoint, Jacobian.ofAffine]⟩

theorem represents_neg {j : Jacobian F} {P : Pt β} (h : Represents j P) : Represents (Jacobian.neg j) (-P) := by
  cases P with
  | zero =>
    have h' : j.z = 0 := represents_zero_iff.1 h
    have : -(Point.zero : Pt β) = 0 := neg_zero
    rw [this, represents_zero_iff]
    exact h'
  | some x y hn =>
    obtain ⟨hz, hx, hy⟩ := (represents_some_iff hn).1 h
    rw [Point.neg_some, represents_some_iff]
    refine ⟨hz, hx, ?_⟩
    simp only [Jacobian.neg, negY, c1, c3]
    rw [hy]; ring

/-- to represent `P + Q` it suffices to match the coordinates -/
theorem represents_of_coords {j : Jacobian F} {P : Pt β} {x y : F} (hP : ofPoint P = .Point x y) (hz : j.z ≠ 0)
    (hx : j.x = x * j.z ^ 2) (hy : j.y = y * j.z ^ 3) : Represents j P := by
  cases P with
  | zero => simp [ofPoint] at hP
  | some x' y' h =>
    simp only [ofPoint, Affine.Point.injEq] at hP
    obtain ⟨rfl, rfl⟩ := hP
    exact (represents_some_iff h).2 ⟨hz, hx, hy⟩

theorem represents_double (h2 : (2 : F) ≠ 0) {j : Jacobian F} {P : Pt β} (h : Represents j P) :
    Represents (Jacobian.double j) (P + P) := by
  cases P with
  | zero =>
    have hz : j.z = 0 := represents_zero_iff.1 h
    have : (Point.zero : Pt β) + Point.zero = 0 := zero_add _
    rw [this, represents_zero_iff]
    unfold Jacobian.double
    by_cases hy : j.y = 0
    · rw [if_pos hy]; rfl
    · rw [if_neg hy]
      simp only [hz]; ring
  | some x y hn =>
    obtain ⟨hz, hx, hy⟩ := (represents_some_iff hn).1 h
    unfold Jacobian.double
    by_cases hy0 : y = 0
    · subst hy0
      rw [if_pos (by rw [hy]; ring), double_zero_coords hn]
      exact represents_ZERO
    · have hj : j.y ≠ 0 := by
        rw [hy]; exact mul_ne_zero hy0 (pow_ne_zero _ hz)
      have hyy : y + y ≠ 0 := by
        intro e
        have : 2 * y = 0 := by linear_combination e
        rcases mul_eq_zero.1 this with h' | h'
        · exact h2 h'
        · exact hy0 h'
      rw [if_neg hj]
      obtain ⟨X, Y, Z⟩ := j
      simp only at hz hx hy hj ⊢
      subst hx hy
      have hm : (3 * x * x + 1) / (y + y) * (y + y) = 3 * x * x + 1 := div_mul_cancel₀ _ hyy
      refine represents_of_coords (double_coords hn hyy _ hm) ?_ ?_ ?_
      · simp only
        have : (y * Z ^ 3 + Z) * (y * Z ^ 3 + Z) - y * Z ^ 3 * (y * Z ^ 3) - Z * Z = (y + y) * Z ^ 4 := by ring
        rw [this]
        exact mul_ne_zero hyy (pow_ne_zero _ hz)
      · simp only
        generalize (3 * x * x + 1) / (y + y) = m at hm
        linear_combination (-(Z ^ 8) * ((3 * x * x + 1) + m * (y + y))) * hm
      · simp only
        generalize (3 * x * x + 1) / (y + y) = m at hm
        have hy2 := equation_of hn
        linear_combination (Z ^ 12) * ((3 * x * x + 1) ^ 2 + (3 * x * x + 1) * (m * (y + y)) + (m * (y + y)) ^ 2 - 3 * x * (y + y) ^ 2) * hm

theorem represents_add (h2 : (2 : F) ≠ 0) {j k : Jacobian F} {P Q : Pt β} (hj : Represents j P)
    (hk : Represents k Q) : Represents (Jacobian.add j k) (P + Q) := by
  unfold Jacobian.add
  by_cases hQ : k.z = 0
  · rw [if_pos hQ]
    have : Q = 0 := by
      unfold Represents at hk
      rw [toAffine_zero hQ] at hk
      exact ofPoint_inj hk.symm
    rw [this, add_zero]; exact hj
  rw [if_neg hQ]
  by_cases hP : j.z = 0
  · rw [if_pos hP]
    have : P = 0 := by
      unfold Represents at hj
      rw [toAffine_zero hP] at hj
      exact ofPoint_inj hj.symm
    rw [this, zero_add]; exact hk
  rw [if_neg hP]
  cases P with
  | zero => exact absurd (represents_zero_iff.1 hj) hP
  | some x₁ y₁ h₁ =>
  cases Q with
  | zero => exact absurd (represents_zero_iff.1 hk) hQ
  | some x₂ y₂ h₂ =>
  have hd := represents_double h2 hj
  obtain ⟨-, hx1, hy1⟩ := (represents_some_iff h₁).1 hj
  obtain ⟨-, hx2, hy2⟩ := (represents_some_iff h₂).1 hk
  obtain ⟨X₁, Y₁, Z₁⟩ := j
  obtain ⟨X₂, Y₂, Z₂⟩ := k
  simp only at hx1 hy1 hx2 hy2 hP hQ hd ⊢
  subst hx1 hy1 hx2 hy2
  have hzz : Z₁ ^ 2 * Z₂ ^ 2 ≠ 0 := mul_ne_zero (pow_ne_zero _ hP) (pow_ne_zero _ hQ)
  have hzz3 : Z₁ ^ 3 * Z₂ ^ 3 ≠ 0 := mul_ne_zero (pow_ne_zero _ hP) (pow_ne_zero _ hQ)
  by_cases hx : x₁ = x₂
  · subst hx
    rw [if_pos (by ring)]
    by_cases hy : y₁ = y₂
    · subst hy
      rw [if_pos (by ring)]
      exact hd
    · rw [if_neg, (opposite h₁ h₂ hy).2]
      · exact represents_ZERO
      · intro e
        apply hy
        apply mul_right_cancel₀ hzz3
        linear_combination e
  · have hsub : x₁ - x₂ ≠ 0 := sub_ne_zero.2 hx
    rw [if_neg]
    swap
    · intro e
      apply hx
      apply mul_right_cancel₀ hzz
      linear_combination e
    have hm : (y₁ - y₂) / (x₁ - x₂) * (x₁ - x₂) = y₁ - y₂ := div_mul_cancel₀ _ hsub
    refine represents_of_coords (add_coords h₁ h₂ hx _ hm) ?_ ?_ ?_
    · simp only
      have : ((Z₁ + Z₂) * (Z₁ + Z₂) - Z₁ * Z₁ - Z₂ * Z₂) *
          (x₂ * Z₂ ^ 2 * (Z₁ * Z₁) - x₁ * Z₁ ^ 2 * (Z₂ * Z₂)) =
          2 * (x₁ - x₂) * -(Z₁ ^ 3 * Z₂ ^ 3) := by ring
      rw [this]
      exact mul_ne_zero (mul_ne_zero h2 hsub) (neg_ne_zero.2 hzz3)
    · simp only
      generalize (y₁ - y₂) / (x₁ - x₂) = m at hm
      linear_combination (-4 * Z₁ ^ 6 * Z₂ ^ 6 * (m * (x₁ - x₂) + (y₁ - y₂))) * hm
    · simp only
      generalize (y₁ - y₂) / (x₁ - x₂) = m at hm
      have e : y₂ = y₁ - m * (x₁ - x₂) := by linear_combination hm
      subst e
      ring

theorem represents_sub (h2 : (2 : F) ≠ 0) {j k : Jacobian F} {P Q : Pt β} (hj : Represents j P)
    (hk : Represents k Q) : Represents (Jacobian.sub j k) (P - Q) := by
  rw [sub_eq_add_neg]
  exact represents_add h2 hj (represents_neg hk)

/-- mixed addition away from the exceptional case -/
theorem represents_addMixed (h2 : (2 : F) ≠ 0) {j : Jacobian F} {P Q : Pt β} (hj : Represents j P)
    (hne : P = 0 ∨ Q = 0 ∨ (P ≠ Q ∧ P ≠ -Q)) : Represents (Jacobian.addMixed j (ofPoint Q)) (P + Q) := by
  cases Q with
  | zero =>
    have : P + Point.zero = P := add_zero P
    rw [this]; exact hj
  | some x₂ y₂ h₂ =>
  by_cases hP : j.z = 0
  · have : P = 0 := by
      unfold Represents at hj
      rw [toAffine_zero hP] at hj
      exact ofPoint_inj hj.symm
    rw [this, zero_add]
    simp only [Jacobian.addMixed, ofPoint, if_pos hP]
    exact (represents_some_iff h₂).2 ⟨one_ne_zero, by simp, by simp⟩
  cases P with
  | zero => exact absurd (represents_zero_iff.1 hj) hP
  | some x₁ y₁ h₁ =>
  have hx : x₁ ≠ x₂ := by
    rintro rfl
    rcases hne with h | h | ⟨h, h'⟩
    · exact Point.some_ne_zero h₁ h
    · exact Point.some_ne_zero h₂ h
    · by_cases hy : y₁ = y₂
      · subst hy; exact h rfl
      · exact h' (eq_neg_of_add_eq_zero_left (opposite h₁ h₂ hy).2)
  obtain ⟨-, hx1, hy1⟩ := (represents_some_iff h₁).1 hj
  obtain ⟨X₁, Y₁, Z₁⟩ := j
  simp only [Jacobian.addMixed, ofPoint] at hx1 hy1 hP ⊢
  subst hx1 hy1
  have hsub : x₁ - x₂ ≠ 0 := sub_ne_zero.2 hx
  rw [if_neg hP, if_neg]
  swap
  · intro e
    apply hx
    apply mul_right_cancel₀ (pow_ne_zero 2 hP)
    linear_combination e
  have hm : (y₁ - y₂) / (x₁ - x₂) * (x₁ - x₂) = y₁ - y₂ := div_mul_cancel₀ _ hsub
  refine represents_of_coords (add_coords h₁ h₂ hx _ hm) ?_ ?_ ?_
  · simp only
    have : (Z₁ + (x₂ * (Z₁ * Z₁) - x₁ * Z₁ ^ 2)) * (Z₁ + (x₂ * (Z₁ * Z₁) - x₁ * Z₁ ^ 2)) - Z₁ * Z₁ -
        (x₂ * (Z₁ * Z₁) - x₁ * Z₁ ^ 2) * (x₂ * (Z₁ * Z₁) - x₁ * Z₁ ^ 2) = 2 * (x₁ - x₂) * -(Z₁ ^ 3) := by ring
    rw [this]
    exact mul_ne_zero (mul_ne_zero h2 hsub) (neg_ne_zero.2 (pow_ne_zero _ hP))
  · simp only
    generalize (y₁ - y₂) / (x₁ - x₂) = m at hm
    linear_combination (-4 * Z₁ ^ 6 * (m * (x₁ - x₂) + (y₁ - y₂))) * hm
  · simp only
    generalize (y₁ - y₂) / (x₁ - x₂) = m at hm
    have e : y₂ = y₁ - m * (x₁ - x₂) := by linear_combination hm
    subst e
    ring

/-- mixed addition in the exceptional case: the code compares the wrong coordinates -/
theorem addMixed_exceptional (h2 : (2 : F) ≠ 0) {j : Jacobian F} {x y₁ y₂ : F}
    {h₁ : (curve β).Nonsingular x y₁} (hj : Represents j (Point.some x y₁ h₁)) :
    Represents (Jacobian.addMixed j (.Point x y₂))
      (if j.x = y₂ * j.z ^ 3 then Point.some x y₁ h₁ + Point.some x y₁ h₁ else 0) := by
  have hd := represents_double h2 hj
  obtain ⟨hz, hx1, hy1⟩ := (represents_some_iff h₁).1 hj
  simp only [Jacobian.addMixed]
  rw [if_neg hz, if_pos (by rw [hx1]; ring)]
  have : y₂ * j.z * (j.z * j.z) = y₂ * j.z ^ 3 := by ring
  rw [this]
  by_cases h : j.x = y₂ * j.z ^ 3
  · rw [if_pos h, if_pos h]; exact hd
  · rw [if_neg h, if_neg h]; exact represents_ZERO

end EC
end OpenZKP
