import Mathlib.Tactic.Ring
import Mathlib.Tactic.Linarith
import Mathlib.Tactic.LinearCombination
import Mathlib.Data.Int.GCD
import Mathlib.Data.Nat.ModEq

/-! # Lehmer steps on integers: what a valid update matrix does -/

namespace OpenZKP

/-- sign of a matrix -/
def sgn (f : Bool) : Int := if f then 1 else -1

theorem sgn_mul (f g : Bool) : sgn (f ^^ !g) = sgn f * sgn g := by
  cases f <;> cases g <;> decide

theorem sgn_sq (f : Bool) : sgn f * sgn f = 1 := by cases f <;> decide

theorem sgn_cases (f : Bool) : (f = true ∧ sgn f = 1) ∨ (f = false ∧ sgn f = -1) := by
  cases f
  · right; exact ⟨rfl, rfl⟩
  · left; exact ⟨rfl, rfl⟩

/-- The matrix with absolute entries `u v u' v'` and sign `f` takes `(r0, r1)` to `(x, y)` and makes
progress. -/
structure Step (u v u' v' : Nat) (f : Bool) (r0 r1 x y : Nat) : Prop where
  e0 : r0 = v' * x + v * y
  e1 : r1 = u' * x + u * y
  det : (u * v' - v * u' : Int) = sgn f
  lt : y < x
  mu : u ≤ u'
  mv : v ≤ v'
  pu : 1 ≤ u'
  pv : 1 ≤ v'

namespace Step
variable {u v u' v' : Nat} {f : Bool} {r0 r1 x y : Nat}

theorem x_eq (h : Step u v u' v' f r0 r1 x y) : (x : Int) = sgn f * (u * r0 - v * r1) := by
  have := h.det
  rw [h.e0, h.e1]; push_cast
  linear_combination (-(x : Int)) * sgn f * this - (x : Int) * (sgn_sq f)

theorem y_eq (h : Step u v u' v' f r0 r1 x y) : (y : Int) = sgn f * (v' * r1 - u' * r0) := by
  have := h.det
  rw [h.e0, h.e1]; push_cast
  linear_combination (-(y : Int)) * sgn f * this - (y : Int) * (sgn_sq f)

theorem x_le_r1 (h : Step u v u' v' f r0 r1 x y) : x ≤ r1 := by
  rw [h.e1]; nlinarith [h.pu, Nat.zero_le (u * y)]

theorem x_le_r0 (h : Step u v u' v' f r0 r1 x y) : x ≤ r0 := by
  rw [h.e0]; nlinarith [h.pv, Nat.zero_le (v * y)]

theorem y_lt_r1 (h : Step u v u' v' f r0 r1 x y) : y < r1 := lt_of_lt_of_le h.lt h.x_le_r1

theorem gcd_eq (h : Step u v u' v' f r0 r1 x y) : Nat.gcd x y = Nat.gcd r0 r1 := by
  apply Nat.dvd_antisymm
  · have hx := Nat.gcd_dvd_left x y
    have hy := Nat.gcd_dvd_right x y
    refine Nat.dvd_gcd ?_ ?_
    · rw [h.e0]; exact Nat.dvd_add (Dvd.dvd.mul_left hx _) (Dvd.dvd.mul_left hy _)
    · rw [h.e1]; exact Nat.dvd_add (Dvd.dvd.mul_left hx _) (Dvd.dvd.mul_left hy _)
  · have hx : ((Nat.gcd r0 r1 : Nat) : Int) ∣ r0 := Int.natCast_dvd_natCast.2 (Nat.gcd_dvd_left r0 r1)
    have hy : ((Nat.gcd r0 r1 : Nat) : Int) ∣ r1 := Int.natCast_dvd_natCast.2 (Nat.gcd_dvd_right r0 r1)
    refine Nat.dvd_gcd (Int.natCast_dvd_natCast.1 ?_) (Int.natCast_dvd_natCast.1 ?_)
    · rw [h.x_eq]; exact Dvd.dvd.mul_left (Int.dvd_sub (Dvd.dvd.mul_left hx _) (Dvd.dvd.mul_left hy _)) _
    · rw [h.y_eq]; exact Dvd.dvd.mul_left (Int.dvd_sub (Dvd.dvd.mul_left hy _) (Dvd.dvd.mul_left hx _)) _

theorem swap (h : Step u v u' v' f r0 r1 x y) : Step v u v' u' (!f) r1 r0 x y where
  e0 := h.e1
  e1 := h.e0
  det := by
    have := h.det
    have e : sgn (!f) = - sgn f := by cases f <;> decide
    rw [e]; linarith
  lt := h.lt
  mu := h.mv
  mv := h.mu
  pu := h.pv
  pv := h.pu

/-- composition: first `h`, then `k` -/
theorem comp {a b c d : Nat} {g : Bool} {z w : Nat} (h : Step u v u' v' f r0 r1 x y)
    (k : Step a b c d g x y z w) :
    Step (a * u + b * u') (a * v + b * v') (c * u + d * u') (c * v + d * v') (g ^^ !f) r0 r1 z w where
  e0 := by rw [h.e0, k.e0, k.e1]; ring
  e1 := by rw [h.e1, k.e0, k.e1]; ring
  det := by
    have h1 := h.det; have h2 := k.det
    rw [sgn_mul, ← h1, ← h2]; push_cast; ring
  lt := k.lt
  mu := Nat.add_le_add (Nat.mul_le_mul_right _ k.mu) (Nat.mul_le_mul_right _ k.mv)
  mv := Nat.add_le_add (Nat.mul_le_mul_right _ k.mu) (Nat.mul_le_mul_right _ k.mv)
  pu := by nlinarith [h.pu, k.pv, Nat.zero_le (c * u)]
  pv := by nlinarith [h.pv, k.pv, Nat.zero_le (c * v)]

/-- a step computed on scaled values is a step on the values -/
theorem unscale {S : Nat} (hS : 0 < S) (h : Step u v u' v' f (r0 * S) (r1 * S) x y) :
    ∃ x' y', x = x' * S ∧ y = y' * S ∧ Step u v u' v' f r0 r1 x' y' := by
  have hx : (S : Int) ∣ (x : Int) := by
    rw [h.x_eq]; push_cast
    exact ⟨sgn f * (u * r0 - v * r1), by ring⟩
  have hy : (S : Int) ∣ (y : Int) := by
    rw [h.y_eq]; push_cast
    exact ⟨sgn f * (v' * r1 - u' * r0), by ring⟩
  obtain ⟨x', rfl⟩ := Int.natCast_dvd_natCast.1 hx
  obtain ⟨y', rfl⟩ := Int.natCast_dvd_natCast.1 hy
  refine ⟨x', y', Nat.mul_comm _ _, Nat.mul_comm _ _, ?_, ?_, h.det, ?_, h.mu, h.mv, h.pu, h.pv⟩
  · have := h.e0
    apply Nat.eq_of_mul_eq_mul_right hS
    rw [this]; ring
  · have := h.e1
    apply Nat.eq_of_mul_eq_mul_right hS
    rw [this]; ring
  · exact Nat.lt_of_mul_lt_mul_left h.lt

end Step

/-- Jebelean's condition, even matrix: if the step on the prefixes `a0, a1` satisfies it then the same
matrix is a step for all numbers with these prefixes. -/
theorem jebelean_even {u v u' v' a0 a1 x y K e0 e1 : Nat}
    (h0 : a0 = v' * x + v * y) (h1 : a1 = u' * x + u * y)
    (det : (u * v' - v * u' : Int) = 1) (mu : u ≤ u') (mv : v ≤ v') (pu : 1 ≤ u') (pv : 1 ≤ v')
    (c1 : u' ≤ y) (c2 : y + (v + v') ≤ x) (he0 : e0 < K) (he1 : e1 < K) :
    ∃ X Y, Step u v u' v' true (a0 * K + e0) (a1 * K + e1) X Y ∧ x * K ≤ 2 * X := by
  -- the two combinations
  have hX : v * e1 ≤ x * K + u * e0 := by nlinarith [Nat.mul_le_mul_left v he1.le, Nat.mul_le_mul_right K c2]
  have hY : u' * e0 ≤ y * K + v' * e1 := by nlinarith [Nat.mul_le_mul_left u' he0.le, Nat.mul_le_mul_right K c1]
  obtain ⟨X, eX⟩ := Nat.exists_eq_add_of_le hX
  obtain ⟨Y, eY⟩ := Nat.exists_eq_add_of_le hY
  refine ⟨X, Y, ⟨?_, ?_, det, ?_, mu, mv, pu, pv⟩, ?_⟩
  · zify at eX eY ⊢; rw [h0]; push_cast
    linear_combination (v' : Int) * eX + (v : Int) * eY - (e0 : Int) * det
  · zify at eX eY ⊢; rw [h1]; push_cast
    linear_combination (u' : Int) * eX + (u : Int) * eY - (e1 : Int) * det
  · have : (v + v') * e1 < (v + v') * K := Nat.mul_lt_mul_of_pos_left he1 (by omega)
    nlinarith [Nat.mul_le_mul_right K c2, Nat.zero_le ((u + u') * e0)]
  · nlinarith [Nat.mul_le_mul_left v he1.le, Nat.mul_le_mul_right K c2, Nat.mul_le_mul_right K mv,
      Nat.zero_le (u * e0), Nat.zero_le (y * K)]

theorem jebelean_odd {u v u' v' a0 a1 x y K e0 e1 : Nat}
    (h0 : a0 = v' * x + v * y) (h1 : a1 = u' * x + u * y)
    (det : (u * v' - v * u' : Int) = -1) (mu : u ≤ u') (mv : v ≤ v') (pu : 1 ≤ u') (pv : 1 ≤ v')
    (c1 : v' ≤ y) (c2 : y + (u + u') ≤ x) (he0 : e0 < K) (he1 : e1 < K) :
    ∃ X Y, Step u v u' v' false (a0 * K + e0) (a1 * K + e1) X Y ∧ x * K ≤ 2 * X := by
  obtain ⟨X, Y, h, b⟩ := jebelean_even h1 h0 (by linarith) mv mu pv pu c1 c2 he1 he0
  exact ⟨X, Y, h.swap, b⟩

theorem jebelean {u v u' v' a0 a1 x y K e0 e1 : Nat} (f : Bool)
    (h0 : a0 = v' * x + v * y) (h1 : a1 = u' * x + u * y)
    (det : (u * v' - v * u' : Int) = sgn f) (mu : u ≤ u') (mv : v ≤ v') (pu : 1 ≤ u') (pv : 1 ≤ v')
    (c1 : (if f then u' else v') ≤ y) (c2 : y + (if f then v + v' else u + u') ≤ x)
    (he0 : e0 < K) (he1 : e1 < K) :
    ∃ X Y, Step u v u' v' f (a0 * K + e0) (a1 * K + e1) X Y ∧ x * K ≤ 2 * X := by
  cases f
  · exact jebelean_odd h0 h1 det mu mv pu pv c1 c2 he0 he1
  · exact jebelean_even h0 h1 det mu mv pu pv c1 c2 he0 he1

/-- The state of Euclid's algorithm on `(a0, a1)`: current pair `(x, y)` and cofactor matrix. -/
structure Pre (u v u' v' : Nat) (f : Bool) (a0 a1 x y : Nat) : Prop where
  e0 : a0 = v' * x + v * y
  e1 : a1 = u' * x + u * y
  det : (u * v' - v * u' : Int) = sgn f
  le : y ≤ x
  pv : 1 ≤ v'

theorem Step.pre {u v u' v' : Nat} {f : Bool} {r0 r1 x y : Nat} (h : Step u v u' v' f r0 r1 x y) :
    Pre u v u' v' f r0 r1 x y := ⟨h.e0, h.e1, h.det, h.lt.le, h.pv⟩

theorem Pre.id {a0 a1 : Nat} (h : a1 ≤ a0) : Pre 1 0 0 1 true a0 a1 a0 a1 :=
  ⟨by ring, by ring, by decide, h, le_refl _⟩

/-- One Euclid step. -/
theorem Pre.step {u v u' v' : Nat} {f : Bool} {a0 a1 x y : Nat} (h : Pre u v u' v' f a0 a1 x y)
    (hy : 0 < y) :
    Step u' v' (u + x / y * u') (v + x / y * v') (!f) a0 a1 y (x % y) where
  e0 := by
    have := Nat.div_add_mod x y
    rw [h.e0]; nth_rewrite 1 [← this]; ring
  e1 := by
    have := Nat.div_add_mod x y
    rw [h.e1]; nth_rewrite 1 [← this]; ring
  det := by
    have := h.det
    have e : sgn (!f) = - sgn f := by cases f <;> decide
    rw [e, ← this]; push_cast; ring
  lt := Nat.mod_lt _ hy
  mu := by
    have : 1 ≤ x / y := Nat.div_pos h.le hy
    nlinarith
  mv := by
    have : 1 ≤ x / y := Nat.div_pos h.le hy
    nlinarith
  pu := by
    have q1 : 1 ≤ x / y := Nat.div_pos h.le hy
    rcases Nat.eq_zero_or_pos u' with h0 | h0
    · rcases Nat.eq_zero_or_pos u with h1 | h1
      · exfalso
        have := h.det
        rw [h0, h1] at this
        rcases sgn_cases f with ⟨_, e⟩ | ⟨_, e⟩ <;> rw [e] at this <;> simp at this
      · omega
    · have := Nat.mul_pos q1 h0; omega
  pv := by
    have q1 : 1 ≤ x / y := Nat.div_pos h.le hy
    have := Nat.mul_pos q1 h.pv; omega

theorem Step.bound_u {u v u' v' : Nat} {f : Bool} {r0 r1 x y : Nat} (h : Step u v u' v' f r0 r1 x y) :
    u' * x ≤ r1 := by rw [h.e1]; exact Nat.le_add_right _ _

theorem Step.bound_v {u v u' v' : Nat} {f : Bool} {r0 r1 x y : Nat} (h : Step u v u' v' f r0 r1 x y) :
    v' * x ≤ r0 := by rw [h.e0]; exact Nat.le_add_right _ _

end OpenZKP
