import Verif.EC.EcdsaLemmas

/-!
# Properties C23 (affine group law), C24 (Jacobian coordinates), C25 (signed digits), C26 (multiplication)

The specification is Mathlib's group of points of the Weierstrass curve `y² = x³ + x + β`: `Pt β`, its zero,
negation, addition and integer multiples.  `ofPoint` writes such a point in the code's representation, and
`Represents j P` says that converting the Jacobian triple `j` to affine coordinates gives `P`.
-/

namespace OpenZKP.Props
open OpenZKP EC U256

section
variable {F : Type} [Field F] [DecidableEq F] {β : F}

/-! ## C23 -/

/-- C23: the values accepted by `is_on_curve` are exactly the points of the curve. -/
theorem C23_on_curve (h2 : (2 : F) ≠ 0) (hΔ : (4 : F) + 27 * β ^ 2 ≠ 0) (a : Affine F) :
    Affine.is_on_curve β a = true ↔ ∃ P : Pt β, ofPoint P = a := by
  constructor
  · intro h
    cases a with
    | Zero => exact ⟨0, rfl⟩
    | Point x y =>
      have h' : y * y = x * x * x + x + β := by simpa [Affine.is_on_curve] using h
      exact ⟨.some x y (nonsingular_of_eq hΔ h' h2), rfl⟩
  · rintro ⟨P, rfl⟩
    cases P with
    | zero => rfl
    | some x y h => simpa [Affine.is_on_curve, ofPoint] using equation_of h

/-- C23: negation, doubling, addition and subtraction of affine points are the group operations of the curve,
for every pair of points: zero, equal points, opposite points and points with `y = 0` included. -/
theorem C23_group_law (h2 : (2 : F) ≠ 0) (P Q : Pt β) :
    Affine.neg (ofPoint P) = ofPoint (-P) ∧
    Affine.double (ofPoint P) = some (ofPoint (P + P)) ∧
    Affine.add (ofPoint P) (ofPoint Q) = some (ofPoint (P + Q)) ∧
    Affine.sub (ofPoint P) (ofPoint Q) = some (ofPoint (P - Q)) := by
  refine ⟨neg_eq P, double_eq h2 P, add_eq h2 P Q, ?_⟩
  unfold Affine.sub
  rw [neg_eq, add_eq h2, sub_eq_add_neg]

end

/-- C23 for the curve of the code: sums of values on the curve are computed without panicking, are on the curve,
and the addition is commutative, associative, with zero and inverses. -/
theorem C23_concrete (a b c : Affine Fp) (ha : Affine.is_on_curve BETA a = true) (hb : Affine.is_on_curve BETA b = true)
    (hc : Affine.is_on_curve BETA c = true) :
    (∃ s, Affine.add a b = some s ∧ Affine.is_on_curve BETA s = true) ∧
    Affine.add a a = Affine.double a ∧
    Affine.add a b = Affine.add b a ∧
    ((Affine.add a b).bind fun s => Affine.add s c) = ((Affine.add b c).bind fun s => Affine.add a s) ∧
    Affine.add a .Zero = some a ∧ Affine.add a (Affine.neg a) = some .Zero := by
  obtain ⟨P, rfl⟩ := (C23_on_curve two_ne disc_ne a).1 ha
  obtain ⟨Q, rfl⟩ := (C23_on_curve two_ne disc_ne b).1 hb
  obtain ⟨R, rfl⟩ := (C23_on_curve two_ne disc_ne c).1 hc
  refine ⟨⟨_, add_eq two_ne P Q, (C23_on_curve two_ne disc_ne _).2 ⟨_, rfl⟩⟩, ?_, ?_, ?_, ?_, ?_⟩
  · rw [add_eq two_ne, double_eq two_ne]
  · rw [add_eq two_ne, add_eq two_ne, add_comm]
  · rw [add_eq two_ne, add_eq two_ne, Option.bind_some, Option.bind_some, add_eq two_ne, add_eq two_ne, add_assoc]
  · rw [← ofPoint_zero (β := BETA), add_eq two_ne, add_zero]
  · rw [neg_eq, add_eq two_ne, add_neg_cancel]; rfl

/-- the hypotheses hold for the generator -/
example : Affine.is_on_curve BETA GENERATOR = true ∧ GENERATOR ≠ .Zero :=
  ⟨(C23_on_curve two_ne disc_ne _).2 ⟨G, ofPoint_G⟩, by rw [GENERATOR_eq]; simp⟩

/-- a point with `y = 0` on another curve of the family: `(0, 0)` on `y² = x³ + x` doubles to zero -/
example : Affine.double (.Point (0 : ℚ) 0) = some .Zero := by decide +kernel

section
variable {F : Type} [Field F] [DecidableEq F] {β : F}

/-! ## C24 -/

/-- what it means to represent a point: any triple `(x z², y z³, z)` with `z ≠ 0`, or any triple with `z = 0`
for the zero point -/
theorem C24_representatives (x y z : F) (hz : z ≠ 0) (h : (curve β).Nonsingular x y) (u v : F) :
    Represents ⟨x * z ^ 2, y * z ^ 3, z⟩ (.some x y h : Pt β) ∧ Represents ⟨u, v, 0⟩ (0 : Pt β) :=
  ⟨(represents_some_iff h).2 ⟨hz, rfl, rfl⟩, represents_zero_iff.2 rfl⟩

/-- C24: conversion from affine coordinates, doubling, negation, addition and subtraction of Jacobian triples
compute the group operations, for every choice of representatives. -/
theorem C24_group_law (h2 : (2 : F) ≠ 0) {p q : Jacobian F} {P Q : Pt β} (hp : Represents p P) (hq : Represents q Q) :
    Represents (Jacobian.ofAffine (ofPoint P)) P ∧
    Represents (Jacobian.neg p) (-P) ∧
    Represents (Jacobian.double p) (P + P) ∧
    Represents (Jacobian.add p q) (P + Q) ∧
    Represents (Jacobian.sub p q) (P - Q) :=
  ⟨represents_ofAffine P, represents_neg hp, represents_double h2 hp, represents_add h2 hp hq,
    represents_sub h2 hp hq⟩

/-- C24: comparing two Jacobian triples compares the points. -/
theorem C24_eq {p q : Jacobian F} {P Q : Pt β} (hp : Represents p P) (hq : Represents q Q) :
    Jacobian.eq p q = true ↔ P = Q := by
  unfold Jacobian.eq
  rw [hp, hq, beq_iff_eq]
  exact ⟨ofPoint_inj, fun h => by rw [h]⟩

/-- C24, the part that holds of mixed additions: right unless the two points are non-zero and equal or
opposite. -/
theorem C24_mixed_partial (h2 : (2 : F) ≠ 0) {p : Jacobian F} {P Q : Pt β} (hp : Represents p P)
    (hPQ : P = 0 ∨ Q = 0 ∨ (P ≠ Q ∧ P ≠ -Q)) :
    Represents (Jacobian.addMixed p (ofPoint Q)) (P + Q) ∧ Represents (Jacobian.subMixed p (ofPoint Q)) (P - Q) := by
  refine ⟨represents_addMixed h2 hp hPQ, ?_⟩
  unfold Jacobian.subMixed
  rw [neg_eq, sub_eq_add_neg]
  refine represents_addMixed h2 hp ?_
  rw [neg_eq_zero, neg_neg]
  tauto

/-- C24, what mixed addition returns in the excluded case: the points have the same `x`, and the code doubles
exactly when `p.x = y₂ z³`, a comparison of an `x` with a `y` coordinate. -/
theorem C24_mixed_exceptional (h2 : (2 : F) ≠ 0) {p : Jacobian F} {x y₁ y₂ : F} {h₁ : (curve β).Nonsingular x y₁}
    (hp : Represents p (.some x y₁ h₁ : Pt β)) :
    Represents (Jacobian.addMixed p (.Point x y₂))
      (if p.x = y₂ * p.z ^ 3 then (.some x y₁ h₁ + .some x y₁ h₁ : Pt β) else 0) :=
  addMixed_exceptional h2 hp

end

/-- C24 fails for mixed addition: adding the generator (affine) to itself (Jacobian) gives zero. -/
theorem C24_violated : ¬ ∀ (p : Jacobian Fp) (P Q : Pt BETA), Represents p P →
    Represents (Jacobian.addMixed p (ofPoint Q)) (P + Q) := by
  intro h
  have h1 := h (Jacobian.ofAffine GENERATOR) G G (by rw [← ofPoint_G]; exact represents_ofAffine G)
  have hz : (Jacobian.addMixed (Jacobian.ofAffine GENERATOR) GENERATOR).z = 0 := by
    rw [GENERATOR_eq]; decide +kernel
  rw [ofPoint_G] at h1
  have h0 : Represents (Jacobian.addMixed (Jacobian.ofAffine GENERATOR) GENERATOR) (0 : Pt BETA) :=
    represents_zero_iff.2 hz
  have e : G + G = 0 := ofPoint_inj (h1.symm.trans h0)
  have : addOrderOf G ∣ 2 := addOrderOf_dvd_of_nsmul_eq_zero (by rw [two_nsmul]; exact e)
  rw [order_G, scalar_modulus] at this
  exact absurd (Nat.le_of_dvd (by norm_num) this) (by norm_num)

/-- the hypotheses of the partial theorem hold for `2G` (any representative) and `G` -/
example : Represents (Jacobian.double (Jacobian.ofAffine GENERATOR)) (G + G) ∧
    (G + G = 0 ∨ G = 0 ∨ (G + G ≠ G ∧ G + G ≠ -G)) := by
  refine ⟨represents_double two_ne (by rw [← ofPoint_G]; exact represents_ofAffine G), .inr (.inr ⟨?_, ?_⟩)⟩
  · intro h; exact G_ne_zero (by simpa using h)
  · intro h
    have : addOrderOf G ∣ 3 := addOrderOf_dvd_of_nsmul_eq_zero (by
      rw [show (3 : Nat) = 2 + 1 from rfl, add_nsmul, two_nsmul, one_nsmul, h, neg_add_cancel])
    rw [order_G, scalar_modulus] at this
    exact absurd (Nat.le_of_dvd (by norm_num) this) (by norm_num)

/-! ## C25 -/

/-- C25: for windows of 2 to 14 bits (the code uses 5 and 7) the expansion is computed without leaving its array
of 257 digits, its digits `d 0, …, d 256` sum to the scalar, every digit is zero or odd and smaller than
`2^(w-1)` in absolute value, any `w` consecutive digits contain at most one that is not zero, and the table
position `|d|/2` it selects is inside a table of `2^(w-2)` entries. -/
theorem C25_naf (w : Nat) (hw : 2 ≤ w) (hw' : w ≤ 14) (k : U256) :
    ∃ d : Nat → Int, non_adjacent_form k w = some d ∧
      (∑ j ∈ Finset.range 257, d j * 2 ^ j) = k.toNat ∧
      (∀ j, d j = 0 ∨ (Odd (d j) ∧ |d j| < 2 ^ (w - 1))) ∧
      (∀ j l, d j ≠ 0 → j < l → l < j + w → d l = 0) ∧
      (∀ j, (|d j| / 2).toNat < 2 ^ (w - 2)) := by
  obtain ⟨d, e, h⟩ := naf_spec w hw hw' k
  have hd : ∀ j, d j = 0 ∨ (Odd (d j) ∧ |d j| < 2 ^ (w - 1)) := by
    intro j
    rcases h.digit j (Nat.zero_le _) with h0 | ⟨ho, hlo, hhi⟩
    · exact .inl h0
    · exact .inr ⟨Int.odd_iff.2 ho, abs_lt.2 ⟨hlo, hhi⟩⟩
  refine ⟨d, e, naf_total h, hd, fun j l h0 h1 h2 => h.gap j (Nat.zero_le _) h0 l h1 h2, ?_⟩
  intro j
  have hp : (2 : Int) ^ (w - 1) = 2 * 2 ^ (w - 2) := by
    rw [← pow_succ']; congr 1; omega
  have hpos : (0 : Int) < 2 ^ (w - 2) := by positivity
  have hlt : |d j| / 2 < 2 ^ (w - 2) := by
    rcases hd j with h0 | ⟨_, h1⟩
    · rw [h0]; simpa using hpos
    · rw [hp] at h1; omega
  have hnn : 0 ≤ |d j| / 2 := by positivity
  have : ((|d j| / 2).toNat : Int) < ((2 ^ (w - 2) : Nat) : Int) := by
    rw [Int.toNat_of_nonneg hnn]; push_cast; exact hlt
  exact_mod_cast this

/-- a case with a negative digit and a carry: 31 = -1 + 2^5 -/
example : ((non_adjacent_form (⟨31, 0, 0, 0⟩ : U256) 5).map fun d => (d 0, d 1, d 5)) = some (-1, 0, 1) := by
  decide +kernel

section
variable {F : Type} [Field F] [DecidableEq F] {β : F}

/-! ## C26 -/

/-- C26: double-and-add on affine and on Jacobian points, and windowed multiplication, return the multiple of
the point for every scalar and every point. -/
theorem C26_mul (h2 : (2 : F) ≠ 0) (P : Pt β) (k : U256) :
    affineMul (ofPoint P) k = some (ofPoint (k.toNat • P)) ∧
    (∀ p, Represents p P → Represents (jacobianMul p k) (k.toNat • P)) ∧
    (∃ r, mul (ofPoint P) k = some r ∧ Represents r (k.toNat • P)) :=
  ⟨affineMul_eq h2 P k, fun _ hp => jacobianMul_eq h2 hp k, mul_eq h2 P k⟩

/-- C26: converting a list of Jacobian points with one inversion gives each point, or panics when one of
them is zero. -/
theorem C26_batch_convert (js : List (Jacobian F)) :
    batch_convert js = if ∀ j ∈ js, j.z ≠ 0 then some (js.map Jacobian.toAffine) else none :=
  batch_convert_eq js

/-- C26: a table of odd multiples, as made by `window_table_affine`. -/
theorem C26_window_table (h2 : (2 : F) ≠ 0) (P : Pt β) (n : Nat) :
    ∃ l, window_table_affine (ofPoint P) n = some l ∧ ∀ i, i < n → l[i]? = some (ofPoint ((2 * i + 1) • P)) := by
  obtain ⟨l, e, _, h⟩ := window_table_affine_spec h2 P n
  exact ⟨l, e, h⟩

/-- C26, the part that holds of `double_mul`: right when at every position where the digit of `a` is not
positive the digits of `a` and `b` are negative together. -/
theorem C26_double_mul_partial (h2 : (2 : F) ≠ 0) (P Q : Pt β) (a b : U256) (na nb : Nat → Int)
    (ea : non_adjacent_form a 5 = some na) (eb : non_adjacent_form b 5 = some nb)
    (hs : ∀ i, na i ≤ 0 → (nb i < 0 ↔ na i < 0)) :
    ∃ r, double_mul (ofPoint P) a (ofPoint Q) b = some r ∧ Represents r (a.toNat • P + b.toNat • Q) :=
  double_mul_eq h2 P Q a b na nb ea eb hs

/-- C26, the part that holds of `double_base_mul`: right when no addition it makes meets equal or opposite
non-zero points (`Clash`), and no entry of the table for `Q` is zero. `highSum d i` is the value of the digits
from position `i` on. -/
theorem C26_double_base_mul_partial (h2 : (2 : F) ≠ 0) (P Q : Pt β) (l : List (Affine F))
    (hl : ∀ i, i < 32 → l[i]? = some (ofPoint ((2 * i + 1) • P))) (a b : U256)
    (hQ : ∀ i, i < 8 → (2 * i + 1) • Q ≠ 0)
    (da db : Nat → Int) (ea : non_adjacent_form a 7 = some da) (eb : non_adjacent_form b 5 = some db)
    (hc : ∀ i, i < 257 →
      ¬ Clash ((2 * highSum da (i + 1)) • P + (2 * highSum db (i + 1)) • Q) (da i • P) ∧
      ¬ Clash ((highSum da i) • P + (2 * highSum db (i + 1)) • Q) (db i • Q)) :
    ∃ r, double_base_mul l a (ofPoint Q) b = some r ∧ Represents r (a.toNat • P + b.toNat • Q) :=
  double_base_mul_eq h2 P Q l hl a b hQ da db ea eb hc

end

/-- C26, the part that holds of `base_mul`: on the curve of the code, for a point of order `n` (the order of the
generator), every scalar below `n` other than `n - 94` gives the right multiple. -/
theorem C26_base_mul_partial (P : Pt BETA) (hP : addOrderOf P = PF.SCALAR.modulus.toNat) (l : List (Affine Fp))
    (hl : ∀ i, i < 32 → l[i]? = some (ofPoint ((2 * i + 1) • P))) (k : U256)
    (hk : k.toNat < PF.SCALAR.modulus.toNat) (hne : k.toNat ≠ PF.SCALAR.modulus.toNat - 94) :
    ∃ r, base_mul l k = some r ∧ Represents r (k.toNat • P) :=
  base_mul_ok P hP l hl k hk hne

/-- the hypotheses hold of the generator and its table -/
example : addOrderOf G = PF.SCALAR.modulus.toNat ∧ ∃ l, GENERATOR_TABLE = some l ∧
    ∀ i, i < 32 → l[i]? = some (ofPoint ((2 * i + 1) • G)) := ⟨order_G, table_G⟩

/-- `n - 94` -/
def badScalar : U256 := U256.sub PF.SCALAR.modulus ⟨94, 0, 0, 0⟩

set_option maxRecDepth 100000 in
theorem base_mul_bad : ((GENERATOR_TABLE.bind fun t => base_mul t badScalar).map Jacobian.z) = some 0 := by
  unfold GENERATOR_TABLE
  rw [GENERATOR_eq]
  decide +kernel

theorem badScalar_val : badScalar.toNat = PF.SCALAR.modulus.toNat - 94 := by decide +kernel

/-- C26 fails for `base_mul`: the generator times `n - 94` is computed as zero. -/
theorem C26_base_mul_violated : ∃ (l : List (Affine Fp)) (r : Jacobian Fp), GENERATOR_TABLE = some l ∧
    base_mul l badScalar = some r ∧ Represents r (0 : Pt BETA) ∧ badScalar.toNat • G ≠ 0 := by
  obtain ⟨l, el, _⟩ := table_G
  have h := base_mul_bad
  rw [el, Option.bind_some] at h
  cases hb : base_mul l badScalar with
  | none => rw [hb] at h; simp at h
  | some r =>
    rw [hb, Option.map_some] at h
    refine ⟨l, r, el, hb, represents_zero_iff.2 (Option.some.inj h), ?_⟩
    intro h0
    have := addOrderOf_dvd_of_nsmul_eq_zero h0
    rw [order_G, badScalar_val, scalar_modulus] at this
    exact absurd (Nat.le_of_dvd (by norm_num) this) (by norm_num)

theorem double_mul_bad : ((double_mul GENERATOR U256.ZERO GENERATOR ⟨31, 0, 0, 0⟩).map Jacobian.toAffine) =
    some (Jacobian.toAffine (jacobianMul (Jacobian.ofAffine GENERATOR) ⟨30, 0, 0, 0⟩)) := by
  rw [GENERATOR_eq]
  decide +kernel

/-- C26 fails for `double_mul`: `0·G + 31·G` is computed as `30·G`. -/
theorem C26_double_mul_violated : ∃ r : Jacobian Fp, double_mul (ofPoint G) U256.ZERO (ofPoint G) ⟨31, 0, 0, 0⟩ = some r ∧
    Represents r (30 • G) ∧ 30 • G ≠ 0 • G + 31 • G := by
  have h := double_mul_bad
  rw [ofPoint_G]
  cases hb : double_mul GENERATOR U256.ZERO GENERATOR ⟨31, 0, 0, 0⟩ with
  | none => rw [hb] at h; simp at h
  | some r =>
    rw [hb, Option.map_some] at h
    refine ⟨r, rfl, ?_, ?_⟩
    · have h30 := jacobianMul_eq two_ne (represents_ofAffine G) ⟨30, 0, 0, 0⟩
      rw [ofPoint_G] at h30
      exact (Option.some.inj h).trans h30
    · rw [zero_nsmul, zero_add, show (31 : Nat) = 30 + 1 from rfl, add_nsmul, one_nsmul]
      intro h
      exact G_ne_zero (by simpa using h)

end OpenZKP.Props
