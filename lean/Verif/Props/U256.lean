import Verif.U256.ShiftLemmas
import Mathlib.Data.Nat.Size
import Mathlib.Data.Set.Basic
import Mathlib.Algebra.BigOperators.Group.List.Basic

/-!
# Properties C01, C02, C05, C06, C11 (integer part), C12

The specification is `U256.toNat` (the integer four limbs stand for) and `beValue`
(big-endian numerals); both are in `Verif/U256/Spec.lean`.
-/

namespace OpenZKP.Props
open OpenZKP U256

/-! ## The specification function is a bijection with the integers below 2^256 -/

/-- Every integer below `2^256` is the value of some `U256`. -/
theorem toNat_surj (n : Nat) (h : n < 2 ^ 256) : ∃ x : U256, x.toNat = n := by
  refine ⟨⟨UInt64.ofNat n, UInt64.ofNat (n / 2 ^ 64), UInt64.ofNat (n / 2 ^ 128),
    UInt64.ofNat (n / 2 ^ 192)⟩, ?_⟩
  simp only [toNat, UInt64.toNat_ofNat']
  omega

/-- `toNat` is injective with range `[0, 2^256)`: a `U256` is nothing but an integer below `2^256`. -/
theorem toNat_bijective : Function.Injective U256.toNat ∧
    Set.range U256.toNat = {n | n < 2 ^ 256} := by
  refine ⟨fun _ _ h => toNat_inj h, ?_⟩
  ext n
  exact ⟨fun ⟨x, hx⟩ => hx ▸ toNat_lt x, fun h => toNat_surj n h⟩

/-! ## C01 -/

/-- C01: `+`, `-` and unary `-` are exact modulo `2^256` (stated over the integers). -/
theorem C01_add_sub_neg (a b : U256) :
    ((add a b).toNat : ℤ) = ((a.toNat : ℤ) + b.toNat) % 2 ^ 256 ∧
    ((sub a b).toNat : ℤ) = ((a.toNat : ℤ) - b.toNat) % 2 ^ 256 ∧
    ((neg a).toNat : ℤ) = (-(a.toNat : ℤ)) % 2 ^ 256 := by
  have ha := toNat_lt a; have hb := toNat_lt b
  refine ⟨?_, ?_, ?_⟩
  · rw [add_mod]; omega
  · rw [sub_mod]; omega
  · rw [neg_mod]; omega

/-- C01: the limb helpers satisfy their exact two-limb equations, and `sbb` produces a 0/1 borrow. -/
theorem C01_limb_helpers (a b c k : UInt64) :
    ((adc a b c).1.toNat + 2 ^ 64 * (adc a b c).2.toNat = a.toNat + b.toNat + c.toNat) ∧
    (k.toNat ≤ 1 → ((sbb a b k).1.toNat : ℤ) - 2 ^ 64 * (sbb a b k).2.toNat
        = (a.toNat : ℤ) - b.toNat - k.toNat ∧ (sbb a b k).2.toNat ≤ 1) ∧
    ((mac a b c k).1.toNat + 2 ^ 64 * (mac a b c k).2.toNat = a.toNat + b.toNat * c.toNat + k.toNat) ∧
    (((msb a b c k).1.toNat : ℤ) - 2 ^ 64 * (msb a b c k).2.toNat
        = (a.toNat : ℤ) - b.toNat * c.toNat - k.toNat) := by
  refine ⟨adc_eq a b c, fun hk => ?_, mac_eq a b c k, ?_⟩
  · obtain ⟨h1, h2⟩ := sbb_eq a b k hk
    exact ⟨by zify at h1; linear_combination h1, h2⟩
  · have h := msb_eq a b c k
    zify at h; linear_combination h

/-- C01: the carry and borrow returned next to the wrapped result are exact. -/
theorem C01_carry (a b : U256) :
    ((add_full a b).1.toNat + 2 ^ 256 * (add_full a b).2.toNat = a.toNat + b.toNat) ∧
    (((sub_full a b).1.toNat : ℤ) - 2 ^ 256 * (sub_full a b).2.toNat = (a.toNat : ℤ) - b.toNat) ∧
    ((sub_full a b).2.toNat = if a.toNat < b.toNat then 1 else 0) := by
  obtain ⟨h1, h2⟩ := sub_full_eq a b
  have h3 := toNat_lt (sub_full a b).1
  have ha := toNat_lt a; have hb := toNat_lt b
  refine ⟨add_full_eq a b, by zify at h1; linear_combination h1, ?_⟩
  split <;> omega

example : ∃ a b : U256, a.toNat < b.toNat ∧ (sub a b).toNat = 2 ^ 256 - 1 ∧ (add b (sub a b)) = a :=
  ⟨⟨0, 0, 1, 0⟩, ⟨1, 0, 1, 0⟩, by decide +kernel, by decide +kernel, by decide +kernel⟩

/-! ## C02 -/

/-- C02: multiplication, squaring and the double-width products are exact. -/
theorem C02_mul (a b : U256) (c : UInt64) :
    (mul a b).toNat = a.toNat * b.toNat % 2 ^ 256 ∧
    (mul_full a b).1.toNat + 2 ^ 256 * (mul_full a b).2.toNat = a.toNat * b.toNat ∧
    (square a).toNat = a.toNat * a.toNat % 2 ^ 256 ∧
    (square_full a).1.toNat + 2 ^ 256 * (square_full a).2.toNat = a.toNat * a.toNat ∧
    (mul_u64_full a c).1.toNat + 2 ^ 256 * (mul_u64_full a c).2.toNat = a.toNat * c.toNat ∧
    (mul_u64 a c).toNat = a.toNat * c.toNat % 2 ^ 256 :=
  ⟨mul_mod a b, mul_full_eq a b, square_mod a, square_full_eq a, mul_u64_full_eq a c, mul_u64_mod a c⟩

/-- C02: squaring is multiplication by itself, limb for limb. -/
theorem C02_square_eq (a : U256) : square a = mul a a ∧ square_full a = mul_full a a := by
  refine ⟨toNat_inj (by rw [square_mod, mul_mod]), ?_⟩
  have h1 := square_full_eq a; have h2 := mul_full_eq a a
  have b1 := toNat_lt (square_full a).1; have b2 := toNat_lt (mul_full a a).1
  have e1 : (square_full a).1.toNat = (mul_full a a).1.toNat := by
    have := congrArg (· % 2 ^ 256) (h1.trans h2.symm)
    simpa only [Nat.add_mul_mod_self_left, Nat.mod_eq_of_lt b1, Nat.mod_eq_of_lt b2] using this
  have e2 : (square_full a).2.toNat = (mul_full a a).2.toNat := by
    rw [e1, ← h2] at h1
    exact Nat.eq_of_mul_eq_mul_left (by norm_num) (Nat.add_left_cancel h1)
  exact Prod.ext (toNat_inj e1) (toNat_inj e2)

example : ∃ a : U256, (mul_full a a).2 ≠ ZERO ∧ (square a).toNat = 1 := ⟨MAX, by decide +kernel, by decide +kernel⟩

/-! ## C05 -/

/-- C05: comparison is comparison of integers. -/
theorem C05_cmp (a b : U256) :
    cmp a b = compare a.toNat b.toNat ∧ (cmp a b = .eq ↔ a = b) := by
  refine ⟨cmp_eq a b, ?_⟩
  rw [cmp_eq, Nat.compare_eq_eq]
  exact ⟨toNat_inj, fun h => h ▸ rfl⟩

/-- C05: `bit i` is the `i`-th binary digit, for every `i`. -/
theorem C05_bit (a : U256) (i : Nat) : bit a i = a.toNat.testBit i := bit_eq a i

/-- C05: shifts, for every shift amount including 256 and beyond. -/
theorem C05_shift (a : U256) (n : Nat) :
    (shl a n).toNat = a.toNat * 2 ^ n % 2 ^ 256 ∧ (shr a n).toNat = a.toNat / 2 ^ n :=
  ⟨shl_mod a n, shr_div a n⟩

/-- C05: `leading_zeros` is 256 minus the bit length, i.e. the least `k` with `a < 2^(256-k)`
maximal; 256 for zero. -/
theorem C05_leading_zeros (a : U256) :
    (a.toNat = 0 → leading_zeros a = 256) ∧
    (0 < a.toNat → leading_zeros a < 256 ∧ 2 ^ (255 - leading_zeros a) ≤ a.toNat ∧
      a.toNat < 2 ^ (256 - leading_zeros a)) :=
  ⟨leading_zeros_zero a, leading_zeros_spec a⟩

/-- C05: `bits` is the bit length. -/
theorem C05_bits (a : U256) : U256.bits a = Nat.size a.toNat := by
  rw [U256.bits]
  rcases Nat.eq_zero_or_pos a.toNat with h | h
  · rw [leading_zeros_zero a h, h]; simp
  · obtain ⟨h1, h2, h3⟩ := leading_zeros_spec a h
    apply le_antisymm
    · have := Nat.lt_size.mpr h2; omega
    · exact Nat.size_le.mpr h3

/-- C05: `most_significant_bit` is `None` exactly for zero and otherwise the position of the
highest set bit. -/
theorem C05_msb (a : U256) :
    (a.toNat = 0 → most_significant_bit a = none) ∧
    (0 < a.toNat → ∃ k, most_significant_bit a = some k ∧ 2 ^ k ≤ a.toNat ∧ a.toNat < 2 ^ (k + 1)) := by
  refine ⟨fun h => ?_, fun h => ?_⟩
  · rw [most_significant_bit, leading_zeros_zero a h, if_neg (by omega)]
  · obtain ⟨h1, h2, h3⟩ := leading_zeros_spec a h
    refine ⟨255 - leading_zeros a, by rw [most_significant_bit, if_pos (by omega)], h2, ?_⟩
    rw [show 255 - leading_zeros a + 1 = 256 - leading_zeros a by omega]
    exact h3

/-- C05: `trailing_zeros` is the exponent of 2 in the value; 256 for zero. -/
theorem C05_trailing_zeros (a : U256) :
    (a.toNat = 0 → trailing_zeros a = 256) ∧
    (0 < a.toNat → ∃ m, a.toNat = 2 ^ trailing_zeros a * (2 * m + 1)) := by
  refine ⟨fun h => ?_, fun h => (trailing_zeros_spec a h).2⟩
  have e : a = ZERO := toNat_inj (h.trans zero_toNat.symm)
  rw [e]; decide +kernel

example : ∃ a : U256, 0 < a.toNat ∧ leading_zeros a = 3 ∧ trailing_zeros a = 131 ∧ bit a 252 ∧
    shl a 300 = ZERO ∧ (shr a 130).toNat = 2 ^ 122 + 2 :=
  ⟨⟨0, 0, 8, 0x1000000000000000⟩, by decide +kernel, by decide +kernel, by decide +kernel, by decide +kernel, by decide +kernel, by decide +kernel⟩

/-- C05: the bitwise operators act on every binary digit. -/
theorem C05_bitwise (a b : U256) (i : Nat) :
    (U256.and a b).toNat.testBit i = (a.toNat.testBit i && b.toNat.testBit i) ∧
    (U256.or a b).toNat.testBit i = (a.toNat.testBit i || b.toNat.testBit i) ∧
    (U256.xor a b).toNat.testBit i = (a.toNat.testBit i ^^ b.toNat.testBit i) ∧
    (U256.not a).toNat.testBit i = (decide (i < 256) && !a.toNat.testBit i) := by
  simp only [← bit_eq]
  unfold bit U256.and U256.or U256.xor U256.not
  have key : ∀ (x y : UInt64) (j : Nat), j < 64 →
      (x &&& y).toNat.testBit j = (x.toNat.testBit j && y.toNat.testBit j) ∧
      (x ||| y).toNat.testBit j = (x.toNat.testBit j || y.toNat.testBit j) ∧
      (x ^^^ y).toNat.testBit j = (x.toNat.testBit j ^^ y.toNat.testBit j) ∧
      (~~~x).toNat.testBit j = (true && !x.toNat.testBit j) := by
    intro x y j hj
    refine ⟨by rw [UInt64.toNat_and, Nat.testBit_and], by rw [UInt64.toNat_or, Nat.testBit_or],
      by rw [UInt64.toNat_xor, Nat.testBit_xor], ?_⟩
    have hx := u64_lt x
    rw [UInt64.toNat_not, show UInt64.size - 1 - x.toNat = 2 ^ 64 - (x.toNat + 1) by
      simp only [UInt64.size]; omega, Nat.testBit_two_pow_sub_succ hx]
    simp [hj]
  by_cases h0 : i < 64
  · simp only [if_pos h0, bit64 _ h0]
    rw [decide_eq_true (show i < 256 by omega)]
    exact key _ _ _ h0
  by_cases h1 : i < 128
  · have hb : i - 64 < 64 := by omega
    simp only [if_neg h0, if_pos h1, bit64 _ hb]
    rw [decide_eq_true (show i < 256 by omega)]
    exact key _ _ _ hb
  by_cases h2 : i < 192
  · have hb : i - 128 < 64 := by omega
    simp only [if_neg h0, if_neg h1, if_pos h2, bit64 _ hb]
    rw [decide_eq_true (show i < 256 by omega)]
    exact key _ _ _ hb
  by_cases h3 : i < 256
  · have hb : i - 192 < 64 := by omega
    simp only [if_neg h0, if_neg h1, if_neg h2, if_pos h3, bit64 _ hb]
    rw [decide_eq_true h3]
    exact key _ _ _ hb
  · simp [h0, h1, h2, h3]

/-! ## C06 -/

/-- C06: `to_bytes_be` is the 32-digit big-endian base-256 numeral of the value. -/
theorem C06_to_bytes (a : U256) :
    (to_bytes_be a).length = 32 ∧ beValue (to_bytes_be a) = a.toNat :=
  ⟨to_bytes_be_length a, to_bytes_be_value a⟩

/-- C06: `from_bytes_be` after `to_bytes_be` is the identity on values. -/
theorem C06_roundtrip_value (a : U256) : from_bytes_be (to_bytes_be a) = some a := by
  obtain ⟨x, h1, h2⟩ := from_bytes_be_eq _ (to_bytes_be_length a)
  rw [to_bytes_be_value] at h2
  rw [h1, toNat_inj h2]

/-- C06: `to_bytes_be` after `from_bytes_be` is the identity on 32-byte arrays. -/
theorem C06_roundtrip_bytes (l : List UInt8) (h : l.length = 32) :
    ∃ a, from_bytes_be l = some a ∧ a.toNat = beValue l ∧ to_bytes_be a = l := by
  obtain ⟨x, h1, h2⟩ := from_bytes_be_eq l h
  refine ⟨x, h1, h2, beValue_inj (by rw [to_bytes_be_length, h]) ?_⟩
  rw [to_bytes_be_value, h2]

example : ∃ l : List UInt8, l.length = 32 ∧ beValue l = 2 ^ 251 + 17 * 2 ^ 192 + 1 :=
  ⟨[8,0,0,0,0,0,0,17, 0,0,0,0,0,0,0,0, 0,0,0,0,0,0,0,0, 0,0,0,0,0,0,0,1], by decide +kernel, by decide +kernel⟩

/-! ## C11, integer part -/

/-- C11: `pow` is exponentiation modulo `2^256`, for every 64-bit exponent. -/
theorem C11_u256_pow (a : U256) (e : UInt64) :
    (U256.pow a e).toNat = a.toNat ^ e.toNat % 2 ^ 256 := pow_mod a e

example : ∃ (a : U256) (e : UInt64), e.toNat = 65 ∧ 1 < a.toNat ∧ (U256.pow a e).toNat ≠ 0 :=
  ⟨⟨3, 0, 0, 0⟩, 65, by decide +kernel, by decide +kernel, by rw [pow_mod]; decide +kernel⟩

/-! ## C12 -/

/-- C12, product: the product of an iterator modulo `2^256`. -/
theorem C12_product (l : List U256) :
    (product l).toNat = (l.map U256.toNat).prod % 2 ^ 256 := by
  have key : ∀ (l : List U256) (acc : U256),
      (l.foldl mul acc).toNat = acc.toNat * (l.map U256.toNat).prod % 2 ^ 256 := by
    intro l
    induction l with
    | nil => intro acc; simpa using (Nat.mod_eq_of_lt (toNat_lt acc)).symm
    | cons x l ih =>
      intro acc
      rw [List.foldl_cons, ih, mul_mod, List.map_cons, List.prod_cons, ← Nat.mul_assoc,
        Nat.mod_mul_mod]
  rw [product, key, one_toNat, Nat.one_mul]

/-- C12, sum: what `sum()` returns for every iterator: one more than the sum (additive.rs:105-109 folds
from `ONE`). -/
theorem C12_sum_actual (l : List U256) :
    (U256.sum l).toNat = ((l.map U256.toNat).sum + 1) % 2 ^ 256 := by
  have key : ∀ (l : List U256) (acc : U256),
      (l.foldl add acc).toNat = (acc.toNat + (l.map U256.toNat).sum) % 2 ^ 256 := by
    intro l
    induction l with
    | nil => intro acc; simpa using (Nat.mod_eq_of_lt (toNat_lt acc)).symm
    | cons x l ih =>
      intro acc
      rw [List.foldl_cons, ih, add_mod, List.map_cons, List.sum_cons, ← Nat.add_assoc,
        Nat.mod_add_mod]
  rw [U256.sum, key, one_toNat, Nat.add_comm]

/-- C12 fails for sums: on *every* iterator the result differs from the sum modulo `2^256`. -/
theorem C12_sum_violated (l : List U256) :
    (U256.sum l).toNat ≠ (l.map U256.toNat).sum % 2 ^ 256 := by
  rw [C12_sum_actual]
  omega

example : U256.sum [] = ONE := rfl
example : (product [⟨3, 0, 0, 0⟩, ⟨0, 5, 0, 0⟩]).toNat = 15 * 2 ^ 64 := by decide +kernel

end OpenZKP.Props
