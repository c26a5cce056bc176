import Verif.U256.BinaryLemmas
import Mathlib.Data.List.Induction

namespace OpenZKP
namespace U256

theorem limb_split (x : UInt64) {n : Nat} (h : 0 < n) (h' : n < 64) :
    ∃ d e : Nat, x.toNat = 2 ^ (64 - n) * d + e ∧ e < 2 ^ (64 - n) ∧ d < 2 ^ n ∧
      (shl64 x n).toNat = e * 2 ^ n ∧ (shr64 x (64 - n)).toNat = d := by
  have hx := u64_lt x
  refine ⟨x.toNat / 2 ^ (64 - n), x.toNat % 2 ^ (64 - n), (Nat.div_add_mod _ _).symm,
    Nat.mod_lt _ (by positivity), ?_, shl64_toNat x h', shr64_toNat x (by omega)⟩
  rw [Nat.div_lt_iff_lt_mul (by positivity), ← pow_add]
  have : n + (64 - n) = 64 := by omega
  rw [this]; exact hx

theorem pow_split {n : Nat} (h' : n < 64) : (2 : Int) ^ n * 2 ^ (64 - n) = 2 ^ 64 := by
  rw [← pow_add]; congr 1; omega

theorem pow_hi (k n : Nat) (h : k ≤ n) : (2 : Int) ^ n = 2 ^ k * 2 ^ (n - k) := by
  rw [← pow_add]; congr 1; omega

theorem pow_hi_nat (k n : Nat) (h : k ≤ n) : (2 : Nat) ^ n = 2 ^ k * 2 ^ (n - k) := by
  rw [← pow_add]; congr 1; omega

/-- Exact equation of the left shift: the bits shifted out are `k`. -/
theorem shl_eq (x : U256) (n : Nat) : ∃ k : Nat, (shl x n).toNat + 2 ^ 256 * k = x.toNat * 2 ^ n := by
  unfold shl
  split_ifs with h1 h2 h3 h4 h5 h6 h7 h8
  · exact ⟨0, by simp [h1]⟩
  · obtain ⟨d0, e0, a0, -, -, s0, t0⟩ := limb_split x.l0 (by omega) h2
    obtain ⟨d1, e1, a1, -, -, s1, t1⟩ := limb_split x.l1 (by omega) h2
    obtain ⟨d2, e2, a2, -, -, s2, t2⟩ := limb_split x.l2 (by omega) h2
    obtain ⟨d3, e3, a3, -, -, s3, t3⟩ := limb_split x.l3 (by omega) h2
    refine ⟨d3, ?_⟩
    have hp := pow_split h2
    simp only [toNat]
    rw [or_shift_lo _ _ (by omega) h2, or_shift_lo _ _ (by omega) h2, or_shift_lo _ _ (by omega) h2,
      s0, s1, s2, s3, t0, t1, t2, a0, a1, a2, a3]
    zify
    linear_combination -(d0 + 2 ^ 64 * d1 + 2 ^ 128 * d2 + 2 ^ 192 * d3 : Int) * hp
  · refine ⟨x.l3.toNat, ?_⟩
    simp only [toNat, h3, UInt64.toNat_zero]; ring
  · have hk : n - 64 < 64 := by omega
    have hk' : 128 - n = 64 - (n - 64) := by omega
    rw [hk']
    obtain ⟨d0, e0, a0, -, -, s0, t0⟩ := limb_split x.l0 (by omega) hk
    obtain ⟨d1, e1, a1, -, -, s1, t1⟩ := limb_split x.l1 (by omega) hk
    obtain ⟨d2, e2, a2, -, -, s2, t2⟩ := limb_split x.l2 (by omega) hk
    refine ⟨d2 + x.l3.toNat * 2 ^ (n - 64), ?_⟩
    have hp := pow_split hk
    have hn := pow_hi 64 n (by omega)
    simp only [toNat]
    rw [or_shift_lo _ _ (by omega) hk, or_shift_lo _ _ (by omega) hk,
      s0, s1, s2, t0, t1, a0, a1, a2]
    zify
    rw [hn]
    simp only [UInt64.toNat_zero]
    push_cast
    linear_combination -2 ^ 64 * (d0 + 2 ^ 64 * d1 + 2 ^ 128 * d2 : Int) * hp
  · refine ⟨x.l2.toNat + 2 ^ 64 * x.l3.toNat, ?_⟩
    simp only [toNat, h5, UInt64.toNat_zero]; ring
  · have hk : n - 128 < 64 := by omega
    have hk' : 192 - n = 64 - (n - 128) := by omega
    rw [hk']
    obtain ⟨d0, e0, a0, -, -, s0, t0⟩ := limb_split x.l0 (by omega) hk
    obtain ⟨d1, e1, a1, -, -, s1, t1⟩ := limb_split x.l1 (by omega) hk
    refine ⟨d1 + (x.l2.toNat + 2 ^ 64 * x.l3.toNat) * 2 ^ (n - 128), ?_⟩
    have hp := pow_split hk
    have hn := pow_hi 128 n (by omega)
    simp only [toNat]
    rw [or_shift_lo _ _ (by omega) hk, s0, s1, t0, a0, a1]
    zify
    rw [hn]
    simp only [UInt64.toNat_zero]
    push_cast
    linear_combination -2 ^ 128 * (d0 + 2 ^ 64 * d1 : Int) * hp
  · refine ⟨x.l1.toNat + 2 ^ 64 * x.l2.toNat + 2 ^ 128 * x.l3.toNat, ?_⟩
    simp only [toNat, h7, UInt64.toNat_zero]; ring
  · have hk : n - 192 < 64 := by omega
    obtain ⟨d0, e0, a0, -, -, s0, t0⟩ := limb_split x.l0 (by omega) hk
    refine ⟨d0 + (x.l1.toNat + 2 ^ 64 * x.l2.toNat + 2 ^ 128 * x.l3.toNat) * 2 ^ (n - 192), ?_⟩
    have hp := pow_split hk
    have hn := pow_hi 192 n (by omega)
    simp only [toNat]
    rw [s0, a0]
    zify
    rw [hn]
    simp only [UInt64.toNat_zero]
    push_cast
    linear_combination -2 ^ 192 * (d0 : Int) * hp
  · refine ⟨x.toNat * 2 ^ (n - 256), ?_⟩
    have hn := pow_hi_nat 256 n (by omega)
    rw [hn]
    simp only [toNat, UInt64.toNat_zero]; ring

theorem shl_mod (x : U256) (n : Nat) : (shl x n).toNat = x.toNat * 2 ^ n % 2 ^ 256 := by
  obtain ⟨k, hk⟩ := shl_eq x n
  rw [← hk, Nat.add_mul_mod_self_left, Nat.mod_eq_of_lt (toNat_lt _)]

/-- Split for the right shift. -/
theorem limb_split_r (x : UInt64) {n : Nat} (h : 0 < n) (h' : n < 64) :
    ∃ d e : Nat, x.toNat = 2 ^ n * d + e ∧ e < 2 ^ n ∧ d < 2 ^ (64 - n) ∧
      (shl64 x (64 - n)).toNat = e * 2 ^ (64 - n) ∧ (shr64 x n).toNat = d := by
  have := limb_split x (n := 64 - n) (by omega) (by omega)
  have e : 64 - (64 - n) = n := by omega
  rw [e] at this
  exact this

theorem div_of_eq {a b q r : Nat} (h : a = b * q + r) (hr : r < b) : q = a / b := by
  rw [h, Nat.mul_add_div (by omega), Nat.div_eq_of_lt hr, Nat.add_zero]

theorem or_shift_r (x y : UInt64) {n : Nat} (h : 0 < n) (h' : n < 64) :
    (shr64 y n ||| shl64 x (64 - n)).toNat = (shl64 x (64 - n)).toNat + (shr64 y n).toNat := by
  have := or_shift_lo' x y (n := 64 - n) (by omega) (by omega)
  have e : 64 - (64 - n) = n := by omega
  rw [e] at this
  exact this

theorem shr_div (x : U256) (n : Nat) : (shr x n).toNat = x.toNat / 2 ^ n := by
  have b0 := u64_lt x.l0; have b1 := u64_lt x.l1; have b2 := u64_lt x.l2; have b3 := u64_lt x.l3
  unfold shr
  split_ifs with h1 h2 h3 h4 h5 h6 h7 h8
  · simp [h1]
  · obtain ⟨d0, e0, a0, l0, -, s0, t0⟩ := limb_split_r x.l0 (by omega) h2
    obtain ⟨d1, e1, a1, -, -, s1, t1⟩ := limb_split_r x.l1 (by omega) h2
    obtain ⟨d2, e2, a2, -, -, s2, t2⟩ := limb_split_r x.l2 (by omega) h2
    obtain ⟨d3, e3, a3, -, -, s3, t3⟩ := limb_split_r x.l3 (by omega) h2
    refine div_of_eq (r := e0) ?_ l0
    have hp := pow_split h2
    simp only [toNat]
    rw [or_shift_r _ _ (by omega) h2, or_shift_r _ _ (by omega) h2, or_shift_r _ _ (by omega) h2,
      s1, s2, s3, t0, t1, t2, t3, a0, a1, a2, a3]
    zify
    linear_combination -(e1 + 2 ^ 64 * e2 + 2 ^ 128 * e3 : Int) * hp
  · refine div_of_eq (r := x.l0.toNat) ?_ (by rw [h3]; exact b0)
    simp only [toNat, h3, UInt64.toNat_zero]; ring
  · have hk : n - 64 < 64 := by omega
    have hk' : 128 - n = 64 - (n - 64) := by omega
    rw [hk']
    obtain ⟨d1, e1, a1, l1, -, s1, t1⟩ := limb_split_r x.l1 (by omega) hk
    obtain ⟨d2, e2, a2, -, -, s2, t2⟩ := limb_split_r x.l2 (by omega) hk
    obtain ⟨d3, e3, a3, -, -, s3, t3⟩ := limb_split_r x.l3 (by omega) hk
    have hn := pow_hi 64 n (by omega)
    refine div_of_eq (r := x.l0.toNat + 2 ^ 64 * e1) ?_ ?_
    · have hp := pow_split hk
      simp only [toNat]
      rw [or_shift_r _ _ (by omega) hk, or_shift_r _ _ (by omega) hk, s2, s3, t1, t2, t3, a1, a2, a3]
      zify
      rw [hn]
      simp only [UInt64.toNat_zero]
      push_cast
      linear_combination -2 ^ 64 * (e2 + 2 ^ 64 * e3 : Int) * hp
    · zify at *
      rw [hn]; nlinarith
  · refine div_of_eq (r := x.l0.toNat + 2 ^ 64 * x.l1.toNat) ?_ (by rw [h5]; omega)
    simp only [toNat, h5, UInt64.toNat_zero]; ring
  · have hk : n - 128 < 64 := by omega
    have hk' : 192 - n = 64 - (n - 128) := by omega
    rw [hk']
    obtain ⟨d2, e2, a2, l2, -, s2, t2⟩ := limb_split_r x.l2 (by omega) hk
    obtain ⟨d3, e3, a3, -, -, s3, t3⟩ := limb_split_r x.l3 (by omega) hk
    have hn := pow_hi 128 n (by omega)
    refine div_of_eq (r := x.l0.toNat + 2 ^ 64 * x.l1.toNat + 2 ^ 128 * e2) ?_ ?_
    · have hp := pow_split hk
      simp only [toNat]
      rw [or_shift_r _ _ (by omega) hk, s3, t2, t3, a2, a3]
      zify
      rw [hn]
      simp only [UInt64.toNat_zero]
      push_cast
      linear_combination -2 ^ 128 * (e3 : Int) * hp
    · zify at *
      rw [hn]; nlinarith
  · refine div_of_eq (r := x.l0.toNat + 2 ^ 64 * x.l1.toNat + 2 ^ 128 * x.l2.toNat) ?_
      (by rw [h7]; omega)
    simp only [toNat, h7, UInt64.toNat_zero]; ring
  · have hk : n - 192 < 64 := by omega
    obtain ⟨d3, e3, a3, l3, -, s3, t3⟩ := limb_split_r x.l3 (by omega) hk
    have hn := pow_hi 192 n (by omega)
    refine div_of_eq (r := x.l0.toNat + 2 ^ 64 * x.l1.toNat + 2 ^ 128 * x.l2.toNat + 2 ^ 192 * e3) ?_ ?_
    · simp only [toNat]
      rw [t3, a3]
      zify
      rw [hn]
      simp only [UInt64.toNat_zero]
      push_cast
      ring
    · zify at *
      rw [hn]; nlinarith
  · rw [Nat.div_eq_of_lt]
    · simp [toNat]
    · exact lt_of_lt_of_le (toNat_lt x) (Nat.pow_le_pow_right (by norm_num) (by omega))

theorem bit64 (x : UInt64) {i : Nat} (h : i < 64) :
    ((x >>> UInt64.ofNat i) &&& 1 == 1) = x.toNat.testBit i := by
  have e : ((x >>> UInt64.ofNat i) &&& 1).toNat = x.toNat >>> i % 2 := by
    rw [UInt64.toNat_and, UInt64.toNat_shiftRight, ofNat_small h]
    exact Nat.and_one_is_mod _
  rw [Nat.testBit_eq_decide_div_mod_eq, ← Nat.shiftRight_eq_div_pow, ← e]
  rw [Bool.beq_eq_decide_eq]
  congr 1
  rw [← UInt64.toNat_inj]; rfl

theorem testBit_aux (lo hi k i : Nat) (h : lo < 2 ^ k) :
    (lo + 2 ^ k * hi).testBit i = if i < k then lo.testBit i else hi.testBit (i - k) := by
  rw [Nat.add_comm, Nat.testBit_two_pow_mul_add _ h]

theorem bit_eq (x : U256) (i : Nat) : bit x i = x.toNat.testBit i := by
  have b0 := u64_lt x.l0; have b1 := u64_lt x.l1; have b2 := u64_lt x.l2; have b3 := u64_lt x.l3
  have e : x.toNat = x.l0.toNat + 2 ^ 64 * (x.l1.toNat + 2 ^ 64 * (x.l2.toNat + 2 ^ 64 * x.l3.toNat)) := by
    simp only [toNat]; ring
  rw [e, testBit_aux _ _ _ _ b0, testBit_aux _ _ _ _ b1, testBit_aux _ _ _ _ b2]
  unfold bit
  by_cases h1 : i < 64
  · rw [if_pos h1, if_pos h1, bit64 _ h1]
  rw [if_neg h1, if_neg h1]
  by_cases h2 : i < 128
  · rw [if_pos h2, if_pos (show i - 64 < 64 by omega), bit64 _ (by omega)]
  rw [if_neg h2, if_neg (show ¬ i - 64 < 64 by omega)]
  by_cases h3 : i < 192
  · rw [if_pos h3, if_pos (show i - 64 - 64 < 64 by omega), bit64 _ (by omega),
      show i - 64 - 64 = i - 128 by omega]
  rw [if_neg h3, if_neg (show ¬ i - 64 - 64 < 64 by omega)]
  by_cases h4 : i < 256
  · rw [if_pos h4, bit64 _ (by omega), show i - 64 - 64 - 64 = i - 192 by omega]
  rw [if_neg h4]
  symm
  apply Nat.testBit_lt_two_pow
  exact lt_of_lt_of_le b3 (Nat.pow_le_pow_right (by norm_num) (by omega))

/-! leading and trailing zeros -/

theorem clz64_spec (x : UInt64) (h : 0 < x.toNat) :
    clz64 x < 64 ∧ 2 ^ (63 - clz64 x) ≤ x.toNat ∧ x.toNat < 2 ^ (64 - clz64 x) := by
  have hx := u64_lt x
  have h1 : Nat.log2 x.toNat < 64 := (Nat.log2_lt (by omega)).mpr hx
  unfold clz64
  rw [if_neg (by omega)]
  refine ⟨by omega, ?_, ?_⟩
  · rw [show 63 - (63 - Nat.log2 x.toNat) = Nat.log2 x.toNat by omega]
    exact Nat.log2_self_le (by omega)
  · rw [show 64 - (63 - Nat.log2 x.toNat) = Nat.log2 x.toNat + 1 by omega]
    exact Nat.lt_log2_self

theorem clz_bound {a lo hi k c : Nat} (hc : c < 64) (hlo : lo < 2 ^ k) (h1 : 2 ^ (63 - c) ≤ hi)
    (h2 : hi < 2 ^ (64 - c)) (e : a = lo + 2 ^ k * hi) :
    2 ^ (k + 63 - c) ≤ a ∧ a < 2 ^ (k + 64 - c) := by
  constructor
  · rw [show k + 63 - c = k + (63 - c) by omega, pow_add, e]
    have := Nat.mul_le_mul_left (2 ^ k) h1
    omega
  · rw [show k + 64 - c = k + (64 - c) by omega, pow_add, e]
    have : 2 ^ k * (hi + 1) ≤ 2 ^ k * 2 ^ (64 - c) := Nat.mul_le_mul_left _ h2
    rw [Nat.mul_add] at this
    omega

theorem u64_pos_iff (x : UInt64) : x > 0 ↔ 0 < x.toNat := by
  rw [gt_iff_lt, UInt64.lt_iff_toNat_lt]; rfl

/-- For a non-zero value, `leading_zeros` determines the bit length. -/
theorem leading_zeros_spec (x : U256) (h : 0 < x.toNat) :
    leading_zeros x < 256 ∧ 2 ^ (255 - leading_zeros x) ≤ x.toNat ∧
      x.toNat < 2 ^ (256 - leading_zeros x) := by
  have b0 := u64_lt x.l0; have b1 := u64_lt x.l1; have b2 := u64_lt x.l2; have b3 := u64_lt x.l3
  unfold leading_zeros
  simp only [u64_pos_iff]
  split_ifs with h3 h2 h1 h0
  · obtain ⟨c, l, u⟩ := clz64_spec _ h3
    have := clz_bound (k := 192) (a := x.toNat)
      (lo := x.l0.toNat + 2 ^ 64 * x.l1.toNat + 2 ^ 128 * x.l2.toNat) c (by omega) l u
      (by simp only [toNat])
    exact ⟨by omega, this⟩
  · obtain ⟨c, l, u⟩ := clz64_spec _ h2
    have := clz_bound (k := 128) (a := x.toNat)
      (lo := x.l0.toNat + 2 ^ 64 * x.l1.toNat) c (by omega) l u
      (by simp only [toNat]; omega)
    exact ⟨by omega, by rw [show 255 - (64 + clz64 x.l2) = 128 + 63 - clz64 x.l2 by omega,
      show 256 - (64 + clz64 x.l2) = 128 + 64 - clz64 x.l2 by omega]; exact this⟩
  · obtain ⟨c, l, u⟩ := clz64_spec _ h1
    have := clz_bound (k := 64) (a := x.toNat)
      (lo := x.l0.toNat) c (by omega) l u
      (by simp only [toNat]; omega)
    exact ⟨by omega, by rw [show 255 - (128 + clz64 x.l1) = 64 + 63 - clz64 x.l1 by omega,
      show 256 - (128 + clz64 x.l1) = 64 + 64 - clz64 x.l1 by omega]; exact this⟩
  · obtain ⟨c, l, u⟩ := clz64_spec _ h0
    have e : x.toNat = x.l0.toNat := by simp only [toNat]; omega
    rw [e]
    exact ⟨by omega, by rw [show 255 - (192 + clz64 x.l0) = 63 - clz64 x.l0 by omega]; exact l,
      by rw [show 256 - (192 + clz64 x.l0) = 64 - clz64 x.l0 by omega]; exact u⟩
  · simp only [toNat] at h; omega

theorem leading_zeros_zero (x : U256) (h : x.toNat = 0) : leading_zeros x = 256 := by
  unfold leading_zeros
  simp only [u64_pos_iff]
  simp only [toNat] at h
  rw [if_neg (by omega), if_neg (by omega), if_neg (by omega), if_neg (by omega)]

theorem ctz64Aux_spec (fuel n : Nat) (h : 0 < n) (hn : n < 2 ^ fuel) :
    ctz64Aux fuel n < fuel ∧ ∃ m, n = 2 ^ ctz64Aux fuel n * (2 * m + 1) := by
  induction fuel generalizing n with
  | zero => omega
  | succ k ih =>
    unfold ctz64Aux
    split_ifs with h1
    · exact ⟨by omega, n / 2, by omega⟩
    · rw [pow_succ] at hn
      obtain ⟨l, m, hm⟩ := ih (n / 2) (by omega) (by omega)
      refine ⟨by omega, m, ?_⟩
      rw [pow_add, pow_one, Nat.mul_assoc, ← hm]
      omega

theorem trailing_zeros_spec (x : U256) (h : 0 < x.toNat) :
    trailing_zeros x < 256 ∧ ∃ m, x.toNat = 2 ^ trailing_zeros x * (2 * m + 1) := by
  have b0 := u64_lt x.l0; have b1 := u64_lt x.l1; have b2 := u64_lt x.l2; have b3 := u64_lt x.l3
  have key : ∀ (c n k : Nat) (r : Nat), c < 64 → n = 2 ^ c * (2 * k + 1) →
      ∃ m, n + 2 ^ 64 * r = 2 ^ c * (2 * m + 1) := by
    intro c n k r hc hn
    refine ⟨k + 2 ^ (63 - c) * r, ?_⟩
    rw [hn]
    have : 2 ^ 64 = 2 ^ c * (2 * 2 ^ (63 - c)) := by
      rw [← pow_succ', ← pow_add]; congr 1; omega
    rw [this]; ring
  unfold trailing_zeros
  simp only [u64_pos_iff]
  split_ifs with h0 h1 h2 h3
  · obtain ⟨c, k, e⟩ := ctz64Aux_spec 64 _ h0 b0
    obtain ⟨m, hm⟩ := key _ _ k (x.l1.toNat + 2 ^ 64 * x.l2.toNat + 2 ^ 128 * x.l3.toNat) c e
    refine ⟨by unfold ctz64; omega, m, ?_⟩
    unfold ctz64
    rw [← hm]; simp only [toNat]; omega
  · obtain ⟨c, k, e⟩ := ctz64Aux_spec 64 _ h1 b1
    obtain ⟨m, hm⟩ := key _ _ k (x.l2.toNat + 2 ^ 64 * x.l3.toNat) c e
    refine ⟨by unfold ctz64; omega, m, ?_⟩
    unfold ctz64
    rw [pow_add, Nat.mul_assoc, ← hm]; simp only [toNat]; omega
  · obtain ⟨c, k, e⟩ := ctz64Aux_spec 64 _ h2 b2
    obtain ⟨m, hm⟩ := key _ _ k (x.l3.toNat) c e
    refine ⟨by unfold ctz64; omega, m, ?_⟩
    unfold ctz64
    rw [pow_add, Nat.mul_assoc, ← hm]; simp only [toNat]; omega
  · obtain ⟨c, k, e⟩ := ctz64Aux_spec 64 _ h3 b3
    refine ⟨by unfold ctz64; omega, k, ?_⟩
    unfold ctz64
    rw [pow_add, Nat.mul_assoc, ← e]; simp only [toNat]; omega
  · simp only [toNat] at h; omega

/-! bytes -/

theorem u64_be_value (l : List UInt8) (acc : UInt64) (n : Nat) (hl : l.length ≤ n)
    (ha : acc.toNat < 2 ^ (64 - 8 * n)) (hn : n ≤ 8) :
    (l.foldl (fun acc (x : UInt8) => acc * 256 + x.toUInt64) acc).toNat
      = l.foldl (fun acc x => 256 * acc + x.toNat) acc.toNat := by
  induction l generalizing acc n with
  | nil => rfl
  | cons b l ih =>
    simp only [List.length_cons] at hl
    obtain ⟨m, rfl⟩ : ∃ m, n = m + 1 := ⟨n - 1, by omega⟩
    simp only [List.foldl_cons]
    have hb : b.toNat < 256 := b.toNat_lt
    have hp : 2 ^ (64 - 8 * m) = 256 * 2 ^ (64 - 8 * (m + 1)) := by
      rw [show (256 : Nat) = 2 ^ 8 by norm_num, ← pow_add]; congr 1; omega
    have hq : 2 ^ (64 - 8 * m) ≤ 2 ^ 64 := Nat.pow_le_pow_right (by norm_num) (by omega)
    have e : (acc * 256 + b.toUInt64).toNat = 256 * acc.toNat + b.toNat := by
      rw [UInt64.toNat_add, UInt64.toNat_mul, UInt8.toNat_toUInt64]
      have : (256 : UInt64).toNat = 256 := by decide
      rw [this]; omega
    rw [ih (acc * 256 + b.toUInt64) m (by omega) (by rw [e]; omega) (by omega), e]

theorem be_fold_acc (l : List UInt8) (acc : Nat) :
    l.foldl (fun acc x => 256 * acc + x.toNat) acc = 256 ^ l.length * acc + beValue l := by
  induction l generalizing acc with
  | nil => simp [beValue]
  | cons b l ih =>
    simp only [List.foldl_cons, beValue, List.length_cons] at *
    rw [ih, ih (256 * 0 + b.toNat), pow_succ]; ring

theorem beValue_append (a b : List UInt8) :
    beValue (a ++ b) = 256 ^ b.length * beValue a + beValue b := by
  unfold beValue
  rw [List.foldl_append, be_fold_acc]; rfl

theorem u64_from_be_bytes_eq (l : List UInt8) (h : l.length = 8) :
    (u64_from_be_bytes l).toNat = beValue l := by
  rw [u64_from_be_bytes, u64_be_value l 0 8 (by omega) (by simp) (by omega)]; rfl

theorem from_bytes_be_eq (l : List UInt8) (h : l.length = 32) :
    ∃ x, from_bytes_be l = some x ∧ x.toNat = beValue l := by
  refine ⟨_, by rw [from_bytes_be, if_pos h], ?_⟩
  have e : l = l.take 8 ++ ((l.drop 8).take 8 ++ ((l.drop 16).take 8 ++ (l.drop 24).take 8)) := by
    have h4 : (l.drop 24).take 8 = l.drop 24 := List.take_of_length_le (by simp; omega)
    have h3 : (l.drop 16).take 8 ++ l.drop 24 = l.drop 16 := by
      rw [show l.drop 24 = (l.drop 16).drop 8 by simp]; exact List.take_append_drop 8 _
    have h2 : (l.drop 8).take 8 ++ l.drop 16 = l.drop 8 := by
      rw [show l.drop 16 = (l.drop 8).drop 8 by simp]; exact List.take_append_drop 8 _
    rw [h4, h3, h2, List.take_append_drop]
  conv_rhs => rw [e]
  simp only [toNat, beValue_append]
  rw [u64_from_be_bytes_eq _ (by simp; omega), u64_from_be_bytes_eq _ (by simp; omega),
    u64_from_be_bytes_eq _ (by simp; omega), u64_from_be_bytes_eq _ (by simp; omega)]
  simp only [List.length_append, List.length_take, List.length_drop, h]
  norm_num
  ring

theorem toBytesLoop_length (k : Nat) (n : U256) (acc : List UInt8) :
    (toBytesLoop k n acc).length = k + acc.length := by
  induction k generalizing n acc with
  | zero => simp [toBytesLoop]
  | succ k ih => rw [toBytesLoop, ih]; simp; omega

theorem toBytesLoop_value (k : Nat) (n : U256) (acc : List UInt8) :
    beValue (toBytesLoop k n acc) = 256 ^ acc.length * (n.toNat % 256 ^ k) + beValue acc := by
  induction k generalizing n acc with
  | zero => simp [toBytesLoop, Nat.mod_one]
  | succ k ih =>
    rw [toBytesLoop, ih, shr_div]
    have e : beValue (n.l0.toUInt8 :: acc) = 256 ^ acc.length * (n.toNat % 256) + beValue acc := by
      rw [show n.l0.toUInt8 :: acc = [n.l0.toUInt8] ++ acc from rfl, beValue_append]
      congr 2
      simp only [beValue, List.foldl_cons, List.foldl_nil, Nat.mul_zero, Nat.zero_add,
        UInt64.toNat_toUInt8, toNat]
      omega
    rw [e, List.length_cons, show (2 : Nat) ^ 8 = 256 by norm_num, pow_succ 256 k,
      Nat.mul_comm (256 ^ k) 256, Nat.mod_mul, pow_succ]
    ring

theorem to_bytes_be_length (x : U256) : (to_bytes_be x).length = 32 := by
  rw [to_bytes_be, toBytesLoop_length]; rfl

theorem to_bytes_be_value (x : U256) : beValue (to_bytes_be x) = x.toNat := by
  rw [to_bytes_be, toBytesLoop_value]
  simp only [List.length_nil, beValue, List.foldl_nil, pow_zero, Nat.one_mul, Nat.add_zero]
  apply Nat.mod_eq_of_lt
  have := toNat_lt x
  rw [show (256 : Nat) ^ 32 = 2 ^ 256 by norm_num]; exact this

theorem beValue_inj {a b : List UInt8} (hl : a.length = b.length) (h : beValue a = beValue b) :
    a = b := by
  induction a using List.reverseRecOn generalizing b with
  | nil => exact (List.length_eq_zero_iff.mp hl.symm).symm
  | append_singleton a x ih =>
    rcases List.eq_nil_or_concat b with rfl | ⟨b', y, rfl⟩
    · simp at hl
    · simp only [List.concat_eq_append] at *
      simp only [List.length_append, List.length_cons, List.length_nil] at hl
      simp only [beValue_append, List.length_cons, List.length_nil, Nat.zero_add, pow_one] at h
      have e1 : beValue [x] = x.toNat := by simp [beValue]
      have e2 : beValue [y] = y.toNat := by simp [beValue]
      have hx : x.toNat < 256 := x.toNat_lt
      have hy : y.toNat < 256 := y.toNat_lt
      rw [e1, e2] at h
      have hxy : x.toNat = y.toNat := by omega
      rw [ih (b := b') (by omega) (by omega), UInt8.toNat_inj.mp hxy]

end U256
end OpenZKP
