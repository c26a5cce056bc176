import Verif.Merkle.Model
import Mathlib.Data.Nat.Log
import Mathlib.Tactic.Ring
import Mathlib.Tactic.Linarith
import Mathlib.Tactic.IntervalCases

namespace OpenZKP
namespace Merkle

theorem isPow2_iff (s : Nat) : isPow2 s = true ↔ ∃ k, s = 2 ^ k := by
  unfold isPow2
  rw [beq_iff_eq]
  constructor
  · intro h; exact ⟨_, h.symm⟩
  · rintro ⟨k, rfl⟩; rw [Nat.log2_two_pow]

theorem isPow2_two_pow (k : Nat) : isPow2 (2 ^ k) = true := (isPow2_iff _).2 ⟨k, rfl⟩

theorem tz_two_pow (k n : Nat) (h : k < n) : tzLoop n (2 ^ k) = k := by
  induction k generalizing n with
  | zero =>
    obtain ⟨m, rfl⟩ : ∃ m, n = m + 1 := ⟨n - 1, by omega⟩
    simp [tzLoop]
  | succ k ih =>
    obtain ⟨m, rfl⟩ : ∃ m, n = m + 1 := ⟨n - 1, by omega⟩
    have e : 2 ^ (k + 1) % 2 ≠ 1 := by rw [pow_succ]; omega
    have e2 : 2 ^ (k + 1) / 2 = 2 ^ k := by rw [pow_succ]; omega
    rw [tzLoop, if_neg e, e2, ih m (by omega)]; omega

theorem trailing_zeros_two_pow (k : Nat) (h : k < 64) : trailing_zeros (2 ^ k) = k := tz_two_pow k 64 h

theorem nextPowerOfTwo_two_pow (k : Nat) : next_power_of_two (2 ^ k) = 2 ^ k := by
  unfold next_power_of_two
  cases k with
  | zero => simp
  | succ k =>
    have hp : 0 < 2 ^ k := by positivity
    have e : (2 : Nat) ^ (k + 1) = 2 * 2 ^ k := by rw [pow_succ]; ring
    rw [if_neg (by omega), Nat.log2_eq_log_two]
    congr 2
    apply Nat.log_eq_of_pow_le_of_lt_pow <;> omega

theorem depth_for_size_two_pow (k : Nat) (h : k < 64) : Index.depth_for_size (2 ^ k) = k := by
  unfold Index.depth_for_size
  rw [nextPowerOfTwo_two_pow, trailing_zeros_two_pow k h]

theorem log2_lt_64 {i : Nat} (h0 : 1 ≤ i) (h : i < 2 ^ 64) : Nat.log2 i < 64 := by
  rwa [Nat.log2_lt (by omega)]

theorem depth_eq_log (i : Nat) (h0 : 1 ≤ i) (h : i < 2 ^ 64) : Index.depth i = Nat.log 2 i := by
  unfold Index.depth leading_zeros
  rw [if_neg (by omega)]
  have := log2_lt_64 h0 h
  rw [← Nat.log2_eq_log_two]
  omega

theorem log_level {d o : Nat} (ho : o < 2 ^ d) : Nat.log 2 (2 ^ d + o) = d := by
  apply Nat.log_eq_of_pow_le_of_lt_pow
  · omega
  · rw [pow_succ]; omega

theorem level_bounds {i : Nat} (h0 : 1 ≤ i) : 2 ^ Nat.log 2 i ≤ i ∧ i < 2 ^ (Nat.log 2 i + 1) :=
  ⟨Nat.pow_log_le_self 2 (by omega), Nat.lt_pow_succ_log_self (by norm_num) i⟩

theorem log_div (x j : Nat) : Nat.log 2 (x / 2 ^ j) = Nat.log 2 x - j := Nat.log_div_base_pow 2 x j

theorem log_half (x : Nat) : Nat.log 2 (x / 2) = Nat.log 2 x - 1 := Nat.log_div_base 2 x

theorem log_double {x : Nat} (h : 1 ≤ x) : Nat.log 2 (2 * x) = Nat.log 2 x + 1 := by
  rw [mul_comm]; exact Nat.log_mul_base (by norm_num) (by omega)

theorem log_double_add {x : Nat} (h : 1 ≤ x) : Nat.log 2 (2 * x + 1) = Nat.log 2 x + 1 := by
  have := log_half (2 * x + 1)
  rw [show (2 * x + 1) / 2 = x by omega] at this
  have h2 : 1 ≤ Nat.log 2 (2 * x + 1) := Nat.log_pos (by norm_num) (by omega)
  omega

theorem xor_one (c : Nat) : c ^^^ 1 = if c % 2 = 0 then c + 1 else c - 1 := by
  split
  · next h =>
    have : c = 2 * (c / 2) := by omega
    rw [this]
    have e := Nat.two_pow_add_eq_or_of_lt (i := 1) (b := 1) (by norm_num) (c / 2)
    apply Nat.eq_of_testBit_eq
    intro i
    rw [Nat.testBit_xor]
    cases i with
    | zero => simp
    | succ i => simp [Nat.testBit_succ]; congr 1; omega
  · next h =>
    apply Nat.eq_of_testBit_eq
    intro i
    rw [Nat.testBit_xor]
    cases i with
    | zero =>
      have e1 : c % 2 = 1 := by omega
      have e2 : (c - 1) % 2 = 0 := by omega
      simp [Nat.testBit_zero, e1, e2]
    | succ i => simp [Nat.testBit_succ]; congr 1; omega

theorem from_size_offset_ok {k o : Nat} (hk : k ≤ 63) (ho : o < 2 ^ k) :
    Index.from_size_offset (2 ^ k) o = .ok (2 ^ k + o) := by
  have h63 : (2 : Nat) ^ k ≤ 2 ^ 63 := Nat.pow_le_pow_right (by norm_num) hk
  unfold Index.from_size_offset Index.max_size
  rw [isPow2_two_pow, if_neg (by simp), if_neg (by omega), if_neg (by omega)]
  have := Nat.two_pow_add_eq_or_of_lt ho 1
  rw [mul_one] at this
  rw [← this]

theorem from_size_offset_iff (s o i : Nat) :
    Index.from_size_offset s o = .ok i ↔ ∃ k, k ≤ 63 ∧ s = 2 ^ k ∧ o < s ∧ i = s + o := by
  constructor
  · intro h
    unfold Index.from_size_offset at h
    by_cases h1 : isPow2 s = false
    · rw [if_pos h1] at h; cases h
    rw [if_neg h1] at h
    by_cases h2 : ¬ s ≤ Index.max_size
    · rw [if_pos h2] at h; cases h
    rw [if_neg h2] at h
    by_cases h3 : ¬ o < s
    · rw [if_pos h3] at h; cases h
    rw [if_neg h3] at h
    push Not at h2 h3
    obtain ⟨k, rfl⟩ := (isPow2_iff s).1 (by simpa using h1)
    have hk : k ≤ 63 := by
      unfold Index.max_size at h2
      exact (Nat.pow_le_pow_iff_right (by norm_num)).1 h2
    refine ⟨k, hk, rfl, h3, ?_⟩
    cases h
    have := Nat.two_pow_add_eq_or_of_lt h3 1
    rw [mul_one] at this
    rw [← this]
  · rintro ⟨k, hk, rfl, ho, rfl⟩
    exact from_size_offset_ok hk ho

/-- bit arithmetic of the code's last common ancestor, for two nodes of the same depth -/
theorem lca_eq {d x y : Nat} (hd : d ≤ 63) (hx : 2 ^ d ≤ x ∧ x < 2 ^ (d + 1)) (hy : 2 ^ d ≤ y ∧ y < 2 ^ (d + 1))
    (hne : x ≠ y) : Index.last_common_ancestor x y = x / 2 ^ (Nat.log 2 (x ^^^ y) + 1) := by
  have hxl : Nat.log2 x = d := by
    rw [Nat.log2_eq_log_two]; exact Nat.log_eq_of_pow_le_of_lt_pow hx.1 hx.2
  have hyl : Nat.log2 y = d := by
    rw [Nat.log2_eq_log_two]; exact Nat.log_eq_of_pow_le_of_lt_pow hy.1 hy.2
  have hp : 0 < 2 ^ d := by positivity
  have hlx : leading_zeros x = 63 - d := by
    unfold leading_zeros; rw [if_neg (by omega), hxl]
  have hly : leading_zeros y = 63 - d := by
    unfold leading_zeros; rw [if_neg (by omega), hyl]
  have hpow : (2 : Nat) ^ (d + 1) * 2 ^ (63 - d) = 2 ^ 64 := by rw [← pow_add]; congr 1; omega
  have hbx : x * 2 ^ (63 - d) < 2 ^ 64 := by
    rw [← hpow]; exact Nat.mul_lt_mul_of_pos_right hx.2 (by positivity)
  have hby : y * 2 ^ (63 - d) < 2 ^ 64 := by
    rw [← hpow]; exact Nat.mul_lt_mul_of_pos_right hy.2 (by positivity)
  unfold Index.last_common_ancestor
  simp only [hlx, hly]
  rw [Nat.mod_eq_of_lt hbx, Nat.mod_eq_of_lt hby]
  have hxor : (x * 2 ^ (63 - d)) ^^^ (y * 2 ^ (63 - d)) = (x ^^^ y) * 2 ^ (63 - d) := by
    rw [← Nat.shiftLeft_eq, ← Nat.shiftLeft_eq, ← Nat.shiftLeft_eq, Nat.shiftLeft_xor_distrib]
  have hne0 : x ^^^ y ≠ 0 := by rwa [Ne, Nat.xor_eq_zero_iff]
  rw [hxor]
  have hlt : x ^^^ y < 2 ^ (d + 1) := Nat.xor_lt_two_pow hx.2 hy.2
  have hl : Nat.log 2 (x ^^^ y) ≤ d := by
    have := Nat.log_lt_of_lt_pow hne0 hlt
    omega
  have hlog : Nat.log2 ((x ^^^ y) * 2 ^ (63 - d)) = Nat.log 2 (x ^^^ y) + (63 - d) := by
    rw [Nat.log2_eq_log_two]
    have : ∀ k, Nat.log 2 ((x ^^^ y) * 2 ^ k) = Nat.log 2 (x ^^^ y) + k := by
      intro k
      induction k with
      | zero => simp
      | succ k ih =>
        rw [pow_succ, ← mul_assoc, Nat.log_mul_base (by norm_num) (by positivity), ih]; omega
    exact this _
  unfold leading_zeros
  rw [if_neg (by positivity), hlog]
  rw [show 64 - (63 - (Nat.log 2 (x ^^^ y) + (63 - d))) = (63 - d) + (Nat.log 2 (x ^^^ y) + 1) by omega, pow_add,
    ← Nat.div_div_eq_div_mul, Nat.mul_div_cancel _ (by positivity)]

/-- `x` and `y` have the same ancestor `j` levels up exactly when `j` exceeds the top differing bit -/
theorem same_ancestor (x y j : Nat) (hne : x ≠ y) : x / 2 ^ j = y / 2 ^ j ↔ Nat.log 2 (x ^^^ y) < j := by
  have hne0 : x ^^^ y ≠ 0 := by rwa [Ne, Nat.xor_eq_zero_iff]
  rw [← Nat.shiftRight_eq_div_pow, ← Nat.shiftRight_eq_div_pow, ← Nat.xor_eq_zero_iff, ← Nat.shiftRight_xor_distrib,
    Nat.shiftRight_eq_div_pow, Nat.div_eq_zero_iff]
  rw [Nat.log_lt_iff_lt_pow (by norm_num) hne0]
  have : (2 : Nat) ^ j ≠ 0 := by positivity
  tauto

end Merkle
end OpenZKP
