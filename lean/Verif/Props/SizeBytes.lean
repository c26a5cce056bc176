import Verif.Utils.SizeBytes
import Mathlib.Analysis.SpecialFunctions.Log.Base
import Mathlib.Analysis.Complex.ExponentialBounds
import Mathlib.Analysis.SpecialFunctions.Log.Deriv

/-!
# Property C96: a number of bytes is shown in a message, with three digits

The logarithm of the standard library is not specified exactly.  `Precise` is what is needed of it, `rounded` the best there is: the real logarithm
rounded to a `f32`.
-/

namespace OpenZKP.Props.SizeBytes
open OpenZKP.Utils OpenZKP.Utils.SizeBytes

/-- a real number above 0 rounded to 24 significant bits (which of two equally near numbers is taken does not matter here) -/
noncomputable def roundF32 (x : ℝ) : ℚ :=
  (round (x * 2 ^ (23 - ⌊Real.logb 2 x⌋) : ℝ) : ℚ) * 2 ^ (⌊Real.logb 2 x⌋ - 23)

/-- the logarithm, correctly rounded -/
noncomputable def rounded (s : Nat) : ℚ := roundF32 (Real.logb 10 s)

/-- a logarithm with an error of at most two units in the last place, for the sizes for which it is used -/
def Precise (log10 : Nat → ℚ) : Prop := ∀ s : Nat, 10 ^ 3 ≤ s → s < 10 ^ 12 → |(log10 s : ℝ) - Real.logb 10 s| ≤ 2⁻¹ ^ 20

theorem log_ten_eq : Real.log 10 = 3 * Real.log 2 + Real.log 1.25 := by
  rw [show (10 : ℝ) = 2 ^ 3 * 1.25 by norm_num, Real.log_mul (by norm_num) (by norm_num), Real.log_pow]; norm_num

theorem log_ten_le : Real.log 10 ≤ 2.34 := by
  have h2 := Real.log_two_lt_d9
  have h5 := Real.log_le_sub_one_of_pos (x := 1.25) (by norm_num)
  norm_num at h5
  rw [log_ten_eq]
  linarith

theorem le_log_ten : (2.279 : ℝ) ≤ Real.log 10 := by
  have h2 := Real.log_two_gt_d9
  have h5 := Real.one_sub_inv_le_log_of_pos (x := 1.25) (by norm_num)
  norm_num at h5
  rw [log_ten_eq]
  linarith

theorem log_ten_pos : 0 < Real.log 10 := by linarith [le_log_ten]

/-- the logarithm of `s` is precise enough to see that `s` is below `10 ^ k` -/
def Good (log10 : Nat → ℚ) (k s : Nat) : Prop :=
  ∃ ε δ : ℝ, |(log10 s : ℝ) - Real.logb 10 s| ≤ ε ∧ 0 ≤ δ ∧ δ ≤ 0.00001 ∧ ε * 2.34 ≤ 1 - (1 + δ)⁻¹ ∧ (s : ℝ) * (1 + δ) < 10 ^ k

/-- `j ≤ L` for a logarithm `L` of `s` -/
theorem le_of_log {s : ℝ} (hs : 0 < s) {L ε δ : ℝ} (j : Nat) (hL : |L - Real.logb 10 s| ≤ ε) (hδ : 0 ≤ δ) (he : ε * 2.34 ≤ 1 - (1 + δ)⁻¹)
    (h : (j : ℝ) ≤ L) : 10 ^ j ≤ s * (1 + δ) := by
  have h0 : 0 ≤ ε := le_trans (abs_nonneg _) hL
  have h1 : (j : ℝ) - ε ≤ Real.logb 10 s := by linarith [(abs_le.1 hL).2]
  have h2 : ((j : ℝ) - ε) * Real.log 10 ≤ Real.log s := by
    rw [Real.logb, le_div_iff₀ log_ten_pos] at h1; exact h1
  have h3 := Real.one_sub_inv_le_log_of_pos (x := 1 + δ) (by linarith)
  have h4 : Real.log (10 ^ j) ≤ Real.log (s * (1 + δ)) := by
    rw [Real.log_pow, Real.log_mul hs.ne' (by linarith)]
    have : ε * Real.log 10 ≤ ε * 2.34 := mul_le_mul_of_nonneg_left log_ten_le h0
    linarith
  exact (Real.log_le_log_iff (by positivity) (by positivity)).1 h4

/-- `L < j` for a logarithm `L` of `s` -/
theorem lt_of_log {s : ℝ} (hs : 0 < s) {L ε δ : ℝ} (j : Nat) (hL : |L - Real.logb 10 s| ≤ ε) (hδ : 0 ≤ δ) (he : ε * 2.34 ≤ 1 - (1 + δ)⁻¹)
    (h : L < j) : s < 10 ^ j * (1 + δ) := by
  have h0 : 0 ≤ ε := le_trans (abs_nonneg _) hL
  have h1 : Real.logb 10 s < (j : ℝ) + ε := by linarith [(abs_le.1 hL).1]
  have h2 : Real.log s < ((j : ℝ) + ε) * Real.log 10 := by
    rw [Real.logb, div_lt_iff₀ log_ten_pos] at h1; exact h1
  have h3 := Real.one_sub_inv_le_log_of_pos (x := 1 + δ) (by linarith)
  have h4 : Real.log s < Real.log (10 ^ j * (1 + δ)) := by
    rw [Real.log_mul (by positivity) (by linarith), Real.log_pow]
    have : ε * Real.log 10 ≤ ε * 2.34 := mul_le_mul_of_nonneg_left log_ten_le h0
    linarith
  exact (Real.log_lt_log_iff (by positivity) (by positivity)).1 h4

/-- one branch -/
theorem branch {log10 : Nat → ℚ} (d s : Nat) (hg : Good log10 (d + 1) s) (h0 : 10 ^ 3 ≤ s) (hd : 2 ≤ d) :
    ∃ p, decimals log10 d s = some p ∧ (s : ℝ) * 10 ^ p ≤ 1000.01 * 10 ^ (d - 2) ∧ 99.99 * 10 ^ (d - 2) ≤ (s : ℝ) * 10 ^ p := by
  obtain ⟨ε, δ, hL, hδ, hδ', he, h2⟩ := hg
  have hs : (0 : ℝ) < s := by
    have : 0 < s := by omega
    exact_mod_cast this
  have hpos : (0 : ℝ) ≤ log10 s := by
    have h3 : (3 : ℝ) ≤ Real.logb 10 s := by
      rw [Real.le_logb_iff_rpow_le (by norm_num) hs]
      norm_num
      exact_mod_cast h0
    have := (abs_le.1 hL).1
    have : 0 < (1 + δ)⁻¹ := inv_pos.2 (by linarith)
    linarith
  have hfl : 0 ≤ ⌊log10 s⌋ := Int.floor_nonneg.2 (by exact_mod_cast hpos)
  set j := ⌊log10 s⌋.toNat with hj
  have ej : ((j : ℤ)) = ⌊log10 s⌋ := Int.toNat_of_nonneg hfl
  have hjle : (j : ℝ) ≤ log10 s := by
    have : (⌊log10 s⌋ : ℚ) ≤ log10 s := Int.floor_le _
    rw [← ej] at this
    exact_mod_cast this
  have hjlt : (log10 s : ℝ) < ((j + 1 : Nat) : ℝ) := by
    have : log10 s < (⌊log10 s⌋ : ℚ) + 1 := Int.lt_floor_add_one _
    rw [← ej] at this
    exact_mod_cast this
  have a := le_of_log hs j hL hδ he hjle
  have b := lt_of_log hs (j + 1) hL hδ he hjlt
  have hjd : j ≤ d := by
    by_contra hc
    have : (10 : ℝ) ^ (d + 1) ≤ 10 ^ j := pow_le_pow_right₀ (by norm_num) (by omega)
    linarith
  refine ⟨d - j, by rw [decimals, usizeSub, ← hj, if_pos hjd], ?_, ?_⟩
  · have e : (10 : ℝ) ^ (j + 1) * 10 ^ (d - j) = 1000 * 10 ^ (d - 2) := by
      rw [← pow_add, show j + 1 + (d - j) = 3 + (d - 2) by omega, pow_add]; norm_num
    have := mul_le_mul_of_nonneg_right b.le (show (0 : ℝ) ≤ 10 ^ (d - j) by positivity)
    rw [mul_right_comm, e] at this
    have p : (0 : ℝ) < 10 ^ (d - 2) := by positivity
    nlinarith
  · have e : (10 : ℝ) ^ j * 10 ^ (d - j) = 100 * 10 ^ (d - 2) := by
      rw [← pow_add, show j + (d - j) = 2 + (d - 2) by omega, pow_add]; norm_num
    have := mul_le_mul_of_nonneg_right a (show (0 : ℝ) ≤ 10 ^ (d - j) by positivity)
    rw [e, mul_right_comm] at this
    have p : (0 : ℝ) < 10 ^ (d - 2) := by positivity
    have q : (0 : ℝ) ≤ s * 10 ^ (d - j) := by positivity
    nlinarith

theorem asF32_small {n : Nat} (h : n < 2 ^ 24) : asF32 n = n := by
  have e : Nat.log2 n - 23 = 0 := by
    have : n.log2 < 24 := by
      by_cases h0 : n = 0
      · subst h0; decide
      · exact (Nat.log2_lt h0).2 h
    omega
  simp [asF32, e, Nat.mod_one]

theorem asF32_log2 {n : Nat} (h : 2 ^ 24 ≤ n) : 2 ^ (23 + (Nat.log2 n - 23)) ≤ n := by
  have h0 : n ≠ 0 := by omega
  have : 23 ≤ n.log2 := (Nat.le_log2 h0).2 (by omega)
  rw [show 23 + (n.log2 - 23) = n.log2 by omega]
  exact Nat.log2_self_le h0

/-- C96: the conversion to a `f32` changes a number by less than one in ten million (`2^24`), and numbers below `2^24` not at all. -/
theorem C96_float (n : Nat) : asF32 n * 2 ^ 24 ≤ n * (2 ^ 24 + 1) ∧ n * (2 ^ 24 - 1) ≤ asF32 n * 2 ^ 24 ∧ (n < 2 ^ 24 → asF32 n = n) := by
  refine ⟨?_, ?_, asF32_small⟩
  all_goals
    by_cases h : n < 2 ^ 24
    · rw [asF32_small h]; omega
    have hb := asF32_log2 (not_lt.1 h)
    unfold asF32
    generalize Nat.log2 n - 23 = e at *
    have hm := Nat.div_add_mod n (2 ^ e)
    have hr : n % 2 ^ e < 2 ^ e := Nat.mod_lt _ (by positivity)
    rw [pow_add] at hb
    simp only
    generalize n % 2 ^ e = r at *
    generalize n / 2 ^ e = q at *
    generalize 2 ^ e = E at *
    split
    · rename_i hc
      have : E ≤ 2 * r := by rcases hc with hc | hc <;> omega
      rw [add_mul, one_mul, mul_comm q]
      generalize E * q = z at *
      omega
    · rename_i hc
      have : 2 * r ≤ E := by
        by_contra hx
        exact hc (Or.inl (by omega))
      rw [mul_comm q]
      generalize E * q = z at *
      omega

/-- the number of bytes is shown: exactly below 1000; from there on with three digits; and from a trillion on with all digits -/
structure ShownWell (n : Nat) (x : Shown) : Prop where
  size : x.size = asF32 n
  small : n < 1000 → x = ⟨n, 0, none⟩
  large : 10 ^ 12 ≤ n → x.unit = 12 ∧ x.precision = none
  /-- the unit is kB, MB or GB, so that the number before it is from 1 to 1000, and with the decimals it has three digits: it is about 100 to 1000
  units of its last digit -/
  digits : 1000 ≤ n → asF32 n < asF32 (10 ^ 12) → x.unit ∈ [3, 6, 9] ∧ 10 ^ x.unit ≤ x.size ∧ x.size < 10 ^ (x.unit + 3) ∧
    ∃ p, x.precision = some p ∧ (x.size : ℝ) * 10 ^ p ≤ 1000.01 * 10 ^ x.unit ∧ 99.99 * 10 ^ x.unit ≤ (x.size : ℝ) * 10 ^ p

theorem trillion : asF32 (10 ^ 12) = 999999995904 := by decide +kernel

theorem shown (log10 : Nat → ℚ) (n : Nat) (g6 : 10 ^ 3 ≤ asF32 n → asF32 n < 10 ^ 6 → Good log10 6 (asF32 n))
    (g9 : 10 ^ 6 ≤ asF32 n → asF32 n < 10 ^ 9 → Good log10 9 (asF32 n))
    (g12 : 10 ^ 9 ≤ asF32 n → asF32 n < asF32 (10 ^ 12) → Good log10 12 (asF32 n)) : ∃ x, fmt log10 n = some x ∧ ShownWell n x := by
  have h1 := C96_float n
  have large : 10 ^ 12 ≤ n → asF32 (10 ^ 12) ≤ asF32 n := by
    intro h
    by_contra hc
    rw [trillion] at hc
    have hs : asF32 n ≤ 999999995903 := by omega
    have := asF32_log2 (n := n) (by omega)
    have hb : 39 ≤ n.log2 := (Nat.le_log2 (by omega)).2 (by omega)
    have hd : 65536 ∣ asF32 n := by
      unfold asF32
      exact Dvd.dvd.mul_left (by rw [show (65536 : Nat) = 2 ^ 16 by norm_num]; exact pow_dvd_pow 2 (by omega)) _
    omega
  unfold fmt
  simp only
  by_cases c1 : asF32 n < 10 ^ 3
  · rw [if_pos c1]
    have hn : n < 1000 := by
      by_contra hc
      omega
    exact ⟨_, rfl, rfl, fun _ => by rw [h1.2.2 (by omega)], fun _ => by omega, fun _ => by omega⟩
  rw [if_neg c1]
  have hn : 1000 ≤ n := by
    by_contra hc
    rw [h1.2.2 (by omega)] at c1
    omega
  by_cases c2 : asF32 n < 10 ^ 6
  · rw [if_pos c2]
    obtain ⟨p, e, a, b⟩ := branch 5 (asF32 n) (g6 (by omega) c2) (by omega) (by omega)
    rw [e]
    exact ⟨_, rfl, rfl, fun _ => by omega, fun h => by have := large h; rw [trillion] at this; omega,
      fun _ _ => ⟨by simp, by simpa using c1, c2, p, rfl, a, b⟩⟩
  rw [if_neg c2]
  by_cases c3 : asF32 n < 10 ^ 9
  · rw [if_pos c3]
    obtain ⟨p, e, a, b⟩ := branch 8 (asF32 n) (g9 (by omega) c3) (by omega) (by omega)
    rw [e]
    exact ⟨_, rfl, rfl, fun _ => by omega, fun h => by have := large h; rw [trillion] at this; omega,
      fun _ _ => ⟨by simp, by simpa using c2, c3, p, rfl, a, b⟩⟩
  rw [if_neg c3]
  by_cases c4 : asF32 n < asF32 (10 ^ 12)
  · rw [if_pos c4]
    obtain ⟨p, e, a, b⟩ := branch 11 (asF32 n) (g12 (by omega) c4) (by omega) (by omega)
    rw [e]
    exact ⟨_, rfl, rfl, fun _ => by omega, fun h => by have := large h; omega,
      fun _ _ => ⟨by simp, by simpa using c3, by rw [trillion] at c4; simp only; omega, p, rfl, a, b⟩⟩
  rw [if_neg c4]
  exact ⟨_, rfl, rfl, fun _ => by omega, fun _ => ⟨rfl, rfl⟩, fun _ h => absurd h c4⟩

theorem cast_le {s k : Nat} (h : s < k) : (s : ℝ) ≤ (k : ℝ) - 1 := by
  have : s + 1 ≤ k := h
  have : ((s : ℝ) + 1) ≤ k := by exact_mod_cast this
  linarith

/-- C96, **partial**: with a logarithm whose error is at most two units in the last place, a number of bytes is shown unless it is just below a
million, a billion or a trillion.  Missing: these sizes; see `C96_violated`. -/
theorem C96_shown_partial (log10 : Nat → ℚ) (hl : Precise log10) (n : Nat) (h6 : ¬ (999990 ≤ asF32 n ∧ asF32 n < 10 ^ 6))
    (h9 : ¬ (999990000 ≤ asF32 n ∧ asF32 n < 10 ^ 9)) (h12 : ¬ (999990000000 ≤ asF32 n ∧ asF32 n < asF32 (10 ^ 12))) :
    ∃ x, fmt log10 n = some x ∧ ShownWell n x := by
  have num : (2⁻¹ ^ 20 : ℝ) * 2.34 ≤ 1 - (1 + 0.00001)⁻¹ := by norm_num
  refine shown log10 n (fun a b => ?_) (fun a b => ?_) (fun a b => ?_)
  · have := cast_le (s := asF32 n) (k := 999990) (by omega)
    refine ⟨_, 0.00001, hl _ a (by omega), by norm_num, le_rfl, num, ?_⟩
    norm_num at this ⊢
    have : (asF32 n : ℝ) ≤ 999989 := by exact_mod_cast this
    linarith
  · have := cast_le (s := asF32 n) (k := 999990000) (by omega)
    refine ⟨_, 0.00001, hl _ (by omega) (by omega), by norm_num, le_rfl, num, ?_⟩
    norm_num at this ⊢
    have : (asF32 n : ℝ) ≤ 999989999 := by exact_mod_cast this
    linarith
  · have := cast_le (s := asF32 n) (k := 999990000000) (by omega)
    refine ⟨_, 0.00001, hl _ (by omega) (by rw [trillion] at b; omega), by norm_num, le_rfl, num, ?_⟩
    norm_num at this ⊢
    have : (asF32 n : ℝ) ≤ 999989999999 := by exact_mod_cast this
    linarith

/-! ## the correctly rounded logarithm -/

theorem floor_log {x : ℝ} {k : ℤ} (h : (2 : ℝ) ^ k ≤ x) (h' : x < 2 ^ (k + 1)) : ⌊Real.logb 2 x⌋ = k := by
  have hx : 0 < x := lt_of_lt_of_le (by positivity) h
  rw [Int.floor_eq_iff]
  constructor
  · rw [Real.le_logb_iff_rpow_le (by norm_num) hx, Real.rpow_intCast]; exact h
  · rw [Real.logb_lt_iff_lt_rpow (by norm_num) hx]
    have : ((k : ℝ) + 1) = ((k + 1 : ℤ) : ℝ) := by push_cast; rfl
    rw [this, Real.rpow_intCast]; exact h'

theorem roundF32_error {x : ℝ} {k : ℤ} (h : (2 : ℝ) ^ k ≤ x) (h' : x < 2 ^ (k + 1)) : |(roundF32 x : ℝ) - x| ≤ 2 ^ (k - 24) := by
  unfold roundF32
  rw [floor_log h h']
  push_cast
  have e : x = x * 2 ^ (23 - k) * 2 ^ (k - 23) := by
    rw [mul_assoc, ← zpow_add₀ (by norm_num), show (23 - k) + (k - 23) = 0 by ring, zpow_zero, mul_one]
  have r := abs_sub_round (x * 2 ^ (23 - k))
  generalize hz : x * 2 ^ (23 - k) = z at *
  have : |(round z : ℝ) * 2 ^ (k - 23) - x| = |z - round z| * 2 ^ (k - 23) := by
    rw [abs_sub_comm, e, ← sub_mul, abs_mul, abs_of_pos (show (0 : ℝ) < 2 ^ (k - 23) by positivity)]
  rw [this, show k - 24 = (k - 23) + (-1) by ring, zpow_add₀ (by norm_num)]
  have p : (0 : ℝ) < 2 ^ (k - 23) := by positivity
  rw [mul_comm]
  gcongr
  simpa using r

theorem logb_bounds {s a b : Nat} (h : 10 ^ a ≤ s) (h' : s < 10 ^ b) : (a : ℝ) ≤ Real.logb 10 s ∧ Real.logb 10 s < b := by
  have p : (0 : ℝ) < s := by
    have : 0 < s := lt_of_lt_of_le (by positivity) h
    exact_mod_cast this
  constructor
  · rw [Real.le_logb_iff_rpow_le (by norm_num) p, Real.rpow_natCast]; exact_mod_cast h
  · rw [Real.logb_lt_iff_lt_rpow (by norm_num) p, Real.rpow_natCast]; exact_mod_cast h'

theorem rounded_error6 {s : Nat} (h : 10 ^ 3 ≤ s) (h' : s < 10 ^ 6) : |(rounded s : ℝ) - Real.logb 10 s| ≤ 2⁻¹ ^ 22 := by
  obtain ⟨a, b⟩ := logb_bounds h h'
  push_cast at a b
  unfold rounded
  by_cases c : Real.logb 10 s < 4
  · exact le_trans (roundF32_error (k := 1) (by norm_num; linarith) (by norm_num; linarith)) (by norm_num)
  · exact le_trans (roundF32_error (k := 2) (by norm_num; linarith) (by norm_num; linarith)) (by norm_num)

theorem rounded_error12 {s : Nat} (h : 10 ^ 6 ≤ s) (h' : s < 10 ^ 12) : |(rounded s : ℝ) - Real.logb 10 s| ≤ 2⁻¹ ^ 21 := by
  obtain ⟨a, b⟩ := logb_bounds h h'
  push_cast at a b
  unfold rounded
  by_cases c : Real.logb 10 s < 8
  · exact le_trans (roundF32_error (k := 2) (by norm_num; linarith) (by norm_num; linarith)) (by norm_num)
  · exact le_trans (roundF32_error (k := 3) (by norm_num; linarith) (by norm_num; linarith)) (by norm_num)

/-- `Precise` is met: by the correctly rounded logarithm. -/
theorem rounded_precise : Precise rounded := by
  intro s h h'
  by_cases c : s < 10 ^ 6
  · exact le_trans (rounded_error6 h c) (by norm_num)
  · exact le_trans (rounded_error12 (by omega) h') (by norm_num)

/-- C96, **partial**: with a correctly rounded logarithm every number of bytes is shown, except from `999_998_800` to a billion and from
`999_998_800_000` to a trillion; of these, see `C96_violated`, nearly all are not. -/
theorem C96_rounded_partial (n : Nat) (h9 : ¬ (999998800 ≤ asF32 n ∧ asF32 n < 10 ^ 9)) (h12 : ¬ (999998800000 ≤ asF32 n ∧ asF32 n < asF32 (10 ^ 12))) :
    ∃ x, fmt rounded n = some x ∧ ShownWell n x := by
  refine shown rounded n (fun a b => ?_) (fun a b => ?_) (fun a b => ?_)
  · have := cast_le b
    refine ⟨_, 0.000001, rounded_error6 a b, by norm_num, by norm_num, by norm_num, ?_⟩
    push_cast at this
    norm_num at this ⊢
    have : (asF32 n : ℝ) ≤ 999999 := by exact_mod_cast this
    linarith
  · have := cast_le (s := asF32 n) (k := 999998800) (by omega)
    refine ⟨_, 0.0000012, rounded_error12 a (by omega), by norm_num, by norm_num, by norm_num, ?_⟩
    push_cast at this
    norm_num at this ⊢
    have : (asF32 n : ℝ) ≤ 999998799 := by exact_mod_cast this
    linarith
  · have := cast_le (s := asF32 n) (k := 999998800000) (by omega)
    refine ⟨_, 0.0000012, rounded_error12 (by omega) (by rw [trillion] at b; omega), by norm_num, by norm_num, by norm_num, ?_⟩
    push_cast at this
    norm_num at this ⊢
    have : (asF32 n : ℝ) ≤ 999998799999 := by exact_mod_cast this
    linarith

/-- the logarithm of a number just below `10 ^ k` is rounded to `k` -/
theorem rounded_top {s : Nat} (k : Nat) (hk : 9 ≤ k) (hk' : k ≤ 15) (h : (10 : ℝ) ^ k ≤ s * 1.000001024 + s * 0.00000000001) (h' : s < 10 ^ k) : rounded s = k := by
  have hs : (0 : ℝ) < s := by
    by_contra hc
    have : (s : ℝ) = 0 := le_antisymm (not_lt.1 hc) (Nat.cast_nonneg _)
    rw [this] at h
    have : (0 : ℝ) < 10 ^ k := by positivity
    linarith
  have up : Real.logb 10 s < k := by
    rw [Real.logb_lt_iff_lt_rpow (by norm_num) hs, Real.rpow_natCast]; exact_mod_cast h'
  have lo : (k : ℝ) - 2⁻¹ ^ 21 < Real.logb 10 s := by
    rw [Real.logb, lt_div_iff₀ log_ten_pos]
    have e : (k : ℝ) * Real.log 10 = Real.log s + Real.log (10 ^ k / s) := by
      rw [Real.log_div (by positivity) hs.ne', Real.log_pow]; ring
    have l := Real.log_le_sub_one_of_pos (x := (10 : ℝ) ^ k / s) (by positivity)
    have q : (10 : ℝ) ^ k / s ≤ 1.000001024 + 0.00000000001 := by
      rw [div_le_iff₀ hs]; linarith
    have t := le_log_ten
    rw [sub_mul, e]
    norm_num at t q ⊢
    linarith
  have kk : (9 : ℝ) ≤ k ∧ (k : ℝ) ≤ 15 := ⟨by exact_mod_cast hk, by exact_mod_cast hk'⟩
  have f : ⌊Real.logb 2 (Real.logb 10 s)⌋ = 3 := floor_log (k := 3) (by norm_num at lo ⊢; linarith) (by norm_num; linarith)
  unfold rounded roundF32
  rw [f]
  have r : round (Real.logb 10 s * 2 ^ (23 - 3 : ℤ)) = (k : ℤ) * 2 ^ 20 := by
    rw [round_eq, Int.floor_eq_iff]
    push_cast
    norm_num at lo up ⊢
    constructor <;> linarith
  rw [r]
  push_cast
  norm_num
  ring

theorem asF32_top {n : Nat} (h : 999999000 ≤ n) (h' : n < 999999968) : 999998976 ≤ asF32 n ∧ asF32 n < 10 ^ 9 := by
  have e : n.log2 = 29 := by
    have h1 : 29 ≤ n.log2 := (Nat.le_log2 (by omega)).2 (by omega)
    have h2 : n.log2 < 30 := (Nat.log2_lt (by omega)).2 (by omega)
    omega
  unfold asF32
  rw [e]
  simp only
  split <;> omega

theorem fmt_top {n : Nat} (h : 999999000 ≤ n) (h' : n < 999999968) : fmt rounded n = none := by
  obtain ⟨a, b⟩ := asF32_top h h'
  have r := rounded_top (s := asF32 n) 9 (by omega) (by omega) (by
    have : (999998976 : ℝ) ≤ asF32 n := by exact_mod_cast a
    norm_num
    linarith) b
  unfold fmt
  simp only
  rw [if_neg (by omega), if_neg (by omega), if_pos b, decimals, r]
  rfl

theorem fmt_top12 {n : Nat} (h : 999999100000 ≤ n) (h' : n < 999999963136) : fmt rounded n = none := by
  have e : n.log2 = 39 := by
    have h1 : 39 ≤ n.log2 := (Nat.le_log2 (by omega)).2 (by omega)
    have h2 : n.log2 < 40 := (Nat.log2_lt (by omega)).2 (by omega)
    omega
  have ab : 999999000000 ≤ asF32 n ∧ asF32 n < 999999995904 := by
    unfold asF32
    rw [e]
    simp only
    split <;> omega
  obtain ⟨a, b⟩ := ab
  have r := rounded_top (s := asF32 n) 12 (by omega) (by omega) (by
    have : (999999000000 : ℝ) ≤ asF32 n := by exact_mod_cast a
    norm_num
    linarith) (by omega)
  unfold fmt
  simp only
  rw [if_neg (by omega), if_neg (by omega), if_neg (by omega), trillion, if_pos b, decimals, r]
  rfl

/-- C96 is violated: with a correctly rounded logarithm, showing any number of bytes from 999 999 000 to 999 999 967, or from 999 999 100 000 to
999 999 963 135, panics.  So an allocation of such
a size panics (inside the allocator), every allocation of a million bytes or more panics while such a number of bytes is allocated, and so does
logging the statistics. -/
theorem C96_violated (n : Nat) (h : (999999000 ≤ n ∧ n < 999999968) ∨ (999999100000 ≤ n ∧ n < 999999963136)) :
    fmt rounded n = none ∧ (∀ allocated, allocMessage rounded n allocated = none) ∧
    (∀ size, 1000000 ≤ size → allocMessage rounded size n = none) ∧
    (∀ total largest, log_statistics rounded total n largest = none) := by
  have e : fmt rounded n = none := h.elim (fun h => fmt_top h.1 h.2) (fun h => fmt_top12 h.1 h.2)
  refine ⟨e, fun allocated => ?_, fun size hs => ?_, fun total largest => ?_⟩
  · rw [allocMessage, if_neg (by omega), e]; rfl
  · rw [allocMessage, if_neg (by omega), e]
    simp only
    cases fmt rounded size <;> rfl
  · rw [log_statistics, e]
    cases fmt rounded total <;> rfl

/-- Non-vacuous: 1234567 bytes are shown as MB with two decimals, with any precise logarithm, and `C96_rounded_partial` applies. -/
example : (∃ x, fmt rounded 1234567 = some x ∧ ShownWell 1234567 x) ∧ ∀ x, ShownWell 1234567 x → x.unit = 6 ∧ x.precision = some 2 := by
  have e : asF32 1234567 = 1234567 := by decide +kernel
  refine ⟨C96_rounded_partial _ (by rw [e]; omega) (by rw [e]; omega), fun x hx => ?_⟩
  obtain ⟨hu, h1, h2, p, hp, h3, h4⟩ := hx.digits (by omega) (by rw [e, trillion]; omega)
  rw [hx.size, e] at *
  have u : x.unit = 6 := by
    simp only [List.mem_cons, List.not_mem_nil, or_false] at hu
    rcases hu with hu | hu | hu <;> rw [hu] at h1 h2 <;> omega
  rw [u] at h3 h4
  refine ⟨u, ?_⟩
  rw [hp]
  congr 1
  by_contra hc
  rcases Nat.lt_or_gt_of_ne hc with hlt | hgt
  · have : (10 : ℝ) ^ p ≤ 10 ^ 1 := pow_le_pow_right₀ (by norm_num) (by omega)
    norm_num at this h4
    linarith
  · have : (10 : ℝ) ^ 3 ≤ 10 ^ p := pow_le_pow_right₀ (by norm_num) (by omega)
    norm_num at this h3
    linarith

end OpenZKP.Props.SizeBytes
