import Verif.U256.DivRemLemmas
import Mathlib.Tactic.IntervalCases

/-!
# Properties C03 and C04: division and modular multiplication

`div_rem` and `mulmod` take a flag: `true` is the debug profile (a failed `debug_assert!` is a panic,
`none`), `false` the release profile.  `SafeDiv` (in `Spec.lean`) is the arithmetic condition under
which the precondition of the 3-by-2 digit estimate holds at every digit.  C03 and C04 fail outside it:
see `C03_violated`, `C04_violated`.
-/

namespace OpenZKP.Props
open OpenZKP U256

/-! ## C03 -/

/-- C03, 64-bit divisor: `None` exactly for zero, otherwise Euclidean quotient and remainder. -/
theorem C03_div_rem_u64 (a : U256) (d : UInt64) :
    (div_rem_u64 a d = none ↔ d = 0) ∧
    ∀ q r, div_rem_u64 a d = some (q, r) →
      a.toNat = q.toNat * d.toNat + r.toNat ∧ r.toNat < d.toNat := by
  by_cases hd : d = 0
  · subst hd
    refine ⟨by simp [div_rem_u64], fun q r h => ?_⟩
    simp [div_rem_u64] at h
  · have hpos : 0 < d.toNat := by
      rcases Nat.eq_zero_or_pos d.toNat with h | h
      · exact absurd (UInt64.toNat_inj.mp (h.trans (show (0 : UInt64).toNat = 0 from rfl).symm)) hd
      · exact h
    obtain ⟨q, r, e, hq, hr⟩ := div_rem_u64_spec a d hpos
    refine ⟨by simp [e, hd], fun q' r' h => ?_⟩
    rw [e, Option.some.injEq, Prod.mk.injEq] at h
    obtain ⟨rfl, rfl⟩ := h
    rw [hq, hr]
    exact ⟨(Nat.div_add_mod' _ _).symm, Nat.mod_lt _ hpos⟩

/-- Safe whenever the divisor does not have exactly three limbs. -/
theorem safeDiv5 (a b : Nat) (ha : a < 2 ^ 256) (hb : numLimbs b ≠ 3) : SafeDiv 5 a b := by
  unfold SafeDiv
  dsimp only
  by_cases h1 : numLimbs b ≤ 1
  · exact Or.inl h1
  right
  have hbpos : 0 < b * 2 ^ (64 * numLimbs b - b.size) := by
    rcases Nat.eq_zero_or_pos b with h | h
    · subst h; simp [numLimbs] at h1
    · positivity
  intro j hj
  by_cases h2 : numLimbs b = 2
  · rw [h2, Nat.sub_self, pow_zero, Nat.div_one, Nat.div_one]
    exact Nat.mod_lt _ (by rw [h2] at hbpos; exact hbpos)
  -- four limbs (or more): only the top digit
  have h4 : numLimbs b = 4 := by omega
  have hj0 : j = 0 := by omega
  subst hj0
  have hs1 : 192 < b.size := by unfold numLimbs at h4; omega
  have hs2 : b.size ≤ 256 := by unfold numLimbs at h4; omega
  have hb2 : 2 ^ (b.size - 1) ≤ b := Nat.lt_size.mp (by omega)
  rw [h4]
  generalize hs : 64 * 4 - b.size = s at *
  have hV : 2 ^ 255 ≤ b * 2 ^ s := by
    calc 2 ^ 255 = 2 ^ (b.size - 1) * 2 ^ s := by rw [← pow_add]; congr 1; omega
      _ ≤ _ := Nat.mul_le_mul_right _ hb2
  have hA : a * 2 ^ s < 2 ^ 319 := by
    calc a * 2 ^ s < 2 ^ 256 * 2 ^ s := Nat.mul_lt_mul_of_pos_right ha (by positivity)
      _ ≤ 2 ^ 256 * 2 ^ 63 := Nat.mul_le_mul_left _ (Nat.pow_le_pow_right (by norm_num) (by omega))
      _ = 2 ^ 319 := by rw [← pow_add]
  generalize a * 2 ^ s = A at *
  generalize b * 2 ^ s = V at *
  have e1 : (2 ^ 64) ^ (0 + 1) = 2 ^ 64 := by norm_num
  have e2 : (2 ^ 64) ^ (4 - 2) = 2 ^ 128 := by norm_num
  rw [e1, e2]
  have h3 : A / 2 ^ 64 < 2 ^ 255 := by omega
  rw [Nat.mod_eq_of_lt (by omega)]
  calc A / 2 ^ 64 / 2 ^ 128 < 2 ^ 127 := by omega
    _ ≤ V / 2 ^ 128 := by omega

/-- C03, 256-bit divisor.  `None` exactly for a zero divisor; no panic and Euclidean division whenever
the pair is `SafeDiv` — in particular for every divisor that does not have exactly three limbs, and for
every dividend below the divisor's reach — in both profiles; the debug profile panics on every other
pair.  Missing for the full property: it is false there, see `C03_violated`. -/
theorem C03_div_rem_partial (dbg : Bool) (a b : U256) :
    (div_rem dbg a b = some none ↔ b.toNat = 0) ∧
    (b.toNat ≠ 0 → SafeDiv 5 a.toNat b.toNat → ∃ q r, div_rem dbg a b = some (some (q, r)) ∧
      a.toNat = q.toNat * b.toNat + r.toNat ∧ r.toNat < b.toNat) ∧
    (b.toNat ≠ 0 → ¬ SafeDiv 5 a.toNat b.toNat → div_rem true a b = none) ∧
    (numLimbs b.toNat ≠ 3 → SafeDiv 5 a.toNat b.toNat) := by
  refine ⟨⟨fun h => ?_, div_rem_zero dbg a b⟩, fun hb hs => ?_, fun hb hs => ?_, safeDiv5 _ _ (toNat_lt a)⟩
  · by_contra hb
    unfold div_rem at h
    dsimp only at h
    split at h
    · revert h; split <;> simp
    split at h
    · revert h; split <;> simp
    split at h
    · revert h; split <;> simp
    split at h
    · simp at h
    · rename_i h3 h2 h1 h0
      apply hb
      simp only [toNat, not_pos h0, not_pos h1, not_pos h2, not_pos h3]
  · obtain ⟨q, r, e, hq, hr⟩ := (div_rem_spec dbg a b (by omega)).1 hs
    refine ⟨q, r, e, ?_, ?_⟩
    · rw [hq, hr]; exact (Nat.div_add_mod' _ _).symm
    · rw [hr]; exact Nat.mod_lt _ (by omega)
  · exact (div_rem_spec true a b (by omega)).2 hs

/-- Non-vacuous: a three-limb divisor that is safe, with a non-trivial quotient. -/
example : SafeDiv 5 (2 ^ 255 + 12345) (2 ^ 130 + 7) ∧ numLimbs (2 ^ 130 + 7) = 3 := by
  have hs : Nat.size (2 ^ 130 + 7) = 131 := size_eq (by norm_num) (by norm_num)
  have hn : numLimbs (2 ^ 130 + 7) = 3 := by unfold numLimbs; rw [hs]
  refine ⟨Or.inr ?_, hn⟩
  rw [hn, hs]
  intro j hj
  interval_cases j <;> decide +kernel

/-- The pair `(2^255 + 2^64, 2^191 + 2)`. -/
def badNum : U256 := ⟨0, 1, 0, 0x8000000000000000⟩
def badDen : U256 := ⟨2, 0, 0x8000000000000000, 0⟩

/-- C03 is violated: on `(2^255 + 2^64) / (2^191 + 2)` the debug profile panics and the release profile
returns a quotient that is one too small, with a remainder larger than the divisor. -/
theorem C03_violated :
    badNum.toNat = 2 ^ 255 + 2 ^ 64 ∧ badDen.toNat = 2 ^ 191 + 2 ∧
    div_rem true badNum badDen = none ∧
    ∃ q r, div_rem false badNum badDen = some (some (q, r)) ∧
      q.toNat + 1 = badNum.toNat / badDen.toNat ∧ badDen.toNat < r.toNat := by
  refine ⟨by decide +kernel, by decide +kernel, by decide +kernel,
    ⟨0xfffffffffffffffe, 0, 0, 0⟩, ⟨4, 0xffffffffffffffff, 0xffffffffffffffff, 0⟩,
    by decide +kernel, by decide +kernel, by decide +kernel⟩

/-! ## C04 -/

/-- C04: `mulmod` panics for modulus zero and is exact whenever the pair (product, modulus) is
`SafeDiv`; in particular for every modulus of at most two limbs.  The debug profile panics on every
other input.  Missing for the full property: it is false there, see `C04_violated`. -/
theorem C04_mulmod_partial (dbg : Bool) (a b m : U256) :
    (m.toNat = 0 → mulmod dbg a b m = none) ∧
    (m.toNat ≠ 0 → SafeDiv 9 (a.toNat * b.toNat) m.toNat →
      ∃ r, mulmod dbg a b m = some r ∧ r.toNat = a.toNat * b.toNat % m.toNat) ∧
    (m.toNat ≠ 0 → ¬ SafeDiv 9 (a.toNat * b.toNat) m.toNat → mulmod true a b m = none) ∧
    (m.toNat ≠ 0 → m.toNat < 2 ^ 128 → SafeDiv 9 (a.toNat * b.toNat) m.toNat) := by
  refine ⟨mulmod_zero dbg a b m, fun h hs => (mulmod_spec dbg a b m (by omega)).1 hs,
    fun h hs => (mulmod_spec true a b m (by omega)).2 hs, fun hm h => ?_⟩
  unfold SafeDiv
  dsimp only
  by_cases h1 : numLimbs m.toNat ≤ 1
  · exact Or.inl h1
  right
  intro j _
  have hsz : Nat.size m.toNat ≤ 128 := Nat.size_le.mpr h
  have h2 : numLimbs m.toNat = 2 := by unfold numLimbs at h1 ⊢; omega
  rw [h2, Nat.sub_self, pow_zero, Nat.div_one, Nat.div_one]
  exact Nat.mod_lt _ (by positivity)

/-- C04 is violated: `mulmod(2^255 + 2^64, 1, 2^191 + 2)` panics in the debug profile and returns a value
above the modulus in the release profile. -/
theorem C04_violated :
    mulmod true badNum ONE badDen = none ∧
    ∃ r, mulmod false badNum ONE badDen = some r ∧ badDen.toNat < r.toNat ∧
      r.toNat ≠ badNum.toNat * ONE.toNat % badDen.toNat := by
  refine ⟨by decide +kernel, ⟨4, 0xffffffffffffffff, 0xffffffffffffffff, 0⟩, by decide +kernel,
    by decide +kernel, by decide +kernel⟩

/-- Non-vacuous: the four-limb modulus `p` of the base field with full-size factors is safe. -/
example : SafeDiv 9 ((2 ^ 250 + 12345) * (2 ^ 249 + 77)) (2 ^ 251 + 17 * 2 ^ 192 + 1) := by
  have hs : Nat.size (2 ^ 251 + 17 * 2 ^ 192 + 1) = 252 := size_eq (by norm_num) (by norm_num)
  have hn : numLimbs (2 ^ 251 + 17 * 2 ^ 192 + 1) = 4 := by unfold numLimbs; rw [hs]
  right
  rw [hn, hs]
  intro j hj
  interval_cases j <;> decide +kernel

/-! ## The operators `/` and `%` -/

/-- `/` and `%` on safe pairs; both panic for a zero divisor. -/
theorem C03_div_rem_ops_partial (dbg : Bool) (a b : U256) :
    (b.toNat = 0 → U256.div dbg a b = none ∧ U256.rem dbg a b = none) ∧
    (b.toNat ≠ 0 → SafeDiv 5 a.toNat b.toNat →
      ∃ q r, U256.div dbg a b = some q ∧ U256.rem dbg a b = some r ∧
        q.toNat = a.toNat / b.toNat ∧ r.toNat = a.toNat % b.toNat) := by
  refine ⟨fun h => ?_, fun h hs => ?_⟩
  · rw [U256.div, U256.rem, div_rem_zero dbg a b h]; exact ⟨rfl, rfl⟩
  · obtain ⟨q, r, e, hq, hr⟩ := (div_rem_spec dbg a b (by omega)).1 hs
    refine ⟨q, r, ?_, ?_, hq, hr⟩
    · rw [U256.div, e]
    · rw [U256.rem, e]

end OpenZKP.Props
