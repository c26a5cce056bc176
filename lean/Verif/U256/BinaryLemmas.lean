import Verif.U256.ArithLemmas
import Mathlib.Tactic.NormNum
import Mathlib.Data.Nat.Log
import Mathlib.Data.Nat.ModEq

namespace OpenZKP
namespace U256

theorem add_mod (a b : U256) : (add a b).toNat = (a.toNat + b.toNat) % 2 ^ 256 := by
  have h := add_full_eq a b
  have h1 := toNat_lt (add_full a b).1
  rw [← h, Nat.add_mul_mod_self_left, Nat.mod_eq_of_lt h1, add]

theorem sub_full_eq (a b : U256) :
    (sub_full a b).1.toNat + b.toNat = a.toNat + 2 ^ 256 * (sub_full a b).2.toNat ∧
      (sub_full a b).2.toNat ≤ 1 := by
  unfold sub_full
  split; rename_i c0 k0 h0
  split; rename_i c1 k1 h1
  split; rename_i c2 k2 h2
  split; rename_i c3 k3 h3
  have e0 := sbb_spec h0 (by simp)
  have e1 := sbb_spec h1 e0.2
  have e2 := sbb_spec h2 e1.2
  have e3 := sbb_spec h3 e2.2
  simp only [toNat]
  simp only [UInt64.toNat_zero] at *
  omega

theorem sub_mod (a b : U256) : (sub a b).toNat = (a.toNat + (2 ^ 256 - b.toNat)) % 2 ^ 256 := by
  have h := sub_full_eq a b
  have h1 := toNat_lt (sub_full a b).1
  have h2 := toNat_lt a
  have h3 := toNat_lt b
  unfold sub
  omega

theorem sub_of_le {a b : U256} (h : b.toNat ≤ a.toNat) : (sub a b).toNat = a.toNat - b.toNat := by
  have h1 := toNat_lt a
  rw [sub_mod]; omega

theorem zero_toNat : ZERO.toNat = 0 := by decide
theorem one_toNat : ONE.toNat = 1 := by decide
theorem max_toNat : MAX.toNat = 2 ^ 256 - 1 := by decide

theorem neg_mod (a : U256) : (neg a).toNat = (2 ^ 256 - a.toNat) % 2 ^ 256 := by
  rw [neg, sub_mod, zero_toNat, Nat.zero_add]

theorem mul_mod (a b : U256) : (mul a b).toNat = (a.toNat * b.toNat) % 2 ^ 256 := by
  obtain ⟨k, hk⟩ := mul_eq_aux a b
  rw [← hk, Nat.add_mul_mod_self_left, Nat.mod_eq_of_lt (toNat_lt _)]

theorem square_mod (a : U256) : (square a).toNat = (a.toNat * a.toNat) % 2 ^ 256 := by
  rw [← square_full_eq, Nat.add_mul_mod_self_left, Nat.mod_eq_of_lt (toNat_lt _), square]

theorem mul_u64_mod (a : U256) (b : UInt64) :
    (mul_u64 a b).toNat = (a.toNat * b.toNat) % 2 ^ 256 := by
  rw [← mul_u64_full_eq, Nat.add_mul_mod_self_left, Nat.mod_eq_of_lt (toNat_lt _), mul_u64]

theorem powLoop_mod (r s : U256) (e : Nat) :
    (powLoop r s e).toNat = (r.toNat * s.toNat ^ e) % 2 ^ 256 := by
  induction e using Nat.strong_induction_on generalizing r s with
  | _ e ih =>
    unfold powLoop
    by_cases h : 0 < e
    · rw [dif_pos h, ih (e / 2) (by omega)]
      have hs : ((square s).toNat) ≡ s.toNat * s.toNat [MOD 2 ^ 256] := by
        rw [square_mod]; exact Nat.mod_modEq _ _
      have he := Nat.div_add_mod e 2
      by_cases h1 : e % 2 = 1
      · rw [if_pos h1]
        have hm : ((mul r s).toNat) ≡ r.toNat * s.toNat [MOD 2 ^ 256] := by
          rw [mul_mod]; exact Nat.mod_modEq _ _
        have := hm.mul (hs.pow (e / 2))
        rw [show r.toNat * s.toNat * (s.toNat * s.toNat) ^ (e / 2) = r.toNat * s.toNat ^ e by
          conv_rhs => rw [← he, h1, pow_add, pow_mul]
          ring] at this
        exact this
      · rw [if_neg h1]
        have h0 : e % 2 = 0 := by omega
        have := (Nat.ModEq.refl r.toNat).mul (hs.pow (e / 2))
        rw [show r.toNat * (s.toNat * s.toNat) ^ (e / 2) = r.toNat * s.toNat ^ e by
          conv_rhs => rw [← he, h0, pow_add, pow_mul]
          ring] at this
        exact this
    · rw [dif_neg h]
      have : e = 0 := by omega
      subst this
      rw [pow_zero, Nat.mul_one, Nat.mod_eq_of_lt (toNat_lt _)]

theorem pow_mod (x : U256) (e : UInt64) :
    (pow x e).toNat = x.toNat ^ e.toNat % 2 ^ 256 := by
  rw [pow, powLoop_mod, one_toNat, Nat.one_mul]

/-! comparison -/

theorem compare_u64 (a b : UInt64) : compare a b = compare a.toNat b.toNat := by
  rw [Nat.compare_eq_ite_lt]
  show compareOfLessAndEq a b = _
  unfold compareOfLessAndEq
  simp only [UInt64.lt_iff_toNat_lt, ← UInt64.toNat_inj]
  split
  · rfl
  · split <;> split <;> first | rfl | omega

theorem cmp_eq (a b : U256) : cmp a b = compare a.toNat b.toNat := by
  have h0 := u64_lt a.l0; have h1 := u64_lt a.l1; have h2 := u64_lt a.l2
  have g0 := u64_lt b.l0; have g1 := u64_lt b.l1; have g2 := u64_lt b.l2
  simp only [cmp, compare_u64]
  have key : ∀ {x y : Nat}, (compare x y = .lt ∧ x < y) ∨ (compare x y = .eq ∧ x = y) ∨
      (compare x y = .gt ∧ y < x) := by
    intro x y
    rcases Nat.lt_trichotomy x y with h | h | h
    · exact .inl ⟨Nat.compare_eq_lt.mpr h, h⟩
    · exact .inr (.inl ⟨Nat.compare_eq_eq.mpr h, h⟩)
    · exact .inr (.inr ⟨Nat.compare_eq_gt.mpr h, h⟩)
  have top : (compare a.toNat b.toNat = .lt ↔ a.toNat < b.toNat) ∧
      (compare a.toNat b.toNat = .gt ↔ b.toNat < a.toNat) ∧
      (compare a.toNat b.toNat = .eq ↔ a.toNat = b.toNat) :=
    ⟨Nat.compare_eq_lt, Nat.compare_eq_gt, Nat.compare_eq_eq⟩
  simp only [toNat] at *
  rcases @key a.l3.toNat b.l3.toNat with ⟨e, h⟩ | ⟨e, h⟩ | ⟨e, h⟩ <;> rw [e]
  · exact (top.1.mpr (by omega)).symm
  · rcases @key a.l2.toNat b.l2.toNat with ⟨e, h⟩ | ⟨e, h⟩ | ⟨e, h⟩ <;> rw [e]
    · exact (top.1.mpr (by omega)).symm
    · rcases @key a.l1.toNat b.l1.toNat with ⟨e, h⟩ | ⟨e, h⟩ | ⟨e, h⟩ <;> rw [e]
      · exact (top.1.mpr (by omega)).symm
      · rcases @key a.l0.toNat b.l0.toNat with ⟨e, h⟩ | ⟨e, h⟩ | ⟨e, h⟩ <;> rw [e]
        · exact (top.1.mpr (by omega)).symm
        · exact (top.2.2.mpr (by omega)).symm
        · exact (top.2.1.mpr (by omega)).symm
      · exact (top.2.1.mpr (by omega)).symm
    · exact (top.2.1.mpr (by omega)).symm
  · exact (top.2.1.mpr (by omega)).symm

theorem lt_iff (a b : U256) : lt a b = true ↔ a.toNat < b.toNat := by
  simp only [lt, cmp_eq, beq_iff_eq, Nat.compare_eq_lt]

theorem ge_iff (a b : U256) : ge a b = true ↔ b.toNat ≤ a.toNat := by
  have := lt_iff a b
  simp only [lt, beq_iff_eq] at this
  simp only [ge, bne_iff_ne, ne_eq, this, not_lt]

theorem gt_iff (a b : U256) : gt a b = true ↔ b.toNat < a.toNat := by
  simp only [gt, cmp_eq, beq_iff_eq, Nat.compare_eq_gt]

/-! shifts -/

theorem ofNat_small {n : Nat} (h : n < 64) : (UInt64.ofNat n).toNat % 64 = n := by
  rw [UInt64.toNat_ofNat']; omega

theorem shl64_toNat (x : UInt64) {n : Nat} (h : n < 64) :
    (shl64 x n).toNat = x.toNat % 2 ^ (64 - n) * 2 ^ n := by
  rw [shl64, UInt64.toNat_shiftLeft, ofNat_small h, Nat.shiftLeft_eq]
  conv_lhs => rw [show (2 : Nat) ^ 64 = 2 ^ (64 - n) * 2 ^ n by rw [← pow_add]; congr 1; omega]
  exact Nat.mul_mod_mul_right _ _ _

theorem shr64_toNat (x : UInt64) {n : Nat} (h : n < 64) :
    (shr64 x n).toNat = x.toNat / 2 ^ n := by
  rw [shr64, UInt64.toNat_shiftRight, ofNat_small h, Nat.shiftRight_eq_div_pow]

theorem or_shift_lo (x y : UInt64) {n : Nat} (h : 0 < n) (h' : n < 64) :
    (shl64 x n ||| shr64 y (64 - n)).toNat = (shl64 x n).toNat + (shr64 y (64 - n)).toNat := by
  have hy := u64_lt y
  rw [UInt64.toNat_or, shl64_toNat x h', shr64_toNat y (by omega), ← Nat.shiftLeft_eq,
    ← Nat.shiftLeft_add_eq_or_of_lt]
  rw [Nat.div_lt_iff_lt_mul (by positivity), ← pow_add]
  have : n + (64 - n) = 64 := by omega
  rw [this]; exact hy

theorem or_shift_lo' (x y : UInt64) {n : Nat} (h : 0 < n) (h' : n < 64) :
    (shr64 y (64 - n) ||| shl64 x n).toNat = (shl64 x n).toNat + (shr64 y (64 - n)).toNat := by
  rw [UInt64.or_comm]; exact or_shift_lo x y h h'

end U256
end OpenZKP
