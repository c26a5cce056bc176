import Verif.U256.Limb
import Mathlib.Tactic.Ring
import Mathlib.Tactic.Linarith
import Mathlib.Tactic.LinearCombination

/-! Exact equations of the limb operations (helper lemmas). -/

namespace OpenZKP

theorem u64_lt (a : UInt64) : a.toNat < 2 ^ 64 := a.toNat_lt

theorem mul_u64_le (a b : UInt64) : a.toNat * b.toNat ≤ (2 ^ 64 - 1) * (2 ^ 64 - 1) :=
  Nat.mul_le_mul (by have := u64_lt a; omega) (by have := u64_lt b; omega)

theorem adc_eq (a b c : UInt64) :
    (adc a b c).1.toNat + 2 ^ 64 * (adc a b c).2.toNat = a.toNat + b.toNat + c.toNat := by
  have ha := u64_lt a; have hb := u64_lt b; have hc := u64_lt c
  simp only [adc, UInt64.toNat_ofNat']
  omega

theorem adc_spec {a b c r k : UInt64} (h : adc a b c = (r, k)) :
    r.toNat + 2 ^ 64 * k.toNat = a.toNat + b.toNat + c.toNat := by
  have := adc_eq a b c; rw [h] at this; exact this

theorem sbb_eq (a b c : UInt64) (hc : c.toNat ≤ 1) :
    (sbb a b c).1.toNat + b.toNat + c.toNat = a.toNat + 2 ^ 64 * (sbb a b c).2.toNat ∧
      (sbb a b c).2.toNat ≤ 1 := by
  have ha := u64_lt a; have hb := u64_lt b
  simp only [sbb, UInt64.toNat_ofNat']
  have e : (b.toNat + c.toNat) % 2 ^ 128 = b.toNat + c.toNat := Nat.mod_eq_of_lt (by omega)
  rw [e]
  omega

theorem sbb_spec {a b c r k : UInt64} (h : sbb a b c = (r, k)) (hc : c.toNat ≤ 1) :
    r.toNat + b.toNat + c.toNat = a.toNat + 2 ^ 64 * k.toNat ∧ k.toNat ≤ 1 := by
  have := sbb_eq a b c hc; rw [h] at this; exact this

theorem mac_eq (a b c d : UInt64) :
    (mac a b c d).1.toNat + 2 ^ 64 * (mac a b c d).2.toNat
      = a.toNat + b.toNat * c.toNat + d.toNat := by
  have ha := u64_lt a; have hd := u64_lt d
  have h := mul_u64_le b c
  simp only [mac, UInt64.toNat_ofNat']
  omega

theorem mac_spec {a b c d r k : UInt64} (h : mac a b c d = (r, k)) :
    r.toNat + 2 ^ 64 * k.toNat = a.toNat + b.toNat * c.toNat + d.toNat := by
  have := mac_eq a b c d; rw [h] at this; exact this

theorem msb_eq (a b c d : UInt64) :
    (msb a b c d).1.toNat + b.toNat * c.toNat + d.toNat
      = a.toNat + 2 ^ 64 * (msb a b c d).2.toNat := by
  have ha := u64_lt a; have hd := u64_lt d
  have h := mul_u64_le b c
  simp only [msb, UInt64.toNat_ofNat', UInt64.toNat_sub, UInt64.toNat_ofNat]
  have e : (b.toNat * c.toNat + d.toNat) % 2 ^ 128 = b.toNat * c.toNat + d.toNat :=
    Nat.mod_eq_of_lt (by omega)
  rw [e]
  omega

theorem msb_spec {a b c d r k : UInt64} (h : msb a b c d = (r, k)) :
    r.toNat + b.toNat * c.toNat + d.toNat = a.toNat + 2 ^ 64 * k.toNat := by
  have := msb_eq a b c d; rw [h] at this; exact this

theorem div_2_1_eq (lo hi d : UInt64) (h : hi.toNat < d.toNat) :
    (div_2_1 lo hi d).1.toNat * d.toNat + (div_2_1 lo hi d).2.toNat = hi.toNat * 2 ^ 64 + lo.toNat ∧
      (div_2_1 lo hi d).2.toNat < d.toNat := by
  have hl := u64_lt lo; have hd := u64_lt d
  have hpos : 0 < d.toNat := by omega
  simp only [div_2_1, UInt64.toNat_ofNat']
  have hr := Nat.mod_lt (hi.toNat * 2 ^ 64 + lo.toNat) hpos
  have hq : (hi.toNat * 2 ^ 64 + lo.toNat) / d.toNat < 2 ^ 64 := by
    rw [Nat.div_lt_iff_lt_mul hpos]
    nlinarith
  rw [Nat.mod_eq_of_lt hq, Nat.mod_eq_of_lt (by omega : _ < 2 ^ 64)]
  exact ⟨by rw [Nat.mul_comm]; exact Nat.div_add_mod _ _, hr⟩

theorem div_2_1_spec {lo hi d q r : UInt64} (e : div_2_1 lo hi d = (q, r)) (h : hi.toNat < d.toNat) :
    q.toNat * d.toNat + r.toNat = hi.toNat * 2 ^ 64 + lo.toNat ∧ r.toNat < d.toNat := by
  have := div_2_1_eq lo hi d h; rw [e] at this; exact this

end OpenZKP
