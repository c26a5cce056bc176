import Verif.U256.Spec
import Verif.U256.LimbLemmas

namespace OpenZKP
namespace U256

theorem toNat_lt (x : U256) : x.toNat < 2 ^ 256 := by
  have h0 := u64_lt x.l0; have h1 := u64_lt x.l1; have h2 := u64_lt x.l2; have h3 := u64_lt x.l3
  simp only [toNat]; omega

theorem toNat_inj {x y : U256} (h : x.toNat = y.toNat) : x = y := by
  have h0 := u64_lt x.l0; have h1 := u64_lt x.l1; have h2 := u64_lt x.l2; have h3 := u64_lt x.l3
  have g0 := u64_lt y.l0; have g1 := u64_lt y.l1; have g2 := u64_lt y.l2; have g3 := u64_lt y.l3
  simp only [toNat] at h
  ext
  all_goals (apply congrArg UInt64.toNat; apply UInt64.toNat_inj.mp; omega)

theorem add_full_eq (a b : U256) :
    (add_full a b).1.toNat + 2 ^ 256 * (add_full a b).2.toNat = a.toNat + b.toNat := by
  unfold add_full
  split; rename_i c0 k0 h0
  split; rename_i c1 k1 h1
  split; rename_i c2 k2 h2
  split; rename_i c3 k3 h3
  have := adc_spec h0
  have := adc_spec h1
  have := adc_spec h2
  have := adc_spec h3
  simp only [toNat]
  simp only [UInt64.toNat_zero] at *
  omega

theorem mul_u64_full_eq (x : U256) (y : UInt64) :
    (mul_u64_full x y).1.toNat + 2 ^ 256 * (mul_u64_full x y).2.toNat = x.toNat * y.toNat := by
  unfold mul_u64_full
  split; rename_i r0 k0 h0
  split; rename_i r1 k1 h1
  split; rename_i r2 k2 h2
  split; rename_i r3 k3 h3
  have e0 := mac_spec h0
  have e1 := mac_spec h1
  have e2 := mac_spec h2
  have e3 := mac_spec h3
  simp only [toNat]
  simp only [UInt64.toNat_zero] at *
  zify at *
  linear_combination 2 ^ 0 * e0 + 2 ^ 64 * e1 + 2 ^ 128 * e2 + 2 ^ 192 * e3

theorem mul_full_eq (x y : U256) :
    (mul_full x y).1.toNat + 2 ^ 256 * (mul_full x y).2.toNat = x.toNat * y.toNat := by
  unfold mul_full
  split; rename_i r0 k0 h0
  split; rename_i r1 k1 h1
  split; rename_i r2 k2 h2
  split; rename_i r3 k3 h3
  split; rename_i r4 k4 h4
  split; rename_i r5 k5 h5
  split; rename_i r6 k6 h6
  split; rename_i r7 k7 h7
  split; rename_i r8 k8 h8
  split; rename_i r9 k9 h9
  split; rename_i r10 k10 h10
  split; rename_i r11 k11 h11
  split; rename_i r12 k12 h12
  split; rename_i r13 k13 h13
  split; rename_i r14 k14 h14
  split; rename_i r15 k15 h15
  have e0 := mac_spec h0
  have e1 := mac_spec h1
  have e2 := mac_spec h2
  have e3 := mac_spec h3
  have e4 := mac_spec h4
  have e5 := mac_spec h5
  have e6 := mac_spec h6
  have e7 := mac_spec h7
  have e8 := mac_spec h8
  have e9 := mac_spec h9
  have e10 := mac_spec h10
  have e11 := mac_spec h11
  have e12 := mac_spec h12
  have e13 := mac_spec h13
  have e14 := mac_spec h14
  have e15 := mac_spec h15
  simp only [toNat]
  simp only [UInt64.toNat_zero] at *
  zify at *
  linear_combination 2 ^ 0 * e0 + 2 ^ 64 * e1 + 2 ^ 128 * e2 + 2 ^ 192 * e3 + 2 ^ 64 * e4 + 2 ^ 128 * e5 + 2 ^ 192 * e6 + 2 ^ 256 * e7 + 2 ^ 128 * e8 + 2 ^ 192 * e9 + 2 ^ 256 * e10 + 2 ^ 256 * 2 ^ 64 * e11 + 2 ^ 192 * e12 + 2 ^ 256 * e13 + 2 ^ 256 * 2 ^ 64 * e14 + 2 ^ 256 * 2 ^ 128 * e15

theorem mul_eq_aux (x y : U256) : ∃ k : Nat, (mul x y).toNat + 2 ^ 256 * k = x.toNat * y.toNat := by
  unfold mul
  split; rename_i r0 k0 h0
  split; rename_i r1 k1 h1
  split; rename_i r2 k2 h2
  split; rename_i r3 k3 h3
  split; rename_i r4 k4 h4
  split; rename_i r5 k5 h5
  split; rename_i r6 k6 h6
  split; rename_i r7 k7 h7
  split; rename_i r8 k8 h8
  split; rename_i r9 k9 h9
  have e0 := mac_spec h0
  have e1 := mac_spec h1
  have e2 := mac_spec h2
  have e3 := mac_spec h3
  have e4 := mac_spec h4
  have e5 := mac_spec h5
  have e6 := mac_spec h6
  have e7 := mac_spec h7
  have e8 := mac_spec h8
  have e9 := mac_spec h9
  refine ⟨k3.toNat + k6.toNat + k8.toNat + k9.toNat + x.l1.toNat * y.l3.toNat + x.l2.toNat * y.l2.toNat + x.l3.toNat * y.l1.toNat + 2 ^ 64 * (x.l2.toNat * y.l3.toNat + x.l3.toNat * y.l2.toNat) + 2 ^ 128 * (x.l3.toNat * y.l3.toNat), ?_⟩
  simp only [toNat]
  simp only [UInt64.toNat_zero] at *
  zify at *
  linear_combination 2 ^ 0 * e0 + 2 ^ 64 * e1 + 2 ^ 128 * e2 + 2 ^ 192 * e3 + 2 ^ 64 * e4 + 2 ^ 128 * e5 + 2 ^ 192 * e6 + 2 ^ 128 * e7 + 2 ^ 192 * e8 + 2 ^ 192 * e9

theorem top_zero {a b M k : Nat} (h : a + M * k = b) (hb : b < M) : k = 0 := by
  rcases Nat.eq_zero_or_pos k with h0 | h0
  · exact h0
  · nlinarith

theorem shl1_or (a b : UInt64) :
    ((a <<< 1) ||| (b >>> 63)).toNat = 2 * a.toNat % 2 ^ 64 + b.toNat / 2 ^ 63 := by
  have ha := u64_lt a; have hb := u64_lt b
  rw [UInt64.toNat_or, UInt64.toNat_shiftLeft, UInt64.toNat_shiftRight]
  have e1 : (a.toNat <<< ((1 : UInt64).toNat % 64)) % 2 ^ 64 = (a.toNat % 2 ^ 63) <<< 1 := by
    have e : (1 : UInt64).toNat % 64 = 1 := by decide
    rw [e]; simp only [Nat.shiftLeft_eq]; omega
  have e2 : b.toNat >>> ((63 : UInt64).toNat % 64) = b.toNat / 2 ^ 63 := by
    have e : (63 : UInt64).toNat % 64 = 63 := by decide
    rw [e, Nat.shiftRight_eq_div_pow]
  rw [e1, e2, ← Nat.shiftLeft_add_eq_or_of_lt (by omega), Nat.shiftLeft_eq]
  omega

theorem shl1 (a : UInt64) : (a <<< 1).toNat = 2 * a.toNat % 2 ^ 64 := by
  rw [UInt64.toNat_shiftLeft]
  have e : (1 : UInt64).toNat % 64 = 1 := by decide
  rw [e]; simp only [Nat.shiftLeft_eq]; omega

theorem shr63 (a : UInt64) : (a >>> 63).toNat = a.toNat / 2 ^ 63 := by
  rw [UInt64.toNat_shiftRight]
  have e : (63 : UInt64).toNat % 64 = 63 := by decide
  rw [e, Nat.shiftRight_eq_div_pow]

theorem square_full_eq (x : U256) :
    (square_full x).1.toNat + 2 ^ 256 * (square_full x).2.toNat = x.toNat * x.toNat := by
  unfold square_full
  split; rename_i r0 k0 h0
  split; rename_i r1 k1 h1
  split; rename_i r2 k2 h2
  split; rename_i r3 k3 h3
  split; rename_i r4 k4 h4
  split; rename_i r5 k5 h5
  dsimp (config := { iota := false, proj := false, etaStruct := .none }) only
  split; rename_i r6 k6 h6
  split; rename_i r7 k7 h7
  split; rename_i r8 k8 h8
  split; rename_i r9 k9 h9
  split; rename_i r10 k10 h10
  split; rename_i r11 k11 h11
  split; rename_i r12 k12 h12
  split; rename_i r13 k13 h13
  have e0 := mac_spec h0
  have e1 := mac_spec h1
  have e2 := mac_spec h2
  have e3 := mac_spec h3
  have e4 := mac_spec h4
  have e5 := mac_spec h5
  have e6 := mac_spec h6
  have e7 := adc_spec h7
  have e8 := mac_spec h8
  have e9 := adc_spec h9
  have e10 := mac_spec h10
  have e11 := adc_spec h11
  have e12 := mac_spec h12
  have e13 := adc_spec h13
  rw [shl1] at e7
  rw [shl1_or] at e8 e9 e10 e11 e12
  rw [shr63] at e13
  have g0 : 2 * r0.toNat % 2 ^ 64 + 2 ^ 64 * (r0.toNat / 2 ^ 63) = 2 * r0.toNat := by omega
  have g1 : 2 * r1.toNat % 2 ^ 64 + 2 ^ 64 * (r1.toNat / 2 ^ 63) = 2 * r1.toNat := by omega
  have g3 : 2 * r3.toNat % 2 ^ 64 + 2 ^ 64 * (r3.toNat / 2 ^ 63) = 2 * r3.toNat := by omega
  have g4 : 2 * r4.toNat % 2 ^ 64 + 2 ^ 64 * (r4.toNat / 2 ^ 63) = 2 * r4.toNat := by omega
  have g5 : 2 * r5.toNat % 2 ^ 64 + 2 ^ 64 * (r5.toNat / 2 ^ 63) = 2 * r5.toNat := by omega
  have g6 : 2 * k5.toNat % 2 ^ 64 + 2 ^ 64 * (k5.toNat / 2 ^ 63) = 2 * k5.toNat := by omega
  generalize 2 * r0.toNat % 2 ^ 64 = m0 at *
  generalize 2 * r1.toNat % 2 ^ 64 = m1 at *
  generalize 2 * r3.toNat % 2 ^ 64 = m3 at *
  generalize 2 * r4.toNat % 2 ^ 64 = m4 at *
  generalize 2 * r5.toNat % 2 ^ 64 = m5 at *
  generalize 2 * k5.toNat % 2 ^ 64 = m6 at *
  generalize r0.toNat / 2 ^ 63 = d0 at *
  generalize r1.toNat / 2 ^ 63 = d1 at *
  generalize r3.toNat / 2 ^ 63 = d3 at *
  generalize r4.toNat / 2 ^ 63 = d4 at *
  generalize r5.toNat / 2 ^ 63 = d5 at *
  generalize k5.toNat / 2 ^ 63 = d6 at *
  have key : (⟨r6, r7, r8, r9⟩ : U256).toNat + 2 ^ 256 * (⟨r10, r11, r12, r13⟩ : U256).toNat
      + 2 ^ 256 * 2 ^ 256 * k13.toNat = x.toNat * x.toNat := by
    simp only [toNat]
    simp only [UInt64.toNat_zero] at *
    zify at *
    linear_combination 2 * 2 ^ 64 * e0 + 2 * 2 ^ 128 * e1 + 2 * 2 ^ 192 * e2 + 2 * 2 ^ 192 * e3 + 2 * 2 ^ 256 * e4 + 2 * 2 ^ 256 * 2 ^ 64 * e5 + 2 ^ 0 * e6 + 2 ^ 64 * e7 + 2 ^ 128 * e8 + 2 ^ 192 * e9 + 2 ^ 256 * e10 + 2 ^ 256 * 2 ^ 64 * e11 + 2 ^ 256 * 2 ^ 128 * e12 + 2 ^ 256 * 2 ^ 192 * e13 + 2 ^ 64 * g0 + 2 ^ 128 * g1 + 2 ^ 192 * g3 + 2 ^ 256 * g4 + 2 ^ 256 * 2 ^ 64 * g5 + 2 ^ 256 * 2 ^ 128 * g6
  have hx := toNat_lt x
  have hb : x.toNat * x.toNat < 2 ^ 256 * 2 ^ 256 := Nat.mul_lt_mul'' hx hx
  have hk : k13.toNat = 0 := top_zero key hb
  rw [hk, Nat.mul_zero, Nat.add_zero] at key
  exact key


end U256
end OpenZKP
