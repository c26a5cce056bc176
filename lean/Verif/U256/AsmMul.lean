import Verif.U256.AsmLemmas

/-!
# The assembly routines: multiplication and `reduce_1`
-/

namespace OpenZKP.Asm
open OpenZKP U256

/-- The value of a 256-bit number. -/
def wide (x : U256) : ℤ := w x.l0 + 2 ^ 64 * w x.l1 + 2 ^ 128 * w x.l2 + 2 ^ 192 * w x.l3

theorem wide_eq (x : U256) : wide x = (x.toNat : ℤ) := by
  simp only [wide, w, toNat]; push_cast; ring

theorem wide_nonneg (x : U256) : 0 ≤ wide x := by rw [wide_eq]; omega
theorem wide_lt (x : U256) : wide x < 2 ^ 256 := by
  have := x.toNat_lt
  rw [wide_eq]; omega

theorem row_lt (a : UInt64) (y : U256) : w a * wide y ≤ (2 ^ 64 - 1) * (2 ^ 256 - 1) := by
  have h1 := w_lt a
  have h2 := wide_lt y
  have h3 := w_nonneg a
  have h4 := wide_nonneg y
  exact mul_le_mul (by omega) (by omega) h4 (by omega)

theorem row_nonneg (a : UInt64) (y : U256) : 0 ≤ w a * wide y := mul_nonneg (w_nonneg a) (wide_nonneg y)

theorem mul_1_spec (s0 : Cpu) (a : UInt64) (y : U256) (r) (hr : mul_1_asm s0 a y.l0 y.l1 y.l2 y.l3 = r) :
    w r.1 + 2 ^ 64 * w r.2.1 + 2 ^ 128 * w r.2.2.1 + 2 ^ 192 * w r.2.2.2.1 + 2 ^ 256 * w r.2.2.2.2 =
      w a * wide y := by
  subst hr
  unfold mul_1_asm
  dsimp only
  refine Wp_sound mul1Block (fun t => w t.r8 + 2 ^ 64 * w t.r9 + 2 ^ 128 * w t.r10 + 2 ^ 192 * w t.r11 +
    2 ^ 256 * w t.r12 = w a * wide y) _ ?_
  simp only [mul1Block, Wp, wp, Cpu.set, Cpu.read, Cpu.get, Cpu.load, Cpu.load1, Cpu.fetch, store]
  simp only [Nat.reduceEqDiff, and_true, and_false, if_true, if_false, and_self, reduceIte, false_and, true_and,
    w_zero, OfNat.ofNat_ne_zero, OfNat.zero_ne_ofNat, zero_ne_one, one_ne_zero, OfNat.ofNat_ne_one, OfNat.one_ne_ofNat]
  intro v1 u1 e1 v2 u2 e2 v3 c3 _ e3 v4 u4 e4 v5 c5 _ e5 v6 u6 e6 v7 c7 _ e7 v8 c8 _ e8
  have h : w v1 + 2 ^ 64 * w v3 + 2 ^ 128 * w v5 + 2 ^ 192 * w v7 + 2 ^ 256 * w v8 + 2 ^ 64 * 2 ^ 256 * bit c8 =
      w a * wide y := by
    unfold wide
    linear_combination e1 + 2 ^ 64 * e2 + 2 ^ 64 * e3 + 2 ^ 128 * e4 + 2 ^ 128 * e5 + 2 ^ 192 * e6 +
      2 ^ 192 * e7 + 2 ^ 256 * e8
  have hl := row_lt a y
  have b1 := w_nonneg v1
  have b3 := w_nonneg v3
  have b5 := w_nonneg v5
  have b7 := w_nonneg v7
  have b8 := w_nonneg v8
  have hc : c8 = false := bit_eq_zero (by omega)
  rw [hc, bit_false] at h
  omega

theorem mul_add_1_spec (s0 : Cpu) (a : UInt64) (x y : U256) (r)
    (hr : mul_add_1_asm s0 x.l0 x.l1 x.l2 x.l3 a y.l0 y.l1 y.l2 y.l3 = r) :
    w r.1 + 2 ^ 64 * w r.2.1 + 2 ^ 128 * w r.2.2.1 + 2 ^ 192 * w r.2.2.2.1 + 2 ^ 256 * w r.2.2.2.2 =
      wide x + w a * wide y := by
  subst hr
  unfold mul_add_1_asm
  dsimp only
  refine Wp_sound mulAdd1Block (fun t => w t.r8 + 2 ^ 64 * w t.r9 + 2 ^ 128 * w t.r10 + 2 ^ 192 * w t.r11 +
    2 ^ 256 * w t.r12 = wide x + w a * wide y) _ ?_
  simp only [mulAdd1Block, Wp, wp, Cpu.set, Cpu.read, Cpu.get, Cpu.load, Cpu.load1, Cpu.fetch, store]
  simp only [Nat.reduceEqDiff, and_true, and_false, if_true, if_false, and_self, reduceIte, false_and, true_and,
    w_zero, OfNat.ofNat_ne_zero, OfNat.zero_ne_ofNat, zero_ne_one, one_ne_zero, OfNat.ofNat_ne_one, OfNat.one_ne_ofNat]
  intro v1 u1 e1 v2 c2 e2 v3 c3 e3 v4 u4 e4 v5 c5 e5 v6 c6 e6 v7 u7 e7 v8 c8 e8 v9 c9 e9 v10 u10 e10 v11 c11 e11 v12 c12 e12 v13 c13 e13
  rw [bit_false] at e2 e3
  have z : c12 = false := by
    refine bit_eq_zero ?_
    have := bit_le c11
    have := w_nonneg v12
    omega
  rw [z, bit_false] at e12
  have h : w v2 + 2 ^ 64 * w v5 + 2 ^ 128 * w v8 + 2 ^ 192 * w v11 + 2 ^ 256 * w v13 + 2 ^ 64 * 2 ^ 256 * bit c13 =
      wide x + w a * wide y := by
    unfold wide
    linear_combination e1 + e2 + 2 ^ 64 * e3 + 2 ^ 64 * e4 + 2 ^ 64 * e5 + 2 ^ 128 * e6 + 2 ^ 128 * e7 +
      2 ^ 128 * e8 + 2 ^ 192 * e9 + 2 ^ 192 * e10 + 2 ^ 192 * e11 + 2 ^ 256 * e12 + 2 ^ 256 * e13
  have hl := row_lt a y
  have hx := wide_lt x
  have b1 := w_nonneg v2
  have b3 := w_nonneg v5
  have b5 := w_nonneg v8
  have b7 := w_nonneg v11
  have b8 := w_nonneg v13
  have hc : c13 = false := bit_eq_zero (by omega)
  rw [hc, bit_false] at h
  omega

theorem full_mul_asm2_spec (s0 : Cpu) (x y : U256) :
    wide (full_mul_asm2 s0 x y).1 + 2 ^ 256 * wide (full_mul_asm2 s0 x y).2 = wide x * wide y := by
  unfold full_mul_asm2
  rcases h0 : mul_1_asm s0 x.l0 y.l0 y.l1 y.l2 y.l3 with ⟨r0, r1, r2, r3, r4⟩
  dsimp only
  rcases h1 : mul_add_1_asm s0 r1 r2 r3 r4 x.l1 y.l0 y.l1 y.l2 y.l3 with ⟨s1, s2, s3, s4, s5⟩
  dsimp only
  rcases h2 : mul_add_1_asm s0 s2 s3 s4 s5 x.l2 y.l0 y.l1 y.l2 y.l3 with ⟨t2, t3, t4, t5, t6⟩
  dsimp only
  rcases h3 : mul_add_1_asm s0 t3 t4 t5 t6 x.l3 y.l0 y.l1 y.l2 y.l3 with ⟨u3, u4, u5, u6, u7⟩
  dsimp only
  have g0 := mul_1_spec s0 _ y _ h0
  have g1 := mul_add_1_spec s0 _ ⟨r1, r2, r3, r4⟩ y _ h1
  have g2 := mul_add_1_spec s0 _ ⟨s2, s3, s4, s5⟩ y _ h2
  have g3 := mul_add_1_spec s0 _ ⟨t3, t4, t5, t6⟩ y _ h3
  simp only [wide] at *
  linear_combination g0 + 2 ^ 64 * g1 + 2 ^ 128 * g2 + 2 ^ 192 * g3

set_option maxRecDepth 4000 in
theorem full_mul_asm_spec (s0 : Cpu) (x y : U256) :
    wide (full_mul_asm s0 x y).1 + 2 ^ 256 * wide (full_mul_asm s0 x y).2 = wide x * wide y := by
  unfold full_mul_asm
  dsimp only
  refine Wp_sound fullMulBlock (fun t => wide (t.fetch 0) + 2 ^ 256 * wide (t.fetch 1) = wide x * wide y) _ ?_
  simp only [fullMulBlock, Wp, wp, Cpu.set, Cpu.read, Cpu.get, Cpu.load, Cpu.load1, Cpu.fetch, store]
  simp only [Nat.reduceEqDiff, and_true, and_false, if_true, if_false, and_self, reduceIte, false_and, true_and,
    w_zero, OfNat.ofNat_ne_zero, OfNat.zero_ne_ofNat, zero_ne_one, one_ne_zero, OfNat.ofNat_ne_one, OfNat.one_ne_ofNat]
  intro v1 u1 e1 v2 u2 e2 v3 c3 e3 v4 u4 e4 v5 c5 e5 v6 u6 e6 v7 c7 e7 v8 c8 e8 v9 u9 e9 v10 c10 e10 v11 c11 e11 v12 u12 e12 v13 c13 e13 v14 c14 e14 v15 u15 e15 v16 c16 e16 v17 c17 e17 v18 u18 e18 v19 c19 e19 v20 c20 e20 v21 c21 e21 v22 u22 e22 v23 c23 e23 v24 c24 e24 v25 u25 e25 v26 c26 e26 v27 c27 e27 v28 u28 e28 v29 c29 e29 v30 c30 e30 v31 u31 e31 v32 c32 e32 v33 c33 e33 v34 c34 e34 v35 u35 e35 v36 c36 e36 v37 c37 e37 v38 u38 e38 v39 c39 e39 v40 c40 e40 v41 u41 e41 v42 c42 e42 v43 c43 e43 v44 u44 e44 v45 c45 e45 v46 c46 e46 v47 c47 e47
  rw [bit_false] at e3 e11
  have bd (v : UInt64) := w_nonneg v
  have h0 : w v1 + 2 ^ 64 * w v3 + 2 ^ 128 * w v5 + 2 ^ 192 * w v7 + 2 ^ 256 * w v8 + 2 ^ 64 * 2 ^ 256 * bit c8 =
      w x.l0 * wide y := by
    unfold wide
    linear_combination e1 + 2 ^ 64 * e2 + 2 ^ 64 * e3 + 2 ^ 128 * e4 + 2 ^ 128 * e5 + 2 ^ 192 * e6 +
      2 ^ 192 * e7 + 2 ^ 256 * e8
  have hc8 : c8 = false := by
    refine bit_eq_zero ?_
    have := row_lt x.l0 y
    have := bd v1; have := bd v3; have := bd v5; have := bd v7; have := bd v8
    omega
  rw [hc8, bit_false] at h0 e10
  have h1 : w v10 + 2 ^ 64 * w v13 + 2 ^ 128 * w v16 + 2 ^ 192 * w v19 + 2 ^ 256 * w v21 +
      2 ^ 64 * 2 ^ 256 * (bit c20 + bit c21) = wide ⟨v3, v5, v7, v8⟩ + w x.l1 * wide y := by
    unfold wide
    linear_combination e9 + e10 + 2 ^ 64 * e11 + 2 ^ 64 * e12 + 2 ^ 64 * e13 + 2 ^ 128 * e14 + 2 ^ 128 * e15 +
      2 ^ 128 * e16 + 2 ^ 192 * e17 + 2 ^ 192 * e18 + 2 ^ 192 * e19 + 2 ^ 256 * e20 + 2 ^ 256 * e21
  have z1 : bit c20 + bit c21 < 1 := by
    have := row_lt x.l1 y
    have := wide_lt ⟨v3, v5, v7, v8⟩
    have := bd v10; have := bd v13; have := bd v16; have := bd v19; have := bd v21
    omega
  have hc20 : c20 = false := bit_eq_zero (by have := bit_nonneg c21; omega)
  have hc21 : c21 = false := bit_eq_zero (by have := bit_nonneg c20; omega)
  rw [hc20, hc21, bit_false] at h1
  rw [hc21, bit_false] at e23
  rw [hc20, bit_false] at e24
  have h2 : w v23 + 2 ^ 64 * w v26 + 2 ^ 128 * w v29 + 2 ^ 192 * w v32 + 2 ^ 256 * w v34 +
      2 ^ 64 * 2 ^ 256 * (bit c33 + bit c34) = wide ⟨v13, v16, v19, v21⟩ + w x.l2 * wide y := by
    unfold wide
    linear_combination e22 + e23 + 2 ^ 64 * e24 + 2 ^ 64 * e25 + 2 ^ 64 * e26 + 2 ^ 128 * e27 + 2 ^ 128 * e28 +
      2 ^ 128 * e29 + 2 ^ 192 * e30 + 2 ^ 192 * e31 + 2 ^ 192 * e32 + 2 ^ 256 * e33 + 2 ^ 256 * e34
  have z2 : bit c33 + bit c34 < 1 := by
    have := row_lt x.l2 y
    have := wide_lt ⟨v13, v16, v19, v21⟩
    have := bd v23; have := bd v26; have := bd v29; have := bd v32; have := bd v34
    omega
  have hc33 : c33 = false := bit_eq_zero (by have := bit_nonneg c34; omega)
  have hc34 : c34 = false := bit_eq_zero (by have := bit_nonneg c33; omega)
  rw [hc33, hc34, bit_false] at h2
  rw [hc34, bit_false] at e36
  rw [hc33, bit_false] at e37
  have h3 : w v36 + 2 ^ 64 * w v39 + 2 ^ 128 * w v42 + 2 ^ 192 * w v45 + 2 ^ 256 * w v47 +
      2 ^ 64 * 2 ^ 256 * (bit c46 + bit c47) = wide ⟨v26, v29, v32, v34⟩ + w x.l3 * wide y := by
    unfold wide
    linear_combination e35 + e36 + 2 ^ 64 * e37 + 2 ^ 64 * e38 + 2 ^ 64 * e39 + 2 ^ 128 * e40 + 2 ^ 128 * e41 +
      2 ^ 128 * e42 + 2 ^ 192 * e43 + 2 ^ 192 * e44 + 2 ^ 192 * e45 + 2 ^ 256 * e46 + 2 ^ 256 * e47
  have z3 : bit c46 + bit c47 = 0 := by
    have := row_lt x.l3 y
    have := wide_lt ⟨v26, v29, v32, v34⟩
    have := bd v36; have := bd v39; have := bd v42; have := bd v45; have := bd v47
    have := bit_nonneg c46; have := bit_nonneg c47
    omega
  rw [z3] at h3
  simp only [wide] at *
  linear_combination h0 + 2 ^ 64 * h1 + 2 ^ 128 * h2 + 2 ^ 192 * h3

set_option maxRecDepth 4000 in
theorem mul_asm_spec (s0 : Cpu) (x y : U256) :
    ∃ k : ℤ, wide (mul_asm s0 x y) + 2 ^ 256 * k = wide x * wide y := by
  unfold mul_asm
  refine Wp_sound mulBlock (fun t => ∃ k : ℤ, wide (t.fetch 0) + 2 ^ 256 * k = wide x * wide y) _ ?_
  simp only [mulBlock, Wp, wp, Cpu.set, Cpu.read, Cpu.get, Cpu.load, Cpu.load1, Cpu.fetch, store]
  simp only [Nat.reduceEqDiff, and_true, and_false, if_true, if_false, and_self, reduceIte, false_and, true_and,
    w_zero, OfNat.ofNat_ne_zero, OfNat.zero_ne_ofNat, zero_ne_one, one_ne_zero, OfNat.ofNat_ne_one, OfNat.one_ne_ofNat]
  intro v1 u1 e1 v2 u2 e2 v3 c3 e3 v4 u4 e4 v5 c5 e5 v6 u6 e6 v7 c7 e7 v8 u8 e8 v9 c9 e9 v10 c10 e10 v11 u11 e11 v12 c12 e12 v13 c13 e13 v14 u14 e14 v15 c15 e15 v16 u16 e16 v17 c17 e17 v18 c18 e18 v19 u19 e19 v20 c20 e20 v21 u21 e21 v22 c22 e22
  rw [bit_false] at e3 e9 e10 e17 e18 e22
  refine ⟨w x.l1 * w y.l3 + w x.l2 * w y.l2 + w x.l3 * w y.l1 + 2 ^ 64 * (w x.l2 * w y.l3 + w x.l3 * w y.l2) +
    2 ^ 128 * (w x.l3 * w y.l3) + w u6 + bit c7 + w u14 + bit c13 + bit c15 + w u19 + bit c18 + bit c20 + w u21 +
    bit c22, ?_⟩
  unfold wide
  linear_combination e1 + 2 ^ 64 * e2 + 2 ^ 64 * e3 + 2 ^ 128 * e4 + 2 ^ 128 * e5 + 2 ^ 192 * e6 + 2 ^ 192 * e7 +
    2 ^ 64 * e8 + 2 ^ 64 * e9 + 2 ^ 128 * e10 + 2 ^ 128 * e11 + 2 ^ 128 * e12 + 2 ^ 192 * e13 + 2 ^ 192 * e14 +
    2 ^ 192 * e15 + 2 ^ 128 * e16 + 2 ^ 128 * e17 + 2 ^ 192 * e18 + 2 ^ 192 * e19 + 2 ^ 192 * e20 +
    2 ^ 192 * e21 + 2 ^ 192 * e22

theorem reduce_1_spec (s0 : Cpu) (s m : U256) :
    wide (reduce_1 s0 s m) = if wide m ≤ wide s then wide s - wide m else wide s := by
  unfold reduce_1
  dsimp only
  refine Wp_sound reduceBlock (fun t => wide ⟨t.r12, t.r13, t.r14, t.r15⟩ =
    if wide m ≤ wide s then wide s - wide m else wide s) _ ?_
  simp only [reduceBlock, Wp, wp, Cpu.set, Cpu.read, Cpu.get, Cpu.load, Cpu.load1, Cpu.fetch, store]
  simp only [Nat.reduceEqDiff, and_true, and_false, if_true, if_false, and_self, reduceIte, false_and, true_and,
    w_zero, OfNat.ofNat_ne_zero, OfNat.zero_ne_ofNat, zero_ne_one, one_ne_zero, OfNat.ofNat_ne_one, OfNat.one_ne_ofNat]
  intro v1 c1 _ e1 v2 c2 _ e2 v3 c3 _ e3 v4 c4 _ e4
  have h : wide ⟨v1, v2, v3, v4⟩ + wide m = wide s + 2 ^ 256 * bit c4 := by
    unfold wide
    linear_combination e1 + 2 ^ 64 * e2 + 2 ^ 128 * e3 + 2 ^ 192 * e4
  have l1 := wide_lt ⟨v1, v2, v3, v4⟩
  have l2 := wide_nonneg ⟨v1, v2, v3, v4⟩
  have l3 := wide_lt m
  have l4 := wide_lt s
  have l5 := wide_nonneg s
  have l6 := wide_nonneg m
  cases c4
  · rw [bit_false] at h
    simp only [cond_false]
    rw [if_pos (by omega)]
    omega
  · rw [bit_true] at h
    simp only [cond_true]
    rw [if_neg (by omega)]

end OpenZKP.Asm
