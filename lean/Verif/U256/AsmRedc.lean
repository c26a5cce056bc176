import Verif.U256.AsmMul
import Verif.U256.MontgomeryLemmas

/-!
# The assembly routines: Montgomery reduction
-/

namespace OpenZKP.Asm
open OpenZKP U256

/-- The memory operands of `mul_redc`. -/
def Inputs (s : Cpu) (a b m : U256) (m64 : UInt64) : Prop :=
  (s.mem 1 0 = a.l0 ∧ s.mem 1 1 = a.l1 ∧ s.mem 1 2 = a.l2 ∧ s.mem 1 3 = a.l3) ∧
  (s.mem 2 0 = b.l0 ∧ s.mem 2 1 = b.l1 ∧ s.mem 2 2 = b.l2 ∧ s.mem 2 3 = b.l3) ∧
  s.mem 3 0 = 0 ∧
  (s.mem 4 0 = m.l0 ∧ s.mem 5 0 = m.l1 ∧ s.mem 6 0 = m.l2 ∧ s.mem 7 0 = m.l3) ∧
  s.mem 8 0 = m64

/-- What a round leaves behind: the four limbs of `t`, clear flags, the same memory. -/
def Rounded (s t : Cpu) (l : U256) (T : ℤ) (ai : UInt64) (b m : U256) : Prop :=
  (∃ k : UInt64, 2 ^ 64 * wide l = T + w ai * wide b + w k * wide m) ∧
  t.cf = false ∧ t.of = false ∧ t.mem = s.mem

theorem low_zero {t0 m64 p q m0 lo hi v : UInt64} {o : Bool} (hm : (m64.toNat * m0.toNat + 1) % 2 ^ 64 = 0)
    (e1 : w p + 2 ^ 64 * w q = w t0 * w m64) (e2 : w lo + 2 ^ 64 * w hi = w p * w m0)
    (e3 : w v + 2 ^ 64 * bit o = w t0 + w lo) : w v = 0 := by
  obtain ⟨k, hk⟩ : ∃ k : ℤ, w m64 * w m0 + 1 = 2 ^ 64 * k := by
    refine ⟨((m64.toNat * m0.toNat + 1) / 2 ^ 64 : ℕ), ?_⟩
    unfold w
    rw [← Nat.cast_mul]
    omega
  have h : w v = 2 ^ 64 * (w t0 * k - w q * w m0 - w hi - bit o) := by
    linear_combination e3 + e2 + w m0 * e1 + w t0 * hk
  have h1 := w_nonneg v
  have h2 := w_lt v
  generalize w t0 * k - w q * w m0 - w hi - bit o = j at h
  omega

theorem bits_zero {c d : Bool} (h : bit c + bit d < 1) : c = false ∧ d = false :=
  ⟨bit_eq_zero (by have := bit_nonneg d; omega), bit_eq_zero (by have := bit_nonneg c; omega)⟩

theorem word_mul_le (k : UInt64) (m : U256) : w k * wide m ≤ (2 ^ 64 - 1) * wide m :=
  mul_le_mul_of_nonneg_right (by have := w_lt k; omega) (wide_nonneg m)

set_option maxRecDepth 4000 in
theorem round0 {s : Cpu} {a b m : U256} {m64 : UInt64} (h : Inputs s a b m m64)
    (hm : (m64.toNat * m.l0.toNat + 1) % 2 ^ 64 = 0) (hs : wide b + wide m < 2 ^ 256)
    (hne : (a.l0.toNat * b.l2.toNat / 2 ^ 64 + a.l0.toNat * b.l3.toNat % 2 ^ 64) % 2 ^ 64 ≠ 2 ^ 64 - 1) :
    Rounded s (run s redcRound0) ⟨(run s redcRound0).r14, (run s redcRound0).r15, (run s redcRound0).r10,
      (run s redcRound0).r12⟩ 0 a.l0 b m := by
  obtain ⟨⟨a0, a1, a2, a3⟩, ⟨b0, b1, b2, b3⟩, z, ⟨m0, m1, m2, m3⟩, n⟩ := h
  refine Wp_sound redcRound0 (fun t => Rounded s t ⟨t.r14, t.r15, t.r10, t.r12⟩ 0 a.l0 b m) _ ?_
  simp only [redcRound0, Wp, wp, Cpu.set, Cpu.read, Cpu.get, a0, a1, a2, a3, b0, b1, b2, b3, z, m0, m1, m2, m3, n]
  simp only [w_zero, bit_false]
  intro v1 u1 e1 v2 u2 e2 v3 u3 e3 v4 u4 e4 v5 u5 e5 v6 c6 e6 v7 c7 e7 v8 c8 e8 v9 c9 e9 v10 c10 e10 v11 u11 e11 v12 u12 e12 v13 c13 e13 v14 c14 e14 v15 c15 e15 v16 c16 e16 v17 u17 e17 v18 u18 e18 v19 c19 e19 v20 c20 e20 v21 c21 e21 v22 c22 e22 v23 c23 e23
  have bd (v : UInt64) := w_nonneg v
  have bl (v : UInt64) := w_lt v
  have z9 : c9 = false := by
    refine bit_eq_zero ?_
    have hp : w a.l0 * w b.l3 ≤ (2 ^ 64 - 1) * (2 ^ 64 - 1) :=
      mul_le_mul (by have := bl a.l0; omega) (by have := bl b.l3; omega) (bd _) (by norm_num)
    have := bd v2; have := bd v9; have := bit_le c7
    generalize w a.l0 * w b.l3 = g at *
    omega
  have z10 : c10 = false := by
    refine bit_eq_zero ?_
    by_contra hc
    have hb := bit_le c10
    have h1 : bit c10 = 1 := by omega
    rw [h1] at e10
    have hb8 := bit_le c8
    have h7 : w v7 = 2 ^ 64 - 1 := by have := bl v7; have := bd v10; omega
    refine hne ?_
    have f2 : a.l0.toNat * b.l3.toNat = v2.toNat + 2 ^ 64 * u2.toNat := by
      unfold w at e2; rw [← Nat.cast_mul] at e2; omega
    have f4 : a.l0.toNat * b.l2.toNat = v4.toNat + 2 ^ 64 * u4.toNat := by
      unfold w at e4; rw [← Nat.cast_mul] at e4; omega
    have g2 := v2.toNat_lt
    have g4 := v4.toNat_lt
    rw [f2, f4]
    unfold w at h7 e7
    have hb7 := bit_le c7
    have hb7' := bit_nonneg c7
    omega
  rw [z9, bit_false, add_zero] at e13
  rw [z10, bit_false] at e14
  have hv : w v13 = 0 := low_zero hm e5 e11 e13
  have hT : w v13 + 2 ^ 64 * wide ⟨v15, v19, v21, v23⟩ + 2 ^ 64 * 2 ^ 256 * (bit c22 + bit c23) =
      w a.l0 * wide b + w v5 * wide m := by
    rw [z9, bit_false] at e9
    rw [z10, bit_false] at e10
    unfold wide
    linear_combination 2 ^ 64 * e1 + 2 ^ 192 * e2 + e3 + 2 ^ 128 * e4 + 2 ^ 64 * e6 + 2 ^ 192 * e7 + 2 ^ 128 * e8 + 2 ^ 256 * e9 +
      2 ^ 192 * e10 + e11 + 2 ^ 64 * e12 + e13 + 2 ^ 64 * e14 + 2 ^ 64 * e15 + 2 ^ 128 * e16 + 2 ^ 128 * e17 +
      2 ^ 192 * e18 + 2 ^ 128 * e19 + 2 ^ 192 * e20 + 2 ^ 192 * e21 + 2 ^ 256 * e22 + 2 ^ 256 * e23
  have k1 := word_mul_le a.l0 b
  have k2 := word_mul_le v5 m
  have hz : bit c22 + bit c23 < 1 := by
    have := wide_nonneg ⟨v15, v19, v21, v23⟩
    omega
  obtain ⟨z22, z23⟩ := bits_zero hz
  refine ⟨⟨v5, ?_⟩, z22, z23, rfl⟩
  rw [hv, z22, z23, bit_false] at hT
  linear_combination hT

set_option maxRecDepth 4000 in
theorem round1 {s : Cpu} {a b m : U256} {m64 : UInt64} (h : Inputs s a b m m64)
    (hm : (m64.toNat * m.l0.toNat + 1) % 2 ^ 64 = 0) (hs : wide b + wide m < 2 ^ 256)
    (hcf : s.cf = false) (hof : s.of = false)
    (hl : wide ⟨s.r14, s.r15, s.r10, s.r12⟩ < wide b + wide m) :
    Rounded s (run s redcRound1) ⟨(run s redcRound1).r15, (run s redcRound1).r10, (run s redcRound1).r12,
      (run s redcRound1).r13⟩ (wide ⟨s.r14, s.r15, s.r10, s.r12⟩) a.l1 b m := by
  obtain ⟨⟨a0, a1, a2, a3⟩, ⟨b0, b1, b2, b3⟩, z, ⟨m0, m1, m2, m3⟩, n⟩ := h
  refine Wp_sound redcRound1 (fun t => Rounded s t ⟨t.r15, t.r10, t.r12, t.r13⟩
    (wide ⟨s.r14, s.r15, s.r10, s.r12⟩) a.l1 b m) _ ?_
  simp only [redcRound1, Wp, wp, Cpu.set, Cpu.read, Cpu.get, a0, a1, a2, a3, b0, b1, b2, b3, z, m0, m1, m2, m3, n]
  simp only [hcf, hof, w_zero, bit_false]
  intro v1 u1 e1 v2 u2 e2 v3 c3 e3 v4 c4 e4 v5 c5 e5 v6 c6 e6 v7 u7 e7 v8 u8 e8 v9 c9 e9 v10 c10 e10 v11 c11 e11 v12 c12 e12 v13 c13 e13 v14 u14 e14 v15 u15 e15 v16 u16 e16 v17 c17 e17 v18 c18 e18 v19 c19 e19 v20 c20 e20 v21 u21 e21 v22 u22 e22 v23 c23 e23 v24 c24 e24 v25 c25 e25 v26 c26 e26 v27 c27 e27
  have hM : wide ⟨v3, v5, v9, v11⟩ + 2 ^ 256 * w v13 + 2 ^ 64 * 2 ^ 256 * (bit c12 + bit c13) =
      wide ⟨s.r14, s.r15, s.r10, s.r12⟩ + w a.l1 * wide b := by
    unfold wide
    linear_combination e1 + 2 ^ 64 * e2 + e3 + 2 ^ 64 * e4 + 2 ^ 64 * e5 + 2 ^ 128 * e6 + 2 ^ 128 * e7 + 2 ^ 192 * e8 +
      2 ^ 128 * e9 + 2 ^ 192 * e10 + 2 ^ 192 * e11 + 2 ^ 256 * e12 + 2 ^ 256 * e13
  have k1 := word_mul_le a.l1 b
  have hz : bit c12 + bit c13 < 1 := by
    have := wide_nonneg ⟨v3, v5, v9, v11⟩
    have := w_nonneg v13
    have := wide_lt b
    omega
  obtain ⟨z12, z13⟩ := bits_zero hz
  rw [z12, z13, bit_false] at hM
  rw [z12, bit_false, add_zero] at e17
  rw [z13, bit_false] at e18
  have hv : w v17 = 0 := low_zero hm e14 e15 e17
  have hT : w v17 + 2 ^ 64 * wide ⟨v19, v23, v25, v27⟩ + 2 ^ 64 * 2 ^ 256 * (bit c26 + bit c27) =
      wide ⟨s.r14, s.r15, s.r10, s.r12⟩ + w a.l1 * wide b + w v14 * wide m := by
    rw [z12, bit_false] at e12
    rw [z13, bit_false] at e13
    unfold wide
    linear_combination e1 + 2 ^ 64 * e2 + e3 + 2 ^ 64 * e4 + 2 ^ 64 * e5 + 2 ^ 128 * e6 + 2 ^ 128 * e7 + 2 ^ 192 * e8 +
      2 ^ 128 * e9 + 2 ^ 192 * e10 + 2 ^ 192 * e11 + 2 ^ 256 * e12 + 2 ^ 256 * e13 + e15 + 2 ^ 64 * e16 + e17 +
      2 ^ 64 * e18 + 2 ^ 64 * e19 + 2 ^ 128 * e20 + 2 ^ 128 * e21 + 2 ^ 192 * e22 + 2 ^ 128 * e23 +
      2 ^ 192 * e24 + 2 ^ 192 * e25 + 2 ^ 256 * e26 + 2 ^ 256 * e27
  have k2 := word_mul_le v14 m
  have hz' : bit c26 + bit c27 < 1 := by
    have := wide_nonneg ⟨v19, v23, v25, v27⟩
    omega
  obtain ⟨z26, z27⟩ := bits_zero hz'
  refine ⟨⟨v14, ?_⟩, z26, z27, rfl⟩
  rw [hv, z26, z27, bit_false] at hT
  linear_combination hT

set_option maxRecDepth 4000 in
theorem round2 {s : Cpu} {a b m : U256} {m64 : UInt64} (h : Inputs s a b m m64)
    (hm : (m64.toNat * m.l0.toNat + 1) % 2 ^ 64 = 0) (hs : wide b + wide m < 2 ^ 256)
    (hcf : s.cf = false) (hof : s.of = false)
    (hl : wide ⟨s.r15, s.r10, s.r12, s.r13⟩ < wide b + wide m) :
    Rounded s (run s redcRound2) ⟨(run s redcRound2).r10, (run s redcRound2).r12, (run s redcRound2).r13,
      (run s redcRound2).r14⟩ (wide ⟨s.r15, s.r10, s.r12, s.r13⟩) a.l2 b m := by
  obtain ⟨⟨a0, a1, a2, a3⟩, ⟨b0, b1, b2, b3⟩, z, ⟨m0, m1, m2, m3⟩, n⟩ := h
  refine Wp_sound redcRound2 (fun t => Rounded s t ⟨t.r10, t.r12, t.r13, t.r14⟩
    (wide ⟨s.r15, s.r10, s.r12, s.r13⟩) a.l2 b m) _ ?_
  simp only [redcRound2, Wp, wp, Cpu.set, Cpu.read, Cpu.get, a0, a1, a2, a3, b0, b1, b2, b3, z, m0, m1, m2, m3, n]
  simp only [hcf, hof, w_zero, bit_false]
  intro v1 u1 e1 v2 u2 e2 v3 c3 e3 v4 c4 e4 v5 c5 e5 v6 c6 e6 v7 u7 e7 v8 u8 e8 v9 c9 e9 v10 c10 e10 v11 c11 e11 v12 c12 e12 v13 c13 e13 v14 u14 e14 v15 u15 e15 v16 u16 e16 v17 c17 e17 v18 c18 e18 v19 c19 e19 v20 c20 e20 v21 u21 e21 v22 u22 e22 v23 c23 e23 v24 c24 e24 v25 c25 e25 v26 c26 e26 v27 c27 e27
  have hM : wide ⟨v3, v5, v9, v11⟩ + 2 ^ 256 * w v13 + 2 ^ 64 * 2 ^ 256 * (bit c12 + bit c13) =
      wide ⟨s.r15, s.r10, s.r12, s.r13⟩ + w a.l2 * wide b := by
    unfold wide
    linear_combination e1 + 2 ^ 64 * e2 + e3 + 2 ^ 64 * e4 + 2 ^ 64 * e5 + 2 ^ 128 * e6 + 2 ^ 128 * e7 + 2 ^ 192 * e8 +
      2 ^ 128 * e9 + 2 ^ 192 * e10 + 2 ^ 192 * e11 + 2 ^ 256 * e12 + 2 ^ 256 * e13
  have k1 := word_mul_le a.l2 b
  have hz : bit c12 + bit c13 < 1 := by
    have := wide_nonneg ⟨v3, v5, v9, v11⟩
    have := w_nonneg v13
    have := wide_lt b
    omega
  obtain ⟨z12, z13⟩ := bits_zero hz
  rw [z12, z13, bit_false] at hM
  rw [z12, bit_false, add_zero] at e17
  rw [z13, bit_false] at e18
  have hv : w v17 = 0 := low_zero hm e14 e15 e17
  have hT : w v17 + 2 ^ 64 * wide ⟨v19, v23, v25, v27⟩ + 2 ^ 64 * 2 ^ 256 * (bit c26 + bit c27) =
      wide ⟨s.r15, s.r10, s.r12, s.r13⟩ + w a.l2 * wide b + w v14 * wide m := by
    rw [z12, bit_false] at e12
    rw [z13, bit_false] at e13
    unfold wide
    linear_combination e1 + 2 ^ 64 * e2 + e3 + 2 ^ 64 * e4 + 2 ^ 64 * e5 + 2 ^ 128 * e6 + 2 ^ 128 * e7 + 2 ^ 192 * e8 +
      2 ^ 128 * e9 + 2 ^ 192 * e10 + 2 ^ 192 * e11 + 2 ^ 256 * e12 + 2 ^ 256 * e13 + e15 + 2 ^ 64 * e16 + e17 +
      2 ^ 64 * e18 + 2 ^ 64 * e19 + 2 ^ 128 * e20 + 2 ^ 128 * e21 + 2 ^ 192 * e22 + 2 ^ 128 * e23 +
      2 ^ 192 * e24 + 2 ^ 192 * e25 + 2 ^ 256 * e26 + 2 ^ 256 * e27
  have k2 := word_mul_le v14 m
  have hz' : bit c26 + bit c27 < 1 := by
    have := wide_nonneg ⟨v19, v23, v25, v27⟩
    omega
  obtain ⟨z26, z27⟩ := bits_zero hz'
  refine ⟨⟨v14, ?_⟩, z26, z27, rfl⟩
  rw [hv, z26, z27, bit_false] at hT
  linear_combination hT

set_option maxRecDepth 4000 in
theorem round3 {s : Cpu} {a b m : U256} {m64 : UInt64} (h : Inputs s a b m m64)
    (hm : (m64.toNat * m.l0.toNat + 1) % 2 ^ 64 = 0) (hs : wide b + wide m < 2 ^ 256)
    (hcf : s.cf = false) (hof : s.of = false)
    (hl : wide ⟨s.r10, s.r12, s.r13, s.r14⟩ < wide b + wide m) :
    Rounded s (run s redcRound3) ⟨(run s redcRound3).r12, (run s redcRound3).r13, (run s redcRound3).r14,
      (run s redcRound3).r15⟩ (wide ⟨s.r10, s.r12, s.r13, s.r14⟩) a.l3 b m := by
  obtain ⟨⟨a0, a1, a2, a3⟩, ⟨b0, b1, b2, b3⟩, z, ⟨m0, m1, m2, m3⟩, n⟩ := h
  refine Wp_sound redcRound3 (fun t => Rounded s t ⟨t.r12, t.r13, t.r14, t.r15⟩
    (wide ⟨s.r10, s.r12, s.r13, s.r14⟩) a.l3 b m) _ ?_
  simp only [redcRound3, Wp, wp, Cpu.set, Cpu.read, Cpu.get, a0, a1, a2, a3, b0, b1, b2, b3, z, m0, m1, m2, m3, n]
  simp only [hcf, hof, w_zero, bit_false]
  intro v1 u1 e1 v2 u2 e2 v3 c3 e3 v4 c4 e4 v5 c5 e5 v6 c6 e6 v7 u7 e7 v8 u8 e8 v9 c9 e9 v10 c10 e10 v11 c11 e11 v12 c12 e12 v13 c13 e13 v14 u14 e14 v15 u15 e15 v16 u16 e16 v17 c17 e17 v18 c18 e18 v19 c19 e19 v20 c20 e20 v21 u21 e21 v22 u22 e22 v23 c23 e23 v24 c24 e24 v25 c25 e25 v26 c26 e26 v27 c27 e27
  have hM : wide ⟨v3, v5, v9, v11⟩ + 2 ^ 256 * w v13 + 2 ^ 64 * 2 ^ 256 * (bit c12 + bit c13) =
      wide ⟨s.r10, s.r12, s.r13, s.r14⟩ + w a.l3 * wide b := by
    unfold wide
    linear_combination e1 + 2 ^ 64 * e2 + e3 + 2 ^ 64 * e4 + 2 ^ 64 * e5 + 2 ^ 128 * e6 + 2 ^ 128 * e7 + 2 ^ 192 * e8 +
      2 ^ 128 * e9 + 2 ^ 192 * e10 + 2 ^ 192 * e11 + 2 ^ 256 * e12 + 2 ^ 256 * e13
  have k1 := word_mul_le a.l3 b
  have hz : bit c12 + bit c13 < 1 := by
    have := wide_nonneg ⟨v3, v5, v9, v11⟩
    have := w_nonneg v13
    have := wide_lt b
    omega
  obtain ⟨z12, z13⟩ := bits_zero hz
  rw [z12, z13, bit_false] at hM
  rw [z12, bit_false, add_zero] at e17
  rw [z13, bit_false] at e18
  have hv : w v17 = 0 := low_zero hm e14 e15 e17
  have hT : w v17 + 2 ^ 64 * wide ⟨v19, v23, v25, v27⟩ + 2 ^ 64 * 2 ^ 256 * (bit c26 + bit c27) =
      wide ⟨s.r10, s.r12, s.r13, s.r14⟩ + w a.l3 * wide b + w v14 * wide m := by
    rw [z12, bit_false] at e12
    rw [z13, bit_false] at e13
    unfold wide
    linear_combination e1 + 2 ^ 64 * e2 + e3 + 2 ^ 64 * e4 + 2 ^ 64 * e5 + 2 ^ 128 * e6 + 2 ^ 128 * e7 + 2 ^ 192 * e8 +
      2 ^ 128 * e9 + 2 ^ 192 * e10 + 2 ^ 192 * e11 + 2 ^ 256 * e12 + 2 ^ 256 * e13 + e15 + 2 ^ 64 * e16 + e17 +
      2 ^ 64 * e18 + 2 ^ 64 * e19 + 2 ^ 128 * e20 + 2 ^ 128 * e21 + 2 ^ 192 * e22 + 2 ^ 128 * e23 +
      2 ^ 192 * e24 + 2 ^ 192 * e25 + 2 ^ 256 * e26 + 2 ^ 256 * e27
  have k2 := word_mul_le v14 m
  have hz' : bit c26 + bit c27 < 1 := by
    have := wide_nonneg ⟨v19, v23, v25, v27⟩
    omega
  obtain ⟨z26, z27⟩ := bits_zero hz'
  refine ⟨⟨v14, ?_⟩, z26, z27, rfl⟩
  rw [hv, z26, z27, bit_false] at hT
  linear_combination hT

theorem Rounded.lt {s t : Cpu} {l : U256} {T : ℤ} {ai : UInt64} {b m : U256} (h : Rounded s t l T ai b m)
    (hT : T < wide b + wide m) : wide l < wide b + wide m := by
  obtain ⟨⟨k, e⟩, -⟩ := h
  have k1 := word_mul_le ai b
  have k2 := word_mul_le k m
  omega

theorem Inputs.of_mem {s t : Cpu} {a b m : U256} {m64 : UInt64} (h : Inputs s a b m m64) (hm : t.mem = s.mem) :
    Inputs t a b m m64 := by
  unfold Inputs
  rw [hm]
  exact h

/-- The block of `mul_redc` when no carry is lost in the first round. -/
theorem redcBlock_spec {s : Cpu} {a b m : U256} {m64 : UInt64} (h : Inputs s a b m m64)
    (hm : (m64.toNat * m.l0.toNat + 1) % 2 ^ 64 = 0) (hs : wide b + wide m < 2 ^ 256) (hpos : 0 < wide m)
    (hne : (a.l0.toNat * b.l2.toNat / 2 ^ 64 + a.l0.toNat * b.l3.toNat % 2 ^ 64) % 2 ^ 64 ≠ 2 ^ 64 - 1) :
    wide ((run s redcBlock).fetch 0) < wide b + wide m ∧
    ∃ K : ℤ, 0 ≤ K ∧ 2 ^ 256 * wide ((run s redcBlock).fetch 0) = wide a * wide b + K * wide m := by
  have z0 : (0 : ℤ) < wide b + wide m := by have := wide_nonneg b; omega
  unfold redcBlock
  rw [run_append, run_append, run_append, run_append]
  have r0 := round0 h hm hs hne
  have l0 := r0.lt z0
  obtain ⟨⟨k0, e0⟩, c0, o0, g0⟩ := r0
  have h1 := h.of_mem g0
  generalize run s redcRound0 = s1 at *
  have r1 := round1 h1 hm hs c0 o0 l0
  have l1 := r1.lt l0
  obtain ⟨⟨k1, e1⟩, c1, o1, g1⟩ := r1
  have h2 := h1.of_mem g1
  generalize run s1 redcRound1 = s2 at *
  have r2 := round2 h2 hm hs c1 o1 l1
  have l2 := r2.lt l1
  obtain ⟨⟨k2, e2⟩, c2, o2, g2⟩ := r2
  have h3 := h2.of_mem g2
  generalize run s2 redcRound2 = s3 at *
  have r3 := round3 h3 hm hs c2 o2 l2
  have l3 := r3.lt l2
  obtain ⟨⟨k3, e3⟩, -⟩ := r3
  generalize run s3 redcRound3 = s4 at *
  have hf : (run s4 redcStore).fetch 0 = ⟨s4.r12, s4.r13, s4.r14, s4.r15⟩ := by
    simp [redcStore, run, exec, Cpu.fetch, store, Cpu.get]
  rw [hf]
  refine ⟨l3, w k0 + 2 ^ 64 * w k1 + 2 ^ 128 * w k2 + 2 ^ 192 * w k3, ?_, ?_⟩
  · have := w_nonneg k0; have := w_nonneg k1; have := w_nonneg k2; have := w_nonneg k3
    omega
  · rw [show wide a = w a.l0 + 2 ^ 64 * w a.l1 + 2 ^ 128 * w a.l2 + 2 ^ 192 * w a.l3 from rfl]
    generalize wide b = B at *
    generalize wide m = N at *
    generalize wide _ = L0 at *
    generalize wide _ = L1 at *
    generalize wide _ = L2 at *
    generalize wide _ = L3 at *
    linear_combination e0 + 2 ^ 64 * e1 + 2 ^ 128 * e2 + 2 ^ 192 * e3

/-- `proth_redc_asm`. -/
theorem proth_redc_spec (s0 : Cpu) (m3 : UInt64) (lo hi : U256)
    (hb : w m3 < 2 ^ 63) (hT : wide lo + 2 ^ 256 * wide hi < (1 + 2 ^ 192 * w m3) * 2 ^ 256) :
    wide (proth_redc_asm s0 m3 lo hi) < 1 + 2 ^ 192 * w m3 ∧
    ∃ (S K : ℤ), 0 ≤ S ∧ 0 ≤ K ∧ (wide (proth_redc_asm s0 m3 lo hi) = S ∨
        wide (proth_redc_asm s0 m3 lo hi) + (1 + 2 ^ 192 * w m3) = S) ∧
      2 ^ 256 * S = (wide lo + 2 ^ 256 * wide hi) + K * (1 + 2 ^ 192 * w m3) := by
  unfold proth_redc_asm
  refine Wp_sound prothBlock (fun t => wide (t.fetch 0) < 1 + 2 ^ 192 * w m3 ∧
    ∃ (S K : ℤ), 0 ≤ S ∧ 0 ≤ K ∧ (wide (t.fetch 0) = S ∨ wide (t.fetch 0) + (1 + 2 ^ 192 * w m3) = S) ∧
      2 ^ 256 * S = (wide lo + 2 ^ 256 * wide hi) + K * (1 + 2 ^ 192 * w m3)) _ ?_
  simp only [prothBlock, Wp, wp, Cpu.set, Cpu.read, Cpu.get, Cpu.load, Cpu.load1, Cpu.fetch, store]
  simp only [Nat.reduceEqDiff, and_true, and_false, if_true, if_false, and_self, reduceIte, false_and, true_and,
    w_zero, OfNat.ofNat_ne_zero, OfNat.zero_ne_ofNat, zero_ne_one, one_ne_zero, OfNat.ofNat_ne_one, OfNat.one_ne_ofNat]
  simp only [w_one]
  intro v1 c1 o1 e1 v2 c2 _ e2 v3 c3 o3 e3 v4 c4 e4 v5 u5 e5 v6 c6 e6 v7 c7 e7 v8 u8 e8 v9 c9 e9 v10 c10 e10 v11 u11 e11 v12 c12 e12 v13 c13 e13 v14 c14 e14 v15 c15 e15 v16 c16 e16 v17 c17 _ e17 v18 c18 e18 v19 c19 e19 v20 u20 e20 v21 c21 e21 v22 c22 e22 v23 c23 _ e23 v24 c24 _ e24 v25 c25 _ e25 v26 c26 _ e26
  have bd (v : UInt64) := w_nonneg v
  have bl (v : UInt64) := w_lt v
  have z4 : c4 = false := by
    refine bit_eq_zero ?_
    have := bit_le o3; have := bd v4
    omega
  rw [z4, bit_false] at e7
  obtain ⟨K3, hK3⟩ : ∃ K3, K3 = w v1 + 2 ^ 64 * w v2 + 2 ^ 128 * w v3 := ⟨_, rfl⟩
  have h1 : 2 ^ 192 * (w v6 + 2 ^ 64 * wide ⟨v9, v12, v14, v16⟩) + 2 ^ 256 * 2 ^ 256 * (bit c15 + bit c16) =
      (wide lo + 2 ^ 256 * wide hi) + K3 * (1 + 2 ^ 192 * w m3) := by
    rw [hK3]
    unfold wide
    linear_combination -e1 - 2 ^ 64 * e2 - 2 ^ 128 * e3 + 2 ^ 192 * e5 + 2 ^ 192 * e6 + 2 ^ 256 * e7 +
      2 ^ 256 * e8 + 2 ^ 256 * e9 + 2 ^ 64 * 2 ^ 256 * e10 + 2 ^ 64 * 2 ^ 256 * e11 + 2 ^ 64 * 2 ^ 256 * e12 +
      2 ^ 128 * 2 ^ 256 * e13 + 2 ^ 128 * 2 ^ 256 * e14 + 2 ^ 192 * 2 ^ 256 * e15 + 2 ^ 192 * 2 ^ 256 * e16
  have b3 : 0 ≤ K3 ∧ K3 < 2 ^ 192 := by
    have := bd v1; have := bd v2; have := bd v3; have := bl v1; have := bl v2; have := bl v3
    omega
  have bm := bd m3
  obtain ⟨N, hN⟩ : ∃ N, N = 1 + 2 ^ 192 * w m3 := ⟨_, rfl⟩
  rw [← hN] at h1 hT
  have bN : 0 < N ∧ N ≤ 2 ^ 255 := by omega
  have p3 : K3 * N ≤ (2 ^ 192 - 1) * N := mul_le_mul_of_nonneg_right (by omega) (by omega)
  have z15 : bit c15 + bit c16 < 1 := by
    have := wide_nonneg ⟨v9, v12, v14, v16⟩
    have := bd v6
    omega
  obtain ⟨z15, z16⟩ := bits_zero z15
  rw [z15, z16, bit_false] at h1
  have h2 : 2 ^ 256 * (wide ⟨v18, v19, v21, v22⟩ + 2 ^ 256 * bit c22) =
      (wide lo + 2 ^ 256 * wide hi) + (K3 + 2 ^ 192 * w v17) * N := by
    rw [hN] at h1 ⊢
    simp only [wide] at h1 ⊢
    linear_combination h1 - 2 ^ 192 * e17 + 2 ^ 256 * e18 + 2 ^ 64 * 2 ^ 256 * e19 + 2 ^ 128 * 2 ^ 256 * e20 +
      2 ^ 128 * 2 ^ 256 * e21 + 2 ^ 192 * 2 ^ 256 * e22
  have b17 : 0 ≤ K3 + 2 ^ 192 * w v17 ∧ K3 + 2 ^ 192 * w v17 < 2 ^ 256 := by
    have := bd v17; have := bl v17
    omega
  generalize hK : K3 + 2 ^ 192 * w v17 = K at *
  have p4 : K * N ≤ (2 ^ 256 - 1) * N := mul_le_mul_of_nonneg_right (by omega) (by omega)
  have n1 := wide_nonneg ⟨v18, v19, v21, v22⟩
  have z22 : c22 = false := bit_eq_zero (by omega)
  rw [z22, bit_false] at h2
  have hR : wide ⟨v18, v19, v21, v22⟩ < 2 * N := by omega
  have h3 : wide ⟨v23, v24, v25, v26⟩ + N = wide ⟨v18, v19, v21, v22⟩ + 2 ^ 256 * bit c26 := by
    rw [hN]
    unfold wide
    linear_combination e23 + 2 ^ 64 * e24 + 2 ^ 128 * e25 + 2 ^ 192 * e26
  have n2 := wide_lt ⟨v23, v24, v25, v26⟩
  have n3 := wide_nonneg ⟨v23, v24, v25, v26⟩
  rw [← hN]
  cases c26
  · rw [bit_false] at h3
    simp only [cond_false]
    exact ⟨by omega, _, K, n1, b17.1, Or.inr (by omega), by linear_combination h2⟩
  · rw [bit_true] at h3
    simp only [cond_true]
    exact ⟨by omega, _, K, n1, b17.1, Or.inl rfl, by linear_combination h2⟩

end OpenZKP.Asm
