import Verif.U256.AsmRedc

/-!
# The assembly routines: Montgomery multiplication with the carry it loses
-/

namespace OpenZKP.Asm
open OpenZKP U256

/-- The first round of `mul_redc` loses a carry: in the product of `a[0]` and `b`, computed limb by limb, the fourth limb is all ones before
the carry out of the third limb is added to it, and there is such a carry. -/
def LostCarry (a b : U256) : Prop :=
  (a.l0.toNat * b.l2.toNat / 2 ^ 64 + a.l0.toNat * b.l3.toNat % 2 ^ 64) % 2 ^ 64 = 2 ^ 64 - 1 ∧
  2 ^ 128 ≤ a.l0.toNat * b.l0.toNat / 2 ^ 64 + a.l0.toNat * b.l1.toNat + 2 ^ 64 * (a.l0.toNat * b.l2.toNat % 2 ^ 64)

instance (a b : U256) : Decidable (LostCarry a b) := by unfold LostCarry; infer_instance

set_option maxRecDepth 4000 in
theorem round0_lost {s : Cpu} {a b m : U256} {m64 : UInt64} (h : Inputs s a b m m64)
    (hm : (m64.toNat * m.l0.toNat + 1) % 2 ^ 64 = 0) (hs : wide b + wide m < 2 ^ 256) :
    Rounded s (run s redcRound0) ⟨(run s redcRound0).r14, (run s redcRound0).r15, (run s redcRound0).r10,
      (run s redcRound0).r12⟩ (-(2 ^ 256 - 2 ^ 64) * bit (decide (LostCarry a b))) a.l0 b m := by
  obtain ⟨⟨a0, a1, a2, a3⟩, ⟨b0, b1, b2, b3⟩, z, ⟨m0, m1, m2, m3⟩, n⟩ := h
  refine Wp_sound redcRound0 (fun t => Rounded s t ⟨t.r14, t.r15, t.r10, t.r12⟩ (-(2 ^ 256 - 2 ^ 64) * bit (decide (LostCarry a b))) a.l0 b m) _ ?_
  simp only [redcRound0, Wp, wp, Cpu.set, Cpu.read, Cpu.get, a0, a1, a2, a3, b0, b1, b2, b3, z, m0, m1, m2, m3, n]
  simp only [w_zero, bit_false]
  intro v1 u1 e1 v2 u2 e2 v3 u3 e3 v4 u4 e4 v5 u5 e5 v6 c6 e6 v7 c7 e7 v8 c8 e8 v9 c9 e9 v10 c10 e10 v11 u11 e11 v12 u12 e12 v13 c13 e13 v14 c14 e14 v15 c15 e15 v16 c16 e16 v17 u17 e17 v18 u18 e18 v19 c19 e19 v20 c20 e20 v21 c21 e21 v22 c22 e22 v23 c23 e23
  have bd (v : UInt64) := w_nonneg v
  have bl (v : UInt64) := w_lt v
  have z9 : c9 = false := by
    refine bit_eq_zero ?_
    have hp : w a.l0 * w b.l3 ≤ (2 ^ 64 - 1) * (2 ^ 64 - 1) :=
      mul_le_mul (by have := bl a.l0; omega) (by have := bl b.l3; omega) (bd _) (by norm_num)
    have := bd v2; have := bd v9; have := bit_le c7
    generalize w a.l0 * w b.l3 = g at *
    omega
  have z10 : c10 = decide (LostCarry a b) := by
    have f1 : a.l0.toNat * b.l1.toNat = v1.toNat + 2 ^ 64 * u1.toNat := by
      unfold w at e1; rw [← Nat.cast_mul] at e1; omega
    have f2 : a.l0.toNat * b.l3.toNat = v2.toNat + 2 ^ 64 * u2.toNat := by
      unfold w at e2; rw [← Nat.cast_mul] at e2; omega
    have f3 : a.l0.toNat * b.l0.toNat = v3.toNat + 2 ^ 64 * u3.toNat := by
      unfold w at e3; rw [← Nat.cast_mul] at e3; omega
    have f4 : a.l0.toNat * b.l2.toNat = v4.toNat + 2 ^ 64 * u4.toNat := by
      unfold w at e4; rw [← Nat.cast_mul] at e4; omega
    have g1 := v1.toNat_lt; have g2 := v2.toNat_lt; have g3 := v3.toNat_lt; have g4 := v4.toNat_lt
    have g6 := v6.toNat_lt; have g7 := v7.toNat_lt; have g8 := v8.toNat_lt; have g10 := v10.toNat_lt
    unfold w at e6 e7 e8 e10
    have := bit_le c6; have := bit_le c7; have := bit_le c8; have := bit_le c10
    have := bit_nonneg c6; have := bit_nonneg c7; have := bit_nonneg c8
    cases c10 with
    | false =>
      rw [bit_false] at e10
      symm
      rw [decide_eq_false_iff_not]
      unfold LostCarry
      rw [f1, f2, f3, f4]
      rintro ⟨p1, p2⟩
      omega
    | true =>
      rw [bit_true] at e10
      symm
      rw [decide_eq_true_eq]
      unfold LostCarry
      rw [f1, f2, f3, f4]
      constructor <;> omega
  obtain ⟨L, hL⟩ : ∃ L, L = bit (decide (LostCarry a b)) := ⟨_, rfl⟩
  rw [z9, bit_false, add_zero] at e13
  rw [z10, ← hL] at e14
  have hv : w v13 = 0 := low_zero hm e5 e11 e13
  have hT : w v13 + 2 ^ 64 * wide ⟨v15, v19, v21, v23⟩ + 2 ^ 64 * 2 ^ 256 * (bit c22 + bit c23) =
      -(2 ^ 256 - 2 ^ 64) * L + w a.l0 * wide b + w v5 * wide m := by
    rw [z9, bit_false] at e9
    rw [z10, ← hL] at e10
    unfold wide
    linear_combination 2 ^ 64 * e1 + 2 ^ 192 * e2 + e3 + 2 ^ 128 * e4 + 2 ^ 64 * e6 + 2 ^ 192 * e7 + 2 ^ 128 * e8 + 2 ^ 256 * e9 +
      2 ^ 192 * e10 + e11 + 2 ^ 64 * e12 + e13 + 2 ^ 64 * e14 + 2 ^ 64 * e15 + 2 ^ 128 * e16 + 2 ^ 128 * e17 +
      2 ^ 192 * e18 + 2 ^ 128 * e19 + 2 ^ 192 * e20 + 2 ^ 192 * e21 + 2 ^ 256 * e22 + 2 ^ 256 * e23
  have k1 := word_mul_le a.l0 b
  have k2 := word_mul_le v5 m
  have hz : bit c22 + bit c23 < 1 := by
    have := wide_nonneg ⟨v15, v19, v21, v23⟩
    have : 0 ≤ L := by rw [hL]; exact bit_nonneg _
    omega
  obtain ⟨z22, z23⟩ := bits_zero hz
  refine ⟨⟨v5, ?_⟩, z22, z23, rfl⟩
  rw [← hL]
  rw [hv, z22, z23, bit_false] at hT
  linear_combination hT

/-- The block of `mul_redc` with the carry that may be lost in the first round. -/
theorem redcBlock_lost {s : Cpu} {a b m : U256} {m64 : UInt64} (h : Inputs s a b m m64)
    (hm : (m64.toNat * m.l0.toNat + 1) % 2 ^ 64 = 0) (hs : wide b + wide m < 2 ^ 256) (hpos : 0 < wide m) :
    wide ((run s redcBlock).fetch 0) < wide b + wide m ∧
    ∃ K : ℤ, 0 ≤ K ∧ 2 ^ 256 * wide ((run s redcBlock).fetch 0) =
      wide a * wide b + K * wide m - (2 ^ 256 - 2 ^ 64) * bit (decide (LostCarry a b)) := by
  have z0 : (0 : ℤ) < wide b + wide m := by have := wide_nonneg b; omega
  unfold redcBlock
  rw [run_append, run_append, run_append, run_append]
  have r0 := round0_lost h hm hs
  have l0 := r0.lt (by have := bit_nonneg (decide (LostCarry a b)); omega)
  obtain ⟨⟨k0, e0⟩, c0, o0, g0⟩ := r0
  have h1 := h.of_mem g0
  generalize run s redcRound0 = s1 at *
  have r1 := round1 h1 hm hs c0 o0 l0
  have l1 := r1.lt l0
  obtain ⟨⟨k1, e1⟩, c1, o1, g1⟩ := r1
  have h2 := h1.of_mem g1
  generalize run s1 redcRound1 = s2 at *
  have r2 := round2 h2 hm hs c1 o1 l1
  have l2 := r2.lt l1
  obtain ⟨⟨k2, e2⟩, c2, o2, g2⟩ := r2
  have h3 := h2.of_mem g2
  generalize run s2 redcRound2 = s3 at *
  have r3 := round3 h3 hm hs c2 o2 l2
  have l3 := r3.lt l2
  obtain ⟨⟨k3, e3⟩, -⟩ := r3
  generalize run s3 redcRound3 = s4 at *
  have hf : (run s4 redcStore).fetch 0 = ⟨s4.r12, s4.r13, s4.r14, s4.r15⟩ := by
    simp [redcStore, run, exec, Cpu.fetch, store, Cpu.get]
  rw [hf]
  refine ⟨l3, w k0 + 2 ^ 64 * w k1 + 2 ^ 128 * w k2 + 2 ^ 192 * w k3, ?_, ?_⟩
  · have := w_nonneg k0; have := w_nonneg k1; have := w_nonneg k2; have := w_nonneg k3
    omega
  · rw [show wide a = w a.l0 + 2 ^ 64 * w a.l1 + 2 ^ 128 * w a.l2 + 2 ^ 192 * w a.l3 from rfl]
    generalize bit (decide (LostCarry a b)) = L at *
    generalize wide b = B at *
    generalize wide m = N at *
    generalize wide _ = L0 at *
    generalize wide _ = L1 at *
    generalize wide _ = L2 at *
    generalize wide _ = L3 at *
    linear_combination e0 + 2 ^ 64 * e1 + 2 ^ 128 * e2 + 2 ^ 192 * e3

end OpenZKP.Asm
