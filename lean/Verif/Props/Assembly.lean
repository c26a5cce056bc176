import Verif.U256.AsmRedc
import Verif.Props.Montgomery

/-!
# Property C65: the assembly routines compute what the portable ones compute

`s0` is the state of the processor when the block is entered: arbitrary registers, flags and memory.
The portable `mul_redc` and `redc` are specified by `C10_mul_redc` and `C10_redc` (`IsRedc`).
-/

namespace OpenZKP.Props
open OpenZKP U256

/-- C65: `reduce_1` in assembly is the portable `reduce_1`: it subtracts the modulus once, if possible. -/
theorem C65_reduce_1 (s0 : Asm.Cpu) (s m : U256) :
    (Asm.reduce_1 s0 s m).toNat = (if m.toNat ≤ s.toNat then s.toNat - m.toNat else s.toNat) ∧
    Asm.reduce_1 s0 s m = U256.reduce_1 s m := by
  have h := Asm.reduce_1_spec s0 s m
  simp only [Asm.wide_eq] at h
  have h1 : (Asm.reduce_1 s0 s m).toNat = if m.toNat ≤ s.toNat then s.toNat - m.toNat else s.toNat := by
    split at h
    · rw [if_pos (by omega)]; omega
    · rw [if_neg (by omega)]; omega
  refine ⟨h1, toNat_inj ?_⟩
  rw [h1]
  unfold U256.reduce_1
  by_cases hg : m.toNat ≤ s.toNat
  · rw [if_pos hg, if_pos ((ge_iff _ _).mpr hg), sub_of_le hg]
  · rw [if_neg hg, if_neg (by rw [ge_iff]; exact hg)]

theorem pair_eq {a b : U256 × U256} (h : a.1.toNat + 2 ^ 256 * a.2.toNat = b.1.toNat + 2 ^ 256 * b.2.toNat) :
    a = b := by
  have h1 := a.1.toNat_lt
  have h2 := b.1.toNat_lt
  exact Prod.ext (toNat_inj (by omega)) (toNat_inj (by omega))

/-- C65: both full multiplications in assembly return the 512-bit product, as the portable one. -/
theorem C65_full_mul (s0 : Asm.Cpu) (x y : U256) :
    (Asm.full_mul_asm s0 x y).1.toNat + 2 ^ 256 * (Asm.full_mul_asm s0 x y).2.toNat = x.toNat * y.toNat ∧
    Asm.full_mul_asm s0 x y = mul_full x y ∧ Asm.full_mul_asm2 s0 x y = mul_full x y := by
  have h1 := Asm.full_mul_asm_spec s0 x y
  have h2 := Asm.full_mul_asm2_spec s0 x y
  simp only [Asm.wide_eq] at h1 h2
  rw [← Nat.cast_mul] at h1 h2
  have h3 := mul_full_eq x y
  exact ⟨by omega, pair_eq (by omega), pair_eq (by omega)⟩

/-- C65: the truncated multiplication in assembly is the product modulo `2^256`, as the portable one. -/
theorem C65_mul (s0 : Asm.Cpu) (x y : U256) :
    (Asm.mul_asm s0 x y).toNat = x.toNat * y.toNat % 2 ^ 256 ∧ Asm.mul_asm s0 x y = U256.mul x y := by
  obtain ⟨k, h1⟩ := Asm.mul_asm_spec s0 x y
  simp only [Asm.wide_eq] at h1
  rw [← Nat.cast_mul] at h1
  have h2 := (Asm.mul_asm s0 x y).toNat_lt
  obtain ⟨j, h3⟩ := mul_eq_aux x y
  have h4 := (U256.mul x y).toNat_lt
  exact ⟨by omega, toNat_inj (by omega)⟩

/-- C65: Montgomery reduction for moduli `1 + 2^192·m3` in assembly is the portable one. -/
theorem C65_proth_redc (s0 : Asm.Cpu) (N : Mont) (h : MontOK N) (hp : is_proth N = true) (lo hi : U256)
    (hT : lo.toNat + 2 ^ 256 * hi.toNat < N.modulus.toNat * 2 ^ 256) :
    IsRedc N.modulus.toNat (lo.toNat + 2 ^ 256 * hi.toNat)
      (Asm.proth_redc_asm s0 N.modulus.l3 lo hi).toNat ∧
    Asm.proth_redc_asm s0 N.modulus.l3 lo hi = redc N lo hi := by
  have e : N.modulus.toNat = 1 + 2 ^ 192 * N.modulus.l3.toNat := by rw [proth_modulus hp, proth_toNat]
  have hle := h.le
  have hodd := h.odd
  have hr := C10_redc N h lo hi hT
  rw [e] at hT hle hodd hr ⊢
  generalize N.modulus.l3 = m3 at *
  obtain ⟨h1, S, K, hS, hK, h2, h3⟩ := Asm.proth_redc_spec s0 m3 lo hi (by unfold Asm.w; omega)
    (by rw [Asm.wide_eq, Asm.wide_eq]; unfold Asm.w; omega)
  rw [Asm.wide_eq] at h1 h2
  rw [Asm.wide_eq, Asm.wide_eq] at h3
  unfold Asm.w at h1 h2 h3
  obtain ⟨S, rfl⟩ := Int.eq_ofNat_of_zero_le hS
  obtain ⟨K, rfl⟩ := Int.eq_ofNat_of_zero_le hK
  have h4 : 2 ^ 256 * S = (lo.toNat + 2 ^ 256 * hi.toNat) + K * (1 + 2 ^ 192 * m3.toNat) := by
    zify
    linear_combination h3
  have h5 : IsRedc (1 + 2 ^ 192 * m3.toNat) (lo.toNat + 2 ^ 256 * hi.toNat)
      (Asm.proth_redc_asm s0 m3 lo hi).toNat := by
    refine isRedc_of hodd (by omega) (modEq_final h4 ?_)
    rcases h2 with h2 | h2
    · rw [show (Asm.proth_redc_asm s0 m3 lo hi).toNat = S by omega]
    · rw [← show (Asm.proth_redc_asm s0 m3 lo hi).toNat + (1 + 2 ^ 192 * m3.toNat) = S by omega, Nat.add_mod_right]
  exact ⟨h5, toNat_inj (hr.2.2 _ h5.1 h5.2.1)⟩

/-- C65: Montgomery multiplication in assembly, **partial**: it is the portable one for all operands whose
first round does not meet the lost carry of `C65_violated`. -/
theorem C65_mul_redc_partial (s0 : Asm.Cpu) (N : Mont) (h : MontOK N) (x y : U256)
    (hy : y.toNat < N.modulus.toNat)
    (hne : (x.l0.toNat * y.l2.toNat / 2 ^ 64 + x.l0.toNat * y.l3.toNat % 2 ^ 64) % 2 ^ 64 ≠ 2 ^ 64 - 1) :
    IsRedc N.modulus.toNat (x.toNat * y.toNat) (Asm.mul_redc s0 N x y).toNat ∧
    Asm.mul_redc s0 N x y = U256.mul_redc N x y := by
  have hle := h.le
  have hr := (C10_mul_redc N h x y hy).1
  have hin : Asm.Inputs ((((((((s0.load 1 x).load 2 y).load1 3 0).load1 4 N.modulus.l0).load1 5
      N.modulus.l1).load1 6 N.modulus.l2).load1 7 N.modulus.l3).load1 8 N.m64) x y N.modulus N.m64 := by
    simp [Asm.Inputs, Asm.Cpu.load, Asm.Cpu.load1, Asm.store]
  obtain ⟨h1, K, hK, h2⟩ := Asm.redcBlock_spec hin h.m64ok (by rw [Asm.wide_eq, Asm.wide_eq]; omega)
    (by rw [Asm.wide_eq]; omega) hne
  have h5 : IsRedc N.modulus.toNat (x.toNat * y.toNat) (Asm.mul_redc s0 N x y).toNat := by
    unfold Asm.mul_redc
    dsimp only
    generalize (Asm.run _ Asm.redcBlock).fetch 0 = r at *
    simp only [Asm.wide_eq] at h1 h2
    obtain ⟨K, rfl⟩ := Int.eq_ofNat_of_zero_le hK
    have h4 : 2 ^ 256 * r.toNat = x.toNat * y.toNat + K * N.modulus.toNat := by
      zify
      linear_combination h2
    by_cases hg : N.modulus.toNat ≤ r.toNat
    · rw [if_pos ((ge_iff _ _).mpr hg), sub_of_le hg]
      refine isRedc_of h.odd (by omega) (modEq_final h4 ?_)
      conv_rhs => rw [show r.toNat = r.toNat - N.modulus.toNat + N.modulus.toNat by omega, Nat.add_mod_right]
    · rw [if_neg (by rw [ge_iff]; exact hg)]
      exact isRedc_of h.odd (by omega) (modEq_final h4 rfl)
  exact ⟨h5, toNat_inj (hr.2.2 _ h5.1 h5.2.1)⟩

/-- A processor with everything zero. -/
def idle : Asm.Cpu := ⟨0, 0, 0, 0, 0, 0, 0, 0, 0, 0, 0, 0, false, false, fun _ _ => 0⟩

/-- C65 is violated by `mul_redc` in assembly: the carry out of the fourth limb of `a[0]·b` is added to the second
limb of the next sum.  With `a = 2^64 - 1` and `b = 10 + 5·2^64 + 2^128 + 2^192` modulo the prime of the library
the result is wrong. -/
theorem C65_violated : ∃ (s0 : Asm.Cpu) (x y : U256), MontOK PROTH ∧ x.toNat < PROTH.modulus.toNat ∧
    y.toNat < PROTH.modulus.toNat ∧ Asm.mul_redc s0 PROTH x y ≠ U256.mul_redc PROTH x y ∧
    ¬ IsRedc PROTH.modulus.toNat (x.toNat * y.toNat) (Asm.mul_redc s0 PROTH x y).toNat := by
  have hok : MontOK PROTH := ⟨by decide +kernel, by decide +kernel, by decide +kernel⟩
  have hy : (⟨10, 5, 1, 1⟩ : U256).toNat < PROTH.modulus.toNat := by decide +kernel
  have hne : Asm.mul_redc idle PROTH ⟨0xffffffffffffffff, 0, 0, 0⟩ ⟨10, 5, 1, 1⟩ ≠
      U256.mul_redc PROTH ⟨0xffffffffffffffff, 0, 0, 0⟩ ⟨10, 5, 1, 1⟩ := by decide +kernel
  refine ⟨idle, ⟨0xffffffffffffffff, 0, 0, 0⟩, ⟨10, 5, 1, 1⟩, hok, by decide +kernel, hy, hne, fun hc => hne ?_⟩
  have hr := (C10_mul_redc PROTH hok ⟨0xffffffffffffffff, 0, 0, 0⟩ ⟨10, 5, 1, 1⟩ hy).1
  exact toNat_inj (hr.2.2 _ hc.1 hc.2.1)

/-- Non-vacuous: both moduli of the library meet `MontOK`, one is of Proth form, and operands that
avoid the lost carry exist. -/
example : MontOK PROTH ∧ MontOK ORDER ∧ is_proth PROTH = true ∧
    Asm.mul_redc idle ORDER ⟨7, 8, 9, 10⟩ ⟨1, 2, 3, 4⟩ ≠ ZERO ∧
    (7 * 3 / 2 ^ 64 + 7 * 4 % 2 ^ 64) % 2 ^ 64 ≠ 2 ^ 64 - 1 ∧
    Asm.proth_redc_asm idle PROTH.modulus.l3 ⟨5, 6, 7, 8⟩ ⟨1, 2, 3, 4⟩ = redc PROTH ⟨5, 6, 7, 8⟩ ⟨1, 2, 3, 4⟩ ∧
    Asm.full_mul_asm idle MAX MAX = (ONE, ⟨0xfffffffffffffffe, 0xffffffffffffffff, 0xffffffffffffffff,
      0xffffffffffffffff⟩) :=
  ⟨⟨by decide +kernel, by decide +kernel, by decide +kernel⟩, ⟨by decide +kernel, by decide +kernel,
    by decide +kernel⟩, by decide +kernel, by decide +kernel, by decide +kernel, by decide +kernel, by decide +kernel⟩

end OpenZKP.Props
