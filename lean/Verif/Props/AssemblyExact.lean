import Mathlib.Data.Int.ModEq
import Verif.Props.Assembly
import Verif.U256.AsmLost

/-!
# Assembly routines: exactly when Montgomery multiplication is right (C65)
-/

namespace OpenZKP.Props
open OpenZKP U256

/-- C65: what Montgomery multiplication in assembly returns, for all operands: the reduction of the product, less `2^256 - 2^64` if the first
round loses a carry (`Asm.LostCarry`). -/
theorem C65_mul_redc_value (s0 : Asm.Cpu) (N : Mont) (h : MontOK N) (x y : U256) (hy : y.toNat < N.modulus.toNat) :
    (Asm.mul_redc s0 N x y).toNat < N.modulus.toNat ∧
    ((Asm.mul_redc s0 N x y).toNat : ℤ) * 2 ^ 256 ≡
      x.toNat * y.toNat - (if Asm.LostCarry x y then 2 ^ 256 - 2 ^ 64 else 0) [ZMOD N.modulus.toNat] := by
  have hle := h.le
  have hin : Asm.Inputs ((((((((s0.load 1 x).load 2 y).load1 3 0).load1 4 N.modulus.l0).load1 5
      N.modulus.l1).load1 6 N.modulus.l2).load1 7 N.modulus.l3).load1 8 N.m64) x y N.modulus N.m64 := by
    simp [Asm.Inputs, Asm.Cpu.load, Asm.Cpu.load1, Asm.store]
  obtain ⟨h1, K, hK, h2⟩ := Asm.redcBlock_lost hin h.m64ok (by rw [Asm.wide_eq, Asm.wide_eq]; omega)
    (by rw [Asm.wide_eq]; omega)
  have hL : (2 ^ 256 - 2 ^ 64) * Asm.bit (decide (Asm.LostCarry x y)) = if Asm.LostCarry x y then 2 ^ 256 - 2 ^ 64 else 0 := by
    split
    · rename_i hl; rw [decide_eq_true hl, Asm.bit_true, mul_one]
    · rename_i hl; rw [decide_eq_false hl, Asm.bit_false, mul_zero]
  rw [hL] at h2
  generalize (if Asm.LostCarry x y then (2 ^ 256 - 2 ^ 64 : ℤ) else 0) = L at *
  unfold Asm.mul_redc
  dsimp only
  generalize (Asm.run _ Asm.redcBlock).fetch 0 = r at *
  simp only [Asm.wide_eq] at h1 h2
  generalize N.modulus = M at *
  have hr : ((r.toNat : ℤ)) * 2 ^ 256 ≡ x.toNat * y.toNat - L [ZMOD M.toNat] := by
    rw [Int.modEq_iff_dvd]
    exact ⟨-K, by linear_combination -h2⟩
  by_cases hg : M.toNat ≤ r.toNat
  · rw [if_pos ((ge_iff _ _).mpr hg), sub_of_le hg]
    refine ⟨by omega, ?_⟩
    rw [Nat.cast_sub hg]
    refine Int.ModEq.trans ?_ hr
    rw [Int.modEq_iff_dvd]
    exact ⟨2 ^ 256, by ring⟩
  · rw [if_neg (by rw [ge_iff]; exact hg)]
    exact ⟨by omega, hr⟩

/-- C65: Montgomery multiplication in assembly agrees with the portable one exactly if the first round loses no carry, for every modulus of at least
193 bits (so for both of the library). -/
theorem C65_mul_redc_exact (s0 : Asm.Cpu) (N : Mont) (h : MontOK N) (hbig : 2 ^ 192 ≤ N.modulus.toNat) (x y : U256)
    (hy : y.toNat < N.modulus.toNat) :
    Asm.mul_redc s0 N x y = U256.mul_redc N x y ↔ ¬ Asm.LostCarry x y := by
  obtain ⟨h1, h2⟩ := C65_mul_redc_value s0 N h x y hy
  have hr := (C10_mul_redc N h x y hy).1
  have hp : ((U256.mul_redc N x y).toNat : ℤ) * 2 ^ 256 ≡ x.toNat * y.toNat [ZMOD N.modulus.toNat] := by
    have := hr.2.1
    have := (Int.natCast_modEq_iff (n := N.modulus.toNat)).2 this
    push_cast at this
    exact this
  constructor
  · intro e hl
    rw [e, if_pos hl] at h2
    have h3 := h2.symm.trans hp
    rw [Int.modEq_iff_dvd] at h3
    have h4 : (N.modulus.toNat : ℤ) ∣ ((2 ^ 64 * (2 ^ 192 - 1) : ℕ) : ℤ) := by
      refine h3.trans (dvd_of_eq ?_)
      push_cast
      ring
    have h5 : N.modulus.toNat ∣ 2 ^ 64 * (2 ^ 192 - 1) := Int.natCast_dvd_natCast.1 h4
    have hco : Nat.Coprime N.modulus.toNat (2 ^ 64) := by
      apply Nat.Coprime.pow_right
      rw [Nat.coprime_iff_gcd_eq_one, Nat.gcd_comm, Nat.gcd_rec, h.odd, Nat.gcd_one_left]
    have h6 := Nat.le_of_dvd (by norm_num) (hco.dvd_of_dvd_mul_left h5)
    omega
  · intro hl
    rw [if_neg hl, sub_zero] at h2
    refine toNat_inj (hr.2.2 _ h1 ?_)
    have := (Int.natCast_modEq_iff (n := N.modulus.toNat) (a := (Asm.mul_redc s0 N x y).toNat * 2 ^ 256) (b := x.toNat * y.toNat)).1
      (by push_cast; exact h2)
    exact this

-- both moduli are large enough; the operands of `C65_violated` lose the carry, others do not
example : MontOK PROTH ∧ 2 ^ 192 ≤ PROTH.modulus.toNat ∧ 2 ^ 192 ≤ ORDER.modulus.toNat ∧
    Asm.LostCarry ⟨0xffffffffffffffff, 0, 0, 0⟩ ⟨10, 5, 1, 1⟩ ∧ ¬ Asm.LostCarry ⟨7, 8, 9, 10⟩ ⟨1, 2, 3, 4⟩ :=
  ⟨⟨by decide +kernel, by decide +kernel, by decide +kernel⟩, by decide +kernel, by decide +kernel, by decide +kernel, by decide +kernel⟩

end OpenZKP.Props
