import Verif.Evm.FieldLemmas
import Verif.Props.FieldRoots

/-!
# The contracts: C72 (field arithmetic)
-/

namespace OpenZKP
namespace Props
namespace EvmField
open Evm Evm.PrimeField

/-! ## C72: a word stands for the element of the field it is congruent to -/

/-- C72: the constants are those of the library in Rust: the same field, its Montgomery constant `2^256`, and the same generator. -/
theorem C72_constants :
    MODULUS = PF.BASE.modulus.toNat ∧ ((MONTGOMERY_R : Nat) : ZMod MODULUS) = 2 ^ 256 ∧ ((MONTGOMERY_R_INV : Nat) : ZMod MODULUS) = (2 ^ 256)⁻¹ ∧
      GENERATOR = Props.nat PF.BASE PF.BASE.generator ∧ MODULUS_SUB_2 = MODULUS - 2 ∧ MODULUS ≤ MODULUS_MASK ∧ MODULUS_MASK < 2 * MODULUS :=
  ⟨by decide +kernel, montgomery_r, montgomery_r_inv, by decide +kernel, by decide +kernel, by decide +kernel, by decide +kernel⟩

/-- C72: for all words (reduced or not) these operations give the reduced word of the result in the field; the inverse of zero is zero. -/
theorem C72_arithmetic (a b : Nat) :
    (fadd a b < MODULUS ∧ ((fadd a b : Nat) : ZMod MODULUS) = a + b) ∧
    (fmul a b < MODULUS ∧ ((fmul a b : Nat) : ZMod MODULUS) = a * b) ∧
    (fpow a b < MODULUS ∧ ((fpow a b : Nat) : ZMod MODULUS) = (a : ZMod MODULUS) ^ b) ∧
    (inverse a < MODULUS ∧ ((inverse a : Nat) : ZMod MODULUS) = (a : ZMod MODULUS)⁻¹) ∧
    (to_montgomery a < MODULUS ∧ ((to_montgomery a : Nat) : ZMod MODULUS) = a * 2 ^ 256) ∧
    (from_montgomery a < MODULUS ∧ ((from_montgomery a : Nat) : ZMod MODULUS) * 2 ^ 256 = a) ∧
    (fmul_mont a b < MODULUS ∧ ((fmul_mont a b : Nat) : ZMod MODULUS) * 2 ^ 256 = a * b) := by
  have hr := r_ne
  refine ⟨⟨addmod_lt _ _, addmod_cast _ _⟩, ⟨mulmod_lt _ _, mulmod_cast _ _⟩, ⟨modexp_lt _ _, modexp_cast _ _⟩, ⟨inverse_lt _, inverse_cast _⟩,
    ⟨mulmod_lt _ _, ?_⟩, ⟨mulmod_lt _ _, ?_⟩, mulmod_lt _ _, ?_⟩
  · unfold to_montgomery
    rw [mulmod_cast, montgomery_r]
  · unfold from_montgomery
    rw [mulmod_cast, montgomery_r_inv]
    rw [mul_assoc, inv_mul_cancel₀ hr, mul_one]
  · unfold fmul_mont fmul
    rw [mulmod_cast, mulmod_cast, montgomery_r_inv]
    rw [mul_assoc, inv_mul_cancel₀ hr, mul_one]

/-- C72 (partial: the second operand must not exceed the modulus): the difference. -/
theorem C72_fsub_partial (a b : Nat) (hb : b ≤ MODULUS) : fsub a b < MODULUS ∧ ((fsub a b : Nat) : ZMod MODULUS) = a - b := ⟨addmod_lt _ _, fsub_cast a b hb⟩

/-- C72: a power of the generator of order `2^k` is found exactly if there is one, and so is a root of any order. -/
theorem C72_roots (k n : Nat) (hk : k < 256) (hn : n < 2 ^ 256) :
    (∀ g, generator_power k = some g → g < MODULUS ∧ orderOf ((g : Nat) : ZMod MODULUS) = 2 ^ k ∧ (g : ZMod MODULUS) = 3 ^ ((MODULUS - 1) / 2 ^ k)) ∧
    (generator_power k = none ↔ ¬ 2 ^ k ∣ MODULUS - 1) ∧
    (∀ g, root n = some g → g < MODULUS ∧ orderOf ((g : Nat) : ZMod MODULUS) = n ∧ (g : ZMod MODULUS) = 3 ^ ((MODULUS - 1) / n)) ∧
    (root n = none ↔ ¬ n ∣ MODULUS - 1) := by
  have hw : wsub MODULUS 1 = MODULUS - 1 := wsub_le _ _ (by have := modulus_lt; omega) (by have := modulus_pos; omega)
  have he : wexp 2 k = 2 ^ k := Nat.mod_eq_of_lt (Nat.pow_lt_pow_right (by norm_num) hk)
  have hm : (MODULUS - 1) / 2 ^ k * 2 ^ k < W := lt_of_le_of_lt (Nat.div_mul_le_self _ _) (by have := modulus_lt; omega)
  have h3 : ((GENERATOR : Nat) : ZMod MODULUS) = 3 := rfl
  have hpos : 0 < MODULUS - 1 := by have := prime_modulus.two_le; omega
  unfold generator_power root expmod
  simp only [hw, he, wmul, Nat.mod_eq_of_lt hm]
  refine ⟨?_, ?_, ?_, ?_⟩
  · intro g h
    split at h
    · next hd =>
      obtain rfl := Option.some.inj h
      refine ⟨modexp_lt _ _, ?_, by rw [modexp_cast, h3]⟩
      rw [modexp_cast]
      exact order_of_power _ _ (by rw [mul_comm]; exact hd)
    · cases h
  · rw [Nat.dvd_iff_div_mul_eq]
    split <;> simp_all
  · intro g h
    split at h
    · cases h
    · next h0 =>
      split at h
      · next hd =>
        obtain rfl := Option.some.inj h
        refine ⟨modexp_lt _ _, ?_, by rw [modexp_cast, h3]⟩
        rw [modexp_cast]
        exact order_of_power _ _ (Nat.mul_div_cancel' (Nat.dvd_of_mod_eq_zero hd))
      · cases h
  · by_cases h0 : n = 0
    · subst h0
      simp only [if_true, true_iff, zero_dvd_iff]
      omega
    · rw [if_neg h0, Nat.dvd_iff_mod_eq_zero]
      split <;> simp_all

/-- C72 (partial: no coefficient may be so large that the unreduced sum overflows; reduced ones are not): the value of a polynomial at a point, for any number of
coefficients. -/
theorem C72_horner_partial (coefficients : List Nat) (x : Nat) (h : ∀ c ∈ coefficients, c + MODULUS ≤ 2 ^ 256) :
    horner_eval coefficients x < MODULUS ∧
      ((horner_eval coefficients x : Nat) : ZMod MODULUS) = ∑ i ∈ Finset.range coefficients.length, ((coefficients.getD i 0 : Nat) : ZMod MODULUS) * (x : ZMod MODULUS) ^ i := by
  unfold horner_eval
  by_cases hc : coefficients = []
  · subst hc
    exact ⟨modulus_pos, rfl⟩
  · have hr : coefficients.reverse ≠ [] := by simpa using hc
    obtain ⟨h1, h2, h3⟩ := hornerEight_val x coefficients.reverse 0 (fun c hcm => h c (List.mem_reverse.1 hcm))
    obtain ⟨h4, h5⟩ := hornerBase_val x (hornerEight x coefficients.reverse 0).2 (hornerEight x coefficients.reverse 0).1 h2 (h3 hr)
    refine ⟨h5, ?_⟩
    dsimp only
    rw [h4, h1, Nat.cast_zero, hornerVal_reverse]

/-- C72 (partial: the array must not be empty and have no zero): all inverses at once. -/
theorem C72_batch_invert_partial (input output : List Nat) (hl : input.length = output.length) (hne : input ≠ []) (h0 : ∀ a ∈ input, (a : ZMod MODULUS) ≠ 0) :
    ∃ r, batch_invert input output = some r ∧ r.length = input.length ∧ (∀ v ∈ r, v < MODULUS) ∧ r.map (Nat.cast : Nat → ZMod MODULUS) = input.map fun a => ((a : Nat) : ZMod MODULUS)⁻¹ := by
  have hs : ((modexp (batchProducts input 1).2 MODULUS_SUB_2 MODULUS : Nat) : ZMod MODULUS) = ((input.map (Nat.cast : Nat → Z)).prod)⁻¹ := by
    have := inverse_cast (batchProducts input 1).2
    unfold inverse expmod at this
    rw [wsub_le _ _ (by have := modulus_lt; omega) (by have := prime_modulus.two_le; omega)] at this
    rw [show MODULUS_SUB_2 = MODULUS - 2 by decide +kernel, this, batchProducts_cast, Nat.cast_one, one_mul]
  obtain ⟨h1, h2⟩ := batchInverses_spec input hne h0 _ (modexp_lt _ _) hs
  unfold batch_invert
  rw [if_pos hl]
  refine ⟨_, rfl, ?_, fun v hv => h2 v (List.mem_reverse.1 hv), h1⟩
  have := congrArg List.length h1
  simpa using this

/-- C72 is violated: subtracting the unreduced word `MODULUS + 1` does not subtract one; an unreduced coefficient makes the value of a polynomial wrong; a zero makes
all inverses zero, without a revert; and inverting nothing writes a word behind the array. -/
theorem C72_violated :
    ((fsub 0 (MODULUS + 1) : Nat) : ZMod MODULUS) ≠ 0 - ((MODULUS + 1 : Nat) : ZMod MODULUS) ∧
    ((horner_eval [0, 2 ^ 256 - 1, 1] 1 : Nat) : ZMod MODULUS) ≠ 0 + ((2 ^ 256 - 1 : Nat) : ZMod MODULUS) * 1 + 1 * 1 ^ 2 ∧
    batch_invert [1, 0, 1] [0, 0, 0] = some [0, 0, 0] ∧ (batch_invert [] []) = some [1] := by
  refine ⟨?_, ?_, ?_, ?_⟩
  · rw [Nat.cast_add, ZMod.natCast_self, zero_add, Nat.cast_one, zero_sub, Ne, eq_neg_iff_add_eq_zero]
    intro h
    rw [← Nat.cast_succ, ZMod.natCast_eq_zero_iff, Nat.dvd_iff_mod_eq_zero] at h
    revert h
    decide +kernel
  · rw [show horner_eval [0, 2 ^ 256 - 1, 1] 1 = 0 by decide +kernel]
    intro h
    have : (((2 ^ 256 : Nat)) : ZMod MODULUS) = 0 := by
      rw [show (2 ^ 256 : Nat) = 2 ^ 256 - 1 + 1 by norm_num, Nat.cast_add]
      rw [Nat.cast_zero] at h
      rw [Nat.cast_one]
      linear_combination -h
    rw [ZMod.natCast_eq_zero_iff, Nat.dvd_iff_mod_eq_zero] at this
    revert this
    decide +kernel
  · decide +kernel
  · decide +kernel

-- concrete cases: a root of order 16, a difference below zero, nine coefficients (one round of the unrolled loop), three inverses
example : ∃ g, generator_power 4 = some g ∧ orderOf ((g : Nat) : ZMod MODULUS) = 2 ^ 4 := by
  obtain ⟨h1, h2, -⟩ := C72_roots 4 0 (by norm_num) (by norm_num)
  cases h : generator_power 4 with
  | none => exact absurd (by decide +kernel : 2 ^ 4 ∣ MODULUS - 1) (h2.1 h)
  | some g => exact ⟨g, rfl, (h1 g h).2.1⟩
example : fsub 3 5 = MODULUS - 2 := by decide +kernel
example : horner_eval [1, 2, 3, 4, 5, 6, 7, 8, 9] 10 = 987654321 := by decide +kernel
example : ∃ r, batch_invert [2, 3, 4] [0, 0, 0] = some r ∧ r.map (Nat.cast : Nat → ZMod MODULUS) = [2⁻¹, 3⁻¹, 4⁻¹] := by
  obtain ⟨r, h1, -, -, h2⟩ := C72_batch_invert_partial [2, 3, 4] [0, 0, 0] rfl (by simp) (by
    intro a ha
    simp only [List.mem_cons, List.not_mem_nil, or_false] at ha
    intro h
    rw [ZMod.natCast_eq_zero_iff, Nat.dvd_iff_mod_eq_zero] at h
    rcases ha with rfl | rfl | rfl <;> revert h <;> decide +kernel)
  exact ⟨r, h1, by rw [h2]; rfl⟩

end EvmField
end Props
end OpenZKP
