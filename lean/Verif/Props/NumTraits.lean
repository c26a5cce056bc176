import Verif.U256.Traits
import Verif.Props.U256
import Mathlib.Data.Nat.Count

/-!
# C87: the number traits of `U256`
-/

namespace OpenZKP
namespace Props
namespace NumTraits

open U256

theorem countP_range (p : Nat → Bool) (n : Nat) : (List.range n).countP p = Nat.count (fun i => p i = true) n := by
  induction n with
  | zero => rfl
  | succ n ih =>
    rw [List.range_succ, List.countP_append, ih, Nat.count_succ, List.countP_singleton]

/-- the bits of a limb are the bits of the number at its place -/
theorem limb_bits (x : U256) (i : Nat) (h : i < 64) :
    x.toNat.testBit (0 + i) = x.l0.toNat.testBit i ∧ x.toNat.testBit (64 + i) = x.l1.toNat.testBit i ∧
    x.toNat.testBit (128 + i) = x.l2.toNat.testBit i ∧ x.toNat.testBit (192 + i) = x.l3.toNat.testBit i := by
  have b0 := u64_lt x.l0; have b1 := u64_lt x.l1; have b2 := u64_lt x.l2
  have e : x.toNat = x.l0.toNat + 2 ^ 64 * (x.l1.toNat + 2 ^ 64 * (x.l2.toNat + 2 ^ 64 * x.l3.toNat)) := by
    simp only [toNat]; ring
  refine ⟨?_, ?_, ?_, ?_⟩
  · rw [e, testBit_aux _ _ _ _ b0, if_pos (by omega), Nat.zero_add]
  · rw [e, testBit_aux _ _ _ _ b0, testBit_aux _ _ _ _ b1, if_neg (by omega), if_pos (by omega),
      show 64 + i - 64 = i by omega]
  · rw [e, testBit_aux _ _ _ _ b0, testBit_aux _ _ _ _ b1, testBit_aux _ _ _ _ b2, if_neg (by omega),
      if_neg (by omega), if_pos (by omega), show 128 + i - 64 - 64 = i by omega]
  · rw [e, testBit_aux _ _ _ _ b0, testBit_aux _ _ _ _ b1, testBit_aux _ _ _ _ b2, if_neg (by omega),
      if_neg (by omega), if_neg (by omega), show 192 + i - 64 - 64 - 64 = i by omega]

theorem countP_four (x : U256) (q : Bool → Bool) :
    (List.range 256).countP (fun i => q (x.toNat.testBit i)) =
      (List.range 64).countP (fun i => q (x.l0.toNat.testBit i)) +
      (List.range 64).countP (fun i => q (x.l1.toNat.testBit i)) +
      (List.range 64).countP (fun i => q (x.l2.toNat.testBit i)) +
      (List.range 64).countP (fun i => q (x.l3.toNat.testBit i)) := by
  have split : List.range 256 = (List.range 64).map (0 + ·) ++ (List.range 64).map (64 + ·) ++
      (List.range 64).map (128 + ·) ++ (List.range 64).map (192 + ·) := by decide +kernel
  rw [split, List.countP_append, List.countP_append, List.countP_append, List.countP_map, List.countP_map,
    List.countP_map, List.countP_map]
  have h := fun i (hi : i ∈ List.range 64) => limb_bits x i (List.mem_range.1 hi)
  congr 1
  · congr 1
    · congr 1
      · exact List.countP_congr fun i hi => by simp only [Function.comp]; rw [(h i hi).1]
      · exact List.countP_congr fun i hi => by simp only [Function.comp]; rw [(h i hi).2.1]
    · exact List.countP_congr fun i hi => by simp only [Function.comp]; rw [(h i hi).2.2.1]
  · exact List.countP_congr fun i hi => by simp only [Function.comp]; rw [(h i hi).2.2.2]

/-- **C87 (bit counts).** `count_ones` is the number of binary digits of the value equal to one,
`count_zeros` the number of those equal to zero among all 256; together they are 256. -/
theorem C87_bit_counts (x : U256) :
    count_ones x = ((Finset.range 256).filter fun i => x.toNat.testBit i = true).card ∧
    count_zeros x = ((Finset.range 256).filter fun i => x.toNat.testBit i = false).card ∧
    count_ones x + count_zeros x = 256 := by
  have e1 : count_ones x = (List.range 256).countP fun i => x.toNat.testBit i :=
    (countP_four x id).symm
  have e0 : count_zeros x = (List.range 256).countP fun i => !x.toNat.testBit i :=
    (countP_four x not).symm
  refine ⟨?_, ?_, ?_⟩
  · rw [e1, countP_range, Nat.count_eq_card_filter_range]
  · rw [e0, countP_range, Nat.count_eq_card_filter_range]
    simp
  · rw [e1, e0]
    have := List.length_eq_countP_add_countP (fun i => x.toNat.testBit i) (l := List.range 256)
    rw [List.length_range] at this
    have e : (List.range 256).countP (fun i => !x.toNat.testBit i) =
        (List.range 256).countP (fun a => decide ¬x.toNat.testBit a = true) :=
      List.countP_congr fun i _ => by simp
    rw [e]
    exact this.symm

/-- **C87 (arithmetic).** `mul_add` is multiplication and addition modulo 2^256; `x & m` with a 64-bit mask
is the conjunction with the value; the bounds are the least and the largest value. -/
theorem C87_arithmetic (x a b : U256) (m : UInt64) :
    (U256.mul_add x a b).toNat = (x.toNat * a.toNat + b.toNat) % 2 ^ 256 ∧
    (and_u64 x m).toNat = x.toNat &&& m.toNat ∧
    min_value.toNat ≤ x.toNat ∧ x.toNat ≤ max_value.toNat := by
  refine ⟨?_, ?_, ?_, ?_⟩
  · rw [U256.mul_add, add_mod, mul_mod, Nat.mod_add_mod]
  · have hm := u64_lt m
    rw [and_u64, UInt64.toNat_and]
    apply Nat.eq_of_testBit_eq
    intro i
    rw [Nat.testBit_and, Nat.testBit_and]
    by_cases hi : i < 64
    · rw [← (limb_bits x i hi).1, Nat.zero_add]
    · rw [Nat.testBit_lt_two_pow (lt_of_lt_of_le hm (Nat.pow_le_pow_right (by norm_num) (by omega)))]
      simp
  · rw [min_value, zero_toNat]; exact Nat.zero_le _
  · rw [max_value, max_toNat]; have := toNat_lt x; omega

/-- **C87 violated.** The trait `Binary` promises rotations and `Num` promises `from_str_radix`; for `U256`
every call of them panics. -/
theorem C87_violated (x : U256) (n : Nat) (s : List Char) (r : Nat) :
    rotate_left x n = none ∧ rotate_right x n = none ∧ from_str_radix s r = none := ⟨rfl, rfl, rfl⟩

/-- Instances with bits in every limb. -/
example :
    count_ones ⟨0xff00000000000001, 0x8000000000000000, 0x101, 7⟩ = 15 ∧
    count_zeros ⟨0xff00000000000001, 0x8000000000000000, 0x101, 7⟩ = 241 ∧
    U256.mul_add ⟨0, 1, 0, 0⟩ ⟨5, 0, 0, 1⟩ ⟨9, 0, 0, 3⟩ = ⟨9, 5, 0, 3⟩ ∧
    and_u64 ⟨0xfe, 7, 7, 7⟩ 3 = 2 := by
  decide +kernel

end NumTraits
end Props
end OpenZKP
