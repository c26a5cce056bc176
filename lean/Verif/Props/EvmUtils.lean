import Verif.Evm.UtilsLemmas
import Verif.Props.FFT

/-!
# The contracts: C73 (bit utilities, sorting)
-/

namespace OpenZKP
namespace Props
namespace EvmUtils
open Evm Evm.Utils

/-- C73: `bit_reverse` reverses the lowest `k` bits of any word, for all `k` (a `uint8`). -/
theorem C73_bit_reverse (num k : Nat) (hk : k < 256) : IsBitRev k num (bit_reverse num k) := by
  rw [isBitRev_iff]
  unfold bit_reverse
  rw [bitReverseLoop_eq k num 0 0 (by norm_num) (by omega)]
  simp

/-- C73 (partial: numbers of at most 40 bits): so does the quicker `bit_reverse2`. -/
theorem C73_bit_reverse2_partial (num k : Nat) (hn : num < 2 ^ 40) (hk : k ≤ 40) : IsBitRev k num (bit_reverse2 num k) := by
  rw [bit_reverse2_eq num k hn hk]
  refine ⟨?_, fun j hj => ?_⟩
  · rw [Nat.div_lt_iff_lt_mul (by positivity), ← pow_add, show k + (40 - k) = 40 by omega]
    exact FFT.rev_lt 40 num
  · rw [Nat.testBit_div_two_pow, FFT.testBit_rev _ _ _ (by omega)]
    congr 1
    omega

/-- C73: on the indices of a domain of `2^k` points both agree with the permutation of the prover in Rust (`permute_index`). -/
theorem C73_permute_index (k i : Nat) (hk : k ≤ 40) (hi : i < 2 ^ k) :
    bit_reverse i k = FFT.permute_index (2 ^ k) i ∧ bit_reverse2 i k = FFT.permute_index (2 ^ k) i := by
  have h := (C19_permute_index k i (by omega) hi).1
  rw [isBitRev_iff] at h
  rw [h]
  refine ⟨(isBitRev_iff _ _ _).1 (C73_bit_reverse i k (by omega)), (isBitRev_iff _ _ _).1 (C73_bit_reverse2_partial i k ?_ hk)⟩
  exact lt_of_lt_of_le hi (Nat.pow_le_pow_right (by norm_num) hk)

/-- C73: `num_bits` is the position of the highest bit (so one less than the number of bits). -/
theorem C73_num_bits (data : Nat) (h0 : 0 < data) (hd : data < 2 ^ 64) : 2 ^ num_bits data ≤ data ∧ data < 2 ^ (num_bits data + 1) := by
  rw [num_bits_eq data h0 hd]
  exact ⟨Nat.log2_self_le (by omega), Nat.lt_log2_self⟩

/-- C73: `sort` puts the elements of an array in order, and keeps duplicates. -/
theorem C73_sort (data : List Nat) : (sort data).Pairwise (· ≤ ·) ∧ (sort data).Perm data := sort_spec data

/-- C73: truncating keeps the front and never grows an array; copying into too short an array reverts. -/
theorem C73_arrays {α : Type} (a b : List α) (n : Nat) :
    (truncate a n = none ↔ a.length < n) ∧ (∀ r, truncate a n = some r → r.length = n ∧ r <+: a) ∧
      (deep_copy a b = none ↔ b.length < a.length) ∧ (∀ r, deep_copy a b = some r → r.length = b.length ∧ a <+: r ∧ r.drop a.length = b.drop a.length) := by
  unfold truncate deep_copy
  refine ⟨by split <;> simp <;> omega, ?_, by split <;> simp <;> omega, ?_⟩
  · intro r h
    split at h
    · obtain rfl := Option.some.inj h
      exact ⟨by simp; omega, List.take_prefix _ _⟩
    · cases h
  · intro r h
    split at h
    · obtain rfl := Option.some.inj h
      exact ⟨by simp; omega, List.prefix_append _ _, by simp⟩
    · cases h

/-- C73 is violated: from the 41st bit on `bit_reverse2` is wrong (also for the low bits), and `num_bits` of zero is 255. -/
theorem C73_violated : ¬ IsBitRev 40 (2 ^ 41) (bit_reverse2 (2 ^ 41) 40) ∧ ¬ IsBitRev 41 1 (bit_reverse2 1 41) ∧ num_bits 0 = 255 := by
  refine ⟨?_, ?_, by decide⟩ <;>
  · rw [isBitRev_iff]
    decide +kernel

-- concrete cases
example : bit_reverse 6 4 = 6 ∧ bit_reverse 1 4 = 8 ∧ bit_reverse2 0x1234567 30 = 967356704 ∧ num_bits 1000 = 9 ∧ num_bits (2 ^ 63) = 63 ∧ sort [3, 1, 2, 1] = [1, 1, 2, 3] := by
  decide +kernel
example : truncate [1, 2, 3] 2 = some [1, 2] ∧ deep_copy [1, 2] [3, 4, 5] = some [1, 2, 5] := by decide

end EvmUtils
end Props
end OpenZKP
