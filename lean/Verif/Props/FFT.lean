import Verif.FFT.RadixSqrt
import Verif.Props.FieldIso
import Mathlib.RingTheory.RootsOfUnity.PrimitiveRoots
import Mathlib.Algebra.Ring.GeomSum
import Mathlib.Algebra.Field.ZMod

/-!
# Properties C19 (bit reversal), C20 (FFT), C21 (inverse FFT), C22 (transposition)

A slice is an access function plus a length; "unchanged outside" says that no other memory is written.
-/

namespace OpenZKP.Props
open OpenZKP FFT

/-! ## Specification -/

/-- `f` is `i` with its `k` binary digits in the opposite order -/
def IsBitRev (k i f : Nat) : Prop := f < 2 ^ k ∧ ∀ j < k, f.testBit j = i.testBit (k - 1 - j)

/-- what the transforms need from `root`: a root of unity of the order asked for (C15) -/
def RootFn {F : Type} [Field F] (root : Nat → Option F) : Prop :=
  ∀ n w, 0 < n → n < 2 ^ 64 → root n = some w → orderOf w = n

theorem isBitRev_iff (k i f : Nat) : IsBitRev k i f ↔ f = rev k i := by
  constructor
  · rintro ⟨h1, h2⟩
    apply Nat.eq_of_testBit_eq
    intro j
    by_cases hj : j < k
    · rw [h2 j hj, testBit_rev k i j hj]
    · rw [Nat.testBit_lt_two_pow (lt_of_lt_of_le h1 (Nat.pow_le_pow_right (by norm_num) (by omega))),
        Nat.testBit_lt_two_pow (lt_of_lt_of_le (rev_lt k i) (Nat.pow_le_pow_right (by norm_num) (by omega)))]
  · rintro rfl
    exact ⟨rev_lt k i, testBit_rev k i⟩

/-! ## C19 -/

/-- C19: for a size `2^k` (with `k < 64`, as every `usize` power of two) the permuted index is the bit reversal,
and permuting twice returns the index. -/
theorem C19_permute_index (k i : Nat) (hk : k < 64) (hi : i < 2 ^ k) :
    IsBitRev k i (permute_index (2 ^ k) i) ∧ permute_index (2 ^ k) (permute_index (2 ^ k) i) = i := by
  rw [permute_index_eq k i hk hi, isBitRev_iff]
  refine ⟨rfl, ?_⟩
  rw [permute_index_eq k _ hk (rev_lt k i), rev_rev k i hi]

/-- C19: `permute` moves every element to the bit-reversed position and nothing else; twice is the identity. -/
theorem C19_permute {α : Type} (k : Nat) (hk : k < 64) (v : Slice α) :
    (∀ i f, i < 2 ^ k → IsBitRev k i f → permute (2 ^ k) v i = v f) ∧
    (∀ i, 2 ^ k ≤ i → permute (2 ^ k) v i = v i) ∧
    permute (2 ^ k) (permute (2 ^ k) v) = v := by
  refine ⟨?_, ?_, ?_⟩
  · intro i f hi hf
    rw [permute_eq k hk, if_pos hi, (isBitRev_iff k i f).1 hf]
  · intro i hi
    rw [permute_eq k hk, if_neg (by omega)]
  · funext i
    rw [permute_eq k hk]
    split
    · next h => rw [permute_eq k hk, if_pos (rev_lt k i), rev_rev k i h]
    · next h => rw [permute_eq k hk, if_neg h]

example : permute_index 8 3 = 6 ∧ permute_index 8 6 = 3 ∧ IsBitRev 3 3 6 := by
  refine ⟨by decide, by decide, (isBitRev_iff 3 3 6).2 (by decide)⟩

/-! ## C22 -/

/-- C22: element `e` of the entry in row `r`, column `c` is exchanged with that in row `c`, column `r`; nothing
outside the matrix moves; no panic for stretch 1 with an even size and stretch 2 with any size. -/
theorem C22_transpose {α : Type} (size stretch : Nat) (m : Slice α)
    (h : (stretch = 1 ∧ size % 2 = 0) ∨ stretch = 2) :
    ∃ t, transpose_square_stretch (size * size * stretch) m size stretch = some t ∧
      (∀ r c e, r < size → c < size → e < stretch →
        t ((r * size + c) * stretch + e) = m ((c * size + r) * stretch + e)) ∧
      ∀ i, size * size * stretch ≤ i → t i = m i := by
  obtain ⟨t, h1, h2⟩ := transpose_square_stretch_spec size stretch m h
  refine ⟨t, h1, ?_, ?_⟩
  · intro r c e hr hc he
    rw [h2, transσ_apply size stretch r c e hr hc he]
  · intro i hi
    rw [h2]; unfold transσ; rw [if_neg (by omega)]

/-- C22: transposing twice restores the matrix. -/
theorem C22_transpose_twice {α : Type} (size stretch : Nat) (m : Slice α)
    (h : (stretch = 1 ∧ size % 2 = 0) ∨ stretch = 2) :
    (transpose_square_stretch (size * size * stretch) m size stretch).bind
      (fun t => transpose_square_stretch (size * size * stretch) t size stretch) = some m := by
  obtain ⟨t, h1, h2⟩ := transpose_square_stretch_spec size stretch m h
  obtain ⟨u, h3, h4⟩ := transpose_square_stretch_spec size stretch t h
  rw [h1, Option.bind_some, h3]
  congr 1
  funext x
  rw [h4, h2, transσ_invol]

/-- C22: a length that is not `size * size * stretch`, another stretch, or an odd size with stretch 1 panics. -/
theorem C22_panics {α : Type} (len size stretch : Nat) (m : Slice α)
    (h : len ≠ size * size * stretch ∨ (stretch ≠ 1 ∧ stretch ≠ 2) ∨ (stretch = 1 ∧ size % 2 = 1)) :
    transpose_square_stretch len m size stretch = none := by
  unfold transpose_square_stretch
  by_cases h0 : len = size * size * stretch
  · rw [if_neg (not_not.2 h0)]
    rcases h with h | h | h
    · exact absurd h0 h
    · split
      · omega
      · omega
      · rfl
    · obtain ⟨rfl, h⟩ := h
      show transpose_square_1 size m = none
      unfold transpose_square_1
      rw [if_pos (by omega)]
  · rw [if_pos h0]

example : ∃ t, transpose_square_stretch 8 (fun i => i) 2 2 = some t ∧ (List.range 8).map t = [0, 1, 4, 5, 2, 3, 6, 7] :=
  ⟨_, rfl, by decide⟩

/-! ## C20 -/

section
variable {F : Type} [Field F] [DecidableEq F]

theorem neg_one_of_order (k : Nat) (w : F) (hw : orderOf w = 2 ^ k) (hk : 0 < k) : w ^ 2 ^ (k - 1) = -1 := by
  obtain ⟨n, rfl⟩ : ∃ n, k = n + 1 := ⟨k - 1, by omega⟩
  rw [Nat.add_sub_cancel]
  have h1 : (w ^ 2 ^ n) ^ 2 = 1 := by rw [← pow_mul, ← pow_succ, ← hw, pow_orderOf_eq_one]
  have h2 : w ^ 2 ^ n ≠ 1 := by
    intro h
    have := orderOf_dvd_of_pow_eq_one h
    rw [hw] at this
    have := Nat.le_of_dvd (Nat.two_pow_pos n) this
    rw [pow_succ] at this
    have := Nat.two_pow_pos n
    omega
  rcases sq_eq_one_iff_of_ne_zero h1 with h | h
  · exact absurd h h2
  · exact h
where
  sq_eq_one_iff_of_ne_zero {x : F} (h : x ^ 2 = 1) : x = 1 ∨ x = -1 := sq_eq_one_iff_of_side h
  sq_eq_one_iff_of_side {x : F} (h : x ^ 2 = 1) : x = 1 ∨ x = -1 := by
    have : (x - 1) * (x + 1) = 0 := by ring_nf; rw [h]; ring
    rcases mul_eq_zero.1 this with h | h
    · left; exact sub_eq_zero.1 h
    · right; exact eq_neg_of_add_eq_zero_left h

/-- C20: for every length `2^k` that has a root of unity `w`, `fft` does not panic and leaves at position `i` the
value at `w^f` of the polynomial whose coefficients were in the slice, `f` being the bit reversal of `i`; this
covers both strategies (lengths below and above 1024). -/
theorem C20_fft (root : Nat → Option F) (hroot : RootFn root) (k : Nat) (hk : k < 64) (w : F)
    (hw : root (2 ^ k) = some w) (v : Slice F) :
    ∃ r, fft root (2 ^ k) v = some r ∧
      (∀ i f, i < 2 ^ k → IsBitRev k i f → r i = ∑ j ∈ Finset.range (2 ^ k), v j * (w ^ f) ^ j) ∧
      ∀ i, 2 ^ k ≤ i → r i = v i := by
  have ho := hroot _ w (Nat.two_pow_pos k) (Nat.pow_lt_pow_right (by norm_num) hk) hw
  obtain ⟨r, h1, h2⟩ := fft_root_spec k hk w (neg_one_of_order k w ho) v
  refine ⟨r, ?_, ?_, ?_⟩
  · unfold fft; rw [hw, Option.bind_some, h1]
  · intro i f hi hf
    rw [h2, if_pos hi, (isBitRev_iff k i f).1 hf]
    apply Finset.sum_congr rfl
    intro j _
    rw [← pow_mul, Nat.mul_comm j]
  · intro i hi
    rw [h2, if_neg (by omega)]

/-- C20: `fft_root` with any root of unity of order `2^k`. -/
theorem C20_fft_root (k : Nat) (hk : k < 64) (w : F) (hw : orderOf w = 2 ^ k) (v : Slice F) :
    ∃ r, fft_root (2 ^ k) v w = some r ∧
      (∀ i f, i < 2 ^ k → IsBitRev k i f → r i = ∑ j ∈ Finset.range (2 ^ k), v j * (w ^ f) ^ j) ∧
      ∀ i, 2 ^ k ≤ i → r i = v i := by
  obtain ⟨r, h1, h2⟩ := fft_root_spec k hk w (neg_one_of_order k w hw) v
  refine ⟨r, h1, ?_, ?_⟩
  · intro i f hi hf
    rw [h2, if_pos hi, (isBitRev_iff k i f).1 hf]
    apply Finset.sum_congr rfl
    intro j _
    rw [← pow_mul, Nat.mul_comm j]
  · intro i hi
    rw [h2, if_neg (by omega)]

/-- C20: the square-root strategy alone, for every length from 2 on (the library uses it from 1024). -/
theorem C20_radix_sqrt (k : Nat) (hk : k < 64) (hk0 : 0 < k) (w : F) (hw : orderOf w = 2 ^ k) (v : Slice F) :
    ∃ r, radix_sqrt (2 ^ k) v w = some r ∧
      (∀ i f, i < 2 ^ k → IsBitRev k i f → r i = ∑ j ∈ Finset.range (2 ^ k), v j * (w ^ f) ^ j) ∧
      ∀ i, 2 ^ k ≤ i → r i = v i := by
  obtain ⟨r, h1, h2⟩ := radix_sqrt_spec k hk hk0 w (neg_one_of_order k w hw hk0) v
  refine ⟨r, h1, ?_, ?_⟩
  · intro i f hi hf
    rw [h2, if_pos hi, (isBitRev_iff k i f).1 hf]
    apply Finset.sum_congr rfl
    intro j _
    rw [← pow_mul, Nat.mul_comm j]
  · intro i hi
    rw [h2, if_neg (by omega)]

/-- C20: `fft_cofactor` evaluates at `c · w^f`. -/
theorem C20_fft_cofactor (root : Nat → Option F) (hroot : RootFn root) (k : Nat) (hk : k < 64) (w : F)
    (hw : root (2 ^ k) = some w) (c : F) (v : Slice F) :
    ∃ r, fft_cofactor root (2 ^ k) v c = some r ∧
      (∀ i f, i < 2 ^ k → IsBitRev k i f → r i = ∑ j ∈ Finset.range (2 ^ k), v j * (c * w ^ f) ^ j) ∧
      ∀ i, 2 ^ k ≤ i → r i = v i := by
  obtain ⟨r, h1, h2, h3⟩ := C20_fft root hroot k hk w hw (shiftLoop (2 ^ k) c v)
  refine ⟨r, h1, ?_, ?_⟩
  · intro i f hi hf
    rw [h2 i f hi hf]
    apply Finset.sum_congr rfl
    intro j hj
    rw [shiftLoop_apply, if_pos (Finset.mem_range.1 hj), mul_pow]; ring
  · intro i hi
    rw [h3 i hi, shiftLoop_apply, if_neg (by omega)]

/-- C20: `clone_shifted` multiplies element `i` by the `i`-th power of the cofactor, in the sequential and in
the chunked parallel version, for every chunk size (hence every number of threads). -/
theorem C20_clone_shifted (len chunk : Nat) (hc : 0 < chunk) (dst source : Slice F) (cofactor : F) (i : Nat) :
    clone_shifted len dst source cofactor i = (if i < len then source i * cofactor ^ i else dst i) ∧
    clone_shifted_par len chunk dst source cofactor i = clone_shifted len dst source cofactor i := by
  have h1 : clone_shifted len dst source cofactor i = (if i < len then source i * cofactor ^ i else dst i) := by
    have := cloneChunk_apply len 1 cofactor dst source i
    rw [one_mul] at this
    exact this
  refine ⟨h1, ?_⟩
  rw [h1]
  unfold clone_shifted_par
  by_cases hi : i < len
  · rw [if_pos hi, if_pos hi]
    have hd := Nat.div_add_mod' i chunk
    have hm := Nat.mod_lt i hc
    dsimp only
    rw [cloneChunk_apply, if_pos (by rw [Nat.lt_min]; omega), hd, ← pow_add, hd]
  · rw [if_neg hi, if_neg hi]

/-- C20: without a root of unity for the length the call panics. -/
theorem C20_no_root (root : Nat → Option F) (n : Nat) (v : Slice F) (h : root n = none) : fft root n v = none := by
  unfold fft; rw [h]; rfl

/-! ## C21 -/

theorem geom_root (n : Nat) (w : F) (hw : orderOf w = n) (m : Nat) (hm : ¬ n ∣ m) :
    ∑ l ∈ Finset.range n, (w ^ m) ^ l = 0 := by
  have h1 : w ^ m ≠ 1 := by
    intro h
    exact hm (hw ▸ orderOf_dvd_of_pow_eq_one h)
  have h2 : (w ^ m) ^ n = 1 := by rw [← pow_mul, Nat.mul_comm, pow_mul, ← hw, pow_orderOf_eq_one, one_pow]
  have h3 := geom_sum_mul (w ^ m) n
  rw [h2, sub_self] at h3
  rcases mul_eq_zero.1 h3 with h | h
  · exact h
  · exact absurd (sub_eq_zero.1 h) h1

theorem two_pow_ne_zero (k : Nat) (w : F) (hw : orderOf w = 2 ^ k) : ((2 ^ k : Nat) : F) ≠ 0 := by
  rcases Nat.eq_zero_or_pos k with h | h
  · subst h; simp
  · rw [Nat.cast_pow]
    apply pow_ne_zero
    intro h2
    have h3 := neg_one_of_order k w hw h
    have h4 : (-1 : F) = 1 := by
      have : (1 : F) + 1 = 0 := by rw [one_add_one_eq_two]; exact_mod_cast h2
      exact (eq_neg_of_add_eq_zero_left this).symm
    rw [h4] at h3
    have := orderOf_dvd_of_pow_eq_one h3
    rw [hw] at this
    have h5 := Nat.le_of_dvd (Nat.two_pow_pos _) this
    have h6 : 2 ^ (k - 1) < 2 ^ k := Nat.pow_lt_pow_right (by norm_num) (by omega)
    omega

theorem ifft_spec (root : Nat → Option F) (hroot : RootFn root) (k : Nat) (hk : k < 64) (w : F)
    (hw : root (2 ^ k) = some w) (v : Slice F) :
    ∃ r, ifft root (2 ^ k) v = some r ∧ ∀ x, r x = if x < 2 ^ k then
      (∑ j ∈ Finset.range (2 ^ k), v j * (w ^ (2 ^ k - 1)) ^ (j * rev k x)) * ((2 ^ k : Nat) : F)⁻¹ else v x := by
  have ho := hroot _ w (Nat.two_pow_pos k) (Nat.pow_lt_pow_right (by norm_num) hk) hw
  have hω : 0 < k → (w ^ (2 ^ k - 1)) ^ 2 ^ (k - 1) = -1 := by
    intro h
    rw [← pow_mul, Nat.mul_comm, pow_mul, neg_one_of_order k w ho h]
    apply Odd.neg_one_pow
    obtain ⟨n, rfl⟩ : ∃ n, k = n + 1 := ⟨k - 1, by omega⟩
    have := Nat.two_pow_pos n
    exact ⟨2 ^ n - 1, by rw [pow_succ]; omega⟩
  obtain ⟨r, h1, h2⟩ := fft_root_spec k hk (w ^ (2 ^ k - 1)) hω v
  refine ⟨fun i => if i < 2 ^ k then r i * ((2 ^ k : Nat) : F)⁻¹ else r i, ?_, ?_⟩
  · unfold ifft finv
    rw [hw, Option.bind_some, if_neg (two_pow_ne_zero k w ho), Option.bind_some, h1, Option.map_some]
  · intro x
    dsimp only
    by_cases h : x < 2 ^ k
    · rw [if_pos h, if_pos h, h2, if_pos h]
    · rw [if_neg h, if_neg h, h2, if_neg h]

/-- C21: `ifft` leaves at position `i` the value at `w^(-f)` divided by the length. -/
theorem C21_ifft (root : Nat → Option F) (hroot : RootFn root) (k : Nat) (hk : k < 64) (w : F)
    (hw : root (2 ^ k) = some w) (v : Slice F) :
    ∃ r, ifft root (2 ^ k) v = some r ∧
      (∀ i f, i < 2 ^ k → IsBitRev k i f →
        r i = (∑ j ∈ Finset.range (2 ^ k), v j * ((w ^ f)⁻¹) ^ j) / (2 : F) ^ k) ∧
      ∀ i, 2 ^ k ≤ i → r i = v i := by
  have ho := hroot _ w (Nat.two_pow_pos k) (Nat.pow_lt_pow_right (by norm_num) hk) hw
  obtain ⟨r, h1, h2⟩ := ifft_spec root hroot k hk w hw v
  have hinv : w ^ (2 ^ k - 1) = w⁻¹ := by
    rw [← ho]
    apply eq_inv_of_mul_eq_one_left
    rw [← pow_succ, Nat.sub_add_cancel (by rw [ho]; exact Nat.two_pow_pos k), pow_orderOf_eq_one]
  refine ⟨r, h1, ?_, ?_⟩
  · intro i f hi hf
    rw [h2, if_pos hi, (isBitRev_iff k i f).1 hf, div_eq_mul_inv, hinv]
    congr 1
    · apply Finset.sum_congr rfl
      intro j _
      rw [← inv_pow, ← pow_mul, Nat.mul_comm j]
    · push_cast; rfl
  · intro i hi; rw [h2, if_neg (by omega)]

theorem roundtrip_sum (k : Nat) (w : F) (ho : orderOf w = 2 ^ k) (a b : Nat) (hab : a + b = 2 ^ k)
    (ha : Nat.Coprime a (2 ^ k)) (v : Slice F) (i : Nat) (hi : i < 2 ^ k) :
    (∑ l ∈ Finset.range (2 ^ k), (∑ j ∈ Finset.range (2 ^ k), v j * (w ^ a) ^ (j * l)) * (w ^ b) ^ (l * i))
      * ((2 ^ k : Nat) : F)⁻¹ = v i := by
  have hsw : ∑ l ∈ Finset.range (2 ^ k), (∑ j ∈ Finset.range (2 ^ k), v j * (w ^ a) ^ (j * l)) * (w ^ b) ^ (l * i)
      = ∑ j ∈ Finset.range (2 ^ k), v j * ∑ l ∈ Finset.range (2 ^ k), (w ^ (a * j + b * i)) ^ l := by
    simp_rw [Finset.sum_mul, Finset.mul_sum]
    rw [Finset.sum_comm]
    apply Finset.sum_congr rfl
    intro j _
    apply Finset.sum_congr rfl
    intro l _
    rw [mul_assoc, ← pow_mul, ← pow_mul, ← pow_mul, ← pow_add]
    congr 2; ring
  rw [hsw, Finset.sum_eq_single i]
  · have : w ^ (a * i + b * i) = 1 := by
      rw [← Nat.add_mul, hab, pow_mul, ← ho, pow_orderOf_eq_one, one_pow]
    rw [this]
    simp only [one_pow, Finset.sum_const, Finset.card_range, nsmul_eq_mul, mul_one]
    rw [mul_assoc, mul_inv_cancel₀ (two_pow_ne_zero k w ho), mul_one]
  · intro j hj hne
    rw [geom_root (2 ^ k) w ho, mul_zero]
    intro hdvd
    have hj := Finset.mem_range.1 hj
    apply hne
    -- a j + b i ≡ a (j - i)
    have h1 : ((2 ^ k : Nat) : ℤ) ∣ (a : ℤ) * ((j : ℤ) - i) := by
      have e : (a : ℤ) * ((j : ℤ) - i) = ((a * j + b * i : Nat) : ℤ) - ((2 ^ k : Nat) : ℤ) * i := by
        rw [← hab]; push_cast; ring
      rw [e]
      exact dvd_sub (Int.natCast_dvd_natCast.2 hdvd) (dvd_mul_right _ _)
    have h2 : ((2 ^ k : Nat) : ℤ) ∣ ((j : ℤ) - i) := by
      apply IsCoprime.dvd_of_dvd_mul_left _ h1
      exact (Nat.isCoprime_iff_coprime.2 ha).symm
    have h3 := Int.eq_zero_of_abs_lt_dvd h2 (by rw [abs_lt]; constructor <;> omega)
    omega
  · intro h; exact absurd (Finset.mem_range.2 hi) h

theorem coprime_pred (k : Nat) : Nat.Coprime (2 ^ k - 1) (2 ^ k) := by
  have h := Nat.two_pow_pos k
  have : Nat.Coprime (2 ^ k - 1) (2 ^ k - 1 + 1) := by simp
  rwa [Nat.sub_add_cancel h] at this

/-- C21: interpolation inverts evaluation: `fft`, reorder, `ifft`, reorder gives back the slice. -/
theorem C21_ifft_fft (root : Nat → Option F) (hroot : RootFn root) (k : Nat) (hk : k < 64) (w : F)
    (hw : root (2 ^ k) = some w) (v : Slice F) :
    ∃ a b, fft root (2 ^ k) v = some a ∧ ifft root (2 ^ k) (permute (2 ^ k) a) = some b ∧
      permute (2 ^ k) b = v := by
  have ho := hroot _ w (Nat.two_pow_pos k) (Nat.pow_lt_pow_right (by norm_num) hk) hw
  obtain ⟨a, h1, h2⟩ := fft_root_spec k hk w (neg_one_of_order k w ho) v
  obtain ⟨b, h3, h4⟩ := ifft_spec root hroot k hk w hw (permute (2 ^ k) a)
  refine ⟨a, b, by unfold fft; rw [hw, Option.bind_some, h1], h3, ?_⟩
  funext i
  rw [permute_eq k hk]
  split
  · next hi =>
    rw [h4, if_pos (rev_lt k i), rev_rev k i hi]
    rw [← roundtrip_sum k w ho 1 (2 ^ k - 1) (by have := Nat.two_pow_pos k; omega) (by simp) v i hi]
    congr 1
    apply Finset.sum_congr rfl
    intro l hl
    have hl := Finset.mem_range.1 hl
    rw [permute_eq k hk, if_pos hl, h2, if_pos (rev_lt k l), rev_rev k l hl, pow_one]
  · next hi =>
    rw [h4, if_neg hi, permute_eq k hk, if_neg hi, h2, if_neg hi]

/-- C21: evaluation inverts interpolation. -/
theorem C21_fft_ifft (root : Nat → Option F) (hroot : RootFn root) (k : Nat) (hk : k < 64) (w : F)
    (hw : root (2 ^ k) = some w) (v : Slice F) :
    ∃ a b, ifft root (2 ^ k) v = some a ∧ fft root (2 ^ k) (permute (2 ^ k) a) = some b ∧
      permute (2 ^ k) b = v := by
  have ho := hroot _ w (Nat.two_pow_pos k) (Nat.pow_lt_pow_right (by norm_num) hk) hw
  obtain ⟨a, h3, h4⟩ := ifft_spec root hroot k hk w hw v
  obtain ⟨b, h1, h2⟩ := fft_root_spec k hk w (neg_one_of_order k w ho) (permute (2 ^ k) a)
  refine ⟨a, b, h3, by unfold fft; rw [hw, Option.bind_some, h1], ?_⟩
  funext i
  rw [permute_eq k hk]
  split
  · next hi =>
    rw [h2, if_pos (rev_lt k i), rev_rev k i hi]
    rw [← roundtrip_sum k w ho (2 ^ k - 1) 1 (by have := Nat.two_pow_pos k; omega) (coprime_pred k) v i hi,
      Finset.sum_mul]
    apply Finset.sum_congr rfl
    intro l hl
    have hl := Finset.mem_range.1 hl
    rw [permute_eq k hk, if_pos hl, h4, if_pos (rev_lt k l), rev_rev k l hl, pow_one]
    ring
  · next hi =>
    rw [h2, if_neg hi, permute_eq k hk, if_neg hi, h4, if_neg hi]

/-- C21 for the shifted transform, as far as it goes: `ifft_cofactor` multiplies position `i` of the result of
`ifft` — which holds the coefficient of the bit reversal of `i` — by the `-i`-th power of the cofactor.  To undo
`fft_cofactor` the exponent would have to be the bit reversal of `i`; see `C21_ifft_cofactor_violated`. -/
theorem C21_ifft_cofactor_partial (root : Nat → Option F) (hroot : RootFn root) (k : Nat) (hk : k < 64) (w : F)
    (hw : root (2 ^ k) = some w) (c : F) (hc : c ≠ 0) (v : Slice F) :
    ∃ a b, ifft root (2 ^ k) v = some a ∧ ifft_cofactor root (2 ^ k) v c = some b ∧
      ∀ i, b i = if i < 2 ^ k then a i * (c⁻¹) ^ i else a i := by
  obtain ⟨a, h1, _⟩ := ifft_spec root hroot k hk w hw v
  refine ⟨a, shiftLoop (2 ^ k) c⁻¹ a, h1, ?_, ?_⟩
  · unfold ifft_cofactor finv
    rw [h1, Option.bind_some, if_neg hc]; rfl
  · intro i
    exact shiftLoop_apply _ _ _ _

end

/-- a `root` for the field with five elements -/
def root5 : Nat → Option (ZMod 5)
  | 1 => some 1
  | 2 => some 4
  | 4 => some 2
  | _ => none

instance : Fact (Nat.Prime 5) := ⟨by norm_num⟩

theorem root5_ok : RootFn root5 := by
  intro n w hn _ h
  unfold root5 at h
  split at h
  · rw [Option.some.injEq] at h; rw [← h, orderOf_one]
  · rw [Option.some.injEq] at h
    rw [← h, orderOf_eq_iff (by norm_num)]
    refine ⟨by decide, ?_⟩
    intro m h1 h2
    interval_cases m
    decide
  · rw [Option.some.injEq] at h
    rw [← h, orderOf_eq_iff (by norm_num)]
    refine ⟨by decide, ?_⟩
    intro m h1 h2
    interval_cases m <;> decide
  · cases h

/-- C21, the shifted inverse is not an inverse: `ifft_cofactor` shifts in the wrong order, so that already for
length 4 undoing `fft_cofactor` with it (reordering as for `ifft`) does not restore the slice. -/
theorem C21_ifft_cofactor_violated :
    ∃ (v : Slice (ZMod 5)) (c : ZMod 5) (a b : Slice (ZMod 5)), c ≠ 0 ∧
      fft_cofactor root5 4 v c = some a ∧ ifft_cofactor root5 4 (permute 4 a) c = some b ∧
      ∃ i < 4, permute 4 b i ≠ v i := by
  refine ⟨fun i => if i = 1 then 1 else 0, 2, _, _, by decide, rfl, rfl, 1, by norm_num, ?_⟩
  decide +kernel

instance baseFact : Fact (Nat.Prime PF.BASE.modulus.toNat) := ⟨base_ok.prime⟩

/-- `PrimeField::root` on the base field, read in `ℤ/p` -/
def baseRoot (n : Nat) : Option (ZMod PF.BASE.modulus.toNat) :=
  (PF.root PF.BASE (UInt64.ofNat n)).map fun w => (nat PF.BASE w : ZMod PF.BASE.modulus.toNat)

/-- The transforms of C20 and C21 apply to the base field of the library: `PrimeField::root` is a root function
and is defined for every machine-word power of two. -/
theorem C20_base_field : RootFn baseRoot ∧ ∀ k < 64, ∃ w, baseRoot (2 ^ k) = some w := by
  constructor
  · intro n w hn hn2 h
    have hto : (UInt64.ofNat n).toNat = n := by
      rw [UInt64.toNat_ofNat']; exact Nat.mod_eq_of_lt hn2
    have := C15_root PF.BASE base_ok (UInt64.ofNat n) (by rw [hto]; exact hn)
    rw [hto] at this
    unfold baseRoot at h
    by_cases hd : n ∣ PF.BASE.modulus.toNat - 1
    · obtain ⟨u, h1, _, h3⟩ := this.1 hd
      rw [h1, Option.map_some, Option.some.injEq] at h
      rw [← h]; exact h3
    · rw [this.2 hd] at h; cases h
  · intro k hk
    have hto : (UInt64.ofNat (2 ^ k)).toNat = 2 ^ k := by
      rw [UInt64.toNat_ofNat']; exact Nat.mod_eq_of_lt (Nat.pow_lt_pow_right (by norm_num) hk)
    have := C15_root PF.BASE base_ok (UInt64.ofNat (2 ^ k)) (by rw [hto]; exact Nat.two_pow_pos k)
    rw [hto] at this
    have hd : 2 ^ k ∣ PF.BASE.modulus.toNat - 1 := by
      have h1 : 2 ^ 192 ∣ PF.BASE.modulus.toNat - 1 := by decide +kernel
      exact dvd_trans (pow_dvd_pow 2 (by omega)) h1
    obtain ⟨u, h1, _⟩ := this.1 hd
    exact ⟨_, by unfold baseRoot; rw [h1]; rfl⟩

example : ∃ w, baseRoot (2 ^ 20) = some w := C20_base_field.2 20 (by norm_num)
example : RootFn root5 ∧ root5 (2 ^ 2) = some 2 := ⟨root5_ok, rfl⟩

end OpenZKP.Props
