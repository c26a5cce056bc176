import Verif.FFT.Small
import Verif.Props.FFT

/-!
# Property C20, for the transforms of two, four and eight values of `fft::small`

`IsBitRev` is defined in `Props/FFT.lean`.
-/

namespace OpenZKP.Props
open OpenZKP FFT

namespace FFTSmall

section
variable {F : Type} [CommRing F]

/-- the places a transform of stride `stride` at `offset` works on -/
def view (offset stride : Nat) (v : Slice F) : Slice F := fun i => v (offset + i * stride)

theorem view_set {offset stride : Nat} (hs : 0 < stride) (v : Slice F) (a : Nat) (x : F) :
    view offset stride (FFT.set v (offset + a * stride) x) = FFT.set (view offset stride v) a x := by
  funext i
  unfold view FFT.set
  by_cases h : i = a
  · rw [if_pos h, h, if_pos rfl]
  · rw [if_neg h, if_neg]
    intro e
    exact h (Nat.eq_of_mul_eq_mul_right hs (by omega))

theorem view_radix_2 {offset stride : Nat} (hs : 0 < stride) (m : Nat) (v : Slice F) (a : Nat) :
    view offset stride (radix_2 (m * stride) v (offset + a * stride)) = radix_2 m (view offset stride v) a := by
  unfold radix_2
  simp only
  rw [show offset + a * stride + m * stride = offset + (a + m) * stride by ring, view_set hs, view_set hs]
  have e : (FFT.set v (offset + a * stride) (v (offset + a * stride) + v (offset + (a + m) * stride))) (offset + (a + m) * stride) =
      view offset stride (FFT.set v (offset + a * stride) (v (offset + a * stride) + v (offset + (a + m) * stride))) (a + m) := rfl
  rw [e, view_set hs]
  rfl

theorem view_mulAt {offset stride : Nat} (hs : 0 < stride) (v : Slice F) (a : Nat) (x : F) :
    view offset stride (mulAt v (offset + a * stride) x) = mulAt (view offset stride v) a x := by
  unfold mulAt
  rw [view_set hs]
  rfl

theorem view_radix_4 {offset stride : Nat} (hs : 0 < stride) (tw : Slice F) (m : Nat) (v : Slice F) (a : Nat) :
    view offset stride (radix_4 tw (m * stride) v (offset + a * stride)) = radix_4 tw m (view offset stride v) a := by
  unfold radix_4
  simp only
  rw [show 2 * (m * stride) = (2 * m) * stride by ring, show offset + a * stride + m * stride = offset + (a + m) * stride by ring,
    show offset + a * stride + 3 * (m * stride) = offset + (a + 3 * m) * stride by ring,
    show offset + a * stride + 2 * m * stride = offset + (a + 2 * m) * stride by ring,
    view_radix_2 hs, view_radix_2 hs, view_mulAt hs, view_radix_2 hs, view_radix_2 hs]

theorem view_radix_8 {offset stride : Nat} (hs : 0 < stride) (tw : Slice F) (v : Slice F) :
    view offset stride (radix_8 tw stride v offset) = radix_8 tw 1 (view offset stride v) 0 := by
  unfold radix_8
  simp only
  conv_lhs =>
    rw [show offset + stride = offset + 1 * stride by ring]
  have r2 : ∀ (v : Slice F) k, view offset stride (radix_2 stride v (offset + k * stride)) = radix_2 1 (view offset stride v) k := fun (v : Slice F) k => by
    have := view_radix_2 (offset := offset) hs 1 v k
    rwa [Nat.one_mul] at this
  have r2' : ∀ (v : Slice F), view offset stride (radix_2 stride v offset) = radix_2 1 (view offset stride v) 0 := fun (v : Slice F) => by
    have := r2 v 0
    rwa [Nat.zero_mul, Nat.add_zero] at this
  have r4' : ∀ (v : Slice F), view offset stride (radix_4 tw (2 * stride) v offset) = radix_4 tw 2 (view offset stride v) 0 := fun (v : Slice F) => by
    have := view_radix_4 (offset := offset) hs tw 2 v 0
    rwa [Nat.zero_mul, Nat.add_zero] at this
  rw [r2, r2, r2, r2', view_mulAt hs, view_mulAt hs, view_mulAt hs, view_radix_4 hs, r4']

/-- what a transform does not write -/
theorem radix_2_other (m : Nat) (v : Slice F) (i a : Nat) (h : a ≠ i) (h' : a ≠ i + m) : radix_2 m v i a = v a := by
  simp [radix_2, FFT.set, h, h']

theorem mulAt_other (v : Slice F) (i a : Nat) (x : F) (h : a ≠ i) : mulAt v i x a = v a := by
  simp [mulAt, FFT.set, h]

theorem radix_4_other (tw : Slice F) (m : Nat) (v : Slice F) (i a : Nat) (h : ∀ k < 4, a ≠ i + k * m) : radix_4 tw m v i a = v a := by
  have h0 := h 0 (by omega); have h1 := h 1 (by omega); have h2 := h 2 (by omega); have h3 := h 3 (by omega)
  unfold radix_4
  rw [radix_2_other _ _ _ _ (by omega) (by omega), radix_2_other _ _ _ _ (by omega) (by omega), mulAt_other _ _ _ _ (by omega),
    radix_2_other _ _ _ _ (by omega) (by omega), radix_2_other _ _ _ _ (by omega) (by omega)]

theorem radix_8_other (tw : Slice F) (m : Nat) (v : Slice F) (i a : Nat) (h : ∀ k < 8, a ≠ i + k * m) : radix_8 tw m v i a = v a := by
  have h0 := h 0 (by omega); have h1 := h 1 (by omega); have h2 := h 2 (by omega); have h3 := h 3 (by omega)
  have h4 := h 4 (by omega); have h5 := h 5 (by omega); have h6 := h 6 (by omega); have h7 := h 7 (by omega)
  unfold radix_8
  rw [radix_2_other _ _ _ _ (by omega) (by omega), radix_2_other _ _ _ _ (by omega) (by omega), radix_2_other _ _ _ _ (by omega) (by omega),
    radix_2_other _ _ _ _ (by omega) (by omega), mulAt_other _ _ _ _ (by omega), mulAt_other _ _ _ _ (by omega), mulAt_other _ _ _ _ (by omega),
    radix_4_other _ _ _ _ _ (fun k hk => ?_), radix_4_other _ _ _ _ _ (fun k hk => ?_)]
  all_goals interval_cases k <;> omega

end

variable {F : Type} [Field F] [DecidableEq F]

omit [DecidableEq F] in
theorem twiddle4 (w : F) : get_twiddles w 4 1 = w := by
  have := permute_eq 1 (by norm_num) (fun i => w ^ i) 1
  unfold get_twiddles
  rw [show 4 / 2 = 2 ^ 1 by norm_num, this, if_pos (by norm_num), show rev 1 1 = 1 by decide, pow_one]

omit [DecidableEq F] in
theorem twiddle8 (w : F) : get_twiddles w 8 1 = w ^ 2 ∧ get_twiddles w 8 2 = w ∧ get_twiddles w 8 3 = w ^ 3 := by
  unfold get_twiddles
  rw [show 8 / 2 = 2 ^ 2 by norm_num]
  refine ⟨?_, ?_, ?_⟩ <;> rw [permute_eq 2 (by norm_num), if_pos (by norm_num)]
  · rw [show rev 2 1 = 2 by decide]
  · rw [show rev 2 2 = 1 by decide, pow_one]
  · rw [show rev 2 3 = 3 by decide]

omit [DecidableEq F] in
/-- C20: `radix_2` replaces two values by the values at `1` and `-1`. -/
theorem C20_radix_2 (v : Slice F) (offset stride : Nat) (hs : 0 < stride) :
    radix_2 stride v offset offset = v offset + v (offset + stride) ∧ radix_2 stride v offset (offset + stride) = v offset - v (offset + stride) ∧
    ∀ a, a ≠ offset → a ≠ offset + stride → radix_2 stride v offset a = v a := by
  refine ⟨?_, ?_, fun a => radix_2_other _ _ _ _⟩
  · simp [radix_2, FFT.set, hs.ne']
  · simp [radix_2, FFT.set, hs.ne']

/-- C20: `radix_4`, with the twiddles of a fourth root of unity, replaces the four values at `offset`, `offset + stride`, … by the values of the polynomial
with these coefficients at the powers of the root, in bit-reversed order, and changes nothing else. -/
theorem C20_radix_4 (w : F) (hw : orderOf w = 4) (v : Slice F) (offset stride : Nat) (hs : 0 < stride) :
    (∀ i f, i < 4 → IsBitRev 2 i f →
      radix_4 (get_twiddles w 4) stride v offset (offset + i * stride) = ∑ j ∈ Finset.range 4, v (offset + j * stride) * (w ^ f) ^ j) ∧
    ∀ a, (∀ i < 4, a ≠ offset + i * stride) → radix_4 (get_twiddles w 4) stride v offset a = v a := by
  have w2 : w ^ 2 = -1 := neg_one_of_order 2 w hw (by norm_num)
  have w4 : w ^ 4 = 1 := by rw [← hw, pow_orderOf_eq_one]
  refine ⟨fun i f hi hf => ?_, radix_4_other _ _ _ _⟩
  have e := view_radix_4 (offset := offset) hs (get_twiddles w 4) 1 v 0
  rw [Nat.one_mul, Nat.zero_mul, Nat.add_zero] at e
  change view offset stride (radix_4 (get_twiddles w 4) stride v offset) i = ∑ j ∈ Finset.range 4, view offset stride v j * (w ^ f) ^ j
  rw [e, (isBitRev_iff 2 i f).1 hf]
  generalize view offset stride v = u
  simp only [Finset.sum_range_succ, Finset.sum_range_zero]
  have w3 : w ^ 3 = -w := by rw [pow_succ, w2]; ring
  have w6 : w ^ 6 = -1 := by rw [show w ^ 6 = w ^ 4 * w ^ 2 by ring, w4, w2]; ring
  have w9 : w ^ 9 = w := by rw [show w ^ 9 = w ^ 4 * w ^ 4 * w by ring, w4]; ring
  interval_cases i
  · simp [radix_4, radix_2, mulAt, FFT.set, twiddle4, show rev 2 0 = 0 by decide]; ring
  · simp [radix_4, radix_2, mulAt, FFT.set, twiddle4, show rev 2 1 = 2 by decide, ← pow_mul, w2, w4, w6]; ring
  · simp [radix_4, radix_2, mulAt, FFT.set, twiddle4, show rev 2 2 = 1 by decide, ← pow_mul, w2, w3]; ring
  · simp [radix_4, radix_2, mulAt, FFT.set, twiddle4, show rev 2 3 = 3 by decide, ← pow_mul, w3, w6, w9]; ring_nf; simp only [w2, w3]; ring

/-- C20: `radix_8`, with the twiddles of an eighth root of unity, likewise. -/
theorem C20_radix_8 (w : F) (hw : orderOf w = 8) (v : Slice F) (offset stride : Nat) (hs : 0 < stride) :
    (∀ i f, i < 8 → IsBitRev 3 i f →
      radix_8 (get_twiddles w 8) stride v offset (offset + i * stride) = ∑ j ∈ Finset.range 8, v (offset + j * stride) * (w ^ f) ^ j) ∧
    ∀ a, (∀ i < 8, a ≠ offset + i * stride) → radix_8 (get_twiddles w 8) stride v offset a = v a := by
  have w4 : w ^ 4 = -1 := neg_one_of_order 3 w hw (by norm_num)
  refine ⟨fun i f hi hf => ?_, radix_8_other _ _ _ _⟩
  change view offset stride (radix_8 (get_twiddles w 8) stride v offset) i = ∑ j ∈ Finset.range 8, view offset stride v j * (w ^ f) ^ j
  rw [view_radix_8 hs, (isBitRev_iff 3 i f).1 hf]
  generalize view offset stride v = u
  obtain ⟨t1, t2, t3⟩ := twiddle8 w
  have red : ∀ n, w ^ n = (if n / 4 % 2 = 0 then 1 else -1) * w ^ (n % 4) := fun n => by
    conv_lhs => rw [← Nat.div_add_mod n 4, pow_add, pow_mul, w4]
    congr 1
    split
    · next h => exact Even.neg_one_pow (Nat.even_iff.2 h)
    · next h => exact Odd.neg_one_pow (Nat.odd_iff.2 (by omega))
  simp only [Finset.sum_range_succ, Finset.sum_range_zero]
  interval_cases i
  · simp [radix_8, radix_4, radix_2, mulAt, FFT.set, t1, t2, t3, show rev 3 0 = 0 by decide, ← pow_mul]
    ring_nf
    try simp only [red 4, red 5, red 6, red 7]; norm_num; try ring
  · simp [radix_8, radix_4, radix_2, mulAt, FFT.set, t1, t2, t3, show rev 3 1 = 4 by decide, ← pow_mul]
    rw [red 4, red 8, red 12, red 16, red 20, red 24, red 28]
    norm_num
    ring_nf
    try simp only [red 4, red 5, red 6, red 7]; norm_num; try ring
  · simp [radix_8, radix_4, radix_2, mulAt, FFT.set, t1, t2, t3, show rev 3 2 = 2 by decide, ← pow_mul]
    rw [red 4, red 6, red 8, red 10, red 12, red 14]
    norm_num
    ring_nf
    try simp only [red 4, red 5, red 6, red 7]; norm_num; try ring
  · simp [radix_8, radix_4, radix_2, mulAt, FFT.set, t1, t2, t3, show rev 3 3 = 6 by decide, ← pow_mul]
    rw [red 6, red 12, red 18, red 24, red 30, red 36, red 42]
    norm_num
    ring_nf
    try simp only [red 4, red 5, red 6, red 7]; norm_num; try ring
  · simp [radix_8, radix_4, radix_2, mulAt, FFT.set, t1, t2, t3, show rev 3 4 = 1 by decide, ← pow_mul]
    rw [red 4, red 5, red 6, red 7]
    norm_num
    ring_nf
    try simp only [red 4, red 5, red 6, red 7]; norm_num; try ring
  · simp [radix_8, radix_4, radix_2, mulAt, FFT.set, t1, t2, t3, show rev 3 5 = 5 by decide, ← pow_mul]
    rw [red 5, red 10, red 15, red 20, red 25, red 30, red 35]
    norm_num
    ring_nf
    try simp only [red 4, red 5, red 6, red 7]; norm_num; try ring
  · simp [radix_8, radix_4, radix_2, mulAt, FFT.set, t1, t2, t3, show rev 3 6 = 3 by decide, ← pow_mul]
    rw [red 6, red 9, red 12, red 15, red 18, red 21]
    norm_num
    ring_nf
    try simp only [red 4, red 5, red 6, red 7]; norm_num; try ring
  · simp [radix_8, radix_4, radix_2, mulAt, FFT.set, t1, t2, t3, show rev 3 7 = 7 by decide, ← pow_mul]
    rw [red 7, red 14, red 21, red 28, red 35, red 42, red 49]
    norm_num
    ring_nf
    try simp only [red 4, red 5, red 6, red 7]; norm_num; try ring

/-- Non-vacuous: 4 and 2 have order 4 and 8 modulo 17; the transform of eight values with stride 3 leaves at place 5 the value at `2 ^ 5`. -/
example : orderOf (4 : ZMod 17) = 4 ∧ orderOf (2 : ZMod 17) = 8 ∧
    ∀ v : Slice (ZMod 17), radix_8 (get_twiddles 2 8) 3 v 10 (10 + 5 * 3) = ∑ j ∈ Finset.range 8, v (10 + j * 3) * (2 ^ 5) ^ j := by
  have a1 : ¬ (4 : ZMod 17) ^ 2 ^ 1 = 1 := by decide
  have a2 : (4 : ZMod 17) ^ 2 ^ (1 + 1) = 1 := by decide
  have b1 : ¬ (2 : ZMod 17) ^ 2 ^ 2 = 1 := by decide
  have b2 : (2 : ZMod 17) ^ 2 ^ (2 + 1) = 1 := by decide
  haveI : Fact (Nat.Prime 17) := ⟨by norm_num⟩
  have h4 : orderOf (4 : ZMod 17) = 2 ^ (1 + 1) := orderOf_eq_prime_pow a1 a2
  have h8 : orderOf (2 : ZMod 17) = 2 ^ (2 + 1) := orderOf_eq_prime_pow b1 b2
  refine ⟨h4, h8, fun v => (C20_radix_8 (2 : ZMod 17) h8 v 10 3 (by norm_num)).1 5 5 (by norm_num) ?_⟩
  rw [isBitRev_iff]
  decide

end FFTSmall
end OpenZKP.Props
