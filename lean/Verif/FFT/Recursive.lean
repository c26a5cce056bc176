import Verif.FFT.Transpose
import Mathlib.Tactic.Abel
import Mathlib.Algebra.BigOperators.Ring.Finset

/-! # The recursive FFT computes the discrete Fourier transform in bit-reversed order (lemmas) -/

namespace OpenZKP.FFT

variable {F : Type} [CommRing F]

/-- the effect of one butterfly -/
theorem radix_2_twiddle_apply (t : F) (s : Nat) (v : Slice F) (i x : Nat) (hs : 0 < s) :
    radix_2_twiddle t s v i x =
      if x = i then v i + t * v (i + s) else if x = i + s then v i - t * v (i + s) else v x := by
  unfold radix_2_twiddle set
  by_cases h1 : x = i
  · subst h1
    rw [if_neg (by omega), if_pos rfl, if_pos rfl, if_pos rfl]; ring
  · by_cases h2 : x = i + s
    · subst h2
      rw [if_pos rfl, if_neg (by omega), if_pos rfl, if_neg (by omega), if_pos rfl]; ring
    · rw [if_neg h2, if_neg h1, if_neg h2, if_neg h1, if_neg h2]

theorem radix_2_apply (s : Nat) (v : Slice F) (i x : Nat) (hs : 0 < s) :
    radix_2 s v i x =
      if x = i then v i + v (i + s) else if x = i + s then v i - v (i + s) else v x := by
  unfold radix_2 set
  by_cases h1 : x = i
  · subst h1
    rw [if_neg (by omega), if_pos rfl, if_pos rfl]
  · by_cases h2 : x = i + s
    · subst h2
      rw [if_pos rfl, if_neg (by omega), if_neg (by omega), if_pos rfl]
    · rw [if_neg h2, if_neg h1, if_neg h1, if_neg h2]

theorem radix_2_eq (s : Nat) (hs : 0 < s) (v : Slice F) (i : Nat) : radix_2 s v i = radix_2_twiddle 1 s v i := by
  funext x
  rw [radix_2_apply s v i x hs, radix_2_twiddle_apply 1 s v i x hs, one_mul]

/-- a run of `c ≤ s` butterflies starting at `b` -/
theorem run_apply (t : F) (s b c : Nat) (hs : 0 < s) (hc : c ≤ s) (v : Slice F) (x : Nat) :
    (List.range' b c).foldl (radix_2_twiddle t s) v x =
      if b ≤ x ∧ x < b + c then v x + t * v (x + s)
      else if b + s ≤ x ∧ x < b + s + c then v (x - s) - t * v x
      else v x := by
  induction c generalizing x with
  | zero =>
    rw [if_neg (by omega), if_neg (by omega)]; rfl
  | succ c ih =>
    have e1 := ih (by omega) (b + c)
    have e2 := ih (by omega) (b + c + s)
    rw [if_neg (by omega), if_neg (by omega)] at e1 e2
    rw [List.range'_concat, List.foldl_append, List.foldl_cons, List.foldl_nil,
      radix_2_twiddle_apply t s _ _ _ hs, Nat.one_mul, e1, e2, ih (by omega)]
    by_cases h1 : x = b + c
    · subst h1
      rw [if_pos rfl, if_pos (by omega)]
    · rw [if_neg h1]
      by_cases h2 : x = b + c + s
      · subst h2
        rw [if_pos rfl, if_neg (by omega), if_pos (by omega), Nat.add_sub_cancel]
      · rw [if_neg h2]
        by_cases h3 : b ≤ x ∧ x < b + c
        · rw [if_pos h3, if_pos (by omega)]
        · rw [if_neg h3, if_neg (show ¬(b ≤ x ∧ x < b + (c + 1)) by omega)]
          by_cases h4 : b + s ≤ x ∧ x < b + s + c
          · rw [if_pos h4, if_pos (by omega)]
          · rw [if_neg h4, if_neg (by omega)]

/-- all blocks: position `x` in block `x / 2s` -/
theorem blocks_apply (tw : Slice F) (o c s m : Nat) (hs : 0 < s) (hc : o + c ≤ s) (v : Slice F) (x : Nat) :
    (List.range m).foldl (outerStep tw o c s) v x =
      if x < 2 * s * m then
        if o ≤ x % (2 * s) ∧ x % (2 * s) < o + c then v x + tw (x / (2 * s)) * v (x + s)
        else if o + s ≤ x % (2 * s) ∧ x % (2 * s) < o + s + c then v (x - s) - tw (x / (2 * s)) * v x
        else v x
      else v x := by
  induction m generalizing x with
  | zero => simp
  | succ m ih =>
    rw [List.range_succ, List.foldl_append, List.foldl_cons, List.foldl_nil]
    unfold outerStep
    rw [run_apply _ _ _ _ hs (by omega)]
    have hx := Nat.div_add_mod x (2 * s)
    have hr := Nat.mod_lt x (show 2 * s > 0 by omega)
    have hms : 2 * s * (m + 1) = 2 * s * m + 2 * s := by ring
    have hsteps : ∀ y, 2 * s * m ≤ y → (List.range m).foldl (outerStep tw o c s) v y = v y := by
      intro y hy
      rw [ih, if_neg (by omega)]
    unfold outerStep at hsteps
    by_cases h1 : x < 2 * s * m
    · rw [if_neg (by omega), if_neg (by omega)]
      have := ih x
      unfold outerStep at this
      rw [this, if_pos h1, if_pos (show x < 2 * s * (m + 1) by omega)]
    · by_cases h2 : x < 2 * s * (m + 1)
      · have hm : x / (2 * s) = m := by
          apply Nat.div_eq_of_lt_le
          · rw [Nat.mul_comm]; omega
          · rw [Nat.mul_comm]; omega
        rw [hm] at hx
        rw [if_pos h2, hm]
        by_cases h3 : o ≤ x % (2 * s) ∧ x % (2 * s) < o + c
        · rw [if_pos h3, if_pos (by omega), hsteps x (by omega), hsteps (x + s) (by omega)]
        · rw [if_neg h3, if_neg (by omega)]
          by_cases h4 : o + s ≤ x % (2 * s) ∧ x % (2 * s) < o + s + c
          · rw [if_pos h4, if_pos (by omega), hsteps x (by omega), hsteps (x - s) (by omega)]
          · rw [if_neg h4, if_neg (by omega), hsteps x (by omega)]
      · rw [if_neg h2, if_neg (by omega), if_neg (by omega), hsteps x (by omega)]

theorem outer_eq (tw : Slice F) (twLen m o c s : Nat) (hs : 0 < s) (hm : 0 < m) (htw : m ≤ twLen) (h0 : tw 0 = 1)
    (v : Slice F) : outer tw twLen (2 * m) o c s v = (List.range m).foldl (outerStep tw o c s) v := by
  unfold outer
  have hb : blocks (2 * m) s twLen = m := by
    unfold blocks
    have : (2 * m * s + 2 * s - 1) / (2 * s) = m := by
      apply Nat.div_eq_of_lt_le
      · nlinarith [Nat.sub_add_cancel (show 1 ≤ 2 * m * s + 2 * s by nlinarith)]
      · have : (m + 1) * (2 * s) = 2 * m * s + 2 * s := by ring
        rw [this]; omega
    rw [this]; omega
  rw [hb]
  obtain ⟨n, rfl⟩ : ∃ n, m = n + 1 := ⟨m - 1, by omega⟩
  rw [List.range_succ_eq_map, List.drop_succ_cons, List.drop_zero, List.foldl_cons]
  congr 1
  unfold outerFirst outerStep
  rw [h0, Nat.mul_zero, Nat.add_zero]
  apply foldl_congr'
  intro i _ v
  exact radix_2_eq s hs v i

theorem sum_even_odd {M : Type} [AddCommMonoid M] (n : Nat) (f : Nat → M) :
    ∑ j ∈ Finset.range (2 * n), f j
      = ∑ j ∈ Finset.range n, f (2 * j) + ∑ j ∈ Finset.range n, f (2 * j + 1) := by
  induction n with
  | zero => simp
  | succ n ih =>
    rw [show 2 * (n + 1) = 2 * n + 1 + 1 by ring, Finset.sum_range_succ, Finset.sum_range_succ, ih,
      Finset.sum_range_succ, Finset.sum_range_succ]
    abel

/-- column `x % s` of the slice, transformed, at row `x / s` -/
def dftCol (ω : F) (k s : Nat) (v : Slice F) (x : Nat) : F :=
  ∑ j ∈ Finset.range (2 ^ k), v (x % s + s * j) * ω ^ (j * rev k (x / s))

theorem mod_two_mul (s x : Nat) : (x / s % 2 = 0 ∧ x % (2 * s) = x % s) ∨ (x / s % 2 = 1 ∧ x % (2 * s) = x % s + s) := by
  have h : x % (s * 2) = x % s + s * (x / s % 2) := Nat.mod_mul
  rw [Nat.mul_comm 2 s, h]
  have h2 : x / s % 2 < 2 := Nat.mod_lt _ (by norm_num)
  interval_cases (x / s % 2)
  · left; simp
  · right; simp

theorem rec_spec (len : Nat) (tw : Slice F) (twLen : Nat) (k : Nat) : ∀ (fuel : Nat) (ω : F) (v : Slice F) (o c s : Nat),
    0 < s → len = 2 ^ k * s → k ≤ fuel → o + c ≤ s → 2 ^ (k - 1) ≤ twLen → (0 < k → ω ^ 2 ^ (k - 1) = -1) →
    (∀ j, j < 2 ^ (k - 1) → tw j = ω ^ rev (k - 1) j) →
    ∀ x, fft_vec_recursive len tw twLen fuel v o c s x =
      if x < len ∧ o ≤ x % s ∧ x % s < o + c then dftCol ω k s v x else v x := by
  induction k with
  | zero =>
    intro fuel ω v o c s hs hlen _ _ _ _ _ x
    have : fft_vec_recursive len tw twLen fuel v o c s = v := by
      cases fuel with
      | zero => rfl
      | succ fuel =>
        rw [pow_zero, Nat.one_mul] at hlen
        unfold fft_vec_recursive
        dsimp only
        rw [hlen, Nat.div_self hs, if_neg (by omega)]
    rw [this]
    split
    · next h =>
      unfold dftCol
      rw [pow_zero, Nat.one_mul] at hlen
      rw [pow_zero, Finset.sum_range_one, Nat.mul_zero, Nat.add_zero, Nat.zero_mul, pow_zero, mul_one,
        Nat.mod_eq_of_lt (by omega)]
    · rfl
  | succ k ih =>
    intro fuel ω v o c s hs hlen hfuel hoc htw hω htwv x
    obtain ⟨fuel, rfl⟩ : ∃ f, fuel = f + 1 := ⟨fuel - 1, by omega⟩
    rw [Nat.add_sub_cancel] at htw hω htwv
    have hω := hω (by omega)
    have hpk := Nat.two_pow_pos k
    have hsize : len / s = 2 * 2 ^ k := by
      rw [hlen, Nat.mul_div_cancel _ hs, pow_succ, Nat.mul_comm]
    have hlen2 : len = 2 ^ k * (2 * s) := by rw [hlen, pow_succ]; ring
    -- facts for the recursive calls
    have hω2 : 0 < k → (ω ^ 2) ^ 2 ^ (k - 1) = -1 := by
      intro hk
      rw [← pow_mul, ← pow_succ', show k - 1 + 1 = k by omega, hω]
    have htw2 : ∀ j, j < 2 ^ (k - 1) → tw j = (ω ^ 2) ^ rev (k - 1) j := by
      intro j hj
      have hle : 2 ^ (k - 1) ≤ 2 ^ k := Nat.pow_le_pow_right (by norm_num) (by omega)
      rw [htwv j (by omega), ← pow_mul]
      congr 1
      rcases Nat.eq_zero_or_pos k with hk | hk
      · subst hk; rfl
      · have := rev_lt_pow (k - 1) 1 j hj
        rw [show 1 + (k - 1) = k by omega] at this
        rw [this]; ring
    have htwl : 2 ^ (k - 1) ≤ twLen := le_trans (Nat.pow_le_pow_right (by norm_num) (by omega)) htw
    have IH := fun (v : Slice F) (o c : Nat) (h : o + c ≤ 2 * s) =>
      ih fuel (ω ^ 2) v o c (2 * s) (by omega) hlen2 (by omega) h htwl hω2 htw2
    -- the inner transforms
    have hinner : ∀ y, (if s = c ∧ c < 128 then fft_vec_recursive len tw twLen fuel v o (2 * c) (2 * s)
          else fft_vec_recursive len tw twLen fuel (fft_vec_recursive len tw twLen fuel v o c (2 * s)) (o + s) c (2 * s)) y
        = if y < len ∧ o ≤ y % s ∧ y % s < o + c then dftCol (ω ^ 2) k (2 * s) v y else v y := by
      intro y
      have hy := mod_two_mul s y
      have hys := Nat.mod_lt y hs
      by_cases hb : s = c ∧ c < 128
      · rw [if_pos hb, IH v o (2 * c) (by omega)]
        have h1 := Nat.mod_lt y (show 2 * s > 0 by omega)
        by_cases hylen : y < len
        · rw [if_pos (by omega), if_pos (by omega)]
        · rw [if_neg (by omega), if_neg (by omega)]
      · rw [if_neg hb, IH _ (o + s) c (by omega)]
        by_cases h1 : y < len ∧ o + s ≤ y % (2 * s) ∧ y % (2 * s) < o + s + c
        · rw [if_pos h1, if_pos (by omega)]
          unfold dftCol
          apply Finset.sum_congr rfl
          intro j _
          congr 1
          rw [IH v o c (by omega), if_neg]
          have : (y % (2 * s) + 2 * s * j) % (2 * s) = y % (2 * s) := by
            rw [Nat.add_mul_mod_self_left, Nat.mod_mod]
          rw [this]; omega
        · rw [if_neg h1, IH v o c (by omega)]
          by_cases h2 : y < len ∧ o ≤ y % (2 * s) ∧ y % (2 * s) < o + c
          · rw [if_pos h2, if_pos (by omega)]
          · rw [if_neg h2, if_neg (by omega)]
    unfold fft_vec_recursive
    dsimp only
    rw [if_pos (by omega), hsize, outer_eq tw twLen (2 ^ k) o c s hs hpk htw
      (by rw [htwv 0 hpk, rev_zero, pow_zero]), blocks_apply tw o c s (2 ^ k) hs hoc]
    have hlen3 : 2 * s * 2 ^ k = len := by rw [hlen2]; ring
    rw [hlen3]
    have hxs := Nat.mod_lt x hs
    have hx2 := mod_two_mul s x
    have hκ : x / (2 * s) = x / s / 2 := by rw [Nat.mul_comm, Nat.div_div_eq_div_mul]
    by_cases hxlen : x < len
    · rw [if_pos hxlen]
      have hκlt : x / (2 * s) < 2 ^ k := by
        rw [Nat.div_lt_iff_lt_mul (by omega)]; omega
      -- split of the sum
      have hsplit : dftCol ω (k + 1) s v x
          = ∑ j ∈ Finset.range (2 ^ k), v (x % s + 2 * s * j) * ω ^ (2 * j * rev (k + 1) (x / s))
            + ∑ j ∈ Finset.range (2 ^ k), v (x % s + s + 2 * s * j) * ω ^ ((2 * j + 1) * rev (k + 1) (x / s)) := by
        unfold dftCol
        rw [pow_succ, Nat.mul_comm (2 ^ k) 2, sum_even_odd]
        congr 1
        · apply Finset.sum_congr rfl
          intro j _
          rw [show s * (2 * j) = 2 * s * j by ring]
        · apply Finset.sum_congr rfl
          intro j _
          rw [show x % s + s * (2 * j + 1) = x % s + s + 2 * s * j by ring]
      by_cases hcol : o ≤ x % s ∧ x % s < o + c
      · rw [if_pos (show x < len ∧ o ≤ x % s ∧ x % s < o + c from ⟨hxlen, hcol⟩), hsplit]
        rcases hx2 with ⟨hpar, hx2⟩ | ⟨hpar, hx2⟩
        · -- even row
          rw [if_pos (show o ≤ x % (2 * s) ∧ x % (2 * s) < o + c by omega), hinner x, hinner (x + s),
            if_pos (show x < len ∧ o ≤ x % s ∧ x % s < o + c from ⟨hxlen, hcol⟩)]
          have hxs2 : (x + s) % s = x % s := Nat.add_mod_right x s
          have hdm := Nat.div_add_mod x (2 * s)
          have hlt2 : x + s < len := by
            have : 2 * s * (x / (2 * s)) + 2 * s ≤ len := by
              calc 2 * s * (x / (2 * s)) + 2 * s = 2 * s * (x / (2 * s) + 1) := by ring
                _ ≤ 2 * s * 2 ^ k := Nat.mul_le_mul_left _ hκlt
                _ = len := hlen3
            omega
          rw [if_pos ⟨hlt2, by omega, by omega⟩]
          have hd2 : (x + s) / (2 * s) = x / (2 * s) := by
            apply Nat.div_eq_of_lt_le
            · rw [Nat.mul_comm]; omega
            · rw [Nat.mul_comm, Nat.mul_add]; omega
          have hm2 : (x + s) % (2 * s) = x % s + s := by
            have := Nat.div_add_mod (x + s) (2 * s)
            rw [hd2] at this; omega
          have hrev : rev (k + 1) (x / s) = rev k (x / (2 * s)) := by
            have e : x / s = 2 * (x / s / 2) := by omega
            rw [hκ]
            conv_lhs => rw [e]
            exact rev_two_mul k _
          rw [hrev, htwv _ hκlt]
          unfold dftCol
          rw [hd2, hm2, hx2, Finset.mul_sum]
          congr 1
          · apply Finset.sum_congr rfl
            intro j _
            rw [← pow_mul, Nat.mul_assoc 2 j]
          · apply Finset.sum_congr rfl
            intro j _
            rw [← pow_mul]
            generalize rev k (x / (2 * s)) = r
            rw [show (2 * j + 1) * r = r + 2 * (j * r) by ring, pow_add]
            ring
        · -- odd row
          rw [if_neg (show ¬(o ≤ x % (2 * s) ∧ x % (2 * s) < o + c) by omega),
            if_pos (show o + s ≤ x % (2 * s) ∧ x % (2 * s) < o + s + c by omega), hinner x, hinner (x - s),
            if_pos (show x < len ∧ o ≤ x % s ∧ x % s < o + c from ⟨hxlen, hcol⟩)]
          have hdm := Nat.div_add_mod x (2 * s)
          have hxge : s ≤ x := by
            have := Nat.mod_le x (2 * s)
            omega
          have hxs2 : (x - s) % s = x % s := by
            conv_rhs => rw [show x = (x - s) + s by omega, Nat.add_mod_right]
          rw [if_pos ⟨by omega, by omega, by omega⟩]
          have hd2 : (x - s) / (2 * s) = x / (2 * s) := by
            apply Nat.div_eq_of_lt_le
            · rw [Nat.mul_comm]; omega
            · rw [Nat.mul_comm, Nat.mul_add]; omega
          have hm2 : (x - s) % (2 * s) = x % s := by
            have := Nat.div_add_mod (x - s) (2 * s)
            rw [hd2] at this; omega
          have hrev : rev (k + 1) (x / s) = rev k (x / (2 * s)) + 2 ^ k := by
            have e : x / s = 2 * (x / s / 2) + 1 := by omega
            rw [hκ]
            conv_lhs => rw [e]
            exact rev_two_mul_add k _
          rw [hrev, htwv _ hκlt]
          unfold dftCol
          rw [hd2, hm2, hx2, Finset.mul_sum, sub_eq_add_neg, ← Finset.sum_neg_distrib]
          have hω1 : ∀ j, ω ^ (2 * j * 2 ^ k) = 1 := by
            intro j
            rw [show 2 * j * 2 ^ k = 2 ^ k * (2 * j) by ring, pow_mul, hω, pow_mul]; simp
          congr 1
          · apply Finset.sum_congr rfl
            intro j _
            rw [← pow_mul, Nat.mul_add, pow_add, hω1, mul_one, Nat.mul_assoc 2 j]
          · apply Finset.sum_congr rfl
            intro j _
            rw [← pow_mul]
            generalize rev k (x / (2 * s)) = r
            rw [show (2 * j + 1) * (r + 2 ^ k) = r + 2 * (j * r) + (2 * j * 2 ^ k + 2 ^ k) by ring, pow_add _ _ (2 * j * 2 ^ k + 2 ^ k),
              pow_add _ (2 * j * 2 ^ k), hω1, hω, pow_add]
            ring
      · rw [if_neg (show ¬(o ≤ x % (2 * s) ∧ x % (2 * s) < o + c) by omega),
          if_neg (show ¬(o + s ≤ x % (2 * s) ∧ x % (2 * s) < o + s + c) by omega),
          if_neg (show ¬(x < len ∧ o ≤ x % s ∧ x % s < o + c) by omega), hinner x,
          if_neg (show ¬(x < len ∧ o ≤ x % s ∧ x % s < o + c) by omega)]
    · rw [if_neg hxlen, if_neg (show ¬(x < len ∧ o ≤ x % s ∧ x % s < o + c) by omega), hinner x,
        if_neg (show ¬(x < len ∧ o ≤ x % s ∧ x % s < o + c) by omega)]

/-- the twiddle table -/
theorem get_twiddles_eq (root : F) (k : Nat) (hk : k < 64) (j : Nat) (hj : j < 2 ^ (k - 1)) :
    get_twiddles root (2 ^ k) j = root ^ rev (k - 1) j := by
  unfold get_twiddles
  rcases Nat.eq_zero_or_pos k with h | h
  · subst h
    have : j = 0 := by simpa using hj
    subst this
    rfl
  · have : 2 ^ k / 2 = 2 ^ (k - 1) := by
      obtain ⟨n, rfl⟩ : ∃ n, k = n + 1 := ⟨k - 1, by omega⟩
      rw [pow_succ]; simp
    rw [this, permute_eq (k - 1) (by omega), if_pos hj]

/-- The transform of a full slice. -/
theorem rec_full (k : Nat) (hk : k < 64) (ω : F) (hω : 0 < k → ω ^ 2 ^ (k - 1) = -1) (v : Slice F) (x : Nat) :
    fft_vec_recursive (2 ^ k) (get_twiddles ω (2 ^ k)) (2 ^ k / 2) (2 ^ k) v 0 1 1 x =
      if x < 2 ^ k then ∑ j ∈ Finset.range (2 ^ k), v j * ω ^ (j * rev k x) else v x := by
  rcases Nat.eq_zero_or_pos k with h | h
  · subst h
    have e : fft_vec_recursive (2 ^ 0) (get_twiddles ω (2 ^ 0)) (2 ^ 0 / 2) (2 ^ 0) v 0 1 1 = v := rfl
    rw [e]
    split
    · next h =>
      have : x = 0 := by simpa using h
      subst this
      simp [rev_zero]
    · rfl
  · have hp : 2 ^ k / 2 = 2 ^ (k - 1) := by
      obtain ⟨n, rfl⟩ : ∃ n, k = n + 1 := ⟨k - 1, by omega⟩
      rw [pow_succ]; simp
    rw [rec_spec (2 ^ k) (get_twiddles ω (2 ^ k)) (2 ^ k / 2) k (2 ^ k) ω v 0 1 1 (by norm_num) (by ring)
      (Nat.lt_two_pow_self.le) (by norm_num) (le_of_eq hp.symm) hω (get_twiddles_eq ω k hk)]
    have : x % 1 = 0 := Nat.mod_one x
    by_cases hx : x < 2 ^ k
    · rw [if_pos (by omega), if_pos hx]
      unfold dftCol
      apply Finset.sum_congr rfl
      intro j _
      rw [this, Nat.zero_add, Nat.one_mul, Nat.div_one]
    · rw [if_neg (by omega), if_neg hx]

end OpenZKP.FFT
