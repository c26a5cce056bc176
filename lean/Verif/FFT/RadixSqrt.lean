import Verif.FFT.Recursive

/-! # The six-step FFT and the public transforms (lemmas) -/

namespace OpenZKP.FFT

variable {F : Type} [CommRing F]

/-- running product over a slice starting at index `a` -/
theorem runProd_apply (src : Slice F) (f : Slice F → Nat → F) (c : F) (hf : ∀ (v : Slice F) i, (∀ j, i ≤ j → v j = src j) → f v i = f src i)
    (t : F) (a n : Nat) (x : Nat) :
    let r := (List.range' a n).foldl (fun (s : Slice F × F) i => (set s.1 i (f s.1 i * s.2), s.2 * t)) (src, c)
    (r.1 x = if a ≤ x ∧ x < a + n then f src x * (c * t ^ (x - a)) else src x) ∧ r.2 = c * t ^ n := by
  induction n generalizing x with
  | zero =>
    refine ⟨?_, by simp⟩
    rw [if_neg (by omega)]; rfl
  | succ n ih =>
    dsimp only at ih ⊢
    rw [List.range'_concat, List.foldl_append, List.foldl_cons, List.foldl_nil, Nat.one_mul]
    set r := (List.range' a n).foldl (fun (s : Slice F × F) i => (set s.1 i (f s.1 i * s.2), s.2 * t)) (src, c)
    have hfr : f r.1 (a + n) = f src (a + n) := by
      apply hf
      intro j hj
      rw [(ih j).1, if_neg (by omega)]
    constructor
    · show set r.1 (a + n) (f r.1 (a + n) * r.2) x = _
      unfold set
      by_cases h : x = a + n
      · rw [if_pos h, h, if_pos (by omega), hfr, (ih 0).2, show a + n - a = n by omega]
      · rw [if_neg h, (ih x).1]
        by_cases h2 : a ≤ x ∧ x < a + n
        · rw [if_pos h2, if_pos (by omega)]
        · rw [if_neg h2, if_neg (by omega)]
    · show r.2 * t = _
      rw [(ih 0).2, pow_succ]; ring

theorem twiddleRow_apply (n : Nat) (t : F) (row : Slice F) (x : Nat) :
    twiddleRow n t row x = if x < n then row x * t ^ x else row x := by
  unfold twiddleRow
  have h := (runProd_apply row (fun v i => v i) t (fun v i hv => hv i le_rfl) t 1 (n - 1) x).1
  rw [h]
  by_cases hx : 1 ≤ x ∧ x < 1 + (n - 1)
  · rw [if_pos hx, if_pos (by omega), ← pow_succ', Nat.sub_add_cancel hx.1]
  · rw [if_neg hx]
    by_cases h2 : x < n
    · rw [if_pos h2]
      obtain rfl : x = 0 := by omega
      simp
    · rw [if_neg h2]

theorem shiftLoop_apply (n : Nat) (c : F) (v : Slice F) (x : Nat) :
    shiftLoop n c v x = if x < n then v x * c ^ x else v x := by
  unfold shiftLoop
  rw [List.range_eq_range']
  have h := (runProd_apply v (fun v i => v i) 1 (fun v i hv => hv i le_rfl) c 0 n x).1
  rw [h]
  simp

theorem cloneChunk_apply (n : Nat) (c0 c : F) (dst src : Slice F) (x : Nat) :
    cloneChunk n c0 c dst src x = if x < n then src x * (c0 * c ^ x) else dst x := by
  unfold cloneChunk
  rw [List.range_eq_range']
  have key : ∀ n, ∀ x, ((List.range' 0 n).foldl (fun (s : Slice F × F) i => (set s.1 i (src i * s.2), s.2 * c)) (dst, c0)).1 x
      = (if x < n then src x * (c0 * c ^ x) else dst x) ∧
      ((List.range' 0 n).foldl (fun (s : Slice F × F) i => (set s.1 i (src i * s.2), s.2 * c)) (dst, c0)).2 = c0 * c ^ n := by
    intro n
    induction n with
    | zero => intro x; simp
    | succ n ih =>
      intro x
      rw [List.range'_concat, List.foldl_append, List.foldl_cons, List.foldl_nil, Nat.one_mul, Nat.zero_add]
      constructor
      · show (if x = n then src n * _ else _) = _
        by_cases h : x = n
        · rw [if_pos h, (ih 0).2, h, if_pos (by omega)]
        · rw [if_neg h, (ih x).1]
          by_cases h2 : x < n
          · rw [if_pos h2, if_pos (by omega)]
          · rw [if_neg h2, if_neg (by omega)]
      · show _ * c = _
        rw [(ih 0).2, pow_succ]; ring
  exact (key n x).1

theorem sum_range_mul {M : Type} [AddCommMonoid M] (a b : Nat) (f : Nat → M) :
    ∑ n ∈ Finset.range (a * b), f n = ∑ j ∈ Finset.range a, ∑ q ∈ Finset.range b, f (j * b + q) := by
  induction a with
  | zero => simp
  | succ a ih => rw [Nat.add_mul, Nat.one_mul, Finset.sum_range_add, ih, Finset.sum_range_succ]

theorem radix_sqrt_spec (K : Nat) (hK : K < 64) (hK0 : 0 < K) (root : F) (hroot : root ^ 2 ^ (K - 1) = -1)
    (v : Slice F) : ∃ w, radix_sqrt (2 ^ K) v root = some w ∧
      ∀ x, w x = if x < 2 ^ K then ∑ j ∈ Finset.range (2 ^ K), v j * root ^ (j * rev K x) else v x := by
  obtain ⟨ki, hki⟩ : ∃ ki, ki = K / 2 := ⟨_, rfl⟩
  obtain ⟨ko, hko⟩ : ∃ ko, ko = K - ki := ⟨_, rfl⟩
  have hsum : ki + ko = K := by omega
  obtain ⟨st, hst⟩ : ∃ st, st = ko - ki := ⟨_, rfl⟩
  have hst1 : st ≤ 1 := by omega
  have hlen : 2 ^ K = 2 ^ ki * 2 ^ ko := by rw [← pow_add, hsum]
  have houter : 2 ^ K / 2 ^ ki = 2 ^ ko := by rw [hlen, Nat.mul_div_cancel_left _ (Nat.two_pow_pos _)]
  have hos : 2 ^ ko = 2 ^ ki * 2 ^ st := by rw [← pow_add]; congr 1; omega
  have hstretch : 2 ^ ko / 2 ^ ki = 2 ^ st := by rw [hos, Nat.mul_div_cancel_left _ (Nat.two_pow_pos _)]
  have hsq : 2 ^ K = 2 ^ ki * 2 ^ ki * 2 ^ st := by rw [hlen, hos, Nat.mul_assoc]
  have hin : (2 ^ st = 1 ∧ 2 ^ ki % 2 = 0) ∨ 2 ^ st = 2 := by
    interval_cases st
    · left
      refine ⟨rfl, ?_⟩
      obtain ⟨n, hn⟩ : ∃ n, ki = n + 1 := ⟨ki - 1, by omega⟩
      rw [hn, pow_succ]; omega
    · right; rfl
  have hpi := Nat.two_pow_pos ki
  have hpo := Nat.two_pow_pos ko
  have hps := Nat.two_pow_pos st
  have hroot1 : root ^ 2 ^ K = 1 := by
    obtain ⟨n, hn⟩ : ∃ n, K = n + 1 := ⟨K - 1, by omega⟩
    rw [hn, Nat.add_sub_cancel] at hroot
    rw [hn, pow_succ, pow_mul, hroot]; ring
  -- the transposes
  obtain ⟨v1, hv1, hv1x⟩ := transpose_square_stretch_spec (2 ^ ki) (2 ^ st) v hin
  rw [← hsq] at hv1
  obtain ⟨tw, htw⟩ : ∃ tw, tw = get_twiddles (root ^ 2 ^ ki) (2 ^ ko) := ⟨_, rfl⟩
  obtain ⟨v2, hv2⟩ : ∃ v2, v2 = chunks (2 ^ K) (2 ^ ko) (fun _ row =>
    fft_vec_recursive (2 ^ ko) tw (2 ^ ko / 2) (2 ^ ko) row 0 (2 ^ st) (2 ^ st)) v1 := ⟨_, rfl⟩
  obtain ⟨v3, hv3, hv3x⟩ := transpose_square_stretch_spec (2 ^ ki) (2 ^ st) v2 hin
  rw [← hsq] at hv3
  refine ⟨chunks (2 ^ K) (2 ^ ko) (outerRow (2 ^ ki) (2 ^ ko) root tw) v3, ?_, ?_⟩
  · unfold radix_sqrt
    have h1 : ¬ 2 ^ K ≤ 1 := by
      have := Nat.one_lt_two_pow (n := K) (by omega); omega
    rw [if_neg h1]
    dsimp only
    rw [ctz_pow K hK, ← hki, houter, hstretch, hv1, Option.bind_some, ← htw, ← hv2, hv3]
    rfl
  -- values after the second transpose
  have hhalf : 2 ^ (ko - 1) = 2 ^ ko / 2 := by
    obtain ⟨n, hn⟩ : ∃ n, ko = n + 1 := ⟨ko - 1, by omega⟩
    rw [hn, pow_succ]; simp
  have htwi : ∀ j, j < 2 ^ (ki - 1) → tw j = (root ^ 2 ^ ko) ^ rev (ki - 1) j := by
    intro j hj
    have hle : 2 ^ (ki - 1) ≤ 2 ^ (ko - 1) := Nat.pow_le_pow_right (by norm_num) (by omega)
    rw [htw, get_twiddles_eq _ ko (by omega) j (by omega), ← pow_mul, ← pow_mul]
    rcases Nat.eq_zero_or_pos ki with h0 | h0
    · have : j = 0 := by rw [h0] at hj; simpa using hj
      rw [this, rev_zero, rev_zero]; rfl
    · have := rev_lt_pow (ki - 1) st j hj
      rw [show st + (ki - 1) = ko - 1 by omega] at this
      rw [this, hos]
      congr 1; ring
  have hωi : 0 < ki → (root ^ 2 ^ ko) ^ 2 ^ (ki - 1) = -1 := by
    intro h
    rw [← pow_mul, ← pow_add, show ko + (ki - 1) = K - 1 by omega, hroot]
  have hv3val : ∀ a q, a < 2 ^ ki → q < 2 ^ ko →
      v3 (a * 2 ^ ko + q) = ∑ j ∈ Finset.range (2 ^ ki), v (j * 2 ^ ko + q) * (root ^ 2 ^ ko) ^ (j * rev ki a) := by
    intro a q ha hq
    obtain ⟨C, e, hC, he, rfl⟩ : ∃ C e, C < 2 ^ ki ∧ e < 2 ^ st ∧ q = C * 2 ^ st + e := by
      refine ⟨q / 2 ^ st, q % 2 ^ st, ?_, Nat.mod_lt _ hps, (Nat.div_add_mod' _ _).symm⟩
      rw [Nat.div_lt_iff_lt_mul hps, ← hos]; exact hq
    have e1 : ∀ R C, R * 2 ^ ko + (C * 2 ^ st + e) = (R * 2 ^ ki + C) * 2 ^ st + e := by
      intro R C; rw [hos]; ring
    rw [e1, hv3x, transσ_apply _ _ _ _ _ ha hC he, ← e1, hv2]
    have hcol : a * 2 ^ st + e < 2 ^ ko := by
      rw [hos]
      calc a * 2 ^ st + e < a * 2 ^ st + 2 ^ st := by omega
        _ = (a + 1) * 2 ^ st := by ring
        _ ≤ 2 ^ ki * 2 ^ st := Nat.mul_le_mul_right _ ha
    have hidx : C * 2 ^ ko + (a * 2 ^ st + e) < 2 ^ K := by
      rw [hlen]
      calc C * 2 ^ ko + (a * 2 ^ st + e) < C * 2 ^ ko + 2 ^ ko := by omega
        _ = (C + 1) * 2 ^ ko := by ring
        _ ≤ 2 ^ ki * 2 ^ ko := Nat.mul_le_mul_right _ hC
    have hco := coords (2 ^ ko) C (a * 2 ^ st + e) hcol
    unfold chunks
    rw [if_pos hidx, hco.1, hco.2]
    dsimp only
    rw [rec_spec (2 ^ ko) tw (2 ^ ko / 2) ki (2 ^ ko) (root ^ 2 ^ ko) _ 0 (2 ^ st) (2 ^ st) hps hos
      (le_trans Nat.lt_two_pow_self.le (by rw [hos]; exact Nat.le_mul_of_pos_right _ hps)) (by omega)
      (by rw [← hhalf]; exact Nat.pow_le_pow_right (by norm_num) (by omega)) hωi htwi]
    have hce := coords (2 ^ st) a e he
    rw [if_pos ⟨hcol, by omega, by rw [hce.2]; omega⟩]
    unfold dftCol
    rw [hce.1, hce.2]
    apply Finset.sum_congr rfl
    intro j hj
    have hj := Finset.mem_range.1 hj
    congr 1
    have e2 : C * 2 ^ ko + (e + 2 ^ st * j) = (C * 2 ^ ki + j) * 2 ^ st + e := by rw [hos]; ring
    dsimp only
    rw [e2, hv1x, transσ_apply _ _ _ _ _ hC hj he, e1]
  intro x
  unfold chunks
  by_cases hx : x < 2 ^ K
  swap
  · rw [if_neg hx, if_neg hx, hv3x]
    have hσ : transσ (2 ^ ki) (2 ^ st) x = x := by
      unfold transσ; rw [← hsq, if_neg hx]
    rw [hσ, hv2]
    unfold chunks
    rw [if_neg hx, hv1x, hσ]
  rw [if_pos hx, if_pos hx]
  obtain ⟨a, q, ha, hq, rfl⟩ : ∃ a q, a < 2 ^ ki ∧ q < 2 ^ ko ∧ x = a * 2 ^ ko + q := by
    refine ⟨x / 2 ^ ko, x % 2 ^ ko, ?_, Nat.mod_lt _ hpo, (Nat.div_add_mod' _ _).symm⟩
    rw [Nat.div_lt_iff_lt_mul hpo, ← hlen]; exact hx
  have hco := coords (2 ^ ko) a q hq
  rw [hco.1, hco.2]
  have hrow : ∀ (row : Slice F) (y : Nat), y < 2 ^ ko →
      (if a > 0 then twiddleRow (2 ^ ko) (root ^ permute_index (2 ^ ki) a) row else row) y
        = row y * root ^ (rev ki a * y) := by
    intro row y hy
    by_cases h : a > 0
    · rw [if_pos h, twiddleRow_apply, if_pos hy, permute_index_eq ki a (by omega) ha, ← pow_mul]
    · rw [if_neg h]
      obtain rfl : a = 0 := by omega
      rw [rev_zero]; simp
  unfold outerRow
  rw [htw, rec_full ko (by omega) (root ^ 2 ^ ki)
    (by intro h; rw [← pow_mul, ← pow_add, show ki + (ko - 1) = K - 1 by omega, hroot]), if_pos hq, hlen,
    sum_range_mul, Finset.sum_comm]
  apply Finset.sum_congr rfl
  intro y hy
  have hy := Finset.mem_range.1 hy
  rw [hrow _ y hy, hv3val a y ha hy, Finset.sum_mul, Finset.sum_mul]
  apply Finset.sum_congr rfl
  intro j _
  have hrev : rev K (a * 2 ^ ko + q) = rev ko q * 2 ^ ki + rev ki a := by
    rw [← hsum]; exact rev_concat ko ki a q hq
  rw [hrev, mul_assoc, mul_assoc]
  congr 1
  rw [← pow_mul, ← pow_mul, ← pow_add, ← pow_add]
  generalize rev ko q = r
  generalize rev ki a = t
  have : (j * 2 ^ ko + y) * (r * 2 ^ ki + t)
      = 2 ^ ko * (j * t) + (t * y + 2 ^ ki * (y * r)) + 2 ^ K * (j * r) := by
    rw [hlen]; ring
  rw [this, pow_add _ _ (2 ^ K * (j * r)), pow_mul _ (2 ^ K), hroot1, one_pow, mul_one, pow_add root (2 ^ ko * (j * t))]

theorem fft_root_spec (k : Nat) (hk : k < 64) (ω : F) (hω : 0 < k → ω ^ 2 ^ (k - 1) = -1) (v : Slice F) :
    ∃ w, fft_root (2 ^ k) v ω = some w ∧
      ∀ x, w x = if x < 2 ^ k then ∑ j ∈ Finset.range (2 ^ k), v j * ω ^ (j * rev k x) else v x := by
  unfold fft_root
  by_cases h : 2 ^ k ≥ 1024
  · rw [if_pos h]
    have h0 : 0 < k := by
      rcases Nat.eq_zero_or_pos k with h0 | h0
      · subst h0; norm_num at h
      · exact h0
    exact radix_sqrt_spec k hk h0 ω (hω h0) v
  · rw [if_neg h]
    exact ⟨_, rfl, rec_full k hk ω hω v⟩

end OpenZKP.FFT
