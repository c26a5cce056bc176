import Verif.U256.DivisionLemmas

namespace OpenZKP
namespace U256

/-- The condition under which a Knuth step meets the precondition of `div_3by2`: before producing
quotient digit `j`, the top two limbs of the running remainder `(A / B^(j+1)) mod V` are not equal to
the top two limbs of the divisor `V`. -/
def KnuthOK (n c A V : Nat) : Prop :=
  ∀ j, j < c → (A / (2 ^ 64) ^ (j + 1) % V) / (2 ^ 64) ^ (n - 2) < V / (2 ^ 64) ^ (n - 2)

theorem two_top_div (a : Mem) (j n : Nat) (hn : 2 ≤ n) :
    val a j n / (2 ^ 64) ^ (n - 2) = val_2 (a (j + n - 2)) (a (j + n - 1)) := by
  rw [val_two_top a j n hn, Nat.mul_comm, Nat.mul_add_div (by positivity),
    Nat.div_eq_of_lt (val_lt _ _ _), Nat.add_zero]

theorem val_hi_div (a : Mem) (c l : Nat) : val a 0 (c + l) / (2 ^ 64) ^ c = val a c l := by
  rw [val_split, Nat.zero_add, Nat.add_mul_div_left _ _ (by positivity),
    Nat.div_eq_of_lt (val_lt _ _ _), Nat.zero_add]

theorem div_shift_mod {A' A P k V Q : Nat} (h : A = A' + P * k * V * Q) (hP : 0 < P) :
    A / P % V = A' / P % V := by
  have : A = A' + P * (V * (k * Q)) := by rw [h]; ring
  rw [this, Nat.add_mul_div_left _ _ hP, Nat.add_mul_mod_self_left]

theorem knuthLoop_spec (dbg : Bool) (n : Nat) (d : Mem) (hn : 2 ≤ n)
    (hd : 2 ^ 63 ≤ (d (n - 1)).toNat) (c : Nat) (a : Mem) (hlt : val a c n < val d 0 n)
    (hok : KnuthOK n c (val a 0 (c + n)) (val d 0 n)) :
    ∃ a', knuthLoop dbg n d c a = some a' ∧ (∀ k, n + c ≤ k → a' k = a k) ∧
      val a' n c = val a 0 (c + n) / val d 0 n ∧ val a' 0 n = val a 0 (c + n) % val d 0 n := by
  induction c generalizing a with
  | zero =>
    rw [Nat.zero_add] at *
    exact ⟨a, rfl, fun _ _ => rfl, by rw [Nat.div_eq_of_lt hlt]; rfl, by rw [Nat.mod_eq_of_lt hlt]⟩
  | succ c ih =>
    have hstrict : val_2 (a (c + n - 1)) (a (c + n)) < val_2 (d (n - 2)) (d (n - 1)) := by
      have h := hok c (by omega)
      rw [val_hi_div, Nat.mod_eq_of_lt hlt, two_top_div _ _ _ hn, two_top_div _ _ _ hn] at h
      rw [show c + 1 + n - 2 = c + n - 1 by omega, show c + 1 + n - 1 = c + n by omega,
        Nat.zero_add] at h
      exact h
    obtain ⟨a1, hs, hk1, hq1, hr1⟩ := knuthStep_spec dbg n d c a hn hd hlt hstrict
    rw [knuthLoop, hs]
    dsimp only
    have hVpos : 0 < val d 0 n := by omega
    have hA : val a 0 (c + 1 + n) = val a1 0 (c + n)
        + (2 ^ 64) ^ c * val d 0 n * (a1 (c + n)).toNat := by
      rw [show c + 1 + n = c + (n + 1) by omega, val_split, Nat.zero_add,
        val_split a1 0 c n, Nat.zero_add, hr1, hq1]
      have h1 : val a 0 c = val a1 0 c := val_congr fun i hi => (hk1 _ (by omega)).symm
      have h2 := Nat.div_add_mod (val a c (n + 1)) (val d 0 n)
      rw [h1]
      generalize (2 ^ 64) ^ c = P at *
      generalize val a c (n + 1) / val d 0 n = Q at *
      generalize val a c (n + 1) % val d 0 n = S at *
      rw [← h2]; ring
    have hlt1 : val a1 c n < val d 0 n := by rw [hr1]; exact Nat.mod_lt _ hVpos
    obtain ⟨a2, hs2, hk2, hq2, hr2⟩ := ih a1 hlt1 (by
      intro j hj
      have h := hok j (by omega)
      have e : (2 ^ 64) ^ c = (2 ^ 64) ^ (j + 1) * (2 ^ 64) ^ (c - (j + 1)) := by
        rw [← pow_add (2 ^ 64) (j + 1)]; congr 1; omega
      rw [e] at hA
      rw [div_shift_mod hA (by positivity)] at h
      exact h)
    refine ⟨a2, hs2, fun k hk => ?_, ?_, ?_⟩
    · rw [hk2 k (by omega), hk1 k (by omega)]
    · rw [val, hq2, hk2 (n + c) (le_refl _), Nat.add_comm n c, hA, Nat.mul_right_comm,
        Nat.mul_comm ((2 ^ 64) ^ c * (a1 (c + n)).toNat), Nat.add_mul_div_left _ _ hVpos]
    · rw [hr2, hA, Nat.mul_right_comm, Nat.mul_comm ((2 ^ 64) ^ c * (a1 (c + n)).toNat),
        Nat.add_mul_mod_self_left]

/-- In the debug profile a violated precondition is a panic. -/
theorem knuthLoop_bad (n : Nat) (d : Mem) (hn : 2 ≤ n)
    (hd : 2 ^ 63 ≤ (d (n - 1)).toNat) (c : Nat) (a : Mem) (hlt : val a c n < val d 0 n)
    (hbad : ¬ KnuthOK n c (val a 0 (c + n)) (val d 0 n)) : knuthLoop true n d c a = none := by
  induction c generalizing a with
  | zero => exact absurd (fun j hj => absurd hj (by omega)) hbad
  | succ c ih =>
    have hVpos : 0 < val d 0 n := by omega
    have hle : val_2 (a (c + n - 1)) (a (c + n)) ≤ val_2 (d (n - 2)) (d (n - 1)) := by
      have h := Nat.div_le_div_right (c := (2 ^ 64) ^ (n - 2)) (Nat.le_of_lt hlt)
      rw [two_top_div _ _ _ hn, two_top_div _ _ _ hn] at h
      rw [show c + 1 + n - 2 = c + n - 1 by omega, show c + 1 + n - 1 = c + n by omega,
        Nat.zero_add] at h
      exact h
    rcases Nat.lt_or_ge (val_2 (a (c + n - 1)) (a (c + n))) (val_2 (d (n - 2)) (d (n - 1)))
      with hstrict | hge
    · obtain ⟨a1, hs, hk1, hq1, hr1⟩ := knuthStep_spec true n d c a hn hd hlt hstrict
      rw [knuthLoop, hs]
      dsimp only
      have hA : val a 0 (c + 1 + n) = val a1 0 (c + n)
          + (2 ^ 64) ^ c * val d 0 n * (a1 (c + n)).toNat := by
        rw [show c + 1 + n = c + (n + 1) by omega, val_split, Nat.zero_add,
          val_split a1 0 c n, Nat.zero_add, hr1, hq1]
        have h1 : val a 0 c = val a1 0 c := val_congr fun i hi => (hk1 _ (by omega)).symm
        have h2 := Nat.div_add_mod (val a c (n + 1)) (val d 0 n)
        rw [h1]
        generalize (2 ^ 64) ^ c = P at *
        generalize val a c (n + 1) / val d 0 n = Q at *
        generalize val a c (n + 1) % val d 0 n = S at *
        rw [← h2]; ring
      refine ih a1 (by rw [hr1]; exact Nat.mod_lt _ hVpos) ?_
      intro hok
      apply hbad
      intro j hj
      rcases Nat.lt_or_ge j c with hjc | hjc
      · have h := hok j hjc
        have e : (2 ^ 64) ^ c = (2 ^ 64) ^ (j + 1) * (2 ^ 64) ^ (c - (j + 1)) := by
          rw [← pow_add (2 ^ 64) (j + 1)]; congr 1; omega
        rw [e] at hA
        rw [div_shift_mod hA (by positivity)]
        exact h
      · obtain rfl : j = c := by omega
        rw [val_hi_div, Nat.mod_eq_of_lt hlt, two_top_div _ _ _ hn, two_top_div _ _ _ hn]
        rw [show j + 1 + n - 2 = j + n - 1 by omega, show j + 1 + n - 1 = j + n by omega,
          Nat.zero_add]
        exact hstrict
    · rw [knuthLoop, knuthStep, div_3by2, if_pos (by simp; omega)]

/-! ### Normalisation -/

theorem shl_limb (x : UInt64) {s : Nat} (h : 0 < s) (h' : s < 64) :
    (shl64 x s).toNat + 2 ^ 64 * (shr64 x (64 - s)).toNat = x.toNat * 2 ^ s := by
  obtain ⟨d, e, hx, he, hd, h1, h2⟩ := limb_split x h h'
  rw [h1, h2, hx]
  have : (2 : Nat) ^ 64 = 2 ^ (64 - s) * 2 ^ s := by rw [← pow_add]; congr 1; omega
  rw [this]; ring

theorem shlLoop_get (s : Nat) (i : Nat) (a : Mem) (k : Nat) :
    shlLoop s i a k = if 1 ≤ k ∧ k ≤ i then shl64 (a k) s ||| shr64 (a (k - 1)) (64 - s) else a k := by
  induction i generalizing a with
  | zero => rw [shlLoop, if_neg (by omega)]
  | succ i ih =>
    rw [shlLoop, ih]
    by_cases h1 : k = i + 1
    · subst h1
      rw [if_neg (by omega), upd_same, if_pos (by omega), Nat.add_sub_cancel]
    · rw [upd_ne _ _ h1]
      by_cases h2 : 1 ≤ k ∧ k ≤ i
      · rw [if_pos h2, if_pos (by omega), upd_ne _ _ (by omega)]
      · rw [if_neg h2, if_neg (by omega)]

theorem shl_val (a b : Mem) {s : Nat} (h : 0 < s) (h' : s < 64) (len : Nat)
    (h0 : b 0 = shl64 (a 0) s)
    (hs : ∀ k, k < len → b (k + 1) = shl64 (a (k + 1)) s ||| shr64 (a k) (64 - s)) :
    val b 0 (len + 1) + (2 ^ 64) ^ (len + 1) * (shr64 (a len) (64 - s)).toNat
      = val a 0 (len + 1) * 2 ^ s := by
  induction len with
  | zero =>
    have := shl_limb (a 0) h h'
    simp only [val, Nat.zero_add, pow_zero, Nat.one_mul, pow_one, h0]
    exact this
  | succ k ih =>
    have e := ih fun t ht => hs t (by omega)
    have hb := hs k (by omega)
    have l := shl_limb (a (k + 1)) h h'
    have eB : val b 0 (k + 1 + 1) = val b 0 (k + 1) + (2 ^ 64) ^ (k + 1) * (b (0 + (k + 1))).toNat := rfl
    have eA : val a 0 (k + 1 + 1) = val a 0 (k + 1) + (2 ^ 64) ^ (k + 1) * (a (0 + (k + 1))).toNat := rfl
    rw [eB, eA, Nat.zero_add, hb, or_shift_lo _ _ h h', pow_succ (2 ^ 64) (k + 1)]
    generalize (2 ^ 64) ^ (k + 1) = P at *
    zify at e l ⊢
    linear_combination e + P * l

theorem shlMem_spec (a : Mem) {s : Nat} (h : 0 < s) (h' : s < 64) (len : Nat) :
    val (shlMem s (len + 1) a) 0 (len + 1) + (2 ^ 64) ^ (len + 1) * (shr64 (a len) (64 - s)).toNat
      = val a 0 (len + 1) * 2 ^ s ∧
    ∀ k, len < k → shlMem s (len + 1) a k = a k := by
  have hsh : shlMem s (len + 1) a = upd (shlLoop s len a) 0 (shl64 (shlLoop s len a 0) s) := rfl
  constructor
  · refine shl_val a _ h h' len ?_ ?_
    · rw [hsh, upd_same, shlLoop_get, if_neg (by omega)]
    · intro k hk
      rw [hsh, upd_ne _ _ (by omega), shlLoop_get, if_pos (by omega), Nat.add_sub_cancel]
  · intro k hk
    rw [hsh, upd_ne _ _ (by omega), shlLoop_get, if_neg (by omega)]

theorem shrLoop_get (s : Nat) (a : Mem) (i k : Nat) :
    shrLoop s a i k = if k < i then shr64 (a k) s ||| shl64 (a (k + 1)) (64 - s) else a k := by
  induction i generalizing k with
  | zero => rw [shrLoop, if_neg (by omega)]
  | succ i ih =>
    rw [shrLoop]
    by_cases h1 : k = i
    · subst h1
      rw [upd_same, if_pos (by omega), ih, if_neg (by omega), ih, if_neg (by omega)]
    · rw [upd_ne _ _ h1, ih]
      by_cases h2 : k < i
      · rw [if_pos h2, if_pos (by omega)]
      · rw [if_neg h2, if_neg (by omega)]

theorem shr_val (a b : Mem) {s : Nat} (h : 0 < s) (h' : s < 64) (k : Nat)
    (hs : ∀ t, t < k → b t = shr64 (a t) s ||| shl64 (a (t + 1)) (64 - s)) :
    val b 0 k * 2 ^ s + (a 0).toNat % 2 ^ s = val a 0 k + (2 ^ 64) ^ k * ((a k).toNat % 2 ^ s) := by
  induction k with
  | zero => simp [val]
  | succ k ih =>
    have e := ih fun t ht => hs t (by omega)
    have hb := hs k (by omega)
    have l : (b k).toNat * 2 ^ s + (a k).toNat % 2 ^ s
        = (a k).toNat + 2 ^ 64 * ((a (k + 1)).toNat % 2 ^ s) := by
      have e1 := or_shift_lo' (a (k + 1)) (a k) (n := 64 - s) (by omega) (by omega)
      rw [show 64 - (64 - s) = s by omega] at e1
      rw [hb, e1, shl64_toNat _ (by omega), shr64_toNat _ h', show 64 - (64 - s) = s by omega]
      have h2 := Nat.div_add_mod (a k).toNat (2 ^ s)
      have : (2 : Nat) ^ 64 = 2 ^ (64 - s) * 2 ^ s := by rw [← pow_add]; congr 1; omega
      rw [this]
      generalize (a k).toNat / 2 ^ s = Q at *
      generalize (a k).toNat % 2 ^ s = R at *
      generalize (a (k + 1)).toNat % 2 ^ s = T at *
      rw [← h2]; ring
    rw [val, val, Nat.zero_add, pow_succ (2 ^ 64) k]
    generalize (2 ^ 64) ^ k = P at *
    zify at e l ⊢
    linear_combination e + P * l

theorem shr_val_top (a b : Mem) {s : Nat} (h : 0 < s) (h' : s < 64) (n : Nat)
    (hs : ∀ t, t < n → b t = shr64 (a t) s ||| shl64 (a (t + 1)) (64 - s))
    (ht : b n = shr64 (a n) s) : val b 0 (n + 1) = val a 0 (n + 1) / 2 ^ s := by
  have e := shr_val a b h h' n hs
  symm
  apply Nat.div_eq_of_lt_le
  · rw [val, val, Nat.zero_add, ht, shr64_toNat _ h']
    have h2 := Nat.div_mul_le_self (a n).toNat (2 ^ s)
    have h3 := Nat.div_add_mod (a n).toNat (2 ^ s)
    generalize (2 ^ 64) ^ n = P at *
    generalize (a n).toNat / 2 ^ s = Q at *
    generalize (a n).toNat % 2 ^ s = R at *
    rw [← h3]
    have g1 : (val b 0 n + P * Q) * 2 ^ s = val b 0 n * 2 ^ s + P * (2 ^ s * Q) := by ring
    have g2 : (val b 0 n + P * Q + 1) * 2 ^ s = val b 0 n * 2 ^ s + P * (2 ^ s * Q) + 2 ^ s := by ring
    rw [Nat.mul_add]
    omega
  · rw [val, val, Nat.zero_add, ht, shr64_toNat _ h']
    have h3 := Nat.div_add_mod (a n).toNat (2 ^ s)
    have h4 : (a 0).toNat % 2 ^ s < 2 ^ s := Nat.mod_lt _ (by positivity)
    generalize (2 ^ 64) ^ n = P at *
    generalize (a n).toNat / 2 ^ s = Q at *
    generalize (a n).toNat % 2 ^ s = R at *
    rw [← h3]
    have g1 : (val b 0 n + P * Q) * 2 ^ s = val b 0 n * 2 ^ s + P * (2 ^ s * Q) := by ring
    have g2 : (val b 0 n + P * Q + 1) * 2 ^ s = val b 0 n * 2 ^ s + P * (2 ^ s * Q) + 2 ^ s := by ring
    rw [Nat.mul_add]
    omega

theorem clz64_lt (x : UInt64) (h : 0 < x.toNat) : clz64 x < 64 := (clz64_spec x h).1

theorem normNum_spec (num : Mem) {s : Nat} (hs : s < 64) (len : Nat) (h0 : num (len + 1) = 0) :
    val (normNum s (len + 1) num) 0 (len + 1 + 1) = val num 0 (len + 1) * 2 ^ s ∧
      (normNum s (len + 1) num (len + 1)).toNat < 2 ^ 63 := by
  have hval : ∀ a : Mem, val a 0 (len + 1 + 1) = val a 0 (len + 1) + (2 ^ 64) ^ (len + 1) * (a (len + 1)).toNat := by
    intro a; rw [val, Nat.zero_add]
  rw [normNum, hval]
  rcases Nat.eq_zero_or_pos s with hz | hp
  · rw [if_neg (by omega), h0, UInt64.toNat_zero, Nat.mul_zero, Nat.add_zero, hz, pow_zero, Nat.mul_one]
    exact ⟨rfl, by norm_num⟩
  · rw [if_pos hp]
    obtain ⟨e, u⟩ := shlMem_spec (upd num (len + 1) (shr64 (num (len + 1 - 1)) (64 - s))) hp hs len
    rw [u _ (by omega), upd_same, Nat.add_sub_cancel]
    rw [upd_ne _ _ (by omega), val_upd_hi _ _ _ _ _ (by omega), Nat.add_sub_cancel] at e
    refine ⟨e, ?_⟩
    rw [shr64_toNat _ (by omega)]
    have hx := u64_lt (num len)
    have : 2 ^ 1 ≤ 2 ^ (64 - s) := Nat.pow_le_pow_right (by norm_num) (by omega)
    rw [Nat.div_lt_iff_lt_mul (by positivity)]
    omega

theorem normDiv_spec (dv : Mem) {s : Nat} (k : Nat) (hk : 1 ≤ k) (hs : s < 64)
    (hlo : 2 ^ (63 - s) ≤ (dv k).toNat) (hhi : (dv k).toNat < 2 ^ (64 - s)) :
    val (normDiv s (k + 1) dv) 0 (k + 1) = val dv 0 (k + 1) * 2 ^ s ∧
      2 ^ 63 ≤ (normDiv s (k + 1) dv k).toNat := by
  rw [normDiv]
  rcases Nat.eq_zero_or_pos s with hz | hp
  · rw [if_neg (by omega), hz, pow_zero, Nat.mul_one]
    rw [hz] at hlo
    exact ⟨rfl, hlo⟩
  · rw [if_pos hp]
    obtain ⟨e, u⟩ := shlMem_spec dv hp hs k
    have hz : (shr64 (dv k) (64 - s)).toNat = 0 := by
      rw [shr64_toNat _ (by omega)]
      exact Nat.div_eq_of_lt hhi
    rw [hz, Nat.mul_zero, Nat.add_zero] at e
    refine ⟨e, ?_⟩
    rw [shlMem, Nat.add_sub_cancel]
    rw [upd_ne _ _ (by omega), shlLoop_get, if_pos (by omega), or_shift_lo _ _ hp hs,
      shl64_toNat _ hs, Nat.mod_eq_of_lt hhi]
    have : 2 ^ (63 - s) * 2 ^ s ≤ (dv k).toNat * 2 ^ s := Nat.mul_le_mul_right _ hlo
    rw [← pow_add, show 63 - s + s = 63 by omega] at this
    omega

theorem unnorm_spec (a : Mem) {s : Nat} (hs : s < 64) (k : Nat) :
    val (unnorm s (k + 1) a) 0 (k + 1) = val a 0 (k + 1) / 2 ^ s ∧
      ∀ i, k + 1 ≤ i → unnorm s (k + 1) a i = a i := by
  rw [unnorm]
  rcases Nat.eq_zero_or_pos s with hz | hp
  · rw [if_neg (by omega), hz, pow_zero, Nat.div_one]
    exact ⟨rfl, fun _ _ => rfl⟩
  · rw [if_pos hp, Nat.add_sub_cancel]
    refine ⟨?_, fun i hi => ?_⟩
    · apply shr_val_top a _ hp hs k
      · intro t ht
        rw [upd_ne _ _ (by omega), shrLoop_get, if_pos ht]
      · rw [upd_same, shrLoop_get, if_neg (by omega)]
    · rw [upd_ne _ _ (by omega), shrLoop_get, if_neg (by omega)]

/-- `divrem_nbym` computes the Euclidean quotient and remainder whenever no step violates the
precondition of `div_3by2`, and (in the debug profile) panics otherwise. -/
theorem divrem_nbym_spec (dbg : Bool) (k m : Nat) (num dv : Mem) (hk : 1 ≤ k)
    (h0 : num (k + 1 + m) = 0) (hd : 0 < (dv k).toNat) :
    (KnuthOK (k + 1) (m + 1) (val num 0 (k + 1 + m) * 2 ^ clz64 (dv k))
        (val dv 0 (k + 1) * 2 ^ clz64 (dv k)) →
      ∃ r, divrem_nbym dbg (k + 1) m num dv = some r ∧
        val r (k + 1) (m + 1) = val num 0 (k + 1 + m) / val dv 0 (k + 1) ∧
        val r 0 (k + 1) = val num 0 (k + 1 + m) % val dv 0 (k + 1)) ∧
    (¬ KnuthOK (k + 1) (m + 1) (val num 0 (k + 1 + m) * 2 ^ clz64 (dv k))
        (val dv 0 (k + 1) * 2 ^ clz64 (dv k)) →
      divrem_nbym true (k + 1) m num dv = none) := by
  obtain ⟨hs, hlo, hhi⟩ := clz64_spec _ hd
  have hdef : ∀ dbg, divrem_nbym dbg (k + 1) m num dv =
      (knuthLoop dbg (k + 1) (normDiv (clz64 (dv k)) (k + 1) dv) (m + 1)
        (normNum (clz64 (dv k)) (k + 1 + m) num)).map (unnorm (clz64 (dv k)) (k + 1)) := by
    intro dbg; rw [divrem_nbym, Nat.add_sub_cancel]
  rw [hdef, hdef]
  clear hdef
  generalize clz64 (dv k) = s at *
  have hspos : 0 < 2 ^ s := by positivity
  obtain ⟨hA, hAtop⟩ := normNum_spec num hs (k + m) (by rw [← h0]; congr 1; omega)
  obtain ⟨hV, hVtop⟩ := normDiv_spec dv k hk hs hlo hhi
  rw [show k + m + 1 = k + 1 + m by omega] at hA hAtop
  rw [show k + 1 + m + 1 = m + 1 + (k + 1) by omega] at hA
  generalize normNum s (k + 1 + m) num = num' at *
  generalize normDiv s (k + 1) dv = dv' at *
  have hlt : val num' (m + 1) (k + 1) < val dv' 0 (k + 1) := by
    rw [val, val, Nat.zero_add, show m + 1 + k = k + 1 + m by omega]
    have l1 := val_lt num' (m + 1) k
    have : (2 ^ 64) ^ k * ((num' (k + 1 + m)).toNat + 1) ≤ (2 ^ 64) ^ k * (dv' k).toNat :=
      Nat.mul_le_mul_left _ (by omega)
    rw [Nat.mul_add] at this
    omega
  rw [← hA, ← hV]
  constructor
  · intro hok
    obtain ⟨a', ha, _, hq, hr⟩ := knuthLoop_spec dbg (k + 1) dv' (by omega) hVtop (m + 1) num' hlt hok
    rw [ha, Option.map_some]
    rw [hA, hV, Nat.mul_div_mul_right _ _ hspos] at hq
    rw [hA, hV, Nat.mul_mod_mul_right] at hr
    obtain ⟨e, u⟩ := unnorm_spec a' hs k
    refine ⟨_, rfl, ?_, ?_⟩
    · rw [← hq]; exact val_congr fun i hi => u _ (by omega)
    · rw [e, hr, Nat.mul_div_cancel _ hspos]
  · intro hbad
    rw [knuthLoop_bad (k + 1) dv' (by omega) hVtop (m + 1) num' hlt hbad, Option.map_none]

end U256
end OpenZKP
