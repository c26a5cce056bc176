import Verif.U256.Division
import Verif.U256.ShiftLemmas
import Mathlib.Tactic.Positivity

namespace OpenZKP
namespace U256

/-- Value of `k` limbs starting at index `j`, least significant first. -/
def val (a : Mem) (j : Nat) : Nat → Nat
  | 0 => 0
  | k + 1 => val a j k + (2 ^ 64) ^ k * (a (j + k)).toNat

theorem val_lt (a : Mem) (j k : Nat) : val a j k < (2 ^ 64) ^ k := by
  induction k with
  | zero => simp [val]
  | succ k ih =>
    have := u64_lt (a (j + k))
    rw [val, pow_succ (2 ^ 64) k]
    have h : (2 ^ 64) ^ k * ((a (j + k)).toNat + 1) ≤ (2 ^ 64) ^ k * 2 ^ 64 := Nat.mul_le_mul_left _ this
    rw [Nat.mul_add] at h
    omega

theorem val_congr {a b : Mem} {j k : Nat} (h : ∀ i, i < k → a (j + i) = b (j + i)) :
    val a j k = val b j k := by
  induction k with
  | zero => rfl
  | succ k ih => rw [val, val, ih (fun i hi => h i (by omega)), h k (by omega)]

theorem val_upd_hi (a : Mem) (j k i : Nat) (x : UInt64) (h : j + k ≤ i) :
    val (upd a i x) j k = val a j k :=
  val_congr fun t ht => by rw [upd, if_neg (by omega)]

theorem val_upd_lo (a : Mem) (j k i : Nat) (x : UInt64) (h : i < j) :
    val (upd a i x) j k = val a j k :=
  val_congr fun t ht => by rw [upd, if_neg (by omega)]

theorem val_split (a : Mem) (j k l : Nat) :
    val a j (k + l) = val a j k + (2 ^ 64) ^ k * val a (j + k) l := by
  induction l with
  | zero => simp [val]
  | succ l ih => rw [← Nat.add_assoc, val, ih, val, pow_add (2 ^ 64) k l, Nat.add_assoc j k l]; ring

theorem val_succ_lo (a : Mem) (j k : Nat) :
    val a j (k + 1) = (a j).toNat + 2 ^ 64 * val a (j + 1) k := by
  rw [Nat.add_comm k 1, val_split]; simp [val]

theorem upd_same (a : Mem) (i : Nat) (x : UInt64) : upd a i x i = x := by rw [upd, if_pos rfl]
theorem upd_ne (a : Mem) {i k : Nat} (x : UInt64) (h : k ≠ i) : upd a i x k = a k := by
  rw [upd, if_neg h]

/-! ### Division by one limb -/

theorem nby1Loop_spec (d : UInt64) (i : Nat) (s : Mem × UInt64) (hr : s.2.toNat < d.toNat) :
    val (nby1Loop d i s).1 0 i * d.toNat + (nby1Loop d i s).2.toNat
      = s.2.toNat * (2 ^ 64) ^ i + val s.1 0 i ∧
    (nby1Loop d i s).2.toNat < d.toNat ∧
    ∀ k, i ≤ k → (nby1Loop d i s).1 k = s.1 k := by
  induction i generalizing s with
  | zero => exact ⟨by simp [nby1Loop, val], hr, fun _ _ => rfl⟩
  | succ i ih =>
    rw [nby1Loop]
    have hs : ∃ q r, nby1Step d i s = (upd s.1 i q, r) ∧
        q.toNat * d.toNat + r.toNat = s.2.toNat * 2 ^ 64 + (s.1 i).toNat ∧ r.toNat < d.toNat := by
      rw [nby1Step]
      split; rename_i q r h
      exact ⟨q, r, rfl, div_2_1_spec h hr⟩
    obtain ⟨q, r, hs, h1, h2⟩ := hs
    rw [hs]
    obtain ⟨e1, e2, e3⟩ := ih (upd s.1 i q, r) h2
    dsimp only at e1 e3
    refine ⟨?_, e2, fun k hk => ?_⟩
    · rw [val, Nat.zero_add, e3 i (le_refl _), upd_same, val, pow_succ (2 ^ 64) i, Nat.zero_add]
      rw [val_upd_hi _ _ _ _ _ (by omega)] at e1
      generalize (2 ^ 64) ^ i = P at *
      zify at e1 h1 ⊢
      linear_combination e1 + P * h1
    · rw [e3 k (by omega), upd_ne _ _ (by omega)]

/-! ### The 3-by-2 quotient -/

theorem div_unique' {N D q : Nat} (h1 : q * D ≤ N) (h2 : N + 1 ≤ q * D + D) : q = N / D := by
  have hD : 0 < D := by
    rcases Nat.eq_zero_or_pos D with h | h
    · subst h; simp at h2
    · exact h
  exact ((Nat.div_eq_iff hD).mpr ⟨h1, by omega⟩).symm

theorem sub_one_toNat {q : UInt64} (h : 0 < q.toNat) : (q - 1).toNat = q.toNat - 1 := by
  have hq := u64_lt q
  rw [UInt64.toNat_sub]
  have : (1 : UInt64).toNat = 1 := by decide
  rw [this]; omega

theorem div_3by2_case1 (n0 n1 n2 d0 : Nat) (b0 : n0 < 2 ^ 64) (c0 : d0 < 2 ^ 64)
    (hd : 2 ^ 63 ≤ n2) (hlt : n1 < d0) :
    ((d0 * 2 ^ 64 + 2 ^ 128 - (n1 * 2 ^ 64 + n0)) % 2 ^ 128 > n2 * 2 ^ 64 + d0 →
      18446744073709551614 = (n2 * 2 ^ 128 + n1 * 2 ^ 64 + n0) / (n2 * 2 ^ 64 + d0)) ∧
    (¬ (d0 * 2 ^ 64 + 2 ^ 128 - (n1 * 2 ^ 64 + n0)) % 2 ^ 128 > n2 * 2 ^ 64 + d0 →
      18446744073709551615 = (n2 * 2 ^ 128 + n1 * 2 ^ 64 + n0) / (n2 * 2 ^ 64 + d0)) := by
  have em : (d0 * 2 ^ 64 + 2 ^ 128 - (n1 * 2 ^ 64 + n0)) % 2 ^ 128
      = d0 * 2 ^ 64 - (n1 * 2 ^ 64 + n0) := by omega
  rw [em]
  constructor
  · intro hg; apply div_unique' <;> omega
  · intro hg; apply div_unique' <;> omega

/-- `div_3by2` is exact under its documented precondition. -/
theorem div_3by2_spec (dbg : Bool) (n0 n1 n2 d0 d1 : UInt64) (hd : 2 ^ 63 ≤ d1.toNat)
    (hlt : val_2 n1 n2 < val_2 d0 d1) :
    ∃ q, div_3by2 dbg n0 n1 n2 d0 d1 = some q ∧
      q.toNat = (n2.toNat * 2 ^ 128 + n1.toNat * 2 ^ 64 + n0.toNat) / val_2 d0 d1 := by
  have b0 := u64_lt n0; have b1 := u64_lt n1; have b2 := u64_lt n2
  have c0 := u64_lt d0; have c1 := u64_lt d1
  rw [div_3by2, if_neg (by simp [hlt])]
  by_cases h : n2 = d1
  · rw [if_pos h]
    subst h
    have e0 : val_2 0 d0 = d0.toNat * 2 ^ 64 := by
      rw [val_2, UInt64.toNat_zero, Nat.add_zero]
    rw [e0]
    have eA : (0xfffffffffffffffe : UInt64).toNat = 18446744073709551614 := by decide
    have eB : (0xffffffffffffffff : UInt64).toNat = 18446744073709551615 := by decide
    unfold val_2 at hlt
    obtain ⟨k1, k2⟩ := div_3by2_case1 n0.toNat n1.toNat n2.toNat d0.toNat b0 c0 hd (by omega)
    dsimp only
    split_ifs with hg
    · exact ⟨_, rfl, eA.trans (k1 hg)⟩
    · exact ⟨_, rfl, eB.trans (k2 hg)⟩
  · rw [if_neg h]
    have hne : n2.toNat ≠ d1.toNat := fun e => h (UInt64.toNat_inj.mp e)
    unfold val_2 at hlt
    have hlt2 : n2.toNat < d1.toNat := by omega
    split; rename_i q r hqr
    obtain ⟨e, hr⟩ := div_2_1_spec hqr hlt2
    have bq := u64_lt q
    -- abbreviations
    obtain ⟨D, hD'⟩ : ∃ D, val_2 d0 d1 = D := ⟨_, rfl⟩
    rw [hD']
    have hD : d1.toNat * 2 ^ 64 + d0.toNat = D := hD'
    have eN : n2.toNat * 2 ^ 128 + n1.toNat * 2 ^ 64 + n0.toNat
        = q.toNat * d1.toNat * 2 ^ 64 + r.toNat * 2 ^ 64 + n0.toNat := by
      zify at e ⊢
      linear_combination 2 ^ 64 * (-e)
    rw [eN]
    clear hqr
    have key : ∀ t : Nat, t * D = t * d1.toNat * 2 ^ 64 + t * d0.toNat := by
      intro t; rw [← hD]; ring
    have up1 : ∀ t s : Nat, t = s + 1 → t * d1.toNat = s * d1.toNat + d1.toNat ∧
        t * d0.toNat = s * d0.toNat + d0.toNat := by
      intro t s hts; subst hts; constructor <;> ring
    split_ifs with g1
    · unfold mul_2 val_2 at g1
      have hq : 0 < q.toNat := by
        rcases Nat.eq_zero_or_pos q.toNat with h0 | h0
        · rw [h0] at g1; omega
        · exact h0
      have eq1 : (q - 1).toNat = q.toNat - 1 := sub_one_toNat hq
      obtain ⟨u1, u0⟩ := up1 q.toNat (q.toNat - 1) (by omega)
      have bnd : (q.toNat - 1) * d0.toNat < 2 ^ 128 :=
        lt_of_le_of_lt (Nat.mul_le_mul (show q.toNat - 1 ≤ 2 ^ 64 by omega)
          (show d0.toNat ≤ 2 ^ 64 - 1 by omega)) (by norm_num)
      have er : (r + d1).toNat = (r.toNat + d1.toNat) % 2 ^ 64 := UInt64.toNat_add r d1
      by_cases ov : 2 ^ 64 ≤ r.toNat + d1.toNat
      · -- the remainder overflowed: q - 1 is right
        have hov : r + d1 < d1 := by rw [UInt64.lt_iff_toNat_lt, er]; omega
        rw [if_neg (by simp [hov])]
        refine ⟨_, rfl, div_unique' ?_ ?_⟩
        · rw [key, eq1]; omega
        · rw [eq1, key]; omega
      · have hov : ¬ (r + d1 < d1) := by rw [UInt64.lt_iff_toNat_lt, er]; omega
        have er' : (r + d1).toNat = r.toNat + d1.toNat := by rw [er]; omega
        by_cases g2 : mul_2 (q - 1) d0 > val_2 n0 (r + d1)
        · rw [if_pos (by simp [hov, g2])]
          unfold mul_2 val_2 at g2
          rw [eq1, er'] at g2
          have hq2 : 0 < q.toNat - 1 := by
            rcases Nat.eq_zero_or_pos (q.toNat - 1) with h0 | h0
            · rw [h0] at g2; omega
            · exact h0
          have eq2 : (q - 1 - 1).toNat = q.toNat - 1 - 1 := by
            rw [sub_one_toNat (by rw [eq1]; exact hq2), eq1]
          obtain ⟨w1, w0⟩ := up1 (q.toNat - 1) (q.toNat - 1 - 1) (by omega)
          refine ⟨_, rfl, div_unique' ?_ ?_⟩
          · rw [key, eq2]; omega
          · rw [eq2, key]; omega
        · rw [if_neg (by simp only [g2, decide_false, Bool.and_false, Bool.false_eq_true,
            not_false_eq_true])]
          unfold mul_2 val_2 at g2
          rw [eq1, er'] at g2
          refine ⟨_, rfl, div_unique' ?_ ?_⟩
          · rw [key, eq1]; omega
          · rw [eq1, key]; omega
    · unfold mul_2 val_2 at g1
      refine ⟨_, rfl, div_unique' ?_ ?_⟩
      · rw [key]; omega
      · rw [key]; omega

/-- What `div_3by2` returns when its precondition fails with equality, in the release profile. -/
theorem div_3by2_equal (n0 d0 d1 : UInt64) :
    div_3by2 true n0 d0 d1 d0 d1 = none ∧
    ∃ q, div_3by2 false n0 d0 d1 d0 d1 = some q ∧
      q.toNat = if 0 < n0.toNat ∧ val_2 d0 d1 + n0.toNat < 2 ^ 128 then 2 ^ 64 - 2 else 2 ^ 64 - 1 := by
  have b0 := u64_lt n0; have c0 := u64_lt d0; have c1 := u64_lt d1
  refine ⟨by simp [div_3by2], ?_⟩
  rw [div_3by2, if_neg (by simp), if_pos rfl]
  simp only [val_2]
  have e0 : (0 : UInt64).toNat = 0 := by decide
  simp only [e0]
  by_cases h : 0 < n0.toNat ∧ d1.toNat * 2 ^ 64 + d0.toNat + n0.toNat < 2 ^ 128
  · rw [if_pos (by omega)]; exact ⟨_, rfl, by simp only [h, and_self, if_true]; decide⟩
  · rw [if_neg (by omega)]; exact ⟨_, rfl, by simp only [h, if_false]; decide⟩

/-! ### Multiply-subtract and add-back -/

theorem val_upd_top (a : Mem) (j k : Nat) (x : UInt64) :
    val (upd a (j + k) x) j (k + 1) = val a j k + (2 ^ 64) ^ k * x.toNat := by
  rw [val, val_upd_hi _ _ _ _ _ (le_refl _), upd_same]

theorem subMul_spec (d : Mem) (q : UInt64) (j : Nat) (a : Mem) (i : Nat) :
    val (subMul d q j a i).1 j i + q.toNat * val d 0 i
      = val a j i + (2 ^ 64) ^ i * (subMul d q j a i).2.toNat ∧
    ∀ k, k < j ∨ j + i ≤ k → (subMul d q j a i).1 k = a k := by
  induction i with
  | zero => exact ⟨by simp [subMul, val], fun _ _ => rfl⟩
  | succ i ih =>
    obtain ⟨e, hk⟩ := ih
    rw [subMul]
    have hs : ∃ x b, subMulStep d q j i (subMul d q j a i) = (upd (subMul d q j a i).1 (j + i) x, b) ∧
        x.toNat + q.toNat * (d i).toNat + (subMul d q j a i).2.toNat
          = ((subMul d q j a i).1 (j + i)).toNat + 2 ^ 64 * b.toNat := by
      rw [subMulStep]
      split; rename_i x b h
      exact ⟨x, b, rfl, msb_spec h⟩
    obtain ⟨x, b, hs, h1⟩ := hs
    rw [hs]
    rw [hk (j + i) (by omega)] at h1
    refine ⟨?_, fun k hk' => ?_⟩
    · dsimp only
      rw [val_upd_top, val, val, pow_succ (2 ^ 64) i, Nat.zero_add]
      generalize (2 ^ 64) ^ i = P at *
      zify at e h1 ⊢
      linear_combination e + P * h1
    · dsimp only
      rw [upd_ne _ _ (by omega), hk k (by omega)]

theorem addBack_spec (d : Mem) (j : Nat) (a : Mem) (i : Nat) :
    val (addBack d j a i).1 j i + (2 ^ 64) ^ i * (addBack d j a i).2.toNat
      = val a j i + val d 0 i ∧
    ∀ k, k < j ∨ j + i ≤ k → (addBack d j a i).1 k = a k := by
  induction i with
  | zero => exact ⟨by simp [addBack, val], fun _ _ => rfl⟩
  | succ i ih =>
    obtain ⟨e, hk⟩ := ih
    rw [addBack]
    have hs : ∃ x b, addBackStep d j i (addBack d j a i) = (upd (addBack d j a i).1 (j + i) x, b) ∧
        x.toNat + 2 ^ 64 * b.toNat
          = ((addBack d j a i).1 (j + i)).toNat + (d i).toNat + (addBack d j a i).2.toNat := by
      rw [addBackStep]
      split; rename_i x b h
      exact ⟨x, b, rfl, adc_spec h⟩
    obtain ⟨x, b, hs, h1⟩ := hs
    rw [hs]
    rw [hk (j + i) (by omega)] at h1
    refine ⟨?_, fun k hk' => ?_⟩
    · dsimp only
      rw [val_upd_top, val, val, pow_succ (2 ^ 64) i, Nat.zero_add]
      generalize (2 ^ 64) ^ i = P at *
      zify at e h1 ⊢
      linear_combination e + P * h1
    · dsimp only
      rw [upd_ne _ _ (by omega), hk k (by omega)]

/-- The estimate from the top limbs is the true quotient or one more. -/
theorem qhat_bounds {N D E R V Rl Vl : Nat} (hR : R = N * E + Rl) (hV : V = D * E + Vl)
    (hRl : Rl < E) (hVl : Vl < E) (hq : N / D ≤ D) (hD : 0 < D) (hVpos : 0 < V) :
    R / V ≤ N / D ∧ N / D ≤ R / V + 1 := by
  constructor
  · rw [Nat.le_div_iff_mul_le hD]
    have h1 : R / V * V ≤ R := Nat.div_mul_le_self R V
    have h2 : R / V * (D * E) ≤ R / V * V := Nat.mul_le_mul_left _ (by omega)
    have h3 : R / V * D * E < (N + 1) * E := by
      rw [Nat.mul_assoc, Nat.add_mul]; omega
    have := Nat.lt_of_mul_lt_mul_right h3
    omega
  · rcases Nat.eq_zero_or_pos (N / D) with h0 | h0
    · rw [h0]; exact Nat.zero_le _
    · have hle : N / D - 1 ≤ R / V := by
        rw [Nat.le_div_iff_mul_le hVpos]
        have h1 : N / D * D ≤ N := Nat.div_mul_le_self N D
        generalize hq' : N / D - 1 = t at *
        have e : N / D = t + 1 := by omega
        rw [e] at h1 hq
        rw [hV, hR]
        have h2 : (t + 1) * D * E ≤ N * E := Nat.mul_le_mul_right _ h1
        have h3 : t * Vl ≤ D * E := Nat.mul_le_mul (by omega) (by omega)
        have h4 : (t + 1) * D * E = t * (D * E) + D * E := by ring
        rw [Nat.mul_add]
        omega
      exact Nat.sub_le_iff_le_add.mp hle

theorem val_two_top (a : Mem) (j n : Nat) (hn : 2 ≤ n) :
    val a j n = val_2 (a (j + n - 2)) (a (j + n - 1)) * (2 ^ 64) ^ (n - 2) + val a j (n - 2) := by
  obtain ⟨k, rfl⟩ : ∃ k, n = k + 2 := ⟨n - 2, by omega⟩
  rw [val, val, val_2, pow_succ (2 ^ 64) k]
  rw [show k + 2 - 2 = k by omega, show j + (k + 2) - 2 = j + k by omega,
    show j + (k + 2) - 1 = j + (k + 1) by omega]
  ring

/-- One Knuth step, when the top limbs are strictly ordered. -/
theorem knuthStep_spec (dbg : Bool) (n : Nat) (d : Mem) (j : Nat) (a : Mem) (hn : 2 ≤ n)
    (hd : 2 ^ 63 ≤ (d (n - 1)).toNat) (hlt : val a (j + 1) n < val d 0 n)
    (hstrict : val_2 (a (j + n - 1)) (a (j + n)) < val_2 (d (n - 2)) (d (n - 1))) :
    ∃ a', knuthStep dbg n d j a = some a' ∧ (∀ k, k < j ∨ j + n < k → a' k = a k) ∧
      (a' (j + n)).toNat = val a j (n + 1) / val d 0 n ∧
      val a' j n = val a j (n + 1) % val d 0 n := by
  obtain ⟨q, hq, hqv⟩ := div_3by2_spec dbg (a (j + n - 2)) _ _ _ _ hd hstrict
  rw [knuthStep, hq]
  dsimp only
  obtain ⟨e1, u1⟩ := subMul_spec d q j a n
  obtain ⟨e2, u2⟩ := addBack_spec d j (subMul d q j a n).1 n
  have htop := u1 (j + n) (by omega)
  have l1 := val_lt (subMul d q j a n).1 j n
  have l2 := val_lt (addBack d j (subMul d q j a n).1 n).1 j n
  have lV := val_lt d 0 n
  -- the estimate
  have hRV : val a j (n + 1) < 2 ^ 64 * val d 0 n := by
    rw [val_succ_lo]; have := u64_lt (a j); omega
  have hVpos : 0 < val d 0 n := by omega
  have hbound : val a j (n + 1) / val d 0 n ≤ q.toNat ∧ q.toNat ≤ val a j (n + 1) / val d 0 n + 1 := by
    rw [hqv]
    have hV2 := val_two_top d 0 n hn
    rw [Nat.zero_add] at hV2
    have hN : val a j (n + 1) = ((a (j + n)).toNat * 2 ^ 128 + (a (j + n - 1)).toNat * 2 ^ 64
        + (a (j + n - 2)).toNat) * (2 ^ 64) ^ (n - 2) + val a j (n - 2) := by
      obtain ⟨k, rfl⟩ : ∃ k, n = k + 2 := ⟨n - 2, by omega⟩
      rw [val, val, val, pow_succ (2 ^ 64) (k + 1), pow_succ (2 ^ 64) k]
      rw [show k + 2 - 2 = k by omega, show j + (k + 2) - 2 = j + k by omega,
        show j + (k + 2) - 1 = j + (k + 1) by omega]
      ring
    refine qhat_bounds hN hV2 (val_lt _ _ _) (val_lt _ _ _) ?_ (by unfold val_2; omega) hVpos
    rw [← hqv]
    have := u64_lt q
    unfold val_2
    omega
  have hdm := Nat.div_add_mod (val a j (n + 1)) (val d 0 n)
  have hml := Nat.mod_lt (val a j (n + 1)) hVpos
  have hR : val a j (n + 1) = val a j n + (2 ^ 64) ^ n * (a (j + n)).toNat := rfl
  generalize hQ : val a j (n + 1) / val d 0 n = Q at *
  generalize hS : val a j (n + 1) % val d 0 n = S at *
  generalize hP : (2 ^ 64) ^ n = P at *
  generalize hV : val d 0 n = V at *
  have cmp_eq : ∀ (x y : Nat) (l r : Nat), l < P → r < P → l + P * x = r + P * y → x = y ∧ l = r := by
    intro x y l r hl hr h
    have h1 : x = y := by
      rcases Nat.lt_trichotomy x y with hh | hh | hh
      · exfalso
        have : P * (x + 1) ≤ P * y := Nat.mul_le_mul_left _ hh
        rw [Nat.mul_add] at this; omega
      · exact hh
      · exfalso
        have : P * (y + 1) ≤ P * x := Nat.mul_le_mul_left _ hh
        rw [Nat.mul_add] at this; omega
    subst h1; exact ⟨rfl, by omega⟩
  rcases Nat.lt_or_ge Q q.toNat with hc | hc
  · -- one too large: add back
    have hqe : q.toNat = Q + 1 := by omega
    rw [hqe] at e1
    have eqV : (Q + 1) * V = V * Q + V := by ring
    have hb : (subMul d q j a n).2.toNat = (a (j + n)).toNat + 1 := by
      refine (cmp_eq _ _ (S + P - V) (val (subMul d q j a n).1 j n) (by omega) l1 ?_).1
      rw [Nat.mul_add]
      omega
    have hlt' : (subMul d q j a n).1 (j + n) < (subMul d q j a n).2 := by
      rw [UInt64.lt_iff_toNat_lt, htop, hb]; omega
    rw [if_pos hlt']
    refine ⟨_, rfl, fun k hk => ?_, ?_, ?_⟩
    · rw [upd_ne _ _ (by omega), u2 k (by omega), u1 k (by omega)]
    · rw [upd_same, sub_one_toNat (by omega)]; omega
    · rw [val_upd_hi _ _ _ _ _ (le_refl _)]
      rw [hb, Nat.mul_add] at e1
      refine (cmp_eq (addBack d j (subMul d q j a n).1 n).2.toNat 1 _ _ l2 (by omega) ?_).2
      omega
  · have hqe : q.toNat = Q := by omega
    rw [hqe] at e1
    rw [Nat.mul_comm] at e1
    obtain ⟨hb, hv⟩ := cmp_eq (a (j + n)).toNat (subMul d q j a n).2.toNat
      (val (subMul d q j a n).1 j n + 0) S (by omega) (by omega) (by omega)
    have hlt' : ¬ (subMul d q j a n).1 (j + n) < (subMul d q j a n).2 := by
      rw [UInt64.lt_iff_toNat_lt, htop, hb]; omega
    rw [if_neg hlt']
    refine ⟨_, rfl, fun k hk => ?_, ?_, ?_⟩
    · rw [upd_ne _ _ (by omega), u1 k (by omega)]
    · rw [upd_same]; omega
    · rw [val_upd_hi _ _ _ _ _ (le_refl _)]; omega

end U256
end OpenZKP
