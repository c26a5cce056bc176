import Verif.U256.KnuthLemmas

namespace OpenZKP
namespace U256

theorem size_eq {x k : Nat} (h1 : 2 ^ k ≤ x) (h2 : x < 2 ^ (k + 1)) : Nat.size x = k + 1 :=
  le_antisymm (Nat.size_le.mpr h2) (Nat.lt_size.mpr h1)

theorem size_of_limbs {b lo k : Nat} {t : UInt64} (ht : 0 < t.toNat) (hlo : lo < 2 ^ k)
    (hb : b = lo + 2 ^ k * t.toNat) : Nat.size b = k + 64 - clz64 t := by
  obtain ⟨c, l, u⟩ := clz64_spec t ht
  obtain ⟨h1, h2⟩ := clz_bound c hlo l u hb
  have e := size_eq (x := b) (k := k + 63 - clz64 t) h1
    (by rw [show k + 63 - clz64 t + 1 = k + 64 - clz64 t by omega]; exact h2)
  omega

theorem size_limbs_n {b k n s : Nat} (hs : s < 64) (hk : k = 64 * (n - 1)) (hn : 1 ≤ n)
    (h : Nat.size b = k + 64 - s) : numLimbs b = n ∧ 64 * n - Nat.size b = s := by
  unfold numLimbs; omega

theorem divrem_mem (dbg : Bool) (k m : Nat) (num dv : Mem) (hk : 1 ≤ k)
    (h0 : num (k + 1 + m) = 0) (hd : 0 < (dv k).toNat) (a b : Nat)
    (ha : a = val num 0 (k + 1 + m)) (hb : b = val dv 0 (k + 1)) :
    (SafeDiv (k + 1 + m + 1) a b → ∃ r, divrem_nbym dbg (k + 1) m num dv = some r ∧
      val r (k + 1) (m + 1) = a / b ∧ val r 0 (k + 1) = a % b) ∧
    (¬ SafeDiv (k + 1 + m + 1) a b → divrem_nbym true (k + 1) m num dv = none) := by
  have hc := clz64_lt _ hd
  have hsz : Nat.size b = 64 * k + 64 - clz64 (dv k) := by
    apply size_of_limbs (lo := val dv 0 k) hd
    · have := val_lt dv 0 k
      rw [← pow_mul] at this; exact this
    · rw [hb, val, Nat.zero_add, pow_mul]
  obtain ⟨hn, hs⟩ := size_limbs_n (n := k + 1) hc (by omega) (by omega) hsz
  have hiff : SafeDiv (k + 1 + m + 1) a b ↔
      KnuthOK (k + 1) (m + 1) (val num 0 (k + 1 + m) * 2 ^ clz64 (dv k))
        (val dv 0 (k + 1) * 2 ^ clz64 (dv k)) := by
    unfold SafeDiv KnuthOK
    dsimp only
    rw [hn, hs, show k + 1 + m + 1 - (k + 1) = m + 1 by omega, ha, hb]
    constructor
    · rintro (h | h)
      · omega
      · exact h
    · exact Or.inr
  obtain ⟨h1, h2⟩ := divrem_nbym_spec dbg k m num dv hk h0 hd
  rw [hiff]
  refine ⟨fun h => ?_, h2⟩
  rw [ha, hb]
  exact h1 h

theorem pos_iff (x : UInt64) : x > 0 ↔ 0 < x.toNat := u64_pos_iff x

theorem not_pos {x : UInt64} (h : ¬ x > 0) : x.toNat = 0 := by
  rw [u64_pos_iff] at h; omega

theorem div_rem_spec (dbg : Bool) (a b : U256) (hb : 0 < b.toNat) :
    (SafeDiv 5 a.toNat b.toNat → ∃ q r, div_rem dbg a b = some (some (q, r)) ∧
      q.toNat = a.toNat / b.toNat ∧ r.toNat = a.toNat % b.toNat) ∧
    (¬ SafeDiv 5 a.toNat b.toNat → div_rem true a b = none) := by
  have b0 := u64_lt b.l0; have b1 := u64_lt b.l1; have b2 := u64_lt b.l2; have b3 := u64_lt b.l3
  have z : (0 : UInt64).toNat = 0 := rfl
  unfold div_rem
  dsimp only
  have hA : a.toNat = val (memOf [a.l0, a.l1, a.l2, a.l3, 0]) 0 4 := by
    simp only [val, memOf, toNat, Nat.zero_add, List.getD_cons_zero, List.getD_cons_succ]; ring
  by_cases h3 : b.l3 > 0
  · simp only [if_pos h3]
    obtain ⟨k1, k2⟩ := divrem_mem dbg 3 0 (memOf [a.l0, a.l1, a.l2, a.l3, 0])
      (memOf [b.l0, b.l1, b.l2, b.l3]) (by omega) rfl ((pos_iff _).mp h3) a.toNat b.toNat hA
      (by simp only [val, memOf, toNat, Nat.zero_add, List.getD_cons_zero, List.getD_cons_succ]; ring)
    refine ⟨fun hok => ?_, fun hbad => ?_⟩
    · obtain ⟨r, e, hq, hr⟩ := k1 hok
      rw [e]
      refine ⟨_, _, rfl, ?_, ?_⟩
      · rw [← hq]; simp only [val, toNat, z]; ring
      · rw [← hr]; simp only [val, toNat]; ring
    · rw [k2 hbad]
  simp only [if_neg h3]
  have z3 := not_pos h3
  by_cases h2 : b.l2 > 0
  · simp only [if_pos h2]
    obtain ⟨k1, k2⟩ := divrem_mem dbg 2 1 (memOf [a.l0, a.l1, a.l2, a.l3, 0])
      (memOf [b.l0, b.l1, b.l2]) (by omega) rfl ((pos_iff _).mp h2) a.toNat b.toNat hA
      (by simp only [val, memOf, toNat, Nat.zero_add, List.getD_cons_zero, List.getD_cons_succ, z3]; ring)
    refine ⟨fun hok => ?_, fun hbad => ?_⟩
    · obtain ⟨r, e, hq, hr⟩ := k1 hok
      rw [e]
      refine ⟨_, _, rfl, ?_, ?_⟩
      · rw [← hq]; simp only [val, toNat, z]; ring
      · rw [← hr]; simp only [val, toNat, z]; ring
    · rw [k2 hbad]
  simp only [if_neg h2]
  have z2 := not_pos h2
  by_cases h1 : b.l1 > 0
  · simp only [if_pos h1]
    obtain ⟨k1, k2⟩ := divrem_mem dbg 1 2 (memOf [a.l0, a.l1, a.l2, a.l3, 0])
      (memOf [b.l0, b.l1]) (by omega) rfl ((pos_iff _).mp h1) a.toNat b.toNat hA
      (by simp only [val, memOf, toNat, Nat.zero_add, List.getD_cons_zero, List.getD_cons_succ, z2, z3]; ring)
    refine ⟨fun hok => ?_, fun hbad => ?_⟩
    · obtain ⟨r, e, hq, hr⟩ := k1 hok
      rw [e]
      refine ⟨_, _, rfl, ?_, ?_⟩
      · rw [← hq]; simp only [val, toNat, z]; ring
      · rw [← hr]; simp only [val, toNat, z]; ring
    · rw [k2 hbad]
  simp only [if_neg h1]
  have z1 := not_pos h1
  have eb : b.toNat = b.l0.toNat := by simp only [toNat, z1, z2, z3]; omega
  have h0 : b.l0 > 0 := (pos_iff _).mpr (by omega)
  simp only [if_pos h0]
  refine ⟨fun _ => ?_, fun hbad => ?_⟩
  · have h := nby1Loop_spec b.l0 5 (memOf [a.l0, a.l1, a.l2, a.l3, 0], 0) (by rw [z]; omega)
    rw [← divrem_nby1] at h
    generalize (divrem_nby1 5 (memOf [a.l0, a.l1, a.l2, a.l3, 0]) b.l0) = nr at h ⊢
    obtain ⟨n, r⟩ := nr
    obtain ⟨e1, e2, e3⟩ := h
    have hA5 : val (memOf [a.l0, a.l1, a.l2, a.l3, 0]) 0 5 = a.toNat := by
      rw [hA]; simp only [val, memOf, Nat.zero_add, List.getD_cons_zero, List.getD_cons_succ, z]; ring
    dsimp only at e1 e2
    rw [hA5, z, Nat.zero_mul, Nat.zero_add] at e1
    -- the fifth quotient limb is zero
    have aL := toNat_lt a
    have hv5 : val n 0 5 = val n 0 4 + (2 ^ 64) ^ 4 * (n 4).toNat := rfl
    have hn4 : (n 4).toNat = 0 := by
      rcases Nat.eq_zero_or_pos (n 4).toNat with hz | hz
      · exact hz
      · exfalso
        have h1 : (2 ^ 64) ^ 4 * 1 ≤ (2 ^ 64) ^ 4 * (n 4).toNat := Nat.mul_le_mul_left _ hz
        have h2 : val n 0 5 * 1 ≤ val n 0 5 * b.l0.toNat := Nat.mul_le_mul_left _ (by omega)
        have h3 : (2 ^ 64) ^ 4 = 2 ^ 256 := by norm_num
        rw [h3] at h1 hv5
        omega
    rw [hv5, hn4, Nat.mul_zero, Nat.add_zero] at e1
    rw [eb]
    have hdm : val n 0 4 = a.toNat / b.l0.toNat ∧ r.toNat = a.toNat % b.l0.toNat := by
      have hpos : 0 < b.l0.toNat := by omega
      rw [← e1]
      constructor
      · rw [Nat.mul_comm, Nat.mul_add_div hpos, Nat.div_eq_of_lt e2, Nat.add_zero]
      · rw [Nat.mul_comm, Nat.mul_add_mod, Nat.mod_eq_of_lt e2]
    refine ⟨_, _, rfl, ?_, ?_⟩
    · rw [← hdm.1]; simp only [val, toNat]; ring
    · rw [← hdm.2]; simp only [toNat, z]; ring
  · exfalso
    apply hbad
    left
    rw [numLimbs]
    have : Nat.size b.toNat ≤ 64 := Nat.size_le.mpr (by omega)
    omega

theorem div_rem_zero (dbg : Bool) (a b : U256) (hb : b.toNat = 0) : div_rem dbg a b = some none := by
  have e : b = ZERO := toNat_inj (hb.trans zero_toNat.symm)
  subst e
  rfl

theorem div_rem_u64_spec (a : U256) (d : UInt64) (hd : 0 < d.toNat) :
    ∃ q r, div_rem_u64 a d = some (q, r) ∧ q.toNat = a.toNat / d.toNat ∧
      r.toNat = a.toNat % d.toNat := by
  have z : (0 : UInt64).toNat = 0 := rfl
  unfold div_rem_u64
  rw [if_neg (by rintro rfl; rw [z] at hd; omega)]
  split; rename_i q3 r3 h3
  obtain ⟨e3, l3⟩ := div_2_1_spec h3 (by rw [z]; exact hd)
  split; rename_i q2 r2 h2
  obtain ⟨e2, l2⟩ := div_2_1_spec h2 l3
  split; rename_i q1 r1 h1
  obtain ⟨e1, l1⟩ := div_2_1_spec h1 l2
  split; rename_i q0 r0 h0
  obtain ⟨e0, l0⟩ := div_2_1_spec h0 l1
  rw [z] at e3
  refine ⟨_, _, rfl, ?_⟩
  have e : a.toNat = d.toNat * toNat ⟨q0, q1, q2, q3⟩ + r0.toNat := by
    simp only [toNat]
    zify at e0 e1 e2 e3 ⊢
    linear_combination -(e0 + 2 ^ 64 * e1 + 2 ^ 128 * e2 + 2 ^ 192 * e3)
  rw [e]
  constructor
  · rw [Nat.mul_add_div hd, Nat.div_eq_of_lt l0, Nat.add_zero]
  · rw [Nat.mul_add_mod, Nat.mod_eq_of_lt l0]

theorem mulmod_spec (dbg : Bool) (a b m : U256) (hm : 0 < m.toNat) :
    (SafeDiv 9 (a.toNat * b.toNat) m.toNat → ∃ r, mulmod dbg a b m = some r ∧
      r.toNat = a.toNat * b.toNat % m.toNat) ∧
    (¬ SafeDiv 9 (a.toNat * b.toNat) m.toNat → mulmod true a b m = none) := by
  have b0 := u64_lt m.l0; have b1 := u64_lt m.l1; have b2 := u64_lt m.l2; have b3 := u64_lt m.l3
  have z : (0 : UInt64).toNat = 0 := rfl
  have hfull := mul_full_eq a b
  unfold mulmod
  split; rename_i lo hi hmul
  rw [hmul] at hfull
  dsimp only at hfull
  have hA : a.toNat * b.toNat
      = val (memOf [lo.l0, lo.l1, lo.l2, lo.l3, hi.l0, hi.l1, hi.l2, hi.l3, 0]) 0 8 := by
    rw [← hfull]
    simp only [val, memOf, toNat, Nat.zero_add, List.getD_cons_zero, List.getD_cons_succ]; ring
  dsimp only
  by_cases h3 : m.l3 > 0
  · simp only [if_pos h3]
    obtain ⟨k1, k2⟩ := divrem_mem dbg 3 4 (memOf [lo.l0, lo.l1, lo.l2, lo.l3, hi.l0, hi.l1, hi.l2, hi.l3, 0])
      (memOf [m.l0, m.l1, m.l2, m.l3]) (by omega) rfl ((pos_iff _).mp h3) _ m.toNat hA
      (by simp only [val, memOf, toNat, Nat.zero_add, List.getD_cons_zero, List.getD_cons_succ]; ring)
    refine ⟨fun hok => ?_, fun hbad => ?_⟩
    · obtain ⟨r, e, hq, hr⟩ := k1 hok
      rw [e]
      refine ⟨_, rfl, ?_⟩
      rw [← hr]; simp only [val, toNat]; ring
    · rw [k2 hbad]
  simp only [if_neg h3]
  have z3 := not_pos h3
  by_cases h2 : m.l2 > 0
  · simp only [if_pos h2]
    obtain ⟨k1, k2⟩ := divrem_mem dbg 2 5 (memOf [lo.l0, lo.l1, lo.l2, lo.l3, hi.l0, hi.l1, hi.l2, hi.l3, 0])
      (memOf [m.l0, m.l1, m.l2]) (by omega) rfl ((pos_iff _).mp h2) _ m.toNat hA
      (by simp only [val, memOf, toNat, Nat.zero_add, List.getD_cons_zero, List.getD_cons_succ, z3]; ring)
    refine ⟨fun hok => ?_, fun hbad => ?_⟩
    · obtain ⟨r, e, hq, hr⟩ := k1 hok
      rw [e]
      refine ⟨_, rfl, ?_⟩
      rw [← hr]; simp only [val, toNat, z]; ring
    · rw [k2 hbad]
  simp only [if_neg h2]
  have z2 := not_pos h2
  by_cases h1 : m.l1 > 0
  · simp only [if_pos h1]
    obtain ⟨k1, k2⟩ := divrem_mem dbg 1 6 (memOf [lo.l0, lo.l1, lo.l2, lo.l3, hi.l0, hi.l1, hi.l2, hi.l3, 0])
      (memOf [m.l0, m.l1]) (by omega) rfl ((pos_iff _).mp h1) _ m.toNat hA
      (by simp only [val, memOf, toNat, Nat.zero_add, List.getD_cons_zero, List.getD_cons_succ, z2, z3]; ring)
    refine ⟨fun hok => ?_, fun hbad => ?_⟩
    · obtain ⟨r, e, hq, hr⟩ := k1 hok
      rw [e]
      refine ⟨_, rfl, ?_⟩
      rw [← hr]; simp only [val, toNat, z]; ring
    · rw [k2 hbad]
  simp only [if_neg h1]
  have z1 := not_pos h1
  have eb : m.toNat = m.l0.toNat := by simp only [toNat, z1, z2, z3]; omega
  have h0 : m.l0 > 0 := (pos_iff _).mpr (by omega)
  simp only [if_pos h0]
  refine ⟨fun _ => ?_, fun hbad => ?_⟩
  · have h := nby1Loop_spec m.l0 9
      (memOf [lo.l0, lo.l1, lo.l2, lo.l3, hi.l0, hi.l1, hi.l2, hi.l3, 0], 0) (by rw [z]; omega)
    rw [← divrem_nby1] at h
    generalize (divrem_nby1 9 (memOf [lo.l0, lo.l1, lo.l2, lo.l3, hi.l0, hi.l1, hi.l2, hi.l3, 0])
      m.l0) = nr at h ⊢
    obtain ⟨n, r⟩ := nr
    obtain ⟨e1, e2, e3⟩ := h
    have hA9 : val (memOf [lo.l0, lo.l1, lo.l2, lo.l3, hi.l0, hi.l1, hi.l2, hi.l3, 0]) 0 9
        = a.toNat * b.toNat := by
      rw [hA]; simp only [val, memOf, Nat.zero_add, List.getD_cons_zero, List.getD_cons_succ, z]; ring
    dsimp only at e1 e2
    rw [hA9, z, Nat.zero_mul, Nat.zero_add] at e1
    refine ⟨_, rfl, ?_⟩
    rw [eb, ← e1, Nat.mul_comm, Nat.mul_add_mod, Nat.mod_eq_of_lt e2]
    simp only [toNat, z]; ring
  · exfalso
    apply hbad
    left
    rw [numLimbs]
    have : Nat.size m.toNat ≤ 64 := Nat.size_le.mpr (by omega)
    omega

theorem mulmod_zero (dbg : Bool) (a b m : U256) (hm : m.toNat = 0) : mulmod dbg a b m = none := by
  have e : m = ZERO := toNat_inj (hm.trans zero_toNat.symm)
  subst e
  rfl

end U256
end OpenZKP
