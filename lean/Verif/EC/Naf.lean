import Verif.EC.Model
import Verif.U256.ShiftLemmas
import Verif.U256.BinaryLemmas
import Mathlib.Algebra.BigOperators.Group.Finset.Basic
import Mathlib.Algebra.BigOperators.Intervals
import Mathlib.Tactic.Ring
import Mathlib.Tactic.Linarith

/-! # The signed digit expansion -/

namespace OpenZKP
namespace EC

open U256 Finset

/-- value of an expansion of 257 digits -/
def digitSum (d : Nat → Int) : Int := ∑ j ∈ range 257, d j * 2 ^ j

theorem mask_eq (s : U256) (w : Nat) (hw : w < 64) :
    (s.l0 &&& UInt64.ofNat (2 ^ w - 1)).toNat = s.toNat % 2 ^ w := by
  have h1 : 2 ^ w < 2 ^ 64 := Nat.pow_lt_pow_right (by norm_num) hw
  rw [UInt64.toNat_and, UInt64.toNat_ofNat_of_lt' (by simp only [UInt64.size]; omega), Nat.and_two_pow_sub_one_eq_mod]
  obtain ⟨c, hc⟩ : 2 ^ w ∣ 2 ^ 64 := Nat.pow_dvd_pow 2 hw.le
  unfold U256.toNat
  have : ∀ a b c' d : Nat, (a + 2 ^ 64 * b + 2 ^ 128 * c' + 2 ^ 192 * d) % 2 ^ w = a % 2 ^ w := by
    intro a b c' d
    have : a + 2 ^ 64 * b + 2 ^ 128 * c' + 2 ^ 192 * d = a + 2 ^ w * (c * (b + 2 ^ 64 * c' + 2 ^ 128 * d)) := by
      rw [← mul_assoc, ← hc]; ring
    rw [this, Nat.add_mul_mod_self_left]
  first
  | rw [this]
  | (rw [eq_comm]; convert this _ _ _ _ using 2; ring)

/-- one digit: `s = digit + 2^w * s'`, the digit is odd when `s` is, and less than half the window -/
theorem nafStep_spec (w : Nat) (hw : 2 ≤ w) (hw' : w ≤ 14) (s : U256) (hodd : s.toNat % 2 = 1) :
    (s.toNat : Int) = (nafStep w s).2 + 2 ^ w * ((nafStep w s).1.toNat : Int) ∧
    (nafStep w s).2 % 2 = 1 ∧ -(2 ^ (w - 1)) < (nafStep w s).2 ∧ (nafStep w s).2 < 2 ^ (w - 1) := by
  have hm := mask_eq s w (by omega)
  have hs := U256.toNat_lt s
  have hp : (2 : Nat) ^ w = 2 * 2 ^ (w - 1) := by
    rw [← pow_succ', Nat.sub_add_cancel (by omega)]
  have hp2 : (2 : Nat) ^ (w - 1) = 2 * 2 ^ (w - 2) := by
    rw [← pow_succ']; congr 1; omega
  have hpz : (2 : Int) ^ w = 2 * 2 ^ (w - 1) := by exact_mod_cast hp
  have hpz2 : (2 : Int) ^ (w - 1) = 2 * 2 ^ (w - 2) := by exact_mod_cast hp2
  have hpos : 0 < (2 : Nat) ^ (w - 2) := by positivity
  have hdm := Nat.div_add_mod s.toNat (2 ^ w)
  have hlt := Nat.mod_lt s.toNat (show 0 < 2 ^ w by positivity)
  have hshr := shr_div s w
  have hmod2 : s.toNat % 2 ^ w % 2 = 1 := by
    rw [Nat.mod_mod_of_dvd _ (by rw [hp]; exact Dvd.intro _ rfl)]; exact hodd
  have hdivlt : s.toNat / 2 ^ w < 2 ^ 254 := by
    rw [Nat.div_lt_iff_lt_mul (by positivity)]
    calc s.toNat < 2 ^ 256 := hs
      _ = 2 ^ 254 * 2 ^ 2 := by norm_num
      _ ≤ 2 ^ 254 * 2 ^ w := Nat.mul_le_mul_left _ (Nat.pow_le_pow_right (by norm_num) hw)
  unfold nafStep
  dsimp only
  rw [hm]
  have hdmz : (s.toNat : Int) = 2 ^ w * ((s.toNat / 2 ^ w : Nat) : Int) + ((s.toNat % 2 ^ w : Nat) : Int) := by
    exact_mod_cast hdm.symm
  generalize hr : s.toNat % 2 ^ w = r at *
  generalize hq : s.toNat / 2 ^ w = q at *
  have hltz : (r : Int) < 2 ^ w := by exact_mod_cast hlt
  split
  · rename_i hge
    have ha : (U256.add (shr s w) ONE).toNat = q + 1 := by
      rw [add_mod, hshr, one_toNat]
      exact Nat.mod_eq_of_lt (by omega)
    simp only [ha]
    push_cast
    refine ⟨by rw [hdmz]; ring, ?_, ?_, ?_⟩
    · omega
    · rw [hpz] at hltz ⊢
      rcases eq_or_lt_of_le hge with h | h
      · exfalso
        have : (2 : Int) ^ (w - 1) % 2 = 0 := by rw [hpz2]; omega
        omega
      · omega
    · have : (0 : Int) < 2 ^ (w - 1) := by positivity
      omega
  · rename_i hge
    simp only [hshr]
    refine ⟨by rw [hdmz]; ring, by omega, ?_, by omega⟩
    have : (0 : Int) < 2 ^ (w - 1) := by positivity
    omega

/-- what the loop of `non_adjacent_form` does to the digits from position `i` on -/
structure NafOut (w i : Nat) (s : Nat) (snaf out : Nat → Int) : Prop where
  low : ∀ j, j < i → out j = snaf j
  sum : digitSum out = digitSum snaf + s * 2 ^ i
  digit : ∀ j, i ≤ j → out j = 0 ∨ (out j % 2 = 1 ∧ -(2 ^ (w - 1)) < out j ∧ out j < 2 ^ (w - 1))
  gap : ∀ j, i ≤ j → out j ≠ 0 → ∀ l, j < l → l < j + w → out l = 0
  high : ∀ j, 257 ≤ j → out j = 0

theorem digitSum_update (snaf : Nat → Int) (i : Nat) (n : Int) (hi : i < 257) (h0 : snaf i = 0) :
    digitSum (fun j => if j = i then n else snaf j) = digitSum snaf + n * 2 ^ i := by
  unfold digitSum
  have : ∀ j ∈ range 257, (if j = i then n else snaf j) * 2 ^ j =
      snaf j * 2 ^ j + if j = i then n * 2 ^ i else 0 := by
    intro j _
    split
    · rename_i h; subst h; rw [h0]; ring
    · ring
  rw [sum_congr rfl this, sum_add_distrib, sum_ite_eq' (range 257) i]
  simp [hi]

theorem nafLoop_spec (w : Nat) (hw : 2 ≤ w) (hw' : w ≤ 14) (fuel : Nat) (s : U256) (i : Nat) (snaf : Nat → Int)
    (hf : 1 ≤ fuel) (hfi : 258 ≤ fuel + i) (hb : s.toNat * 2 ^ i ≤ 2 ^ 256) (hz : ∀ j, i ≤ j → snaf j = 0)
    (h257 : ∀ j, 257 ≤ j → snaf j = 0) :
    ∃ out, nafLoop w fuel s i snaf = some out ∧ NafOut w i s.toNat snaf out := by
  induction fuel generalizing s i snaf with
  | zero => omega
  | succ fuel ih =>
    unfold nafLoop
    rcases Nat.eq_zero_or_pos s.toNat with h0 | h0
    · have hs0 : s = ZERO := toNat_inj (by rw [h0, zero_toNat])
      rw [if_pos (by rw [hs0]; decide)]
      exact ⟨snaf, rfl, ⟨fun _ _ => rfl, by rw [h0]; simp, fun j hj => Or.inl (hz j hj),
        fun j hj h => absurd (hz j hj) h, h257⟩⟩
    · obtain ⟨htz, mm, hmm⟩ := trailing_zeros_spec s h0
      rw [if_neg (by omega)]
      simp only
      generalize ht : trailing_zeros s = t at *
      have e1 : (if t = 0 then s else shr s t) = shr s t := by
        split
        · rename_i h; rw [h]; exact toNat_inj (by rw [shr_div]; simp)
        · rfl
      have e2 : (if t = 0 then i else i + t) = i + t := by split <;> omega
      rw [e1, e2]
      have hsv := shr_div s t
      generalize shr s t = s' at *
      have hs'v : s'.toNat = 2 * mm + 1 := by
        rw [hsv, hmm, Nat.mul_div_cancel_left _ (by positivity)]
      have hst : s.toNat = s'.toNat * 2 ^ t := by rw [hs'v, hmm, Nat.mul_comm]
      have hs'odd : s'.toNat % 2 = 1 := by omega
      have hb' : s'.toNat * 2 ^ (i + t) ≤ 2 ^ 256 := by
        rw [hst] at hb
        calc s'.toNat * 2 ^ (i + t) = s'.toNat * 2 ^ t * 2 ^ i := by rw [pow_add]; ring
          _ ≤ _ := hb
      have hit : i + t ≤ 256 := by
        have h1 : 1 ≤ s'.toNat := by omega
        have : 2 ^ (i + t) ≤ 2 ^ 256 := le_trans (Nat.le_mul_of_pos_left _ h1) hb'
        exact (Nat.pow_le_pow_iff_right (by norm_num)).1 this
      rw [if_pos (show i + t < 257 by omega)]
      obtain ⟨hv, ho, hlo, hhi⟩ := nafStep_spec w hw hw' s' hs'odd
      generalize nafStep w s' = st at *
      obtain ⟨s2, n⟩ := st
      simp only at hv ho hlo hhi ⊢
      have hvalz : (s2.toNat : Int) * 2 ^ w ≤ 2 ^ w * ((s'.toNat : Int) / 2 ^ w + 1) := by
        have hp : (2 : Int) ^ w = 2 * 2 ^ (w - 1) := by
          rw [← pow_succ', Nat.sub_add_cancel (by omega)]
        have hpos : (0 : Int) < 2 ^ w := by positivity
        have := Int.emod_add_mul_ediv (s'.toNat : Int) (2 ^ w)
        have h1 := Int.emod_nonneg (s'.toNat : Int) hpos.ne'
        have h2 := Int.emod_lt_of_pos (s'.toNat : Int) hpos
        -- s2 ≤ s'/2^w + 1
        have : (s2.toNat : Int) ≤ (s'.toNat : Int) / 2 ^ w + 1 := by
          by_contra hc
          push Not at hc
          have : (2 : Int) ^ w * ((s'.toNat : Int) / 2 ^ w + 2) ≤ 2 ^ w * s2.toNat :=
            mul_le_mul_of_nonneg_left (by omega) hpos.le
          nlinarith
        nlinarith
      have hb2 : s2.toNat * 2 ^ (i + t + w) ≤ 2 ^ 256 := by
        set k := 256 - (i + t) with hk
        have hs'le : s'.toNat ≤ 2 ^ k := by
          have : 2 ^ 256 = 2 ^ k * 2 ^ (i + t) := by rw [← pow_add]; congr 1; omega
          rw [this] at hb'
          exact Nat.le_of_mul_le_mul_right hb' (by positivity)
        have hgoal : s2.toNat * 2 ^ w ≤ 2 ^ k := by
          by_cases hkw : w ≤ k
          · -- s' < 2^k because s' is odd and k ≥ 2
            have hk2 : 2 ^ k = 2 * 2 ^ (k - 1) := by
              rw [← pow_succ']; congr 1; omega
            have hlt : s'.toNat < 2 ^ k := by omega
            have hdiv : s'.toNat / 2 ^ w + 1 ≤ 2 ^ (k - w) := by
              rw [Nat.add_one_le_iff, Nat.div_lt_iff_lt_mul (by positivity), ← pow_add, Nat.sub_add_cancel hkw]
              exact hlt
            have h3 : s2.toNat * 2 ^ w ≤ 2 ^ w * (s'.toNat / 2 ^ w + 1) := by exact_mod_cast hvalz
            calc s2.toNat * 2 ^ w ≤ 2 ^ w * (s'.toNat / 2 ^ w + 1) := h3
              _ ≤ 2 ^ w * 2 ^ (k - w) := Nat.mul_le_mul_left _ hdiv
              _ = 2 ^ k := by rw [← pow_add]; congr 1; omega
          · -- everything fits in the window: s2 = 0
            have hk1 : 2 ^ k ≤ 2 ^ (w - 1) := Nat.pow_le_pow_right (by norm_num) (by omega)
            have hs2 : s2.toNat = 0 := by
              by_contra hne
              have h1 : 1 ≤ s2.toNat := Nat.one_le_iff_ne_zero.2 hne
              have hp : (2 : Int) ^ w = 2 * 2 ^ (w - 1) := by
                rw [← pow_succ', Nat.sub_add_cancel (by omega)]
              have h1z : (1 : Int) ≤ s2.toNat := by exact_mod_cast h1
              have : (2 : Int) ^ w * 1 ≤ 2 ^ w * s2.toNat := mul_le_mul_of_nonneg_left h1z (by positivity)
              have h2 : (s'.toNat : Int) ≤ 2 ^ (w - 1) := by
                have := hs'le.trans hk1
                exact_mod_cast this
              linarith
            rw [hs2]; simp
        calc s2.toNat * 2 ^ (i + t + w) = s2.toNat * 2 ^ w * 2 ^ (i + t) := by rw [pow_add]; ring
          _ ≤ 2 ^ k * 2 ^ (i + t) := Nat.mul_le_mul_right _ hgoal
          _ = 2 ^ 256 := by rw [← pow_add]; congr 1; omega
      have hfuel : 1 ≤ fuel := by
        by_contra hc
        have hi257 : 257 ≤ i := by omega
        omega
      obtain ⟨out, eo, ho1, ho2, ho3, ho4, ho5⟩ := ih s2 (i + t + w)
        (fun j => if j = i + t then n else snaf j) hfuel (by omega) hb2
        (fun j hj => by rw [if_neg (show ¬ j = i + t by omega)]; exact hz j (by omega))
        (fun j hj => by rw [if_neg (show ¬ j = i + t by omega)]; exact h257 j hj)
      refine ⟨out, eo, ⟨?_, ?_, ?_, ?_, ho5⟩⟩
      · intro j hj
        rw [ho1 j (by omega)]
        rw [if_neg (show ¬ j = i + t by omega)]
      · rw [ho2, digitSum_update snaf (i + t) n (by omega) (hz _ (by omega))]
        have : (s.toNat : Int) = s'.toNat * 2 ^ t := by exact_mod_cast hst
        rw [this, hv, pow_add, pow_add]; ring
      · intro j hj
        by_cases h : i + t + w ≤ j
        · exact ho3 j h
        · rw [ho1 j (by omega)]
          by_cases he : j = i + t
          · rw [if_pos he]; exact Or.inr ⟨ho, hlo, hhi⟩
          · rw [if_neg he]; exact Or.inl (hz j hj)
      · intro j hj hne l hl1 hl2
        by_cases h : i + t + w ≤ j
        · exact ho4 j h hne l hl1 hl2
        · rw [ho1 j (by omega)] at hne
          by_cases he : j = i + t
          · rw [ho1 l (by omega)]
            rw [if_neg (show ¬ l = i + t by omega)]
            exact hz l (by omega)
          · rw [if_neg he] at hne
            exact absurd (hz j hj) hne

theorem naf_spec (w : Nat) (hw : 2 ≤ w) (hw' : w ≤ 14) (s : U256) :
    ∃ out, non_adjacent_form s w = some out ∧ NafOut w 0 s.toNat (fun _ => 0) out :=
  nafLoop_spec w hw hw' 258 s 0 (fun _ => 0) (by omega) (by omega)
    (by have := U256.toNat_lt s; omega) (fun _ _ => rfl) (fun _ _ => rfl)

end EC
end OpenZKP
