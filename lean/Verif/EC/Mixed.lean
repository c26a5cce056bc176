import Verif.EC.Mul
import Mathlib.GroupTheory.OrderOfElement

/-! # Scalar multiplication with affine tables -/

namespace OpenZKP
namespace EC

open WeierstrassCurve.Affine U256 Finset

variable {F : Type} [Field F] [DecidableEq F] {β : F}

/-! ## batch conversion -/

theorem accumulate_total (js : List (Jacobian F)) (a : F) :
    (accumulate js a).2 = a * (js.map Jacobian.z).prod := by
  induction js generalizing a with
  | nil => simp [accumulate]
  | cons j js ih => simp only [accumulate, ih, List.map_cons, List.prod_cons, mul_assoc]

theorem toAffine_of_inv {j : Jacobian F} {zi : F} (h : j.z ≠ 0) (e : zi = j.z⁻¹) :
    Affine.Point (j.x * (zi * zi)) (j.y * (zi * (zi * zi))) = Jacobian.toAffine j := by
  rw [toAffine_ne h, e]

theorem convertLoop_spec (js : List (Jacobian F)) (a : F) (ha : a ≠ 0) (hz : ∀ j ∈ js, j.z ≠ 0) :
    convertLoop js (accumulate js a).1 ((accumulate js a).2)⁻¹ = (a⁻¹, js.map Jacobian.toAffine) := by
  induction js generalizing a with
  | nil => simp [accumulate, convertLoop]
  | cons j js ih =>
    have hj := hz j (by simp)
    have := ih (a * j.z) (mul_ne_zero ha hj) (fun j h => hz j (by simp [h]))
    simp only [accumulate, convertLoop, this, List.map_cons]
    rw [toAffine_of_inv hj (by field_simp)]
    congr 1
    field_simp

theorem batch_convert_eq (js : List (Jacobian F)) :
    batch_convert js = if ∀ j ∈ js, j.z ≠ 0 then some (js.map Jacobian.toAffine) else none := by
  unfold batch_convert
  simp only
  rw [accumulate_total, one_mul]
  have hiff : (js.map Jacobian.z).prod = 0 ↔ ¬ ∀ j ∈ js, j.z ≠ 0 := by
    rw [List.prod_eq_zero_iff]
    simp
  by_cases h : ∀ j ∈ js, j.z ≠ 0
  · rw [if_pos h, finv, if_neg (by rw [hiff]; exact not_not.2 h), Option.map_some]
    have := convertLoop_spec js 1 one_ne_zero h
    rw [accumulate_total, one_mul] at this
    rw [this]
  · rw [if_neg h, finv, if_pos (hiff.2 h)]; rfl

/-! ## digits with an affine table -/

/-- The exceptional case of an addition `R + T`: neither is zero, and they are equal or opposite. -/
def Clash (R T : Pt β) : Prop := R ≠ 0 ∧ T ≠ 0 ∧ (R = T ∨ R = -T)

theorem not_clash {R T : Pt β} (h : ¬ Clash R T) : R = 0 ∨ T = 0 ∨ (R ≠ T ∧ R ≠ -T) := by
  unfold Clash at h
  tauto

/-- `l` is a table of the odd multiples of `P`. -/
def IsTable (l : List (Affine F)) (n : Nat) (P : Pt β) : Prop :=
  ∀ i, i < n → l[i]? = some (ofPoint ((2 * i + 1) • P))

theorem applyDigitMixed_spec (h2 : (2 : F) ≠ 0) (P : Pt β) (n : Nat) (l : List (Affine F)) (hl : IsTable l n P)
    (d : Int) (hd : DigitOK n d) {r : Jacobian F} {R : Pt β} (hr : Represents r R) (hc : ¬ Clash R (d • P)) :
    ∃ r', applyDigitMixed l d r = some r' ∧ Represents r' (R + d • P) := by
  unfold applyDigitMixed
  rcases hd with rfl | ⟨ho, hlo, hhi⟩
  · exact ⟨r, rfl, by simpa using hr⟩
  · by_cases hpos : d > 0
    · rw [if_pos hpos]
      have e := hl (d / 2).toNat (by omega)
      refine ⟨_, by rw [e]; rfl, ?_⟩
      have : d • P = (2 * (d / 2).toNat + 1) • P := by
        rw [← natCast_zsmul]; congr 1; omega
      rw [this] at hc ⊢
      exact represents_addMixed h2 hr (not_clash hc)
    · rw [if_neg hpos, if_pos (show d < 0 by omega)]
      have e := hl (-d / 2).toNat (by omega)
      refine ⟨_, by rw [e]; rfl, ?_⟩
      have : d • P = -((2 * (-d / 2).toNat + 1) • P) := by
        rw [← natCast_zsmul, ← neg_zsmul]; congr 1; omega
      rw [this] at hc ⊢
      unfold Jacobian.subMixed
      dsimp only
      rw [neg_eq]
      exact represents_addMixed h2 hr (not_clash hc)

/-- the value of the digits from position `i` on, divided by `2^i` -/
def highSum (d : Nat → Int) (i : Nat) : Int := ∑ j ∈ range (257 - i), d (i + j) * 2 ^ j

theorem highSum_step (d : Nat → Int) (i : Nat) (hi : i < 257) : highSum d i = d i + 2 * highSum d (i + 1) := by
  unfold highSum
  rw [show 257 - i = (257 - (i + 1)) + 1 by omega, sum_range_succ', mul_sum]
  simp only [Nat.add_zero, pow_zero, mul_one]
  rw [add_comm]
  congr 1
  apply sum_congr rfl
  intro j _
  rw [show i + 1 + j = i + (j + 1) by omega, pow_succ]; ring

theorem highSum_end (d : Nat → Int) : highSum d 257 = 0 := by simp [highSum]

theorem highSum_zero (d : Nat → Int) : highSum d 0 = ∑ j ∈ range 257, d j * 2 ^ j := by simp [highSum]

theorem low_high (d : Nat → Int) (i : Nat) (hi : i ≤ 257) : highSum d 0 = lowSum d i + 2 ^ i * highSum d i := by
  induction i with
  | zero => simp [lowSum]
  | succ i ih =>
    rw [ih (by omega), highSum_step d i (by omega), lowSum, lowSum, sum_range_succ, pow_succ]; ring

theorem seq_loop (f : Option (Jacobian F) → Nat → Option (Jacobian F)) (T : Nat → Pt β) (n : Nat)
    (step : ∀ i, i < n → ∀ r, Represents r (T (i + 1)) → ∃ r', f (some r) i = some r' ∧ Represents r' (T i))
    (r : Jacobian F) (hr : Represents r (T n)) :
    ∃ r', (List.range n).reverse.foldl f (some r) = some r' ∧ Represents r' (T 0) := by
  induction n generalizing r with
  | zero => exact ⟨r, rfl, hr⟩
  | succ n ih =>
    obtain ⟨r1, e1, h1⟩ := step n (by omega) r hr
    obtain ⟨r', e, h⟩ := ih (fun i hi => step i (by omega)) r1 h1
    exact ⟨r', by rw [range_succ_reverse, List.foldl_cons, e1, e], h⟩

theorem base_mul_eq (h2 : (2 : F) ≠ 0) (P : Pt β) (l : List (Affine F)) (hl : IsTable l 32 P) (k : U256)
    (d : Nat → Int) (e : non_adjacent_form k 7 = some d)
    (hc : ∀ i, i < 257 → ¬ Clash ((2 * highSum d (i + 1)) • P) (d i • P)) :
    ∃ r, base_mul l k = some r ∧ Represents r (k.toNat • P) := by
  obtain ⟨d', e', hn⟩ := naf_spec 7 (by norm_num) (by norm_num) k
  obtain rfl : d' = d := by rw [e] at e'; exact (Option.some.inj e').symm
  unfold base_mul
  rw [e, Option.bind_some]
  obtain ⟨r, er, hr⟩ := seq_loop (β := β)
    (fun r i => r.bind fun r => applyDigitMixed l (d' i) (Jacobian.double r)) (fun i => highSum d' i • P) 257
    (fun i hi r hR => by
      simp only [Option.bind_some]
      have hd := represents_double h2 hR
      rw [← two_nsmul, ← natCast_zsmul, ← mul_smul] at hd
      obtain ⟨r', e', h'⟩ := applyDigitMixed_spec h2 P 32 l hl (d' i) (by simpa using naf_digits (by norm_num) hn i) hd
        (by simpa using hc i hi)
      refine ⟨r', e', ?_⟩
      rw [highSum_step d' i hi, add_smul, add_comm]
      simpa using h')
    Jacobian.ZERO (by rw [highSum_end, zero_smul]; exact represents_ZERO)
  refine ⟨r, er, ?_⟩
  rw [highSum_zero, naf_total hn, natCast_zsmul] at hr
  exact hr

theorem double_base_mul_eq (h2 : (2 : F) ≠ 0) (P Q : Pt β) (l : List (Affine F)) (hl : IsTable l 32 P) (a b : U256)
    (hQ : ∀ i, i < 8 → (2 * i + 1) • Q ≠ 0)
    (da db : Nat → Int) (ea : non_adjacent_form a 7 = some da) (eb : non_adjacent_form b 5 = some db)
    (hc : ∀ i, i < 257 →
      ¬ Clash ((2 * highSum da (i + 1)) • P + (2 * highSum db (i + 1)) • Q) (da i • P) ∧
      ¬ Clash ((highSum da i) • P + (2 * highSum db (i + 1)) • Q) (db i • Q)) :
    ∃ r, double_base_mul l a (ofPoint Q) b = some r ∧ Represents r (a.toNat • P + b.toNat • Q) := by
  obtain ⟨da', ea', hna⟩ := naf_spec 7 (by norm_num) (by norm_num) a
  obtain ⟨db', eb', hnb⟩ := naf_spec 5 (by norm_num) (by norm_num) b
  obtain rfl : da' = da := by rw [ea] at ea'; exact (Option.some.inj ea').symm
  obtain rfl : db' = db := by rw [eb] at eb'; exact (Option.some.inj eb').symm
  have htl : (window_table (ofPoint Q) 8).length = 8 := tableLoop_length _ _ _
  have htb : batch_convert (window_table (ofPoint Q) 8) = some ((window_table (ofPoint Q) 8).map Jacobian.toAffine) := by
    rw [batch_convert_eq, if_pos]
    intro j hj
    obtain ⟨i, hi, rfl⟩ := List.getElem_of_mem hj
    obtain ⟨t, et, ht⟩ := window_table_get h2 Q 8 i (by omega)
    have : (window_table (ofPoint Q) 8)[i] = t := by
      rw [List.getElem?_eq_getElem hi] at et; exact Option.some.inj et
    rw [this]
    intro hz
    apply hQ i (by omega)
    unfold Represents at ht
    rw [toAffine_zero hz] at ht
    rw [← ofPoint_zero (β := β)] at ht
    exact (ofPoint_inj ht).symm
  have hT : IsTable ((window_table (ofPoint Q) 8).map Jacobian.toAffine) 8 Q := by
    intro i hi
    obtain ⟨t, et, ht⟩ := window_table_get h2 Q 8 i hi
    rw [List.getElem?_map, et, Option.map_some, ht]
  unfold double_base_mul
  rw [htb, Option.bind_some, ea, Option.bind_some, eb, Option.bind_some]
  generalize (window_table (ofPoint Q) 8).map Jacobian.toAffine = tb at hT
  obtain ⟨r, er, hr⟩ := seq_loop (β := β)
    (fun r i => r.bind fun r => (applyDigitMixed l (da' i) (Jacobian.double r)).bind fun r =>
      applyDigitMixed tb (db' i) r) (fun i => highSum da' i • P + highSum db' i • Q) 257
    (fun i hi r hR => by
      simp only [Option.bind_some]
      have hd := represents_double h2 hR
      have ed : highSum da' (i + 1) • P + highSum db' (i + 1) • Q + (highSum da' (i + 1) • P + highSum db' (i + 1) • Q) =
          (2 * highSum da' (i + 1)) • P + (2 * highSum db' (i + 1)) • Q := by
        rw [mul_smul, mul_smul, two_smul, two_smul]; abel
      rw [ed] at hd
      obtain ⟨r1, e1, h1⟩ := applyDigitMixed_spec h2 P 32 l hl (da' i) (by simpa using naf_digits (by norm_num) hna i) hd
        (hc i hi).1
      have ee : (2 * highSum da' (i + 1)) • P + (2 * highSum db' (i + 1)) • Q + da' i • P =
          highSum da' i • P + (2 * highSum db' (i + 1)) • Q := by
        rw [highSum_step da' i hi, add_smul]; abel
      rw [ee] at h1
      obtain ⟨r2, e2, h2'⟩ := applyDigitMixed_spec h2 Q 8 tb hT (db' i) (by simpa using naf_digits (by norm_num) hnb i) h1
        (hc i hi).2
      refine ⟨r2, by rw [e1, Option.bind_some, e2], ?_⟩
      rw [highSum_step db' i hi, add_smul, ← add_assoc, add_right_comm]
      exact h2')
    Jacobian.ZERO (by rw [highSum_end, highSum_end, zero_smul, zero_smul, add_zero]; exact represents_ZERO)
  refine ⟨r, er, ?_⟩
  rw [highSum_zero, highSum_zero, naf_total hna, naf_total hnb, natCast_zsmul, natCast_zsmul] at hr
  exact hr

/-! ## When does a base-point multiplication meet the exceptional case? -/

theorem low_bound {w s : Nat} (hw : 2 ≤ w) {d : Nat → Int} (h : NafOut w 0 s (fun _ => 0) d) (m : Nat) :
    (|lowSum d m| < 2 ^ (w - 2 + m)) ∧ (d m ≠ 0 → |lowSum d m| < 2 ^ m) := by
  induction m using Nat.strong_induction_on with
  | _ m ih =>
  have hA : (d m ≠ 0 → |lowSum d m| < 2 ^ m) := by
    intro hne
    have hz : ∀ j, j < m → m < j + w → d j = 0 := by
      intro j hj hjw
      by_contra hc
      exact hne (h.gap j (Nat.zero_le _) hc m hj hjw)
    by_cases hmw : m + 1 < w
    · have : lowSum d m = 0 := sum_eq_zero fun j hj => by
        rw [hz j (mem_range.1 hj) (by omega), zero_mul]
      rw [this, abs_zero]; positivity
    · have : lowSum d m = lowSum d (m + 1 - w) := by
        unfold lowSum
        symm
        apply sum_subset (range_mono (by omega))
        intro j hj hj'
        rw [mem_range] at hj hj'
        rw [hz j hj (by omega), zero_mul]
      rw [this]
      refine lt_of_lt_of_le (ih (m + 1 - w) (by omega)).1 ?_
      exact pow_le_pow_right₀ (by norm_num) (by omega)
  refine ⟨?_, hA⟩
  cases m with
  | zero => simp [lowSum]
  | succ m =>
    have e : lowSum d (m + 1) = lowSum d m + d m * 2 ^ m := by unfold lowSum; rw [sum_range_succ]
    rw [e]
    by_cases h0 : d m = 0
    · rw [h0, zero_mul, add_zero]
      exact lt_of_lt_of_le (ih m (by omega)).1 (pow_le_pow_right₀ (by norm_num) (by omega))
    · have h1 := (ih m (by omega)).2 h0
      rcases h.digit m (Nat.zero_le _) with hd | ⟨_, hlo, hhi⟩
      · exact absurd hd h0
      · have hp : (2 : Int) ^ (w - 2 + (m + 1)) = 2 ^ (w - 1) * 2 ^ m := by
          rw [← pow_add]; congr 1; omega
        rw [hp, abs_lt]
        rw [abs_lt] at h1
        have hpos : (0 : Int) < 2 ^ m := by positivity
        constructor <;> nlinarith

/-- For a point of order `n`, an exceptional addition can only happen at the very last digit `d 0`, and only
for the scalar `n + 2 d 0`. -/
theorem base_no_clash {w : Nat} (hw : 2 ≤ w) (P : Pt β) (n : Nat) (hn : addOrderOf P = n) (hodd : n % 2 = 1)
    (hbig : 2 ^ (w + 2) < n) (k : Nat) (hk : k < n) {d : Nat → Int} (h : NafOut w 0 k (fun _ => 0) d) (i : Nat)
    (hi : i < 257) (hc : Clash ((2 * highSum d (i + 1)) • P) (d i • P)) :
    i = 0 ∧ (k : Int) = n + 2 * d 0 := by
  obtain ⟨hR, hT, hRT⟩ := hc
  have hd0 : d i ≠ 0 := by rintro h0; rw [h0, zero_smul] at hT; exact hT rfl
  obtain ⟨hdodd, hlo, hhi⟩ := (h.digit i (Nat.zero_le _)).resolve_left hd0
  have hlow := (low_bound hw h i).2 hd0
  have hlh := low_high d i hi.le
  rw [highSum_zero, naf_total h] at hlh
  have hst := highSum_step d i hi
  have hbigz : (2 : Int) ^ (w - 1) * 8 < n := by
    have : (2 : Nat) ^ (w + 2) = 2 ^ (w - 1) * 8 := by
      rw [show w + 2 = w - 1 + 3 by omega, pow_add]; norm_num
    rw [this] at hbig
    exact_mod_cast hbig
  have hkz : (k : Int) < n := by exact_mod_cast hk
  have hk0 : (0 : Int) ≤ k := by positivity
  have hoddz : (n : Int) % 2 = 1 := by exact_mod_cast hodd
  have hpw : (0 : Int) < 2 ^ (w - 1) := by positivity
  generalize hK : highSum d i = K at *
  have hmul : ∀ m : Int, m • P = 0 → (n : Int) ∣ m := by
    intro m hm
    rw [← hn]; exact addOrderOf_dvd_iff_zsmul_eq_zero.2 hm
  rw [abs_lt] at hlow
  have hpi : (0 : Int) < 2 ^ i := by positivity
  have hKpos : 0 ≤ K := by
    by_contra hneg
    push Not at hneg
    have : (2 : Int) ^ i * K ≤ 2 ^ i * (-1) := mul_le_mul_of_nonneg_left (by omega) hpi.le
    linarith
  have hKodd : K % 2 = 1 := by omega
  have hup : 2 ^ i * K < n + 2 ^ i := by linarith
  -- the bound for i ≥ 1
  have hsmall : 1 ≤ i → K + K < n + 2 := by
    intro hi1
    have h2 : (2 : Int) ≤ 2 ^ i := by
      calc (2 : Int) = 2 ^ 1 := by norm_num
        _ ≤ 2 ^ i := pow_le_pow_right₀ (by norm_num) hi1
    by_contra hcc
    push Not at hcc
    have h3 : (0 : Int) ≤ K - 1 := by omega
    have h4 : 2 * (K - 1) ≤ 2 ^ i * (K - 1) := mul_le_mul_of_nonneg_right h2 h3
    linarith
  have hzero : i = 0 → K = k := by
    rintro rfl
    have : lowSum d 0 = 0 := by simp [lowSum]
    rw [this, zero_add, pow_zero, one_mul] at hlh
    exact hlh.symm
  rcases hRT with hRT | hRT
  · have : (K - 2 * d i) • P = 0 := by
      rw [hst, show d i + 2 * highSum d (i + 1) - 2 * d i = 2 * highSum d (i + 1) - d i by ring, sub_smul, hRT,
        sub_self]
    obtain ⟨c, hcc⟩ := hmul _ this
    have hcpos : 1 ≤ c := by
      by_contra hneg
      push Not at hneg
      rcases lt_or_eq_of_le (show c ≤ 0 by omega) with h' | h'
      · have : (n : Int) * c ≤ n * (-1) := mul_le_mul_of_nonneg_left (by omega) (by omega)
        linarith
      · rw [h', mul_zero] at hcc; omega
    have hge : (n : Int) ≤ n * c := by
      have : (n : Int) * 1 ≤ n * c := mul_le_mul_of_nonneg_left hcpos (by omega)
      linarith
    rcases Nat.eq_zero_or_pos i with hi0 | hi1
    · refine ⟨hi0, ?_⟩
      have hKk := hzero hi0
      subst hi0
      have : c < 2 := by
        by_contra hge2
        push Not at hge2
        have : (n : Int) * 2 ≤ n * c := mul_le_mul_of_nonneg_left hge2 (by omega)
        linarith
      obtain rfl : c = 1 := by omega
      linarith
    · exfalso
      have := hsmall hi1
      linarith
  · exfalso
    have : K • P = 0 := by
      rw [hst, add_smul, hRT, add_neg_cancel]
    have hle := Int.le_of_dvd (by omega) (hmul K this)
    rcases Nat.eq_zero_or_pos i with hi0 | hi1
    · rw [hzero hi0] at hle; omega
    · have := hsmall hi1; linarith

/-- the scalar is congruent to its last digit modulo the window, when that digit is not zero -/
theorem last_digit {w k : Nat} {d : Nat → Int} (h : NafOut w 0 k (fun _ => 0) d) (h0 : d 0 ≠ 0) (hw : w ≤ 257) :
    ((2 : Int) ^ w) ∣ k - d 0 := by
  rcases Nat.eq_zero_or_pos w with rfl | hwpos
  · simp
  have hlh := low_high d w hw
  rw [highSum_zero, naf_total h] at hlh
  have : lowSum d w = d 0 := by
    unfold lowSum
    obtain ⟨v, rfl⟩ : ∃ v, w = v + 1 := ⟨w - 1, by omega⟩
    rw [sum_range_succ', sum_eq_zero, zero_add]
    · simp
    · intro j hj
      rw [h.gap 0 le_rfl h0 (j + 1) (by omega) (by have := mem_range.1 hj; omega), zero_mul]
  exact ⟨highSum d w, by rw [hlh, this]; ring⟩

end EC
end OpenZKP
