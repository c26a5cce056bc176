import Verif.EC.Group
import Verif.EC.Naf
import Mathlib.Algebra.Module.Basic
import Mathlib.Algebra.Module.NatInt

/-! # Scalar multiplication -/

namespace OpenZKP
namespace EC

open WeierstrassCurve.Affine U256 Finset

variable {F : Type} [Field F] [DecidableEq F] {β : F}

/-! ## double-and-add -/

theorem testBit_step (k n : Nat) : k / 2 ^ n = 2 * (k / 2 ^ (n + 1)) + if k.testBit n then 1 else 0 := by
  have h : k / 2 ^ (n + 1) = k / 2 ^ n / 2 := by rw [pow_succ, Nat.div_div_eq_div_mul]
  rw [h, Nat.testBit_eq_decide_div_mod_eq]
  have := Nat.div_add_mod (k / 2 ^ n) 2
  rcases Nat.mod_two_eq_zero_or_one (k / 2 ^ n) with h' | h' <;> simp [h'] <;> omega

theorem range_succ_reverse (n : Nat) : (List.range (n + 1)).reverse = n :: (List.range n).reverse := by
  rw [List.range_succ, List.reverse_append]; rfl

theorem msb_spec (k : U256) :
    (k.toNat = 0 ∧ most_significant_bit k = none) ∨
    (∃ n, most_significant_bit k = some n ∧ k.toNat / 2 ^ n = 1) := by
  rcases Nat.eq_zero_or_pos k.toNat with h | h
  · left
    have : k = ZERO := toNat_inj (by rw [h, zero_toNat])
    subst this
    exact ⟨h, by decide⟩
  · right
    obtain ⟨h1, h2, h3⟩ := leading_zeros_spec k h
    refine ⟨255 - leading_zeros k, by rw [most_significant_bit, if_pos (by omega)], ?_⟩
    apply Nat.div_eq_of_lt_le
    · omega
    · rw [show (1 + 1) * 2 ^ (255 - leading_zeros k) = 2 ^ (255 - leading_zeros k + 1) by rw [pow_succ]; ring]
      rwa [show 255 - leading_zeros k + 1 = 256 - leading_zeros k by omega]

theorem affineMul_loop (h2 : (2 : F) ≠ 0) (P : Pt β) (k : U256) (n : Nat) :
    (List.range n).reverse.foldl (affineMulStep (ofPoint P) k) (some (ofPoint ((k.toNat / 2 ^ n) • P))) =
      some (ofPoint (k.toNat • P)) := by
  induction n with
  | zero => simp
  | succ n ih =>
    rw [range_succ_reverse, List.foldl_cons, ← ih]
    congr 1
    unfold affineMulStep
    rw [Option.bind_some, double_eq h2, Option.bind_some, bit_eq, testBit_step k.toNat n, add_smul, mul_smul,
      two_smul]
    split
    · rw [add_eq h2, one_smul]
    · rw [zero_smul, add_zero]

theorem affineMul_eq (h2 : (2 : F) ≠ 0) (P : Pt β) (k : U256) :
    affineMul (ofPoint P) k = some (ofPoint (k.toNat • P)) := by
  unfold affineMul
  rcases msb_spec k with ⟨h0, h⟩ | ⟨n, h, h1⟩
  · rw [h, h0, zero_smul]; rfl
  · rw [h]
    have := affineMul_loop h2 P k n
    rw [h1, one_smul] at this
    exact this

theorem jacobianMul_eq (h2 : (2 : F) ≠ 0) {p : Jacobian F} {P : Pt β} (hp : Represents p P) (k : U256) :
    Represents (jacobianMul p k) (k.toNat • P) := by
  unfold jacobianMul
  rcases msb_spec k with ⟨h0, h⟩ | ⟨n, h, h1⟩
  · rw [h, h0, zero_smul]; exact represents_ZERO
  · rw [h]
    have key : ∀ n (r : Jacobian F), Represents r ((k.toNat / 2 ^ n) • P) →
        Represents ((List.range n).reverse.foldl (fun r i => if U256.bit k i then Jacobian.add (Jacobian.double r) p
          else Jacobian.double r) r) (k.toNat • P) := by
      intro n
      induction n with
      | zero => intro r hr; simpa using hr
      | succ n ih =>
        intro r hr
        rw [range_succ_reverse, List.foldl_cons]
        apply ih
        have hd := represents_double h2 hr
        rw [bit_eq, testBit_step k.toNat n, add_smul, mul_smul, two_smul]
        split
        · rw [one_smul]; exact represents_add h2 hd hp
        · rw [zero_smul, add_zero]; exact hd
    exact key n p (by rw [h1, one_smul]; exact hp)

/-! ## tables -/

theorem tableLoop_get (h2 : (2 : F) ≠ 0) {p2 : Jacobian F} {Q : Pt β} (hp2 : Represents p2 Q) (n : Nat)
    (p : Jacobian F) (P : Pt β) (hp : Represents p P) (i : Nat) (hi : i < n) :
    ∃ t, (tableLoop p2 n p)[i]? = some t ∧ Represents t (P + i • Q) := by
  induction n generalizing p P i with
  | zero => omega
  | succ n ih =>
    cases i with
    | zero => exact ⟨p, rfl, by simpa using hp⟩
    | succ i =>
      obtain ⟨t, e, ht⟩ := ih (Jacobian.add p p2) (P + Q) (represents_add h2 hp hp2) i (by omega)
      refine ⟨t, by simpa [tableLoop] using e, ?_⟩
      rw [succ_nsmul, add_comm (i • Q), ← add_assoc]; exact ht

theorem window_table_get (h2 : (2 : F) ≠ 0) (P : Pt β) (n i : Nat) (hi : i < n) :
    ∃ t, (window_table (ofPoint P) n)[i]? = some t ∧ Represents t ((2 * i + 1) • P) := by
  have h1 := represents_ofAffine P
  obtain ⟨t, e, ht⟩ := tableLoop_get h2 (represents_double h2 h1) n _ P h1 i hi
  refine ⟨t, e, ?_⟩
  have : (2 * i + 1) • P = P + i • (P + P) := by
    rw [add_smul, one_smul, ← two_nsmul, ← mul_smul, mul_comm i 2, add_comm]
  rw [this]; exact ht

theorem tableLoop_length (p2 : Jacobian F) (n : Nat) (p : Jacobian F) : (tableLoop p2 n p).length = n := by
  induction n generalizing p with
  | zero => rfl
  | succ n ih => simp [tableLoop, ih]

theorem tableLoopAffine_spec (h2 : (2 : F) ≠ 0) (Q : Pt β) (n : Nat) (P : Pt β) :
    ∃ l, tableLoopAffine (ofPoint Q) n (ofPoint P) = some l ∧ l.length = n ∧
      ∀ i, i < n → l[i]? = some (ofPoint (P + i • Q)) := by
  induction n generalizing P with
  | zero => exact ⟨[], rfl, rfl, fun i h => by omega⟩
  | succ n ih =>
    cases n with
    | zero => exact ⟨[ofPoint P], rfl, rfl, fun i h => by
        obtain rfl : i = 0 := by omega
        simp⟩
    | succ n =>
      obtain ⟨l, e, hl, hi⟩ := ih (P + Q)
      refine ⟨ofPoint P :: l, ?_, by simp [hl], ?_⟩
      · simp only [tableLoopAffine]
        rw [add_eq h2, Option.bind_some, e]; rfl
      · intro i h
        cases i with
        | zero => simp
        | succ i =>
          rw [List.getElem?_cons_succ, hi i (by omega), succ_nsmul, add_comm (i • Q), ← add_assoc]

theorem window_table_affine_spec (h2 : (2 : F) ≠ 0) (P : Pt β) (n : Nat) :
    ∃ l, window_table_affine (ofPoint P) n = some l ∧ l.length = n ∧
      ∀ i, i < n → l[i]? = some (ofPoint ((2 * i + 1) • P)) := by
  obtain ⟨l, e, hl, hi⟩ := tableLoopAffine_spec h2 (P + P) n P
  refine ⟨l, by unfold window_table_affine; rw [double_eq h2, Option.bind_some, e], hl, fun i h => ?_⟩
  have : (2 * i + 1) • P = P + i • (P + P) := by
    rw [add_smul, one_smul, ← two_nsmul, ← mul_smul, mul_comm i 2, add_comm]
  rw [this, hi i h]

/-! ## digits -/

/-- a digit for which a table with `n` entries is large enough -/
def DigitOK (n : Nat) (d : Int) : Prop := d = 0 ∨ (d % 2 = 1 ∧ -(2 * n : Int) < d ∧ d < 2 * n)

theorem applyDigit_spec (h2 : (2 : F) ≠ 0) (P : Pt β) (n : Nat) (d : Int) (hd : DigitOK n d) {r : Jacobian F}
    {R : Pt β} (hr : Represents r R) :
    ∃ r', applyDigit (window_table (ofPoint P) n) d r = some r' ∧ Represents r' (R + d • P) := by
  unfold applyDigit
  rcases hd with rfl | ⟨ho, hlo, hhi⟩
  · exact ⟨r, rfl, by simpa using hr⟩
  · by_cases hpos : d > 0
    · rw [if_pos hpos]
      obtain ⟨t, e, ht⟩ := window_table_get h2 P n (d / 2).toNat (by omega)
      refine ⟨_, by rw [e]; rfl, ?_⟩
      have : d • P = (2 * (d / 2).toNat + 1) • P := by
        rw [← natCast_zsmul]; congr 1; omega
      rw [this]; exact represents_add h2 hr ht
    · rw [if_neg hpos, if_pos (show d < 0 by omega)]
      obtain ⟨t, e, ht⟩ := window_table_get h2 P n (-d / 2).toNat (by omega)
      refine ⟨_, by rw [e]; rfl, ?_⟩
      have : d • P = -((2 * (-d / 2).toNat + 1) • P) := by
        rw [← natCast_zsmul, ← neg_zsmul]; congr 1; omega
      rw [this, ← sub_eq_add_neg]; exact represents_sub h2 hr ht

/-- value of the digits below `n` -/
def lowSum (d : Nat → Int) (n : Nat) : Int := ∑ j ∈ range n, d j * 2 ^ j

/-- the main loop of a left-to-right multiplication -/
theorem digit_loop (f : Option (Jacobian F) → Nat → Option (Jacobian F)) (S : Nat → Pt β)
    (step : ∀ i r R, Represents r R → ∃ r', f (some r) i = some r' ∧ Represents r' (R + R + S i))
    (n : Nat) (r : Jacobian F) (R : Pt β) (hr : Represents r R) :
    ∃ r', (List.range n).reverse.foldl f (some r) = some r' ∧
      Represents r' ((2 ^ n : Int) • R + ∑ j ∈ range n, (2 ^ j : Int) • S j) := by
  induction n generalizing r R with
  | zero => exact ⟨r, rfl, by simpa using hr⟩
  | succ n ih =>
    obtain ⟨r1, e1, h1⟩ := step n r R hr
    obtain ⟨r', e, h⟩ := ih r1 _ h1
    refine ⟨r', by rw [range_succ_reverse, List.foldl_cons, e1, e], ?_⟩
    rw [sum_range_succ, pow_succ, mul_smul, two_smul]
    rw [smul_add] at h
    have : (2 ^ n : Int) • (R + R) + ((∑ j ∈ range n, (2 ^ j : Int) • S j) + (2 ^ n : Int) • S n) =
      (2 ^ n : Int) • (R + R) + (2 ^ n : Int) • S n + ∑ j ∈ range n, (2 ^ j : Int) • S j := by
      rw [add_comm (∑ j ∈ range n, _), add_assoc]
    rw [this]; exact h

theorem sum_smul_digits (d : Nat → Int) (P : Pt β) (n : Nat) :
    ∑ j ∈ range n, (2 ^ j : Int) • (d j • P) = (∑ j ∈ range n, d j * 2 ^ j) • P := by
  rw [sum_smul]
  apply sum_congr rfl
  intro j _
  rw [← mul_smul, mul_comm]

theorem naf_digits {w : Nat} (hw : 2 ≤ w) {s : Nat} {out : Nat → Int} (h : NafOut w 0 s (fun _ => 0) out) (i : Nat) :
    DigitOK (2 ^ (w - 2)) (out i) := by
  rcases h.digit i (Nat.zero_le _) with h | ⟨h1, h2, h3⟩
  · exact Or.inl h
  · right
    have : (2 : Int) ^ (w - 1) = 2 * 2 ^ (w - 2) := by
      rw [← pow_succ']; congr 1; omega
    push_cast
    rw [← this]
    exact ⟨h1, h2, h3⟩

theorem naf_total {w s : Nat} {out : Nat → Int} (h : NafOut w 0 s (fun _ => 0) out) :
    ∑ j ∈ range 257, out j * 2 ^ j = (s : Int) := by
  have := h.sum
  unfold digitSum at this
  simpa using this

theorem mul_eq (h2 : (2 : F) ≠ 0) (P : Pt β) (k : U256) :
    ∃ r, mul (ofPoint P) k = some r ∧ Represents r (k.toNat • P) := by
  obtain ⟨out, e, hn⟩ := naf_spec 5 (by norm_num) (by norm_num) k
  unfold mul
  dsimp only
  rw [e, Option.bind_some]
  obtain ⟨r, er, hr⟩ := digit_loop (β := β)
    (fun r i => r.bind fun r => applyDigit (window_table (ofPoint P) 8) (out i) (Jacobian.double r))
    (fun i => out i • P)
    (fun i r R hR => by
      simp only [Option.bind_some]
      exact applyDigit_spec h2 P 8 (out i) (by simpa using naf_digits (by norm_num) hn i) (represents_double h2 hR))
    257 Jacobian.ZERO 0 represents_ZERO
  refine ⟨r, er, ?_⟩
  rw [smul_zero, zero_add, sum_smul_digits, naf_total hn, natCast_zsmul] at hr
  exact hr

/-- `double_mul` is right when at every position where the digit of `a` is not positive, the digits of `a`
and `b` are negative together -/
theorem double_mul_eq (h2 : (2 : F) ≠ 0) (P Q : Pt β) (a b : U256) (na nb : Nat → Int)
    (ea : non_adjacent_form a 5 = some na) (eb : non_adjacent_form b 5 = some nb)
    (hs : ∀ i, na i ≤ 0 → (nb i < 0 ↔ na i < 0)) :
    ∃ r, double_mul (ofPoint P) a (ofPoint Q) b = some r ∧ Represents r (a.toNat • P + b.toNat • Q) := by
  obtain ⟨na', ea', hna⟩ := naf_spec 5 (by norm_num) (by norm_num) a
  obtain ⟨nb', eb', hnb⟩ := naf_spec 5 (by norm_num) (by norm_num) b
  obtain rfl : na' = na := by rw [ea] at ea'; exact (Option.some.inj ea').symm
  obtain rfl : nb' = nb := by rw [eb] at eb'; exact (Option.some.inj eb').symm
  unfold double_mul
  dsimp only
  rw [ea, Option.bind_some, eb, Option.bind_some]
  obtain ⟨r, er, hr⟩ := digit_loop (β := β)
    (fun r i => r.bind fun r => (applyDigitA (window_table (ofPoint P) 8) (na' i) (nb' i) (Jacobian.double r)).bind
      fun r => applyDigit (window_table (ofPoint Q) 8) (nb' i) r)
    (fun i => na' i • P + nb' i • Q)
    (fun i r R hR => by
      simp only [Option.bind_some]
      have hA : applyDigitA (window_table (ofPoint P) 8) (na' i) (nb' i) (Jacobian.double r) =
          applyDigit (window_table (ofPoint P) 8) (na' i) (Jacobian.double r) := by
        unfold applyDigitA applyDigit
        by_cases hp : na' i > 0
        · rw [if_pos hp, if_pos hp]
        · rw [if_neg hp, if_neg hp]
          simp only [hs i (by omega)]
      rw [hA]
      obtain ⟨r1, e1, h1⟩ := applyDigit_spec h2 P 8 (na' i) (by simpa using naf_digits (by norm_num) hna i)
        (represents_double h2 hR)
      obtain ⟨r2, e2, h2'⟩ := applyDigit_spec h2 Q 8 (nb' i) (by simpa using naf_digits (by norm_num) hnb i) h1
      exact ⟨r2, by rw [e1, Option.bind_some, e2], by rw [← add_assoc]; exact h2'⟩)
    257 Jacobian.ZERO 0 represents_ZERO
  refine ⟨r, er, ?_⟩
  simp only [smul_add] at hr
  rw [smul_zero, zero_add, sum_add_distrib, sum_smul_digits, sum_smul_digits, naf_total hna, naf_total hnb,
    natCast_zsmul, natCast_zsmul] at hr
  exact hr

end EC
end OpenZKP
