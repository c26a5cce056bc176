import Verif.Examples.PedersenRows
import Verif.EC.Mixed

/-!
# The Pedersen hash: specification, and lemmas about the equations of a layer
-/

namespace OpenZKP
namespace Examples
namespace Pedersen
open Stark FFT Props Polynomial EC WeierstrassCurve.Affine

section
variable {F : Type} [Field F] [DecidableEq F] {β : F}

/-! ## Specification -/

/-- the points of a Pedersen hash: the point to start with, and the points for the bits of the two integers -/
structure Bases (β : F) where
  shift : Pt β
  left : Nat → Pt β
  right : Nat → Pt β

/-- the sum of the points for the first `n` bits of `a` and of `b`, and the shift point -/
noncomputable def partialSum (B : Bases β) (a b n : Nat) : Pt β :=
  B.shift + ∑ i ∈ Finset.range n, ((if a.testBit i then B.left i else 0) + if b.testBit i then B.right i else 0)

/-- The Pedersen hash of two integers below `2^252`, as a point; the hash value is its coordinate `x`. -/
noncomputable def pedersen (B : Bases β) (a b : Nat) : Pt β := partialSum B a b 252

/-- the sum before the point for bit `n` of `b` is added -/
noncomputable def middleSum (B : Bases β) (a b n : Nat) : Pt β := partialSum B a b n + if a.testBit n then B.left n else 0

/-- When the bits of `a` and `b` are added in turn, a point is added to itself. -/
def Doubles (B : Bases β) (a b : Nat) : Prop :=
  ∃ i < 252, (a.testBit i ∧ partialSum B a b i = B.left i) ∨ (b.testBit i ∧ middleSum B a b i = B.right i)

/-- When the bits of `a` and `b` are added in turn, a point is added to its opposite. -/
def Cancels (B : Bases β) (a b : Nat) : Prop :=
  ∃ i < 252, (a.testBit i ∧ partialSum B a b i = -B.left i) ∨ (b.testBit i ∧ middleSum B a b i = -B.right i)

/-! ## Soundness of the equations of a layer -/

omit [DecidableEq F] in
theorem ofPoint_some {P : Pt β} {x y : F} (h : ofPoint P = .Point x y) : ∃ hn, P = Point.some x y hn := by
  cases P with
  | zero => cases h
  | some x' y' hn =>
    unfold ofPoint at h
    injection h with h1 h2
    subst h1 h2
    exact ⟨hn, rfl⟩

theorem partialSum_succ (B : Bases β) (a b n : Nat) : partialSum B a b (n + 1) = middleSum B a b n + if b.testBit n then B.right n else 0 := by
  unfold middleSum partialSum
  rw [Finset.sum_range_succ]
  abel

omit [DecidableEq F] in
theorem bit_cases {d : F} (h : d * (d - 1) = 0) : d = 0 ∨ d = 1 := by
  rcases mul_eq_zero.1 h with h | h
  · exact Or.inl h
  · exact Or.inr (sub_eq_zero.1 h)

omit [DecidableEq F] in
/-- numbers that halve down to zero are the bits of an integer -/
theorem bits_of (n : Nat) (L : Nat → F) (h0 : L n = 0) (hd : ∀ i < n, (L i - L (i + 1) * 2) * (L i - L (i + 1) * 2 - 1) = 0) :
    ∃ a : Nat, a < 2 ^ n ∧ (a : F) = L 0 ∧ ∀ i < n, L i - L (i + 1) * 2 = if a.testBit i then 1 else 0 := by
  induction n generalizing L with
  | zero => exact ⟨0, by norm_num, by rw [h0, Nat.cast_zero], fun i hi => absurd hi (by omega)⟩
  | succ n ih =>
    obtain ⟨a, h1, h2, h3⟩ := ih (fun i => L (i + 1)) h0 (fun i hi => hd (i + 1) (by omega))
    have key : ∀ c : Bool, (L 0 - L 1 * 2 = if c then 1 else 0) →
        ∃ a : Nat, a < 2 ^ (n + 1) ∧ (a : F) = L 0 ∧ ∀ i < n + 1, L i - L (i + 1) * 2 = if a.testBit i then 1 else 0 := by
      intro c hc
      refine ⟨2 * a + c.toNat, ?_, ?_, ?_⟩
      · rw [pow_succ]
        cases c <;> simp <;> omega
      · push_cast
        rw [h2]
        cases c <;> simp at hc ⊢ <;> linear_combination -hc
      · intro i hi
        cases i with
        | zero =>
          rw [hc]
          cases c <;> simp
        | succ i =>
          have := h3 i (by omega)
          rw [this]
          rw [Nat.testBit_succ, show (2 * a + c.toNat) / 2 = a by cases c <;> simp <;> omega]
    rcases bit_cases (hd 0 (by omega)) with h | h
    · exact key false (by simpa using h)
    · exact key true (by simpa using h)

/-- a conditional addition in which the bit is 1 -/
theorem step_one {s px py qx qy rx ry : F} (h : BitStep 1 s px py qx qy rx ry) {P Q : Pt β} (hP : ofPoint P = .Point px py) (hQ : ofPoint Q = .Point qx qy) :
    Q = P ∨ ofPoint (Q + P) = .Point rx ry := by
  obtain ⟨hp, rfl⟩ := ofPoint_some hP
  obtain ⟨hq, rfl⟩ := ofPoint_some hQ
  have h1 := h.slope
  have h2 := h.x
  have h3 := h.y
  rw [one_mul] at h1 h2 h3
  by_cases hx : qx = px
  · left
    rw [hx, sub_self, mul_zero, sub_zero] at h1
    apply ofPoint_inj
    rw [hP, hQ, hx, sub_eq_zero.1 h1]
  · right
    rw [add_coords hq hp hx s (sub_eq_zero.1 h1).symm]
    have e1 : s * s - qx - px = rx := by linear_combination h2
    rw [e1]
    congr 1
    linear_combination -h3

theorem step_zero {s px py qx qy rx ry : F} (h : BitStep 0 s px py qx qy rx ry) : rx = qx ∧ ry = qy := by
  have h1 := h.same_x
  have h2 := h.same_y
  rw [sub_zero, one_mul] at h1 h2
  exact ⟨(sub_eq_zero.1 h1).symm, (sub_eq_zero.1 h2).symm⟩

/-- a conditional addition -/
theorem step_bit {c : Bool} {d s px py qx qy rx ry : F} (h : BitStep d s px py qx qy rx ry) (hd : d = if c then 1 else 0) {P Q : Pt β} (hP : ofPoint P = .Point px py)
    (hQ : ofPoint Q = .Point qx qy) : (c = true ∧ Q = P) ∨ ofPoint (Q + if c then P else 0) = .Point rx ry := by
  cases c with
  | true =>
    rw [if_pos rfl] at hd ⊢
    subst hd
    rcases step_one h hP hQ with h | h
    · exact Or.inl ⟨rfl, h⟩
    · exact Or.inr h
  | false =>
    rw [if_neg (by simp)] at hd ⊢
    subst hd
    obtain ⟨e1, e2⟩ := step_zero h
    right
    rw [add_zero, hQ, e1, e2]

/-- The equations of a layer say that the integers encoded by the two inputs have the hash in the last row, unless in computing it a point is added to itself. -/
theorem layer_sound (B : Bases β) (sx sy : F) (lx ly rx ry : Nat → F) (hs : ofPoint B.shift = .Point sx sy) (hl : ∀ i < 252, ofPoint (B.left i) = .Point (lx i) (ly i))
    (hr : ∀ i < 252, ofPoint (B.right i) = .Point (rx i) (ry i)) (hchar : ∀ k : Nat, 0 < k → k < 8 → (k : F) ≠ 0) (t : Nat → Nat → F) (h : LayerRows sx sy lx ly rx ry t) :
    ∃ a b : Nat, a < 2 ^ 252 ∧ b < 2 ^ 252 ∧ (a : F) = t 0 0 ∧ (b : F) = t 0 4 ∧
      (∀ i < 252, t i 0 - t (i + 1) 0 * 2 = if a.testBit i then 1 else 0) ∧ (∀ i < 252, t i 4 - t (i + 1) 4 * 2 = if b.testBit i then 1 else 0) ∧
      (Doubles B a b ∨ ∃ y, ofPoint (pedersen B a b) = .Point (t 255 6) y) := by
  obtain ⟨a, ha, ha0, hab⟩ := bits_of 252 (fun i => t i 0) h.left_end (fun i hi => (h.left i (by omega)).bit)
  obtain ⟨b, hb, hb0, hbb⟩ := bits_of 252 (fun i => t i 4) h.right_end (fun i hi => (h.right i (by omega)).bit)
  refine ⟨a, b, ha, hb, ha0, hb0, hab, hbb, ?_⟩
  by_cases hdoub : Doubles B a b
  · exact Or.inl hdoub
  right
  have key : ∀ n ≤ 252, ofPoint (partialSum B a b n) = .Point (t n 6) (t n 7) := by
    intro n
    induction n with
    | zero =>
      intro _
      unfold partialSum
      rw [Finset.sum_range_zero, add_zero, hs, h.start_x, h.start_y]
    | succ n ih =>
      intro hn
      have e1 := ih (by omega)
      have e2 : ofPoint (middleSum B a b n) = .Point (t (n + 1) 2) (t (n + 1) 3) := by
        rcases step_bit (h.left n (by omega)) (hab n (by omega)) (hl n (by omega)) e1 with h1 | h1
        · exact absurd ⟨n, by omega, Or.inl h1⟩ hdoub
        · exact h1
      rw [partialSum_succ]
      rcases step_bit (h.right n (by omega)) (hbb n (by omega)) (hr n (by omega)) e2 with h1 | h1
      · exact absurd ⟨n, by omega, Or.inr h1⟩ hdoub
      · exact h1
  -- the last bits are zero
  have small : ∀ d0 d1 d2 : F, d0 * (d0 - 1) = 0 → d1 * (d1 - 1) = 0 → d2 * (d2 - 1) = 0 → d0 + 2 * d1 + 4 * d2 = 0 → d0 = 0 ∧ d1 = 0 ∧ d2 = 0 := by
    intro d0 d1 d2 h0 h1 h2 hsum
    have c1 := hchar 1 (by norm_num) (by norm_num)
    have c2 := hchar 2 (by norm_num) (by norm_num)
    have c3 := hchar 3 (by norm_num) (by norm_num)
    have c4 := hchar 4 (by norm_num) (by norm_num)
    have c5 := hchar 5 (by norm_num) (by norm_num)
    have c6 := hchar 6 (by norm_num) (by norm_num)
    have c7 := hchar 7 (by norm_num) (by norm_num)
    push_cast at c1 c2 c3 c4 c5 c6 c7
    rcases bit_cases h0 with rfl | rfl <;> rcases bit_cases h1 with rfl | rfl <;> rcases bit_cases h2 with rfl | rfl
    · exact ⟨rfl, rfl, rfl⟩
    · exact absurd (by linear_combination hsum) c4
    · exact absurd (by linear_combination hsum) c2
    · exact absurd (by linear_combination hsum) c6
    · exact absurd (by linear_combination hsum) c1
    · exact absurd (by linear_combination hsum) c5
    · exact absurd (by linear_combination hsum) c3
    · exact absurd (by linear_combination hsum) c7
  obtain ⟨l0, l1, l2⟩ := small _ _ _ (h.left 252 (by norm_num)).bit (h.left 253 (by norm_num)).bit (h.left 254 (by norm_num)).bit
    (by linear_combination h.left_end - 8 * h.left_last)
  obtain ⟨r0, r1, r2⟩ := small _ _ _ (h.right 252 (by norm_num)).bit (h.right 253 (by norm_num)).bit (h.right 254 (by norm_num)).bit
    (by linear_combination h.right_end - 8 * h.right_last)
  have same : ∀ n < 255, t n 0 - t (n + 1) 0 * 2 = 0 → t n 4 - t (n + 1) 4 * 2 = 0 → t (n + 1) 6 = t n 6 := by
    intro n hn e1 e2
    have h1 := h.left n hn
    have h2 := h.right n hn
    rw [e1] at h1
    rw [e2] at h2
    rw [(step_zero h2).1, (step_zero h1).1]
  refine ⟨t 252 7, ?_⟩
  rw [same 254 (by norm_num) l2 r2, same 253 (by norm_num) l1 r1, same 252 (by norm_num) l0 r0]
  exact key 252 (le_refl _)

/-! ## Completeness of the equations of a layer -/

/-- the slope of the line through two points -/
def slopeOf (P Q : Pt β) : F := (get_slope (ofPoint P) (ofPoint Q)).getD 0

/-- the rows of a layer that hashes `a` and `b` -/
noncomputable def layerTable (B : Bases β) (a b r j : Nat) : F :=
  match j with
  | 0 => ((a / 2 ^ r : Nat) : F)
  | 1 => if r = 0 then 0 else if a.testBit (r - 1) then slopeOf (partialSum B a b (r - 1)) (B.left (r - 1)) else 0
  | 2 => if r = 0 then 0 else coordX (ofPoint (middleSum B a b (r - 1)))
  | 3 => if r = 0 then 0 else coordY (ofPoint (middleSum B a b (r - 1)))
  | 4 => ((b / 2 ^ r : Nat) : F)
  | 5 => if r = 0 then 0 else if b.testBit (r - 1) then slopeOf (middleSum B a b (r - 1)) (B.right (r - 1)) else 0
  | 6 => coordX (ofPoint (partialSum B a b r))
  | 7 => coordY (ofPoint (partialSum B a b r))
  | _ => 0

theorem add_ne_zero_of {P Q : Pt β} (h : P ≠ -Q) : P + Q ≠ 0 := fun e => h (eq_neg_of_add_eq_zero_left e)

omit [DecidableEq F] in
theorem ofPoint_coords {P : Pt β} (h : P ≠ 0) : ofPoint P = .Point (coordX (ofPoint P)) (coordY (ofPoint P)) := by
  cases P with
  | zero => exact absurd rfl h
  | some x y hn => rfl

theorem slopeOf_eq {P Q : Pt β} (hP : P ≠ 0) (hQ : Q ≠ 0) (h1 : P ≠ Q) (h2 : P ≠ -Q) :
    get_slope (ofPoint P) (ofPoint Q) = some (slopeOf P Q) ∧ coordX (ofPoint P) ≠ coordX (ofPoint Q) ∧
    slopeOf P Q * (coordX (ofPoint P) - coordX (ofPoint Q)) = coordY (ofPoint P) - coordY (ofPoint Q) := by
  cases P with
  | zero => exact absurd rfl hP
  | some x y hp =>
    cases Q with
    | zero => exact absurd rfl hQ
    | some x' y' hq =>
      have hx : x ≠ x' := by
        rintro rfl
        rcases Y_eq_of_X_eq hp.1 hq.1 rfl with h | h
        · exact h1 (by subst h; rfl)
        · apply h2
          rw [Point.neg_some]
          congr 1
      have hs : x - x' ≠ 0 := sub_ne_zero.2 hx
      refine ⟨?_, hx, ?_⟩
      · simp only [slopeOf, get_slope, ofPoint, fdiv, if_neg hs, Option.getD_some]
      · simp only [slopeOf, get_slope, ofPoint, fdiv, if_neg hs, Option.getD_some, coordX, coordY]
        exact div_mul_cancel₀ _ hs

omit [Field F] [DecidableEq F] in
theorem coordX_point [Field F] (x y : F) : coordX (.Point x y) = x := rfl
omit [Field F] [DecidableEq F] in
theorem coordY_point [Field F] (x y : F) : coordY (.Point x y) = y := rfl

/-- a conditional addition that is not exceptional -/
theorem bitStep_of (c : Bool) {P Q : Pt β} (hP : P ≠ 0) (hQ : c = true → Q ≠ 0 ∧ P ≠ Q ∧ P ≠ -Q) (px py : F) (hpx : c = true → ofPoint Q = .Point px py) :
    BitStep (if c then 1 else 0) (if c then slopeOf P Q else 0) px py (coordX (ofPoint P)) (coordY (ofPoint P))
      (coordX (ofPoint (P + if c then Q else 0))) (coordY (ofPoint (P + if c then Q else 0))) := by
  cases c with
  | false =>
    simp only [Bool.false_eq_true, if_false, add_zero]
    constructor <;> simp
  | true =>
    obtain ⟨h0, h1, h2⟩ := hQ rfl
    obtain ⟨-, h3, h4⟩ := slopeOf_eq hP h0 h1 h2
    obtain ⟨hp, hp'⟩ := ofPoint_some (ofPoint_coords hP)
    obtain ⟨hq, hq'⟩ := ofPoint_some (ofPoint_coords h0)
    have h5 := add_coords hp hq h3 _ h4
    rw [← hp', ← hq'] at h5
    have e := hpx rfl
    have ex : coordX (ofPoint Q) = px := by rw [e]; rfl
    have ey : coordY (ofPoint Q) = py := by rw [e]; rfl
    rw [ex, ey] at h4
    rw [ex] at h5
    simp only [if_true]
    rw [h5]
    rw [coordX_point, coordY_point]
    constructor
    · ring
    · linear_combination -h4
    · ring
    · ring
    · ring
    · ring

/-- the additions are not exceptional -/
theorem regular_of (B : Bases β) (a b : Nat) (hs : B.shift ≠ 0) (hd : ¬ Doubles B a b) (hc : ¬ Cancels B a b) (n : Nat) (ha : a < 2 ^ 252) (hb : b < 2 ^ 252) :
    partialSum B a b n ≠ 0 ∧ middleSum B a b n ≠ 0 ∧ (a.testBit n = true → partialSum B a b n ≠ B.left n ∧ partialSum B a b n ≠ -B.left n) ∧
      (b.testBit n = true → middleSum B a b n ≠ B.right n ∧ middleSum B a b n ≠ -B.right n) := by
  have hlt : ∀ (x n : Nat), x < 2 ^ 252 → x.testBit n = true → n < 252 := by
    intro x n hx h
    by_contra hn
    rw [Nat.testBit_lt_two_pow (lt_of_lt_of_le hx (Nat.pow_le_pow_right (by norm_num) (by omega)))] at h
    cases h
  have h1 : ∀ n, a.testBit n = true → partialSum B a b n ≠ B.left n ∧ partialSum B a b n ≠ -B.left n := fun n h =>
    ⟨fun e => hd ⟨n, hlt a n ha h, Or.inl ⟨h, e⟩⟩, fun e => hc ⟨n, hlt a n ha h, Or.inl ⟨h, e⟩⟩⟩
  have h2 : ∀ n, b.testBit n = true → middleSum B a b n ≠ B.right n ∧ middleSum B a b n ≠ -B.right n := fun n h =>
    ⟨fun e => hd ⟨n, hlt b n hb h, Or.inr ⟨h, e⟩⟩, fun e => hc ⟨n, hlt b n hb h, Or.inr ⟨h, e⟩⟩⟩
  have h3 : ∀ n, partialSum B a b n ≠ 0 → middleSum B a b n ≠ 0 := by
    intro n h
    unfold middleSum
    cases hbit : a.testBit n with
    | false => simpa using h
    | true => simpa using add_ne_zero_of (h1 n hbit).2
  have h4 : partialSum B a b n ≠ 0 := by
    induction n with
    | zero => simpa [partialSum] using hs
    | succ n ih =>
      rw [partialSum_succ]
      cases hbit : b.testBit n with
      | false => simpa using h3 n ih
      | true => simpa using add_ne_zero_of (h2 n hbit).2
  exact ⟨h4, h3 n h4, h1 n, h2 n⟩

omit [DecidableEq F] in
theorem halves (a r : Nat) : ((a / 2 ^ r : Nat) : F) - ((a / 2 ^ (r + 1) : Nat) : F) * 2 = if a.testBit r then 1 else 0 := by
  have h := Nat.div_add_mod (a / 2 ^ r) 2
  rw [Nat.div_div_eq_div_mul, ← pow_succ] at h
  have h2 : a / 2 ^ r % 2 = if a.testBit r then 1 else 0 := by
    rw [Nat.testBit_eq_decide_div_mod_eq]
    rcases Nat.mod_two_eq_zero_or_one (a / 2 ^ r) with e | e <;> simp [e]
  rw [h2] at h
  have h3 := congrArg (Nat.cast (R := F)) h
  push_cast at h3
  rw [← h3]
  ring

/-- The table of a layer satisfies its equations, unless in computing the hash a point is added to itself or to its opposite. -/
theorem layer_complete (B : Bases β) (sx sy : F) (lx ly rx ry : Nat → F) (hs : ofPoint B.shift = .Point sx sy) (hl : ∀ i < 252, ofPoint (B.left i) = .Point (lx i) (ly i))
    (hr : ∀ i < 252, ofPoint (B.right i) = .Point (rx i) (ry i)) (a b : Nat) (ha : a < 2 ^ 252) (hb : b < 2 ^ 252) (hd : ¬ Doubles B a b) (hc : ¬ Cancels B a b) :
    LayerRows sx sy lx ly rx ry (layerTable B a b) := by
  have hlt : ∀ (x n : Nat), x < 2 ^ 252 → x.testBit n = true → n < 252 := by
    intro x n hx h
    by_contra hn
    rw [Nat.testBit_lt_two_pow (lt_of_lt_of_le hx (Nat.pow_le_pow_right (by norm_num) (by omega)))] at h
    cases h
  have hs0 : B.shift ≠ 0 := by
    intro h
    rw [h] at hs
    cases hs
  have hne : ∀ {P : Pt β} {x y : F}, ofPoint P = .Point x y → P ≠ 0 := by
    intro P x y h h0
    rw [h0] at h
    cases h
  have hp0 : partialSum B a b 0 = B.shift := by simp [partialSum]
  have hz : ∀ x r, x < 2 ^ 252 → 252 ≤ r → ((x / 2 ^ r : Nat) : F) = 0 := by
    intro x r hx hr
    rw [Nat.div_eq_of_lt (lt_of_lt_of_le hx (Nat.pow_le_pow_right (by norm_num) hr)), Nat.cast_zero]
  refine ⟨?_, ?_, hz a 252 ha (by norm_num), hz a 255 ha (by norm_num), hz b 252 hb (by norm_num), hz b 255 hb (by norm_num), fun i hi => ?_, fun i hi => ?_⟩
  · simp only [layerTable, hp0, hs, coordX]
  · simp only [layerTable, hp0, hs, coordY]
  · obtain ⟨h1, h2, h3, h4⟩ := regular_of B a b hs0 hd hc i ha hb
    simp only [layerTable, halves, Nat.succ_ne_zero, if_false, Nat.add_sub_cancel]
    exact bitStep_of (a.testBit i) h1 (fun h => ⟨hne (hl i (hlt a i ha h)), h3 h⟩) _ _ fun h => hl i (hlt a i ha h)
  · obtain ⟨h1, h2, h3, h4⟩ := regular_of B a b hs0 hd hc i ha hb
    simp only [layerTable, halves, Nat.succ_ne_zero, if_false, Nat.add_sub_cancel, partialSum_succ]
    exact bitStep_of (b.testBit i) h2 (fun h => ⟨hne (hr i (hlt b i hb h)), h4 h⟩) _ _ fun h => hr i (hlt b i hb h)

end
end Pedersen
end Examples
end OpenZKP
