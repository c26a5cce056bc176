import Verif.Field.PrimeField
import Verif.Props.Montgomery
import Mathlib.Data.ZMod.Basic
import Mathlib.FieldTheory.Finite.Basic
import Mathlib.NumberTheory.LegendreSymbol.Basic

/-!
# Field lemmas: the representation is a ring isomorphism
-/

namespace OpenZKP
namespace PF
open U256 Props

/-- The `U256` of a natural number. -/
def ofNat256 (n : Nat) : U256 :=
  ⟨UInt64.ofNat n, UInt64.ofNat (n / 2 ^ 64), UInt64.ofNat (n / 2 ^ 128), UInt64.ofNat (n / 2 ^ 192)⟩

theorem ofNat256_toNat {n : Nat} (h : n < 2 ^ 256) : (ofNat256 n).toNat = n := by
  unfold U256.toNat ofNat256
  simp only [UInt64.toNat_ofNat']
  omega

/-- The representation is reduced. -/
def Canon (P : Params) (x : U256) : Prop := x.toNat < P.modulus.toNat

/-- The residue class a representation stands for: the class of the integer `to_uint` returns. -/
def V (P : Params) (x : U256) : ZMod P.modulus.toNat := ((to_uint P x).toNat : ZMod P.modulus.toNat)

variable {P : Params}

theorem two_unit {m : Nat} (h : m % 2 = 1) : IsUnit ((2 : ZMod m) ^ 256) := by
  apply IsUnit.pow
  have : ((2 : ℕ) : ZMod m) = 2 := by norm_cast
  rw [← this, ZMod.isUnit_iff_coprime]
  rw [Nat.coprime_two_left, Nat.odd_iff]; exact h

theorem isRedc_zmod {m T r : Nat} (h : IsRedc m T r) : (r : ZMod m) * 2 ^ 256 = (T : ZMod m) := by
  have := h.2.1
  rw [← Nat.ModEq, ← ZMod.natCast_eq_natCast_iff] at this
  rw [Nat.cast_mul, Nat.cast_pow] at this
  exact this

theorem V_mul_R (h : MontConsts P.toMont) {x : U256} (hx : Canon P x) :
    V P x * 2 ^ 256 = (x.toNat : ZMod P.modulus.toNat) := by
  have := C10_redc P.toMont h.toMontOK x ZERO (by
      rw [zero_toNat, Nat.mul_zero, Nat.add_zero]
      calc x.toNat < P.modulus.toNat := hx
        _ ≤ _ := Nat.le_mul_of_pos_right _ (by norm_num))
  rw [zero_toNat, Nat.mul_zero, Nat.add_zero] at this
  exact isRedc_zmod this

theorem to_uint_lt (h : MontConsts P.toMont) {x : U256} (hx : Canon P x) :
    (to_uint P x).toNat < P.modulus.toNat := by
  have := C10_redc P.toMont h.toMontOK x ZERO (by
      rw [zero_toNat, Nat.mul_zero, Nat.add_zero]
      calc x.toNat < P.modulus.toNat := hx
        _ ≤ _ := Nat.le_mul_of_pos_right _ (by norm_num))
  exact this.1

theorem cancelR (h : MontConsts P.toMont) {a b : ZMod P.modulus.toNat}
    (e : a * 2 ^ 256 = b * 2 ^ 256) : a = b := (two_unit h.odd).mul_right_cancel e

theorem cast_inj_of_lt {m a b : Nat} (ha : a < m) (hb : b < m) (h : (a : ZMod m) = (b : ZMod m)) : a = b := by
  rw [ZMod.natCast_eq_natCast_iff] at h
  exact Nat.ModEq.eq_of_lt_of_lt h ha hb

/-- Two reduced representations with the same value are equal. -/
theorem V_inj (h : MontConsts P.toMont) {x y : U256} (hx : Canon P x) (hy : Canon P y) (e : V P x = V P y) :
    x = y := by
  apply toNat_inj
  apply cast_inj_of_lt hx hy
  rw [← V_mul_R h hx, ← V_mul_R h hy, e]

theorem modulus_pos (h : MontConsts P.toMont) : 0 < P.modulus.toNat := by have := h.odd; omega

theorem to_montgomery_spec (h : MontConsts P.toMont) (u : U256) :
    Canon P (to_montgomery P.toMont u) ∧ V P (to_montgomery P.toMont u) = (u.toNat : ZMod P.modulus.toNat) := by
  obtain ⟨h1, h2, -, -⟩ := C10_convert P.toMont h u u
  refine ⟨by unfold Canon; rw [h1]; exact Nat.mod_lt _ (modulus_pos h), ?_⟩
  unfold V to_uint
  rw [h2]; simp

theorem from_uint_reduce_spec (h : MontConsts P.toMont) (u : U256) :
    Canon P (from_uint_reduce P u) ∧ V P (from_uint_reduce P u) = (u.toNat : ZMod P.modulus.toNat) := by
  have hpos := modulus_pos h
  have h1 := C10_redc P.toMont h.toMontOK u ZERO (by
      rw [zero_toNat, Nat.mul_zero, Nat.add_zero]
      calc u.toNat < 2 ^ 256 := toNat_lt u
        _ ≤ _ := Nat.le_mul_of_pos_left _ hpos)
  rw [zero_toNat, Nat.mul_zero, Nat.add_zero] at h1
  have hr3 : P.r3.toNat < P.modulus.toNat := by rw [h.r3]; exact Nat.mod_lt _ hpos
  have h2 := (C10_mul_redc P.toMont h.toMontOK (redc P.toMont u ZERO) P.r3 hr3).1
  have hc : Canon P (from_uint_reduce P u) := h2.1
  refine ⟨hc, ?_⟩
  apply cancelR h
  rw [V_mul_R h hc]
  have e1 := isRedc_zmod h1
  have e2 := isRedc_zmod h2
  have e3 : (P.r3.toNat : ZMod P.modulus.toNat) = 2 ^ 256 * 2 ^ 256 * 2 ^ 256 := by
    rw [h.r3]; rw [ZMod.natCast_mod, ← pow_add, ← pow_add, Nat.cast_pow]; rfl
  rw [Nat.cast_mul, e3] at e2
  apply cancelR h
  unfold from_uint_reduce
  rw [e2, ← e1]; ring

theorem zero_spec (h : MontConsts P.toMont) : Canon P zero ∧ V P zero = 0 := by
  have hc : Canon P zero := by unfold Canon zero; rw [zero_toNat]; exact modulus_pos h
  refine ⟨hc, ?_⟩
  apply cancelR h
  rw [V_mul_R h hc]
  simp [zero, zero_toNat]

theorem one_spec (h : MontConsts P.toMont) : Canon P (one P) ∧ V P (one P) = 1 := by
  have hc : Canon P (one P) := by unfold Canon one; rw [h.r1]; exact Nat.mod_lt _ (modulus_pos h)
  refine ⟨hc, ?_⟩
  apply cancelR h
  rw [V_mul_R h hc]
  unfold one
  rw [h.r1, ZMod.natCast_mod]; push_cast; ring

theorem add_spec (h : MontConsts P.toMont) {x y : U256} (hx : Canon P x) (hy : Canon P y) :
    Canon P (add P x y) ∧ V P (add P x y) = V P x + V P y := by
  have hle := h.le
  have e := add_mod x y
  unfold Canon at hx hy
  rw [Nat.mod_eq_of_lt (by omega)] at e
  have key : Canon P (add P x y) ∧ ((add P x y).toNat : ZMod P.modulus.toNat) = x.toNat + y.toNat := by
    unfold Canon add reduce_1
    by_cases hge : ge (U256.add x y) P.modulus = true
    · rw [if_pos hge]
      rw [ge_iff] at hge
      have e2 := sub_of_le hge
      refine ⟨by omega, ?_⟩
      have : x.toNat + y.toNat = (U256.sub (U256.add x y) P.modulus).toNat + P.modulus.toNat := by omega
      rw [← Nat.cast_add, this, Nat.cast_add, ZMod.natCast_self, add_zero]
    · rw [if_neg hge]
      rw [ge_iff] at hge
      refine ⟨by omega, ?_⟩
      rw [e, Nat.cast_add]
  refine ⟨key.1, cancelR h ?_⟩
  rw [V_mul_R h key.1, key.2, add_mul, V_mul_R h hx, V_mul_R h hy]

theorem sub_spec (h : MontConsts P.toMont) {x y : U256} (hx : Canon P x) (hy : Canon P y) :
    Canon P (sub P x y) ∧ V P (sub P x y) = V P x - V P y := by
  have hle := h.le
  unfold Canon at hx hy
  have key : Canon P (sub P x y) ∧ ((sub P x y).toNat : ZMod P.modulus.toNat) = x.toNat - y.toNat := by
    unfold Canon sub
    by_cases hgt : gt y x = true
    · rw [if_pos hgt]
      rw [gt_iff] at hgt
      have e2 := sub_mod x y
      have e3 := add_mod (U256.sub x y) P.modulus
      have e4 : (U256.add (U256.sub x y) P.modulus).toNat + y.toNat = x.toNat + P.modulus.toNat := by
        rw [Nat.mod_eq_of_lt (by omega)] at e2
        rw [e3, e2]
        have : x.toNat + (2 ^ 256 - y.toNat) + P.modulus.toNat = (x.toNat + P.modulus.toNat - y.toNat) + 2 ^ 256 := by
          omega
        rw [this, Nat.add_mod_right, Nat.mod_eq_of_lt (by omega)]
        omega
      refine ⟨by omega, ?_⟩
      rw [eq_sub_iff_add_eq, ← Nat.cast_add, e4, Nat.cast_add, ZMod.natCast_self, add_zero]
    · rw [if_neg hgt]
      rw [gt_iff] at hgt
      have e2 := sub_of_le (a := x) (b := y) (by omega)
      refine ⟨by omega, ?_⟩
      rw [e2, Nat.cast_sub (by omega)]
  refine ⟨key.1, cancelR h ?_⟩
  rw [V_mul_R h key.1, key.2, sub_mul, V_mul_R h hx, V_mul_R h hy]

theorem is_zero_iff (h : MontConsts P.toMont) {x : U256} (hx : Canon P x) : is_zero x = true ↔ V P x = 0 := by
  obtain ⟨z1, z2⟩ := zero_spec h
  unfold is_zero
  rw [beq_iff_eq]
  constructor
  · rintro rfl; exact z2
  · intro e; exact V_inj h hx z1 (e.trans z2.symm)

theorem is_one_iff (h : MontConsts P.toMont) {x : U256} (hx : Canon P x) : is_one P x = true ↔ V P x = 1 := by
  obtain ⟨z1, z2⟩ := one_spec h
  unfold is_one
  rw [beq_iff_eq]
  constructor
  · rintro rfl; exact z2
  · intro e; exact V_inj h hx z1 (e.trans z2.symm)

theorem neg_spec (h : MontConsts P.toMont) {x : U256} (hx : Canon P x) :
    Canon P (neg P x) ∧ V P (neg P x) = - V P x := by
  by_cases hz : is_zero x = true
  · have hz' := (is_zero_iff h hx).1 hz
    unfold neg
    rw [if_pos hz, hz', neg_zero]
    exact zero_spec h
  · have hz' : x ≠ ZERO := fun e => hz (by rw [e]; rfl)
    have hpos : x.toNat ≠ 0 := fun e => hz' (toNat_inj (by rw [e, zero_toNat]))
    unfold Canon at hx
    have e : (neg P x).toNat = P.modulus.toNat - x.toNat := by
      unfold neg; rw [if_neg hz, sub_of_le hx.le]
    have hc : Canon P (neg P x) := by unfold Canon; omega
    refine ⟨hc, cancelR h ?_⟩
    rw [V_mul_R h hc, neg_mul, V_mul_R h hx, e, Nat.cast_sub hx.le, ZMod.natCast_self, zero_sub]

theorem mul_redc_V (h : MontConsts P.toMont) (x : U256) {y : U256} (hy : Canon P y) :
    Canon P (mul_redc P.toMont x y) ∧
    V P (mul_redc P.toMont x y) * 2 ^ 256 = (x.toNat : ZMod P.modulus.toNat) * V P y := by
  have h2 := (C10_mul_redc P.toMont h.toMontOK x y hy).1
  have hc : Canon P (mul_redc P.toMont x y) := h2.1
  refine ⟨hc, ?_⟩
  have e2 := isRedc_zmod h2
  rw [Nat.cast_mul, ← V_mul_R h hy, ← V_mul_R h hc] at e2
  apply cancelR h
  rw [e2]; ring

theorem mul_spec (h : MontConsts P.toMont) {x y : U256} (hx : Canon P x) (hy : Canon P y) :
    Canon P (mul P x y) ∧ V P (mul P x y) = V P x * V P y := by
  obtain ⟨h1, h2⟩ := mul_redc_V h x hy
  refine ⟨h1, cancelR h ?_⟩
  unfold mul
  rw [h2, ← V_mul_R h hx]; ring

theorem square_spec (h : MontConsts P.toMont) {x : U256} (hx : Canon P x) :
    Canon P (square P x) ∧ V P (square P x) = V P x * V P x ∧ square P x = mul P x x := by
  have e : square P x = mul P x x := (C10_square_redc P.toMont h.toMontOK x hx).2
  rw [e]
  obtain ⟨h1, h2⟩ := mul_spec h hx hx
  exact ⟨h1, h2, rfl⟩

/-! ### Powers -/

theorem powFold (h : MontConsts P.toMont) {x : U256} (hx : Canon P x) (e msb : Nat) (bit : Nat → Bool)
    (hb : ∀ i ≤ msb, bit i = e.testBit i) (k : Nat) (hk : k ≤ msb + 1) :
    let s := (List.range k).foldl (powStep P bit msb) (one P, x)
    Canon P s.1 ∧ Canon P s.2 ∧ V P s.1 = V P x ^ (e % 2 ^ k) ∧ (k ≤ msb → V P s.2 = V P x ^ 2 ^ k) := by
  induction k with
  | zero =>
    obtain ⟨o1, o2⟩ := one_spec h
    refine ⟨o1, hx, ?_, fun _ => ?_⟩
    · simp [o2, Nat.mod_one]
    · simp
  | succ k ih =>
    obtain ⟨i1, i2, i3, i4⟩ := ih (by omega)
    have i4 := i4 (by omega)
    rw [List.range_succ, List.foldl_append, List.foldl_cons, List.foldl_nil]
    generalize (List.range k).foldl (powStep P bit msb) (one P, x) = s at i1 i2 i3 i4
    have hbk := hb k (by omega)
    have em : e % 2 ^ (k + 1) = e % 2 ^ k + 2 ^ k * (e.testBit k).toNat := by
      rw [Nat.mod_pow_succ, Nat.testBit_eq_decide_div_mod_eq]
      rcases Nat.mod_two_eq_zero_or_one (e / 2 ^ k) with h2 | h2 <;> rw [h2] <;> simp
    unfold powStep
    dsimp only
    rw [hbk]
    have q1 : Canon P (if e.testBit k = true then mul P s.1 s.2 else s.1) ∧
        V P (if e.testBit k = true then mul P s.1 s.2 else s.1) = V P x ^ (e % 2 ^ (k + 1)) := by
      rw [em]
      by_cases ht : e.testBit k = true
      · rw [if_pos ht, ht]
        obtain ⟨m1, m2⟩ := mul_spec h i1 i2
        refine ⟨m1, ?_⟩
        rw [m2, i3, i4, ← pow_add]
        simp
      · rw [if_neg ht]
        rw [Bool.not_eq_true] at ht
        rw [ht]
        refine ⟨i1, ?_⟩
        rw [i3]; simp
    refine ⟨q1.1, ?_, q1.2, fun hk' => ?_⟩
    · by_cases hl : k < msb
      · rw [if_pos hl]; exact (square_spec h i2).1
      · rw [if_neg hl]; exact i2
    · rw [if_pos (by omega), (square_spec h i2).2.1, i4, ← pow_add]
      congr 1; rw [pow_succ]; ring

theorem powBits_spec (h : MontConsts P.toMont) {x : U256} (hx : Canon P x) (e : Nat) (msb : Option Nat)
    (bit : Nat → Bool) (hm : ∀ m, msb = some m → e < 2 ^ (m + 1) ∧ ∀ i ≤ m, bit i = e.testBit i)
    (hz : msb = none → e = 0) :
    Canon P (powBits P msb bit x) ∧ V P (powBits P msb bit x) = V P x ^ e := by
  cases msb with
  | none =>
    obtain ⟨o1, o2⟩ := one_spec h
    refine ⟨o1, ?_⟩
    rw [hz rfl, pow_zero]
    exact o2
  | some m =>
    obtain ⟨h1, h2⟩ := hm m rfl
    obtain ⟨f1, -, f2, -⟩ := powFold h hx e m bit h2 (m + 1) (le_refl _)
    refine ⟨f1, ?_⟩
    rw [Nat.mod_eq_of_lt h1] at f2
    exact f2

theorem powU_spec (h : MontConsts P.toMont) {x : U256} (hx : Canon P x) (e : U256) :
    Canon P (powU P x e) ∧ V P (powU P x e) = V P x ^ e.toNat := by
  refine powBits_spec h hx _ _ _ ?_ ?_
  · intro m hm
    refine ⟨?_, fun i _ => bit_eq e i⟩
    unfold most_significant_bit at hm
    split at hm
    · rename_i hle
      have hm := Option.some.inj hm
      rcases Nat.eq_zero_or_pos e.toNat with h0 | h0
      · rw [h0]; positivity
      · have := leading_zeros_spec e h0
        rw [show m + 1 = 256 - leading_zeros e by omega]
        exact this.2.2
    · simp at hm
  · intro hn
    unfold most_significant_bit at hn
    split at hn
    · simp at hn
    · rename_i hle
      by_contra h0
      have := leading_zeros_spec e (Nat.pos_of_ne_zero h0)
      omega

theorem pow_spec (h : MontConsts P.toMont) {x : U256} (hx : Canon P x) (e : UInt64) :
    Canon P (pow P x e) ∧ V P (pow P x e) = V P x ^ e.toNat := by
  refine powBits_spec h hx _ _ _ ?_ ?_
  · intro m hm
    unfold msb64 at hm
    split at hm
    · rename_i hle
      have hm := Option.some.inj hm
      refine ⟨?_, fun i hi => ?_⟩
      · rcases Nat.eq_zero_or_pos e.toNat with h0 | h0
        · rw [h0]; positivity
        · have := clz64_spec e h0
          rw [show m + 1 = 64 - clz64 e by omega]
          exact this.2.2
      · exact U256.bit64 e (by omega)
    · simp at hm
  · intro hn
    unfold msb64 at hn
    split at hn
    · simp at hn
    · rename_i hle
      by_contra h0
      have := clz64_spec e (Nat.pos_of_ne_zero h0)
      omega

end PF
end OpenZKP
