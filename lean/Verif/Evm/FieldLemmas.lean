import Verif.Evm.Utils
import Verif.Field.Primes
import Mathlib.Algebra.Field.ZMod
import Mathlib.FieldTheory.Finite.Basic
import Mathlib.Algebra.BigOperators.Group.Finset.Basic
import Mathlib.Tactic.LinearCombination

/-!
# Lemmas about the contract library `PrimeField`
-/

namespace OpenZKP
namespace Evm
namespace PrimeField

theorem modulus_eq : MODULUS = 3618502788666131213697322783095070105623107215331596699973092056135872020481 := by decide +kernel

theorem prime_modulus : Nat.Prime MODULUS := modulus_eq ▸ prime_base

instance : Fact (Nat.Prime MODULUS) := ⟨prime_modulus⟩

/-- the field -/
abbrev Z : Type := ZMod MODULUS

theorem modulus_pos : 0 < MODULUS := prime_modulus.pos
theorem modulus_lt : 16 * MODULUS < W := by decide +kernel

theorem addmod_lt (a b : Nat) : addmod a b MODULUS < MODULUS := by
  unfold addmod
  rw [if_neg modulus_pos.ne']
  exact Nat.mod_lt _ modulus_pos
theorem mulmod_lt (a b : Nat) : mulmod a b MODULUS < MODULUS := by
  unfold mulmod
  rw [if_neg modulus_pos.ne']
  exact Nat.mod_lt _ modulus_pos

theorem squareLoop_eq (m : Nat) (bits b e : Nat) (h : e < 2 ^ bits) : squareLoop m bits b e = b ^ e % m := by
  induction bits generalizing b e with
  | zero =>
    obtain rfl : e = 0 := by rw [pow_zero] at h; omega
    rw [squareLoop, pow_zero]
  | succ bits ih =>
    have hlt : e / 2 < 2 ^ bits := by rw [pow_succ] at h; omega
    have key : squareLoop m bits (b * b % m) (e / 2) = b ^ (2 * (e / 2)) % m := by rw [ih _ _ hlt, ← Nat.pow_mod, ← pow_two, ← pow_mul]
    rw [squareLoop, key]
    split
    · next h1 =>
      conv_rhs => rw [show e = 2 * (e / 2) + 1 by omega, pow_succ]
      rw [Nat.mod_mul_mod]
    · next h1 =>
      conv_rhs => rw [show e = 2 * (e / 2) by omega]

/-- the precompiled contract gives the remainder of the power, and zero for the modulus zero -/
theorem modexp_eq (base exponent modulus : Nat) : modexp base exponent modulus = if modulus = 0 then 0 else base ^ exponent % modulus := by
  unfold modexp
  rw [squareLoop_eq _ _ _ _ Nat.lt_log2_self]

theorem modexp_lt (a b : Nat) : modexp a b MODULUS < MODULUS := by
  rw [modexp_eq]
  rw [if_neg modulus_pos.ne']
  exact Nat.mod_lt _ modulus_pos

theorem inverse_lt (a : Nat) : inverse a < MODULUS := by
  unfold inverse expmod
  exact modexp_lt _ _
theorem addmod_cast (a b : Nat) : ((addmod a b MODULUS : Nat) : Z) = a + b := by
  unfold addmod
  rw [if_neg modulus_pos.ne', ZMod.natCast_mod, Nat.cast_add]
theorem mulmod_cast (a b : Nat) : ((mulmod a b MODULUS : Nat) : Z) = a * b := by
  unfold mulmod
  rw [if_neg modulus_pos.ne', ZMod.natCast_mod, Nat.cast_mul]
theorem modexp_cast (a b : Nat) : ((modexp a b MODULUS : Nat) : Z) = (a : Z) ^ b := by
  rw [modexp_eq]
  rw [if_neg modulus_pos.ne', ZMod.natCast_mod, Nat.cast_pow]

theorem wsub_le (a b : Nat) (ha : a < W) (h : b ≤ a) : wsub a b = a - b := by
  unfold wsub
  rw [show a + (W - b) = (a - b) + W by omega, Nat.add_mod_right, Nat.mod_eq_of_lt (by omega)]

theorem wadd_lt (a b : Nat) (h : a + b < W) : wadd a b = a + b := Nat.mod_eq_of_lt h

/-- reduced words are determined by the element -/
theorem cast_inj {a b : Nat} (ha : a < MODULUS) (hb : b < MODULUS) (h : (a : Z) = b) : a = b := by
  rw [ZMod.natCast_eq_natCast_iff'] at h
  rwa [Nat.mod_eq_of_lt ha, Nat.mod_eq_of_lt hb] at h

theorem fsub_cast (a b : Nat) (hb : b ≤ MODULUS) : ((fsub a b : Nat) : Z) = a - b := by
  unfold fsub
  rw [addmod_cast, wsub_le _ _ (by have := modulus_lt; omega) hb, Nat.cast_sub hb, ZMod.natCast_self]
  ring

theorem inverse_cast (a : Nat) : ((inverse a : Nat) : Z) = (a : Z)⁻¹ := by
  unfold inverse expmod
  rw [modexp_cast, wsub_le _ _ (by have := modulus_lt; omega) (by have := prime_modulus.two_le; omega)]
  by_cases h : (a : Z) = 0
  · rw [h, inv_zero, zero_pow]
    have : 2 < MODULUS := by decide +kernel
    omega
  · have h1 := ZMod.pow_card_sub_one_eq_one h
    rw [show MODULUS - 1 = (MODULUS - 2) + 1 by have := prime_modulus.two_le; omega, pow_succ] at h1
    exact eq_inv_of_mul_eq_one_left h1

theorem montgomery_r : ((MONTGOMERY_R : Nat) : Z) = (2 : Z) ^ 256 := by
  rw [show MONTGOMERY_R = 2 ^ 256 % MODULUS by decide +kernel, ZMod.natCast_mod, Nat.cast_pow]
  norm_cast

theorem montgomery_r_inv : ((MONTGOMERY_R_INV : Nat) : Z) = ((2 : Z) ^ 256)⁻¹ := by
  rw [← montgomery_r]
  refine eq_inv_of_mul_eq_one_left ?_
  rw [← Nat.cast_mul, ← ZMod.natCast_mod, show MONTGOMERY_R_INV * MONTGOMERY_R % MODULUS = 1 by decide +kernel, Nat.cast_one]

theorem r_ne : (2 : Z) ^ 256 ≠ 0 := by
  rw [← montgomery_r]
  intro h
  rw [ZMod.natCast_eq_zero_iff, Nat.dvd_iff_mod_eq_zero] at h
  revert h
  decide +kernel

theorem generator_order : orderOf ((GENERATOR : Nat) : Z) = MODULUS - 1 :=
  orderOf_of_pratt _ _ 256 prime_base_cert (by decide +kernel) (by decide +kernel) prime_base_fs (by decide +kernel) (by decide +kernel) (by decide +kernel)

theorem order_of_power (n q : Nat) (h : n * q = MODULUS - 1) : orderOf (((GENERATOR : Nat) : Z) ^ q) = n := by
  have hq : q ≠ 0 := by
    rintro rfl
    have := prime_modulus.two_le
    omega
  rw [orderOf_pow_of_dvd hq (by rw [generator_order]; exact ⟨n, by rw [← h]; ring⟩), generator_order, ← h, Nat.mul_div_cancel _ (Nat.pos_of_ne_zero hq)]

/-! ## Horner -/

/-- the value of the coefficients from the highest one down, continuing `r` -/
def hornerVal (x : Z) : List Nat → Z → Z
  | [], r => r
  | c :: l, r => hornerVal x l (r * x + c)

theorem hornerStep_cast (x r c : Nat) (hc : c + MODULUS ≤ W) : ((hornerStep x r c : Nat) : Z) = r * x + c := by
  unfold hornerStep
  rw [wadd_lt _ _ (by have := mulmod_lt r x; omega), Nat.cast_add, mulmod_cast]

theorem hornerEight_val (x : Nat) (l : List Nat) (r : Nat) (h : ∀ c ∈ l, c + MODULUS ≤ W) :
    hornerVal x (hornerEight x l r).2 ((hornerEight x l r).1 : Nat) = hornerVal x l r ∧ (∀ c ∈ (hornerEight x l r).2, c + MODULUS ≤ W) ∧
      (l ≠ [] → (hornerEight x l r).2 ≠ []) := by
  fun_induction hornerEight x l r with
  | case1 c7 c6 c5 c4 c3 c2 c1 c0 c rest r ih =>
    obtain ⟨h1, h2, h3⟩ := ih (fun y hy => h y (by simp only [List.mem_cons] at hy ⊢; tauto))
    refine ⟨?_, h2, fun _ => h3 (by simp)⟩
    rw [h1]
    simp only [hornerVal]
    rw [hornerStep_cast _ _ c0 (h _ (by simp)), hornerStep_cast _ _ c1 (h _ (by simp)), hornerStep_cast _ _ c2 (h _ (by simp)), hornerStep_cast _ _ c3 (h _ (by simp)),
      hornerStep_cast _ _ c4 (h _ (by simp)), hornerStep_cast _ _ c5 (h _ (by simp)), hornerStep_cast _ _ c6 (h _ (by simp)), hornerStep_cast _ _ c7 (h _ (by simp))]
  | case2 l r => exact ⟨rfl, h, id⟩

theorem hornerBase_val (x : Nat) (l : List Nat) (r : Nat) (h : ∀ c ∈ l, c + MODULUS ≤ W) (hl : l ≠ []) :
    ((hornerBase x l r : Nat) : Z) = hornerVal x l r ∧ hornerBase x l r < MODULUS := by
  fun_induction hornerBase x l r with
  | case1 => exact absurd rfl hl
  | case2 r c => exact ⟨by simp only [hornerVal]; rw [addmod_cast, mulmod_cast], addmod_lt _ _⟩
  | case3 r c rest hr ih =>
    obtain ⟨h1, h2⟩ := ih (fun y hy => h y (List.mem_cons_of_mem _ hy)) (by intro h; exact hr h)
    refine ⟨?_, h2⟩
    rw [h1, hornerStep_cast _ _ _ (h _ (by simp))]
    rfl

theorem hornerVal_append (x : Z) (l m : List Nat) (r : Z) : hornerVal x (l ++ m) r = hornerVal x m (hornerVal x l r) := by
  induction l generalizing r with
  | nil => rfl
  | cons a l ih => exact ih _

theorem hornerVal_reverse (x : Z) (l : List Nat) : hornerVal x l.reverse 0 = ∑ i ∈ Finset.range l.length, ((l.getD i 0 : Nat) : Z) * x ^ i := by
  induction l with
  | nil => rfl
  | cons a l ih =>
    rw [List.reverse_cons, hornerVal_append, ih, List.length_cons, Finset.sum_range_succ']
    simp only [hornerVal, List.getD_cons_succ, List.getD_cons_zero, pow_zero, mul_one]
    rw [Finset.sum_mul]
    congr 1
    exact Finset.sum_congr rfl fun i _ => by ring

/-! ## Batch inversion -/

theorem batchProducts_length (l : List Nat) (c : Nat) : (batchProducts l c).1.length = l.length := by
  induction l generalizing c with
  | nil => rfl
  | cons a l ih => simp [batchProducts, ih]

theorem batchProducts_snoc (l : List Nat) (a c : Nat) :
    batchProducts (l ++ [a]) c = ((batchProducts l c).1 ++ [mulmod (batchProducts l c).2 a MODULUS], mulmod (batchProducts l c).2 a MODULUS) := by
  induction l generalizing c with
  | nil => rfl
  | cons b l ih =>
    rw [List.cons_append]
    simp only [batchProducts]
    rw [ih]
    rfl

theorem batchProducts_cast (l : List Nat) (c : Nat) : (((batchProducts l c).2 : Nat) : Z) = c * (l.map (Nat.cast : Nat → Z)).prod := by
  induction l generalizing c with
  | nil => simp [batchProducts]
  | cons a l ih =>
    simp only [batchProducts, List.map_cons, List.prod_cons]
    rw [ih, mulmod_cast]
    ring

theorem batchInverses_spec (l : List Nat) (hne : l ≠ []) (h0 : ∀ a ∈ l, (a : Z) ≠ 0) (carried : Nat) (hlt : carried < MODULUS) (hc : (carried : Z) = ((l.map (Nat.cast : Nat → Z)).prod)⁻¹) :
    ((batchInverses l.reverse (batchProducts l 1).1.reverse carried).reverse.map (Nat.cast : Nat → Z)) = l.map (fun a => ((a : Nat) : Z)⁻¹) ∧
      ∀ v ∈ batchInverses l.reverse (batchProducts l 1).1.reverse carried, v < MODULUS := by
  induction l using List.reverseRecOn generalizing carried with
  | nil => exact absurd rfl hne
  | append_singleton l a ih =>
    rw [batchProducts_snoc, List.reverse_append, List.reverse_append]
    rcases List.eq_nil_or_concat l with rfl | ⟨l', b, hl⟩
    · simp [batchInverses, batchProducts, hlt] at hc ⊢
      exact hc
    · have hl1 : l ≠ [] := by rw [hl]; simp
      have hp : (batchProducts l 1).1.reverse = (batchProducts l 1).2 :: (batchProducts l' 1).1.reverse := by
        rw [hl, List.concat_eq_append, batchProducts_snoc, List.reverse_append]
        rfl
      have ha := h0 a (by simp)
      have hprod : (l.map (Nat.cast : Nat → Z)).prod ≠ 0 := by
        rw [Ne, List.prod_eq_zero_iff]
        intro h
        obtain ⟨y, hy, e⟩ := List.mem_map.1 h
        exact h0 y (by simp [hy]) e
      simp only [List.map_append, List.map_cons, List.map_nil, List.prod_append, List.prod_cons, List.prod_nil, mul_one] at hc
      obtain ⟨h1, h2⟩ := ih hl1 (fun y hy => h0 y (by simp [hy])) (mulmod carried a MODULUS) (mulmod_lt _ _) (by
        rw [mulmod_cast, hc]
        field_simp)
      simp only [List.reverse_cons, List.reverse_nil, List.nil_append, List.cons_append]
      rw [hp] at h1 h2 ⊢
      simp only [batchInverses, List.reverse_cons, List.map_append, List.map_cons, List.map_nil, List.mem_cons, forall_eq_or_imp]
      refine ⟨?_, mulmod_lt _ _, h2⟩
      rw [h1, mulmod_cast, batchProducts_cast, hc, Nat.cast_one, one_mul]
      congr 2
      field_simp

end PrimeField
end Evm
end OpenZKP
