import Verif.Examples.Systems
import Verif.EC.Concrete
import Mathlib.FieldTheory.Finite.Basic

/-!
# The MiMC examples: permutations (C94)
-/

namespace OpenZKP
namespace Props
namespace MimcPermutation
open Examples EC

/-- in a finite field whose number of elements is not one more than a multiple of three, cubing has an inverse: a power -/
theorem cube_inverse {F : Type} [Field F] [Fintype F] (h : (2 * Fintype.card F - 1) % 3 = 0) (x : F) : (x ^ 3) ^ ((2 * Fintype.card F - 1) / 3) = x := by
  rw [← pow_mul, Nat.mul_div_cancel' (Nat.dvd_of_mod_eq_zero h)]
  have h1 : 1 < Fintype.card F := Fintype.one_lt_card
  have e : 2 * Fintype.card F - 1 = Fintype.card F + (Fintype.card F - 1) := by omega
  rw [e, pow_add, FiniteField.pow_card]
  by_cases hx : x = 0
  · rw [hx, zero_mul]
  · rw [FiniteField.pow_card_sub_one_eq_one x hx, mul_one]

theorem cube_bijective {F : Type} [Field F] [Fintype F] (h : (2 * Fintype.card F - 1) % 3 = 0) : Function.Bijective fun x : F => x ^ 3 :=
  Finite.injective_iff_bijective.1 (Function.LeftInverse.injective (g := fun y => y ^ ((2 * Fintype.card F - 1) / 3)) (cube_inverse h))

theorem cube_inverse_mod (p : Nat) [Fact p.Prime] (h : (2 * p - 1) % 3 = 0) (x : ZMod p) : (x ^ 3) ^ ((2 * p - 1) / 3) = x := by
  have := cube_inverse (F := ZMod p) (by rw [ZMod.card]; exact h) x
  rwa [ZMod.card] at this

theorem base_card : (2 * Fintype.card Fp - 1) % 3 = 0 := by
  rw [ZMod.card]
  decide +kernel

theorem foldl_bijective {A B : Type} (f : A → B → A) (hf : ∀ b, Function.Bijective fun a => f a b) (l : List B) : Function.Bijective fun a => l.foldl f a := by
  induction l with
  | nil => exact Function.bijective_id
  | cons b l ih => exact ih.comp (hf b)

/-- C94 (partial: not for the hash, see `C94_violated`): the function of the cubic and the quadratic example is a permutation of the field, whatever the number of rounds and the constants. -/
theorem C94_permutation_partial (rounds : Nat) (constants : List Fp) : Function.Bijective (Cubic.mimc rounds constants : Fp → Fp) := by
  unfold Cubic.mimc
  refine foldl_bijective (fun (prev : Fp) i => prev ^ 3 + constants.getD ((i - 1) % 16) 0) (fun i => ?_) _
  exact (Equiv.addRight (constants.getD ((i - 1) % 16) 0)).bijective.comp (cube_bijective base_card)

/-- the inverse function: the rounds backwards, with a power in place of the cube -/
def inverse (rounds : Nat) (constants : List Fp) (y : Fp) : Fp :=
  ((List.range rounds).drop 1).foldr (fun i next => (next - constants.getD ((i - 1) % 16) 0) ^ ((2 * PF.BASE.modulus.toNat - 1) / 3)) y

/-- C94: anyone can compute the input from the output. -/
theorem C94_inverse (rounds : Nat) (constants : List Fp) (x : Fp) : inverse rounds constants (Cubic.mimc rounds constants x) = x := by
  unfold inverse Cubic.mimc
  generalize (List.range rounds).drop 1 = l
  induction l generalizing x with
  | nil => rfl
  | cons i l ih =>
    rw [List.foldl_cons, List.foldr_cons, ih, add_sub_cancel_right]
    exact cube_inverse_mod _ (by decide +kernel) x

/-- a state of the hash -/
def left1 : Fp := ((0x76f2940e6cc2ac7f1af859bd7e8adc92202c8ce96c0dfdebe5796a1243a9f27 : Nat) : Fp)
def right1 : Fp := ((0x58d0fac687d634fb6db6db6db6db6db6db6db6db6db6db6db6db6db6db6db73 : Nat) : Fp)

theorem merge : left1 ≠ 4 * left1 ∧ left1 ^ 3 + 3 * 11 * left1 * right1 ^ 2 = (4 * left1) ^ 3 + 3 * 11 * (4 * left1) * (2 * right1) ^ 2 ∧
    3 * left1 ^ 2 + 11 * right1 ^ 3 = 3 * (4 * left1) ^ 2 + 11 * (2 * right1) ^ 3 := by decide +kernel

/-- C94 fails for the hash: its round, which is cubing in a quadratic extension but for a factor that was left out, is not a permutation of the states.  With the
constant 11 of the examples two states become one, whatever the constant of the round. -/
theorem C94_violated : ∃ s s' : Fp × Fp, s ≠ s' ∧ ∀ k, Hash.round 11 k s = Hash.round 11 k s' := by
  refine ⟨(left1, right1), (4 * left1, 2 * right1), fun e => merge.1 (congrArg Prod.fst e), fun k => ?_⟩
  unfold Hash.round
  rw [merge.2.1, merge.2.2]

/-- C94: and so some states are not the outcome of a round. -/
theorem C94_not_onto_violated (k : Fp) : ∃ s, ∀ s', Hash.round 11 k s' ≠ s := by
  by_contra h
  push Not at h
  obtain ⟨s, s', hne, e⟩ := C94_violated
  exact hne (Finite.injective_iff_surjective.2 h (e k))

theorem split_bijective {F : Type} [Field F] [Fintype F] (h : (2 * Fintype.card F - 1) % 3 = 0) (h2 : (2 : F) ≠ 0) (q k w : F) (hw : w * w = q) (hq : q ≠ 0) :
    Function.Bijective fun s : F × F => (s.1 ^ 3 + 3 * q * s.1 * s.2 ^ 2 + k, 3 * s.1 ^ 2 * s.2 + q * s.2 ^ 3) := by
  have hw0 : w ≠ 0 := by
    rintro rfl
    exact hq (by rw [← hw, zero_mul])
  have inj := (cube_bijective h).1
  apply Finite.injective_iff_bijective.1
  rintro ⟨l, r⟩ ⟨l', r'⟩ e
  obtain ⟨e1, e2⟩ := Prod.mk.inj e
  dsimp only at e1 e2
  have a : l + w * r = l' + w * r' := inj (show (l + w * r) ^ 3 = (l' + w * r') ^ 3 by rw [← hw] at e1 e2; linear_combination e1 + w * e2)
  have b : l - w * r = l' - w * r' := inj (show (l - w * r) ^ 3 = (l' - w * r') ^ 3 by rw [← hw] at e1 e2; linear_combination e1 - w * e2)
  have hl : 2 * (l - l') = 0 := by linear_combination a + b
  have hr : 2 * w * (r - r') = 0 := by linear_combination a - b
  have hl' := (mul_eq_zero.1 hl).resolve_left h2
  have hr' := (mul_eq_zero.1 hr).resolve_left (mul_ne_zero h2 hw0)
  rw [sub_eq_zero.1 hl', sub_eq_zero.1 hr']

/-- a square root of 11 -/
def root11 : Fp := ((0x23afd88d6a1ba8af529c496b894149cf2d5af7c7f3c320fca552551c59cccef : Nat) : Fp)

/-- C94: with the factor the round would be a permutation: the cube of `left + right √11`, where the constant of the examples has a square root in the field. -/
theorem C94_with_factor (k : Fp) :
    Function.Bijective fun s : Fp × Fp => (s.1 ^ 3 + 3 * 11 * s.1 * s.2 ^ 2 + k, 3 * s.1 ^ 2 * s.2 + 11 * s.2 ^ 3) :=
  split_bijective base_card two_ne 11 k root11 (by decide +kernel) (by decide +kernel)

-- the inverse in numbers
example : inverse 3 [7, 8] (Cubic.mimc 3 [7, 8] 5) = 5 := C94_inverse 3 [7, 8] 5

end MimcPermutation
end Props
end OpenZKP
