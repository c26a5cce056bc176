import Verif.U256.InvLemmas

/-!
# Property C09: inverse modulo 2^256
-/

namespace OpenZKP.Props
open OpenZKP U256

/-- C09: `inv` is `None` exactly for even values, and otherwise returns the unique `y` with
`x·y ≡ 1 (mod 2^256)`. -/
theorem C09_inv (x : U256) :
    (inv x = none ↔ x.toNat % 2 = 0) ∧
    (∀ y, inv x = some y → x.toNat * y.toNat % 2 ^ 256 = 1 ∧
      ∀ z : U256, x.toNat * z.toNat % 2 ^ 256 = 1 → z = y) := by
  by_cases h : x.toNat % 2 = 1
  · obtain ⟨y, e, hd⟩ := inv_spec x h
    refine ⟨by simp [e, h], fun y' e' => ?_⟩
    rw [e, Option.some.injEq] at e'
    subst e'
    have h1 : x.toNat * y.toNat % 2 ^ 256 = 1 := by
      have : (((x.toNat * y.toNat : ℕ) : ℤ)) % 2 ^ 256 = 1 := by push_cast; omega
      exact_mod_cast this
    refine ⟨h1, fun z hz => toNat_inj ?_⟩
    have hy := toNat_lt y
    have hzl := toNat_lt z
    have e1 : x.toNat * y.toNat ≡ x.toNat * z.toNat [MOD 2 ^ 256] := h1.trans hz.symm
    have hco : Nat.gcd (2 ^ 256) x.toNat = 1 := by
      apply Nat.Coprime.pow_left
      rw [Nat.coprime_iff_gcd_eq_one, Nat.gcd_rec, h, Nat.gcd_one_left]
    have e2 := Nat.ModEq.cancel_left_of_coprime hco e1
    exact (Nat.ModEq.eq_of_lt_of_lt e2 hy hzl).symm
  · have hb : bit x 0 = false := by rw [bit_eq, Nat.testBit_zero]; simp [h]
    have e : inv x = none := by unfold inv; rw [hb]; rfl
    refine ⟨by rw [e]; simp; omega, fun y hy => by rw [e] at hy; cases hy⟩

/-- Non-vacuous: a four-limb odd value and its inverse. -/
example : inv ⟨3, 0, 5, 0x8000000000000000⟩ ≠ none ∧ inv ⟨4, 1, 1, 1⟩ = none := by decide +kernel

end OpenZKP.Props
