import Verif.U256.InvModel
import Verif.U256.ShiftLemmas
import Mathlib.Data.Int.ModEq

namespace OpenZKP
namespace U256

/-- Newton's step doubles the number of correct bits. -/
theorem hensel {x c r r' : ℤ} {k m : ℕ} (h : (2 : ℤ) ^ k ∣ x * r - 1) (hm : 2 * k ≤ m)
    (hc : (2 : ℤ) ^ m ∣ x - c) (hr : (2 : ℤ) ^ m ∣ r' - r * (2 - c * r)) :
    (2 : ℤ) ^ (2 * k) ∣ x * r' - 1 := by
  have hd : (2 : ℤ) ^ (2 * k) ∣ 2 ^ m := pow_dvd_pow 2 hm
  obtain ⟨a, ha⟩ := h
  obtain ⟨b, hb⟩ := hd.trans hc
  obtain ⟨d, hd'⟩ := hd.trans hr
  have e : (2 : ℤ) ^ (2 * k) = 2 ^ k * 2 ^ k := by rw [two_mul, pow_add]
  refine ⟨-a * a + x * d + x * r * r * b, ?_⟩
  have h1 : r' = r * (2 - c * r) + 2 ^ (2 * k) * d := by linarith
  have h2 : c = x - 2 ^ (2 * k) * b := by linarith
  rw [h1, h2]
  have h3 : (x * r - 1) * (x * r - 1) = 2 ^ (2 * k) * (a * a) := by rw [ha, e]; ring
  linear_combination -h3

theorem newton_nat (M c r : ℕ) (hM : 0 < M) :
    (M : ℤ) ∣ ((r * ((M - c * r % M + 2) % M) % M : ℕ) : ℤ) - r * (2 - c * r) := by
  have hle : c * r % M ≤ M := (Nat.mod_lt _ hM).le
  apply Int.ModEq.dvd
  push_cast [Nat.cast_sub hle]
  have e1 : ((c : ℤ) * r) % M ≡ c * r [ZMOD M] := Int.mod_modEq _ _
  have e0 : (M : ℤ) ≡ 0 [ZMOD M] := by simp [Int.ModEq]
  have e2 : (M : ℤ) - ((c : ℤ) * r) % M + 2 ≡ 2 - c * r [ZMOD M] := by
    have := (e0.sub e1).add_right 2
    rw [show (0 : ℤ) - c * r + 2 = 2 - c * r by ring] at this
    exact this
  exact (((Int.ModEq.refl _).mul ((Int.mod_modEq _ _).trans e2)).symm).trans (Int.mod_modEq _ _).symm

theorem newton64_dvd (c r : UInt64) :
    (2 : ℤ) ^ 64 ∣ ((newton64 c r).toNat : ℤ) - r.toNat * (2 - c.toNat * r.toNat) := by
  have h2 : (2 : UInt64).toNat = 2 := by decide
  have h := newton_nat (2 ^ 64) c.toNat r.toNat (by norm_num)
  rw [Nat.cast_pow, Nat.cast_two] at h
  rw [newton64, UInt64.toNat_mul, UInt64.toNat_sub, UInt64.toNat_mul, h2]
  exact h

theorem newton128_dvd (c r : Nat) :
    (2 : ℤ) ^ 128 ∣ ((newton128 c r : Nat) : ℤ) - r * (2 - c * r) := by
  have h := newton_nat (2 ^ 128) c r (by norm_num)
  rw [Nat.cast_pow, Nat.cast_two] at h
  have e : 2 + 2 ^ 128 - c * r % 2 ^ 128 = 2 ^ 128 - c * r % 2 ^ 128 + 2 := by omega
  rw [newton128, e]
  exact h

theorem newton256_dvd (x r : U256) :
    (2 : ℤ) ^ 256 ∣ ((mul r (sub ⟨2, 0, 0, 0⟩ (mul r x))).toNat : ℤ) - r.toNat * (2 - x.toNat * r.toNat) := by
  have h := newton_nat (2 ^ 256) x.toNat r.toNat (by norm_num)
  rw [Nat.cast_pow, Nat.cast_two] at h
  have h2 : (⟨2, 0, 0, 0⟩ : U256).toNat = 2 := by decide
  rw [mul_mod, sub_mod, mul_mod, h2, Nat.mul_comm r.toNat x.toNat, Nat.add_comm 2]
  exact h

/-- The starting value is right modulo 16. -/
theorem inv_start (c : UInt64) (h : c.toNat % 2 = 1) :
    (2 : ℤ) ^ 4 ∣ (c.toNat : ℤ) * ((3 * c) ^^^ 2 : UInt64).toNat - 1 := by
  have h2 : (2 : UInt64).toNat = 2 := by decide
  have h3 : (3 : UInt64).toNat = 3 := by decide
  have key : ∀ a < 16, a % 2 = 1 → a * ((3 * a % 16) ^^^ 2) % 16 = 1 := by decide
  have e1 : ((3 * c) ^^^ 2 : UInt64).toNat % 16 = (3 * (c.toNat % 16) % 16) ^^^ 2 := by
    rw [UInt64.toNat_xor, UInt64.toNat_mul, h2, h3, show 16 = 2 ^ 4 by norm_num, Nat.xor_mod_two_pow]
    congr 1
    omega
  have e := key (c.toNat % 16) (Nat.mod_lt _ (by norm_num)) (by omega)
  rw [← e1] at e
  have : c.toNat * ((3 * c) ^^^ 2 : UInt64).toNat % 16 = 1 := by
    rw [Nat.mul_mod]; exact e
  generalize ((3 * c) ^^^ 2 : UInt64).toNat = r at *
  have : ((c.toNat * r : ℕ) : ℤ) % 16 = 1 := by exact_mod_cast this
  push_cast at this
  omega

theorem ofU128_toNat {n : Nat} (h : n < 2 ^ 128) : (ofU128 n).toNat = n := by
  have z : (0 : UInt64).toNat = 0 := rfl
  simp only [ofU128, toNat, UInt64.toNat_ofNat', z]
  omega

theorem inv_spec (x : U256) (h : x.toNat % 2 = 1) :
    ∃ y, inv x = some y ∧ (2 : ℤ) ^ 256 ∣ (x.toNat : ℤ) * y.toNat - 1 := by
  have hb : bit x 0 = true := by
    rw [bit_eq, Nat.testBit_zero]; simp [h]
  have hc0 : x.toNat = x.l0.toNat + 2 ^ 64 * (x.l1.toNat + 2 ^ 64 * x.l2.toNat + 2 ^ 128 * x.l3.toNat) := by
    simp only [toNat]; ring
  have hc64 : ∀ m ≤ 64, (2 : ℤ) ^ m ∣ (x.toNat : ℤ) - x.l0.toNat := by
    intro m hm
    refine (pow_dvd_pow 2 hm).trans ⟨x.l1.toNat + 2 ^ 64 * x.l2.toNat + 2 ^ 128 * x.l3.toNat, ?_⟩
    rw [hc0]; push_cast; ring
  have hc128 : (2 : ℤ) ^ 128 ∣ (x.toNat : ℤ) - (as_u128 x : Nat) := by
    refine ⟨x.l2.toNat + 2 ^ 64 * x.l3.toNat, ?_⟩
    simp only [as_u128, toNat]; push_cast; ring
  unfold inv
  rw [if_pos hb]
  dsimp only
  refine ⟨_, rfl, ?_⟩
  have s0 := inv_start x.l0 (by omega)
  generalize ((3 * x.l0) ^^^ 2 : UInt64) = r0 at *
  have s0' : (2 : ℤ) ^ 4 ∣ (x.toNat : ℤ) * r0.toNat - 1 := by
    have := (hc64 4 (by omega)).mul_right (r0.toNat : ℤ)
    have := Int.dvd_add this s0
    have e : ((x.toNat : ℤ) - x.l0.toNat) * r0.toNat + (x.l0.toNat * r0.toNat - 1) = x.toNat * r0.toNat - 1 := by ring
    rwa [e] at this
  have s1 := hensel s0' (m := 64) (by omega) (hc64 64 le_rfl) (newton64_dvd x.l0 r0)
  generalize newton64 x.l0 r0 = r1 at *
  have s2 := hensel s1 (m := 64) (by omega) (hc64 64 le_rfl) (newton64_dvd x.l0 r1)
  generalize newton64 x.l0 r1 = r2 at *
  have s3 := hensel s2 (m := 64) (by omega) (hc64 64 le_rfl) (newton64_dvd x.l0 r2)
  generalize newton64 x.l0 r2 = r3 at *
  have s4 := hensel s3 (m := 64) (by omega) (hc64 64 le_rfl) (newton64_dvd x.l0 r3)
  generalize newton64 x.l0 r3 = r4 at *
  have s5 := hensel s4 (m := 128) (by omega) hc128 (newton128_dvd _ _)
  have hr5 : newton128 (as_u128 x) r4.toNat < 2 ^ 128 := by
    rw [newton128]; exact Nat.mod_lt _ (by norm_num)
  generalize newton128 (as_u128 x) r4.toNat = r5 at *
  rw [← ofU128_toNat hr5] at s5
  exact hensel s5 (m := 256) (by omega) (c := x.toNat) (by simp) (newton256_dvd x _)

end U256
end OpenZKP
