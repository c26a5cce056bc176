import Verif.U256.Conversion
import Verif.U256.InvLemmas
import Mathlib.Data.Int.ModEq

/-! # Property C59: conversions between U256 and the primitive integers -/

namespace OpenZKP.Props
open OpenZKP U256

/-- C59: unsigned integers and booleans keep their value. -/
theorem C59_from_unsigned (n : UInt64) (m : Nat) (hm : m < 2 ^ 128) (b : Bool) :
    (ofU64 n).toNat = n.toNat ∧ (ofU128 m).toNat = m ∧ (ofBool b).toNat = b.toNat := by
  have z : (0 : UInt64).toNat = 0 := rfl
  refine ⟨by simp [ofU64, U256.toNat], ofU128_toNat hm, ?_⟩
  cases b <;> simp [ofBool, U256.toNat]

theorem asU64_toNat (n : Int) : ((asU64 n).toNat : Int) = n % 2 ^ 64 := by
  unfold asU64
  rw [UInt64.toNat_ofNat']
  omega

/-- C59: a signed integer becomes its residue modulo `2^256` (two's complement), for every type of at most 64
bits and for `i128`. -/
theorem C59_from_signed (n : Int) :
    ((-2 ^ 63 ≤ n ∧ n < 2 ^ 63) → ((ofInt n).toNat : Int) = n % 2 ^ 256) ∧
    ((-2 ^ 127 ≤ n ∧ n < 2 ^ 127) → ((ofI128 n).toNat : Int) = n % 2 ^ 256) := by
  have z : (0 : UInt64).toNat = 0 := rfl
  have m : (0xffffffffffffffff : UInt64).toNat = 2 ^ 64 - 1 := rfl
  constructor
  · rintro ⟨h1, h2⟩
    unfold ofInt
    split
    · simp only [U256.toNat, z, mul_zero, add_zero, Nat.cast_add, Nat.cast_mul, Nat.cast_zero, asU64_toNat]
      omega
    · simp only [U256.toNat, m]
      have := asU64_toNat n
      generalize (asU64 n).toNat = a at *
      omega
  · rintro ⟨h1, h2⟩
    unfold ofI128
    split
    · simp only [U256.toNat, z]
      have := asU64_toNat n
      have := asU64_toNat (n / 2 ^ 64)
      generalize (asU64 n).toNat = a at *
      generalize (asU64 (n / 2 ^ 64)).toNat = b at *
      omega
    · simp only [U256.toNat, m]
      have := asU64_toNat n
      have := asU64_toNat (n / 2 ^ 64)
      generalize (asU64 n).toNat = a at *
      generalize (asU64 (n / 2 ^ 64)).toNat = b at *
      omega

theorem asSigned_spec (w n : Nat) (hw : 1 ≤ w) :
    -2 ^ (w - 1) ≤ asSigned w n ∧ asSigned w n < 2 ^ (w - 1) ∧ (asSigned w n) ≡ n [ZMOD 2 ^ w] := by
  have hp : (2 : Nat) ^ w = 2 * 2 ^ (w - 1) := by rw [← pow_succ']; congr 1; omega
  have hlt := Nat.mod_lt n (show 0 < 2 ^ w by positivity)
  unfold asSigned
  have hc : ((n % 2 ^ w : Nat) : Int) ≡ n [ZMOD 2 ^ w] := by
    push_cast
    exact Int.mod_modEq _ _
  split
  · next h =>
    refine ⟨?_, by exact_mod_cast h, hc⟩
    have : (0 : Int) ≤ 2 ^ (w - 1) := by positivity
    omega
  · next h =>
    push Not at h
    have h' : ((2 ^ (w - 1) : Nat) : Int) ≤ (n % 2 ^ w : Nat) := by exact_mod_cast h
    have hlt' : ((n % 2 ^ w : Nat) : Int) < (2 ^ w : Nat) := by exact_mod_cast hlt
    rw [hp] at hlt' ⊢
    rw [hp] at h'
    push_cast at h' hlt' ⊢
    refine ⟨by linarith, by linarith, ?_⟩
    have e : (2 : Int) ^ w = 2 * 2 ^ (w - 1) := by exact_mod_cast hp
    rw [hp] at hc
    push_cast at hc
    rw [e] at hc ⊢
    simpa using Int.ModEq.sub hc (show (2 * 2 ^ (w - 1) : Int) ≡ 0 [ZMOD 2 * 2 ^ (w - 1)] by simp [Int.ModEq])

theorem l0_mod (x : U256) (w : Nat) (hw : w ≤ 64) : x.toNat ≡ x.l0.toNat [MOD 2 ^ w] := by
  have : x.toNat ≡ x.l0.toNat [MOD 2 ^ 64] := by
    unfold Nat.ModEq U256.toNat
    omega
  exact this.of_dvd (pow_dvd_pow 2 hw)

/-- C59: the truncating conversions to unsigned types of `w ≤ 64` bits and to `u128` give the value modulo
`2^w`. -/
theorem C59_as_unsigned (x : U256) :
    (∀ w, w ≤ 64 → as_uint w x = x.toNat % 2 ^ w) ∧ as_u128 x = x.toNat % 2 ^ 128 := by
  constructor
  · intro w hw
    exact (l0_mod x w hw).symm
  · unfold as_u128 U256.toNat
    have := x.l0.toNat_lt
    have := x.l1.toNat_lt
    omega

/-- C59: the truncating conversions to signed types of `w` bits give the representative of the value modulo
`2^w` in `[-2^(w-1), 2^(w-1))`. -/
theorem C59_as_signed (x : U256) :
    (∀ w, 1 ≤ w → w ≤ 64 → -2 ^ (w - 1) ≤ as_int w x ∧ as_int w x < 2 ^ (w - 1) ∧
      (as_int w x) ≡ (x.toNat : Int) [ZMOD 2 ^ w]) ∧
    (-2 ^ 127 ≤ as_i128 x ∧ as_i128 x < 2 ^ 127 ∧ (as_i128 x) ≡ (x.toNat : Int) [ZMOD 2 ^ 128]) := by
  constructor
  · intro w h1 h2
    obtain ⟨ha, hb, hc⟩ := asSigned_spec w x.l0.toNat h1
    refine ⟨ha, hb, hc.trans ?_⟩
    have := (Int.natCast_modEq_iff.2 (l0_mod x w h2)).symm
    push_cast at this
    exact this
  · obtain ⟨ha, hb, hc⟩ := asSigned_spec 128 (x.l0.toNat ||| (x.l1.toNat <<< 64)) (by norm_num)
    refine ⟨ha, hb, hc.trans ?_⟩
    rw [Nat.or_comm, ← Nat.shiftLeft_add_eq_or_of_lt x.l0.toNat_lt, Nat.shiftLeft_eq]
    have : x.l1.toNat * 2 ^ 64 + x.l0.toNat ≡ x.toNat [MOD 2 ^ 128] := by
      unfold Nat.ModEq U256.toNat
      omega
    have := Int.natCast_modEq_iff.2 this
    push_cast at this ⊢
    exact this

/-- C59: converting a signed integer and back is the identity. -/
theorem C59_round_trip (n : Int) :
    ((-2 ^ 63 ≤ n ∧ n < 2 ^ 63) → as_int 64 (ofInt n) = n) ∧
    ((-2 ^ 127 ≤ n ∧ n < 2 ^ 127) → as_i128 (ofI128 n) = n) := by
  have key : ∀ a b : Int, a ≡ b [ZMOD 2 ^ 64] → -2 ^ 63 ≤ a → a < 2 ^ 63 → -2 ^ 63 ≤ b → b < 2 ^ 63 → a = b := by
    intro a b h; unfold Int.ModEq at h; omega
  have key' : ∀ a b : Int, a ≡ b [ZMOD 2 ^ 128] → -2 ^ 127 ≤ a → a < 2 ^ 127 → -2 ^ 127 ≤ b → b < 2 ^ 127 → a = b := by
    intro a b h; unfold Int.ModEq at h; omega
  constructor
  · intro h
    obtain ⟨h1, h2, h3⟩ := (C59_as_signed (ofInt n)).1 64 (by norm_num) (by norm_num)
    have e := (C59_from_signed n).1 h
    refine key _ _ (h3.trans ?_) h1 h2 h.1 h.2
    rw [e]; unfold Int.ModEq; omega
  · intro h
    obtain ⟨h1, h2, h3⟩ := (C59_as_signed (ofI128 n)).2
    have e := (C59_from_signed n).2 h
    refine key' _ _ (h3.trans ?_) h1 h2 h.1 h.2
    rw [e]; unfold Int.ModEq; omega

/-- a negative value: `-2` is `2^256 - 2` and comes back as `-2` -/
example : (ofInt (-2)).toNat = 2 ^ 256 - 2 ∧ as_int 8 (ofInt (-2)) = -2 ∧ as_i128 (ofI128 (-2 ^ 100)) = -2 ^ 100 := by
  decide +kernel

end OpenZKP.Props
