import Verif.Props.Division
import Verif.Props.FieldIso
import Verif.Props.FieldRoots

/-!
# C03, C15: division without remainder

The faulty step of the division (C03) is never met when the divisor divides the dividend.
-/

namespace OpenZKP.Props
open OpenZKP U256 PF

theorem safeDiv_of_dvd {a b : Nat} (ha : a < 2 ^ 256) (hd : b ∣ a) : SafeDiv 5 a b := by
  by_cases h3 : numLimbs b = 3
  · right
    intro j hj
    rw [h3] at hj ⊢
    have hs1 : 128 < b.size := by unfold numLimbs at h3; omega
    have hs2 : b.size ≤ 192 := by unfold numLimbs at h3; omega
    have hb2 : 2 ^ (b.size - 1) ≤ b := Nat.lt_size.mp (by omega)
    generalize hs : 64 * 3 - b.size = s at *
    have hV : 2 ^ 191 ≤ b * 2 ^ s := by
      calc 2 ^ 191 = 2 ^ (b.size - 1) * 2 ^ s := by rw [← pow_add]; congr 1; omega
        _ ≤ _ := Nat.mul_le_mul_right _ hb2
    have hA : a * 2 ^ s < 2 ^ 319 := by
      calc a * 2 ^ s < 2 ^ 256 * 2 ^ s := Nat.mul_lt_mul_of_pos_right ha (by positivity)
        _ ≤ 2 ^ 256 * 2 ^ 63 := Nat.mul_le_mul_left _ (Nat.pow_le_pow_right (by norm_num) (by omega))
        _ = 2 ^ 319 := by rw [← pow_add]
    have hdiv : b * 2 ^ s ∣ a * 2 ^ s := Nat.mul_dvd_mul_right hd _
    generalize a * 2 ^ s = A at *
    generalize b * 2 ^ s = V at *
    have e2 : (2 ^ 64) ^ (3 - 2) = 2 ^ 64 := by norm_num
    rw [e2]
    rcases (by omega : j = 0 ∨ j = 1) with rfl | rfl
    · obtain ⟨k, hk⟩ := hdiv
      have e1 : (2 ^ 64) ^ (0 + 1) = 2 ^ 64 := by norm_num
      rw [e1]
      have h1 := Nat.div_add_mod A (2 ^ 64)
      have h2 := Nat.div_add_mod (A / 2 ^ 64) V
      have h4 := Nat.mod_lt A (show 0 < 2 ^ 64 by norm_num)
      have h5 := Nat.mod_lt (A / 2 ^ 64) (show 0 < V by omega)
      generalize A % 2 ^ 64 = d at *
      generalize A / 2 ^ 64 % V = R at *
      generalize A / 2 ^ 64 / V = m at *
      rw [← h2] at h1
      generalize hB : (2 : Nat) ^ 64 = B at *
      have hB' : (2 : Nat) ^ 191 = 2 ^ 127 * B := by rw [← hB]; norm_num
      have hBp : 0 < B := by omega
      -- `B R + d` is a multiple `V t` with `t < B`
      have ht : ∃ t, B * R + d = V * t ∧ t < B := by
        have hle : B * m ≤ k := by
          by_contra hc
          have : V * (k + 1) ≤ V * (B * m) := Nat.mul_le_mul_left _ (by omega)
          have e : B * (V * m + R) = V * (B * m) + B * R := by ring
          rw [e] at h1
          nlinarith
        obtain ⟨t, rfl⟩ := Nat.exists_eq_add_of_le hle
        refine ⟨t, ?_, ?_⟩
        · have e : B * (V * m + R) = V * (B * m) + B * R := by ring
          have e' : V * (B * m + t) = V * (B * m) + V * t := by ring
          rw [e, hk, e'] at h1
          omega
        · by_contra hc
          have h6 : V * B ≤ V * t := Nat.mul_le_mul_left _ (by omega)
          have h7 : B * (R + 1) ≤ B * V := Nat.mul_le_mul_left _ h5
          have e : B * (V * m + R) = V * (B * m) + B * R := by ring
          have e' : V * (B * m + t) = V * (B * m) + V * t := by ring
          rw [e, hk, e'] at h1
          nlinarith
      obtain ⟨t, ht, htB⟩ := ht
      have h6 : V * (t + 1) ≤ V * B := Nat.mul_le_mul_left _ htB
      have h7 : B * R + V ≤ B * V := by nlinarith
      have h8 : R + 2 ^ 127 ≤ V := by
        by_contra hc
        have h9 : B * (V + 1) ≤ B * (R + 2 ^ 127) := Nat.mul_le_mul_left _ (by omega)
        nlinarith
      have hle : B ≤ 2 ^ 127 := by rw [← hB]; norm_num
      rw [Nat.div_lt_iff_lt_mul hBp]
      have h10 := Nat.lt_div_mul_add (a := V) hBp
      omega
    · have e1 : (2 ^ 64) ^ (1 + 1) = 2 ^ 128 := by norm_num
      rw [e1]
      have h4 : A / 2 ^ 128 < 2 ^ 191 := by omega
      rw [Nat.mod_eq_of_lt (by omega)]
      generalize A / 2 ^ 128 = c at *
      calc c / 2 ^ 64 < 2 ^ 127 := by omega
        _ ≤ V / 2 ^ 64 := by omega
  · exact safeDiv5 a b ha h3

/-- C03: a division without remainder is right in both build profiles, for every divisor. -/
theorem C03_exact (dbg : Bool) (a b : U256) (hb : b.toNat ≠ 0) (hd : b.toNat ∣ a.toNat) :
    ∃ q, div_rem dbg a b = some (some (q, ZERO)) ∧ q.toNat * b.toNat = a.toNat := by
  obtain ⟨q, r, e, h1, h2⟩ := (div_rem_spec dbg a b (by omega)).1 (safeDiv_of_dvd (toNat_lt a) hd)
  obtain rfl : r = ZERO := toNat_inj (by rw [h2, Nat.mod_eq_zero_of_dvd hd, zero_toNat])
  exact ⟨q, e, by rw [h1, Nat.div_mul_cancel hd]⟩

/-- C15: for every 256-bit `n ≥ 1` which divides `p - 1` the root has order exactly `n`, in both build profiles. -/
theorem C15_rootU (P : Params) (h : FieldOK P) (dbg : Bool) (n : U256) (hn : 0 < n.toNat) (hd : n.toNat ∣ P.modulus.toNat - 1) :
    ∃ w, rootU P dbg n = some (some w) ∧ Canon P w ∧ orderOf (nat P w : ZMod P.modulus.toNat) = n.toNat :=
  (C15_rootU_partial P h n hn (safeDiv_of_dvd (toNat_lt _) (by rw [h.order]; exact hd)) dbg).1 hd

/-- C15: for order zero the root is one, as for machine words (C15_root_zero). -/
theorem C15_rootU_zero (P : Params) (dbg : Bool) : rootU P dbg ZERO = some (some (one P)) := by
  unfold rootU
  rw [div_rem_zero dbg P.order ZERO zero_toNat]

/-- `2^187 + 17·2^128 + 1`, which does not divide `p - 1` -/
def badOrder : U256 := ⟨1, 0, 0x0800000000000011, 0⟩

/-- C15 fails for orders given as `U256`: for this order, which has no root, the debug build panics instead of returning
`None`. -/
theorem C15_violated : badOrder.toNat = 2 ^ 187 + 17 * 2 ^ 128 + 1 ∧ ¬ badOrder.toNat ∣ BASE.modulus.toNat - 1 ∧
    rootU BASE true badOrder = none ∧ rootU BASE false badOrder = some none := by
  refine ⟨by decide +kernel, by decide +kernel, by decide +kernel, by decide +kernel⟩

/-- a divisor of `p - 1` of three limbs -/
example : ∃ w, rootU BASE true ⟨0, 0, 1, 0⟩ = some (some w) ∧ Canon BASE w ∧
    orderOf (nat BASE w : ZMod BASE.modulus.toNat) = 2 ^ 128 := by
  have e : U256.toNat ⟨0, 0, 1, 0⟩ = 2 ^ 128 := by decide +kernel
  have := C15_rootU BASE C13_instances.1 true ⟨0, 0, 1, 0⟩ (by decide +kernel) (by decide +kernel)
  rwa [e] at this

end OpenZKP.Props
