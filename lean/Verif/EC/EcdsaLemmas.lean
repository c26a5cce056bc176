import Verif.EC.Ecdsa

namespace OpenZKP
namespace EC

open WeierstrassCurve.Affine U256

theorem toUint_toNat {m : Nat} [NeZero m] (hm : m ≤ 2 ^ 256) (x : ZMod m) : (toUint x).toNat = x.val := by
  have hx : x.val < 2 ^ 256 := lt_of_lt_of_le (ZMod.val_lt x) hm
  unfold toUint U256.toNat
  simp only [UInt64.toNat_ofNat']
  generalize x.val = v at hx ⊢
  have e1 : v / 2 ^ 128 = v / 2 ^ 64 / 2 ^ 64 := by rw [Nat.div_div_eq_div_mul]; norm_num
  have e2 : v / 2 ^ 192 = v / 2 ^ 64 / 2 ^ 64 / 2 ^ 64 := by
    rw [Nat.div_div_eq_div_mul, Nat.div_div_eq_div_mul]; norm_num
  omega

theorem scalar_le : PF.SCALAR.modulus.toNat ≤ 2 ^ 256 := (U256.toNat_lt _).le

theorem fn_uint (x : Fn) : (toUint x).toNat = x.val := toUint_toNat scalar_le x

theorem isTable_of (P : Pt BETA) : ∃ l, window_table_affine (ofPoint P) 32 = some l ∧ IsTable l 32 P := by
  obtain ⟨l, e, _, h⟩ := window_table_affine_spec two_ne P 32
  exact ⟨l, e, h⟩

theorem table_G : ∃ l, GENERATOR_TABLE = some l ∧ IsTable l 32 G := by
  have := isTable_of G
  rw [ofPoint_G] at this
  exact this

/-- the scalar which meets the exceptional case in `base_mul` -/
theorem base_mul_ok (P : Pt BETA) (hP : addOrderOf P = PF.SCALAR.modulus.toNat) (l : List (Affine Fp))
    (hl : IsTable l 32 P) (k : U256) (hk : k.toNat < PF.SCALAR.modulus.toNat)
    (hne : k.toNat ≠ PF.SCALAR.modulus.toNat - 94) :
    ∃ r, base_mul l k = some r ∧ Represents r (k.toNat • P) := by
  obtain ⟨d, e, hn⟩ := naf_spec 7 (by norm_num) (by norm_num) k
  refine base_mul_eq two_ne P l hl k d e ?_
  intro i hi hc
  have hbig : 2 ^ (7 + 2) < PF.SCALAR.modulus.toNat := by rw [scalar_modulus]; norm_num
  have hodd : PF.SCALAR.modulus.toNat % 2 = 1 := by rw [scalar_modulus]
  obtain ⟨rfl, hk'⟩ := base_no_clash (by norm_num) P _ hP hodd hbig k.toNat hk hn i hi hc
  have hd0 : d 0 ≠ 0 := by
    intro h0
    apply hc.2.1
    rw [h0, zero_smul]
  have hdv := last_digit hn hd0 (by norm_num)
  have hdg := (hn.digit 0 le_rfl).resolve_left hd0
  rw [scalar_modulus] at hk' hne
  norm_num at hdv hdg
  omega

end EC
end OpenZKP
