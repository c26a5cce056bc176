import Verif.U256.MontgomeryLemmas

/-!
# Properties C10 and C55: Montgomery arithmetic

`MontOK` is the range in which the routines are claimed to be right: an odd modulus of at most 255 bits
whose constant `m64` is `-modulus⁻¹ mod 2^64`.
-/

namespace OpenZKP.Props
open OpenZKP U256

/-- Admissible Montgomery parameters. -/
structure MontOK (M : Mont) : Prop where
  odd : M.modulus.toNat % 2 = 1
  le : M.modulus.toNat ≤ 2 ^ 255
  m64 : (M.m64.toNat * M.modulus.toNat + 1) % 2 ^ 64 = 0

/-- The remaining constants. -/
structure MontConsts (M : Mont) : Prop extends MontOK M where
  r1 : M.r1.toNat = 2 ^ 256 % M.modulus.toNat
  r2 : M.r2.toNat = 2 ^ 512 % M.modulus.toNat
  r3 : M.r3.toNat = 2 ^ 768 % M.modulus.toNat

/-- `r` is the Montgomery reduction of `T` modulo `m`: the unique `r < m` with `r·2^256 ≡ T (mod m)`. -/
def IsRedc (m T r : Nat) : Prop :=
  r < m ∧ r * 2 ^ 256 % m = T % m ∧ ∀ s, s < m → s * 2 ^ 256 % m = T % m → s = r

theorem isRedc_of {m T r : Nat} (hodd : m % 2 = 1) (h1 : r < m) (h2 : r * 2 ^ 256 % m = T % m) :
    IsRedc m T r := by
  refine ⟨h1, h2, fun s hs hs2 => ?_⟩
  have e : s * 2 ^ 256 ≡ r * 2 ^ 256 [MOD m] := hs2.trans h2.symm
  have hco : Nat.gcd m (2 ^ 256) = 1 := by
    apply Nat.Coprime.pow_right
    rw [Nat.coprime_iff_gcd_eq_one, Nat.gcd_comm, Nat.gcd_rec, hodd, Nat.gcd_one_left]
  exact Nat.ModEq.eq_of_lt_of_lt (Nat.ModEq.cancel_right_of_coprime hco e) hs h1

theorem MontOK.m64ok {M : Mont} (h : MontOK M) : M64ok M.modulus M.m64 := by
  have := h.m64
  have e : M.modulus.toNat = M.modulus.l0.toNat + 2 ^ 64 *
      (M.modulus.l1.toNat + 2 ^ 64 * M.modulus.l2.toNat + 2 ^ 128 * M.modulus.l3.toNat) := by
    simp only [toNat]; ring
  unfold M64ok
  rw [e] at this
  rw [← this, Nat.mul_add, Nat.add_right_comm, ← Nat.mul_assoc, Nat.mul_comm _ (2 ^ 64), Nat.mul_assoc,
    Nat.add_mul_mod_self_left]

theorem proth_modulus {M : Mont} (h : is_proth M = true) :
    M.modulus = ⟨1, 0, 0, M.modulus.l3⟩ := by
  simp only [is_proth, Bool.and_eq_true, beq_iff_eq] at h
  obtain ⟨⟨h0, h1⟩, h2⟩ := h
  ext <;> simp [h0, h1, h2]

/-- C10: Montgomery reduction of a pair `(lo, hi)` of value below `m·2^256`. -/
theorem C10_redc (M : Mont) (h : MontOK M) (lo hi : U256)
    (hT : lo.toNat + 2 ^ 256 * hi.toNat < M.modulus.toNat * 2 ^ 256) :
    IsRedc M.modulus.toNat (lo.toNat + 2 ^ 256 * hi.toNat) (redc M lo hi).toNat := by
  have hb : 2 * M.modulus.toNat ≤ 2 ^ 256 := by have := h.le; omega
  unfold redc
  by_cases hp : is_proth M = true
  · rw [if_pos hp]
    have e := proth_modulus hp
    have e' : M.modulus.toNat = 1 + 2 ^ 192 * M.modulus.l3.toNat := by rw [e, proth_toNat]
    rw [e'] at hT hb
    obtain ⟨p1, p2⟩ := redcProth_spec M.modulus.l3 lo hi hT hb
    rw [← e'] at p1 p2
    exact isRedc_of h.odd p1 p2
  · rw [if_neg hp]
    obtain ⟨p1, p2⟩ := redcGeneric_spec lo hi h.m64ok hT hb
    exact isRedc_of h.odd p1 p2

/-- C10: Montgomery multiplication, for any first factor and a reduced second factor; no `u64` addition
in it overflows. -/
theorem C10_mul_redc (M : Mont) (h : MontOK M) (x y : U256) (hy : y.toNat < M.modulus.toNat) :
    IsRedc M.modulus.toNat (x.toNat * y.toNat) (mul_redc M x y).toNat ∧
    (mul_redc_flag M x y).2 = false := by
  have hb : 2 * M.modulus.toNat ≤ 2 ^ 256 := by have := h.le; omega
  unfold mul_redc mul_redc_flag
  by_cases hp : is_proth M = true
  · rw [if_pos hp]
    have e := proth_modulus hp
    have e' : M.modulus.toNat = 1 + 2 ^ 192 * M.modulus.l3.toNat := by rw [e, proth_toNat]
    rw [e'] at hy hb
    obtain ⟨p0, p1, p2⟩ := mulRedcProth_spec M.modulus.l3 x y hy hb
    rw [← e'] at p1 p2
    exact ⟨isRedc_of h.odd p1 p2, p0⟩
  · rw [if_neg hp]
    obtain ⟨p0, p1, p2⟩ := mulRedcGeneric_spec x y h.m64ok hy hb
    exact ⟨isRedc_of h.odd p1 p2, p0⟩

/-- C10: Montgomery squaring of a reduced value. -/
theorem C10_square_redc (M : Mont) (h : MontOK M) (x : U256) (hx : x.toNat < M.modulus.toNat) :
    IsRedc M.modulus.toNat (x.toNat * x.toNat) (square_redc M x).toNat ∧
    square_redc M x = mul_redc M x x := by
  have e := square_full_eq x
  have h1 : IsRedc M.modulus.toNat (x.toNat * x.toNat) (square_redc M x).toNat := by
    unfold square_redc
    rcases hs : square_full x with ⟨lo, hi⟩
    rw [hs] at e
    dsimp only at e ⊢
    rw [← e]
    apply C10_redc M h
    rw [e]
    calc x.toNat * x.toNat ≤ x.toNat * 2 ^ 256 := Nat.mul_le_mul_left _ (toNat_lt x).le
      _ < _ := Nat.mul_lt_mul_of_pos_right hx (by norm_num)
  refine ⟨h1, toNat_inj ?_⟩
  have h2 := (C10_mul_redc M h x x hx).1
  exact h2.2.2 _ h1.1 h1.2.1

/-- C10: the routine specialised to Proth moduli returns exactly what the generic one returns, on the
whole admissible input range. -/
theorem C10_proth_eq_generic (M : Mont) (h : MontOK M) (hp : is_proth M = true) :
    (∀ lo hi : U256, lo.toNat + 2 ^ 256 * hi.toNat < M.modulus.toNat * 2 ^ 256 →
      redcProth M.modulus.l3 lo hi = redcGeneric M lo hi) ∧
    (∀ x y : U256, y.toNat < M.modulus.toNat →
      mulRedcProth M.modulus.l3 x y = mulRedcGeneric M x y) := by
  have hb : 2 * M.modulus.toNat ≤ 2 ^ 256 := by have := h.le; omega
  constructor
  · intro lo hi hT
    have h1 := C10_redc M h lo hi hT
    rw [redc, if_pos hp] at h1
    obtain ⟨p1, p2⟩ := redcGeneric_spec lo hi h.m64ok hT hb
    exact toNat_inj (h1.2.2 _ p1 p2).symm
  · intro x y hy
    have h1 := C10_mul_redc M h x y hy
    rw [mul_redc, mul_redc_flag, if_pos hp] at h1
    obtain ⟨p0, p1, p2⟩ := mulRedcGeneric_spec x y h.m64ok hy hb
    exact Prod.ext (toNat_inj (h1.1.2.2 _ p1 p2).symm) (h1.2.trans p0.symm)

/-- C10: conversion to Montgomery form (any input), back, and `mul_mod`. -/
theorem C10_convert (M : Mont) (h : MontConsts M) (x y : U256) :
    (to_montgomery M x).toNat = x.toNat * 2 ^ 256 % M.modulus.toNat ∧
    (from_montgomery M (to_montgomery M x)).toNat = x.toNat % M.modulus.toNat ∧
    (y.toNat < M.modulus.toNat → (mont_mul_mod M x y).toNat = x.toNat * y.toNat % M.modulus.toNat) ∧
    (x.toNat < M.modulus.toNat → to_montgomery M (from_montgomery M x) = x) := by
  have hodd := h.odd
  have hpos : 0 < M.modulus.toNat := by omega
  have hr2 : M.r2.toNat < M.modulus.toNat := by rw [h.r2]; exact Nat.mod_lt _ hpos
  have e1 : ∀ z : U256, (to_montgomery M z).toNat = z.toNat * 2 ^ 256 % M.modulus.toNat := by
    intro z
    have h1 := (C10_mul_redc M h.toMontOK z M.r2 hr2).1
    refine (h1.2.2 _ (Nat.mod_lt _ hpos) ?_).symm
    rw [Nat.mod_mul_mod, h.r2, Nat.mul_mod_mod, Nat.mul_assoc,
      show (2 : ℕ) ^ 512 = 2 ^ 256 * 2 ^ 256 by rw [← pow_add]]
  have e2 : ∀ z : U256, z.toNat < M.modulus.toNat →
      IsRedc M.modulus.toNat z.toNat (from_montgomery M z).toNat := by
    intro z hz
    have := C10_redc M h.toMontOK z ZERO (by
      rw [zero_toNat, Nat.mul_zero, Nat.add_zero]
      calc z.toNat < M.modulus.toNat := hz
        _ ≤ _ := Nat.le_mul_of_pos_right _ (by norm_num))
    rwa [zero_toNat, Nat.mul_zero, Nat.add_zero] at this
  refine ⟨e1 x, ?_, fun hy => ?_, fun hx => toNat_inj ?_⟩
  · have h1 := e2 (to_montgomery M x) (by rw [e1]; exact Nat.mod_lt _ hpos)
    refine (h1.2.2 _ (Nat.mod_lt _ hpos) ?_).symm
    rw [Nat.mod_mul_mod, e1, Nat.mod_mod]
  · have h1 := (C10_mul_redc M h.toMontOK (to_montgomery M x) y hy).1
    refine (h1.2.2 _ (Nat.mod_lt _ hpos) ?_).symm
    rw [Nat.mod_mul_mod, e1, Nat.mod_mul_mod]
    congr 1
    ring
  · have h1 := e2 x hx
    rw [e1, h1.2.1, Nat.mod_eq_of_lt hx]

/-- C10: the `const` conversion returns exactly what `to_montgomery` returns, for every input. -/
theorem C10_to_montgomery_const (M : Mont) (h : MontConsts M) (x : U256) :
    to_montgomery_const x M.modulus M.m64 M.r2 = (to_montgomery M x, false) := by
  have hodd := h.odd
  have hpos : 0 < M.modulus.toNat := by omega
  have hb : 2 * M.modulus.toNat ≤ 2 ^ 256 := by have := h.le; omega
  have hr2 : M.r2.toNat < M.modulus.toNat := by rw [h.r2]; exact Nat.mod_lt _ hpos
  obtain ⟨p0, p1, p2⟩ := to_montgomery_const_spec x M.modulus M.r2 M.m64 h.m64ok hr2 hb
  have h1 := (C10_mul_redc M h.toMontOK x M.r2 hr2).1
  exact Prod.ext (toNat_inj (h1.2.2 _ p1 p2)) p0

/-- C10: the constants of the base field are right (and select the Proth routine). -/
theorem C10_proth_constants : MontConsts PROTH ∧ is_proth PROTH = true := by
  refine ⟨⟨⟨?_, ?_, ?_⟩, ?_, ?_, ?_⟩, ?_⟩ <;> decide +kernel

/-- C10: the constants of the scalar field are right (and select the generic routine). -/
theorem C10_order_constants : MontConsts ORDER ∧ is_proth ORDER = false := by
  refine ⟨⟨⟨?_, ?_, ?_⟩, ?_, ?_, ?_⟩, ?_⟩ <;> decide +kernel

/-- A 256-bit modulus, `2^256 - 189`, with the right `m64`. -/
def bigModulus : Mont where
  modulus := ⟨0xffffffffffffff43, 0xffffffffffffffff, 0xffffffffffffffff, 0xffffffffffffffff⟩
  m64 := 0xa53fa94fea53fa95
  r1 := ZERO
  r2 := ZERO
  r3 := ZERO

/-- The bound of 255 bits in `MontOK` cannot be dropped: for the odd modulus `m = 2^256 - 189` the product
of the reduced value `m - 1` with itself is reduced wrongly (a carry is lost). -/
theorem C10_range_needed :
    bigModulus.modulus.toNat % 2 = 1 ∧
    (bigModulus.m64.toNat * bigModulus.modulus.toNat + 1) % 2 ^ 64 = 0 ∧
    ∃ x : U256, x.toNat < bigModulus.modulus.toNat ∧
      (mul_redc bigModulus x x).toNat * 2 ^ 256 % bigModulus.modulus.toNat
        ≠ x.toNat * x.toNat % bigModulus.modulus.toNat ∧
      (mul_redc_flag bigModulus x x).2 = true := by
  refine ⟨by decide +kernel, by decide +kernel,
    ⟨0xffffffffffffff42, 0xffffffffffffffff, 0xffffffffffffffff, 0xffffffffffffffff⟩,
    by decide +kernel, by decide +kernel, by decide +kernel⟩

/-- Non-vacuous: a reduction with both halves non-zero. -/
example : ∃ lo hi : U256, hi ≠ ZERO ∧ lo.toNat + 2 ^ 256 * hi.toNat < PROTH.modulus.toNat * 2 ^ 256 ∧
    redc PROTH lo hi ≠ ZERO :=
  ⟨⟨5, 6, 7, 8⟩, ⟨1, 2, 3, 4⟩, by decide +kernel, by decide +kernel, by decide +kernel⟩

/-! ## C55 -/

theorem macroSbb_eq {a b c r k : UInt64} (hc : c = 0 ∨ c = 0xffffffffffffffff)
    (h : macroSbb a b c = (r, k)) :
    (k = 0 ∨ k = 0xffffffffffffffff) ∧
    r.toNat + b.toNat + (c >>> 63).toNat = a.toNat + 2 ^ 64 * (k >>> 63).toNat := by
  have ha := u64_lt a; have hb := u64_lt b
  have c1 : (c >>> 63).toNat ≤ 1 := by
    rcases hc with rfl | rfl <;> decide
  unfold macroSbb at h
  generalize (c >>> 63).toNat = cc at *
  have f : (0xffffffffffffffff : UInt64).toNat = 2 ^ 64 - 1 := by decide
  rw [Prod.mk.injEq] at h
  obtain ⟨rfl, hk⟩ := h
  by_cases hlt : a.toNat < b.toNat + cc
  · have e : (a.toNat + 2 ^ 128 - (b.toNat + cc)) % 2 ^ 128 = a.toNat + 2 ^ 128 - (b.toNat + cc) :=
      Nat.mod_eq_of_lt (by omega)
    rw [e] at hk ⊢
    have ek : k = 0xffffffffffffffff := by
      apply UInt64.toNat_inj.mp
      rw [f, ← hk, UInt64.toNat_ofNat']
      omega
    refine ⟨Or.inr ek, ?_⟩
    have e2 : ((0xffffffffffffffff : UInt64) >>> 63).toNat = 1 := by decide
    rw [ek, e2, UInt64.toNat_ofNat']
    omega
  · have e : (a.toNat + 2 ^ 128 - (b.toNat + cc)) % 2 ^ 128 = a.toNat - (b.toNat + cc) := by omega
    rw [e] at hk ⊢
    have ek : k = 0 := by
      apply UInt64.toNat_inj.mp
      rw [zero64, ← hk, UInt64.toNat_ofNat']
      omega
    refine ⟨Or.inl ek, ?_⟩
    have e2 : ((0 : UInt64) >>> 63).toNat = 0 := by decide
    rw [ek, e2, UInt64.toNat_ofNat']
    omega

/-- C55: the compile-time conversion of `field_element!` yields, for every 256-bit literal, the same
limbs as the run-time conversion of the parsed `U256` into a base-field element, without overflow. -/
theorem C55_macro_convert (x : U256) : montgomery_convert x = (to_montgomery PROTH x, false) := by
  have h := C10_proth_constants.1
  have hodd := h.odd
  have em : macroM = PROTH.modulus := by decide
  have er : macroR2 = PROTH.r2 := by decide
  have hpos : 0 < PROTH.modulus.toNat := by omega
  have hb : 2 * PROTH.modulus.toNat ≤ 2 ^ 256 := by have := h.le; omega
  have hr2 : PROTH.r2.toNat < PROTH.modulus.toNat := by rw [h.r2]; exact Nat.mod_lt _ hpos
  have hres := (C10_mul_redc PROTH h.toMontOK x PROTH.r2 hr2).1
  have hmok := h.m64ok
  unfold to_montgomery
  generalize mul_redc PROTH x PROTH.r2 = res at *
  unfold montgomery_convert
  dsimp only
  rw [em, er]
  have e64 : (0xffffffffffffffff : UInt64) = PROTH.m64 := rfl
  rw [e64]
  generalize PROTH.modulus = m at *
  generalize PROTH.r2 = r2 at *
  generalize PROTH.m64 = m64 at *
  rcases h0 : toMontRow m r2 m64 ZERO x.l0 with ⟨s0, o0⟩
  dsimp only
  rcases h1 : toMontRow m r2 m64 s0 x.l1 with ⟨s1, o1⟩
  dsimp only
  rcases h2 : toMontRow m r2 m64 s1 x.l2 with ⟨s2, o2⟩
  dsimp only
  rcases h3 : toMontRow m r2 m64 s2 x.l3 with ⟨s3, o3⟩
  dsimp only
  obtain ⟨q, b, K, e⟩ := toMontRows_spec h0 h1 h2 h3 hmok hr2 hb
  refine Prod.ext (toNat_inj ?_) q
  by_cases hg : m.toNat ≤ s3.toNat
  · rw [if_pos ((ge_iff _ _).mpr hg)]
    rcases g0 : macroSbb s3.l0 m.l0 0 with ⟨a0, b0⟩
    dsimp only
    rcases g1 : macroSbb s3.l1 m.l1 b0 with ⟨a1, b1⟩
    dsimp only
    rcases g2 : macroSbb s3.l2 m.l2 b1 with ⟨a2, b2⟩
    dsimp only
    rcases g3 : macroSbb s3.l3 m.l3 b2 with ⟨a3, b3⟩
    dsimp only
    obtain ⟨k0, e0⟩ := macroSbb_eq (Or.inl rfl) g0
    obtain ⟨k1, e1⟩ := macroSbb_eq k0 g1
    obtain ⟨k2, e2⟩ := macroSbb_eq k1 g2
    obtain ⟨k3, e3⟩ := macroSbb_eq k2 g3
    have z : ((0 : UInt64) >>> 63).toNat = 0 := by decide
    rw [z] at e0
    have hA : U256.toNat ⟨a0, a1, a2, a3⟩ + m.toNat = s3.toNat + 2 ^ 256 * (b3 >>> 63).toNat := by
      simp only [toNat]
      zify at e0 e1 e2 e3 ⊢
      linear_combination e0 + 2 ^ 64 * e1 + 2 ^ 128 * e2 + 2 ^ 192 * e3
    have al := toNat_lt ⟨a0, a1, a2, a3⟩
    have hb3 : (b3 >>> 63).toNat = 0 := by omega
    have hv : U256.toNat ⟨a0, a1, a2, a3⟩ = s3.toNat - m.toNat := by omega
    refine hres.2.2 _ (by rw [hv]; omega) (modEq_final e ?_)
    rw [hv]
    conv_rhs => rw [show s3.toNat = s3.toNat - m.toNat + m.toNat by omega, Nat.add_mod_right]
  · rw [if_neg (by rw [ge_iff]; exact hg)]
    exact hres.2.2 _ (by dsimp only; omega) (modEq_final e rfl)

/-- Non-vacuous: an input above the modulus. -/
example : (montgomery_convert ⟨7, 0, 0, 0xf000000000000000⟩).1 = to_montgomery PROTH ⟨7, 0, 0, 0xf000000000000000⟩ ∧
    (montgomery_convert ⟨7, 0, 0, 0xf000000000000000⟩).1 ≠ ZERO := by decide +kernel

end OpenZKP.Props
