import Verif.U256.Montgomery
import Verif.U256.ShiftLemmas
import Mathlib.Data.Nat.ModEq

namespace OpenZKP
namespace U256

/-- The constants fit: `m64 = -modulus⁻¹ mod 2^64`. -/
def M64ok (m : U256) (m64 : UInt64) : Prop := (m64.toNat * m.l0.toNat + 1) % 2 ^ 64 = 0

theorem zero64 : (0 : UInt64).toNat = 0 := rfl
theorem one64 : (1 : UInt64).toNat = 1 := rfl

/-- the low limb vanishes -/
theorem mac_low_zero {a0 m64 m0 z c k : UInt64} (hm : (m64.toNat * m0.toNat + 1) % 2 ^ 64 = 0)
    (hk : k.toNat = a0.toNat * m64.toNat % 2 ^ 64)
    (h : mac a0 k m0 0 = (z, c)) : 2 ^ 64 * c.toNat = a0.toNat + k.toNat * m0.toNat := by
  have e := mac_spec h
  rw [zero64, Nat.add_zero] at e
  have hz : z.toNat % 2 ^ 64 = 0 := by
    have h1 : (z.toNat + 2 ^ 64 * c.toNat) % 2 ^ 64 = (a0.toNat + k.toNat * m0.toNat) % 2 ^ 64 := by rw [e]
    rw [Nat.add_mul_mod_self_left] at h1
    rw [h1, hk, Nat.add_mod, Nat.mod_mul_mod, ← Nat.add_mod,
      show a0.toNat + a0.toNat * m64.toNat * m0.toNat = a0.toNat * (m64.toNat * m0.toNat + 1) by ring,
      Nat.mul_mod, hm, Nat.mul_zero, Nat.zero_mod]
  have := u64_lt z
  rw [Nat.mod_eq_of_lt this] at hz
  omega

theorem row_bound {r Y M a x k s : Nat} (hk : k < 2 ^ 64) (hx : x < 2 ^ 64) (ha : a < Y + M)
    (h : 2 ^ 64 * s = a + x * Y + k * M) (_hr : r = s) : s < Y + M := by
  have h1 : x * Y ≤ (2 ^ 64 - 1) * Y := Nat.mul_le_mul_right _ (by omega)
  have h2 : k * M ≤ (2 ^ 64 - 1) * M := Nat.mul_le_mul_right _ (by omega)
  omega

theorem row_core {a y m : U256} {x k : UInt64} {a0 c0 a1 c1 a2 c2 a3 a4 z d0 b0 d1 b1 d2 b2 d3 : UInt64}
    (h0 : mac a.l0 x y.l0 0 = (a0, c0)) (h1 : mac a.l1 x y.l1 c0 = (a1, c1))
    (h2 : mac a.l2 x y.l2 c1 = (a2, c2)) (h3 : mac a.l3 x y.l3 c2 = (a3, a4))
    (_g0 : mac a0 k m.l0 0 = (z, d0)) (g1 : mac a1 k m.l1 d0 = (b0, d1))
    (g2 : mac a2 k m.l2 d1 = (b1, d2)) (g3 : mac a3 k m.l3 d2 = (b2, d3))
    (hz : 2 ^ 64 * d0.toNat = a0.toNat + k.toNat * m.l0.toNat)
    (ha : a.toNat < y.toNat + m.toNat) (hb : y.toNat + m.toNat ≤ 2 ^ 256) :
    a4.toNat + d3.toNat < 2 ^ 64 ∧
    2 ^ 64 * (U256.toNat ⟨b0, b1, b2, a4 + d3⟩) = a.toNat + x.toNat * y.toNat + k.toNat * m.toNat ∧
    U256.toNat ⟨b0, b1, b2, a4 + d3⟩ < y.toNat + m.toNat := by
  have e0 := mac_spec h0; have e1 := mac_spec h1; have e2 := mac_spec h2; have e3 := mac_spec h3
  have f1 := mac_spec g1; have f2 := mac_spec g2; have f3 := mac_spec g3
  rw [zero64] at e0
  have key : 2 ^ 64 * (b0.toNat + 2 ^ 64 * b1.toNat + 2 ^ 128 * b2.toNat + 2 ^ 192 * (a4.toNat + d3.toNat))
      = a.toNat + x.toNat * y.toNat + k.toNat * m.toNat := by
    simp only [toNat]
    zify at e0 e1 e2 e3 f1 f2 f3 hz ⊢
    linear_combination e0 + 2 ^ 64 * e1 + 2 ^ 128 * e2 + 2 ^ 192 * e3 + hz + 2 ^ 64 * f1 +
      2 ^ 128 * f2 + 2 ^ 192 * f3
  have hlt := row_bound (u64_lt k) (u64_lt x) ha key rfl
  have hs : a4.toNat + d3.toNat < 2 ^ 64 := by omega
  have hadd : (a4 + d3).toNat = a4.toNat + d3.toNat := by
    rw [UInt64.toNat_add, Nat.mod_eq_of_lt hs]
  refine ⟨hs, ?_, ?_⟩
  · rw [← key]; simp only [toNat, hadd]
  · have : U256.toNat ⟨b0, b1, b2, a4 + d3⟩ = b0.toNat + 2 ^ 64 * b1.toNat + 2 ^ 128 * b2.toNat +
        2 ^ 192 * (a4.toNat + d3.toNat) := by simp only [toNat, hadd]
    rw [this]; exact hlt

theorem mulRedcRow_spec {M : Mont} {y a r : U256} {x : UInt64} {o : Bool}
    (hm : M64ok M.modulus M.m64) (h : mulRedcRow M y a x = (r, o))
    (ha : a.toNat < y.toNat + M.modulus.toNat) (hb : y.toNat + M.modulus.toNat ≤ 2 ^ 256) :
    o = false ∧ r.toNat < y.toNat + M.modulus.toNat ∧
    ∃ k < 2 ^ 64, 2 ^ 64 * r.toNat = a.toNat + x.toNat * y.toNat + k * M.modulus.toNat := by
  unfold mulRedcRow at h
  dsimp only at h
  rcases h0 : mac a.l0 x y.l0 0 with ⟨a0, c0⟩
  rw [h0] at h; dsimp only at h
  rcases h1 : mac a.l1 x y.l1 c0 with ⟨a1, c1⟩
  rw [h1] at h; dsimp only at h
  rcases h2 : mac a.l2 x y.l2 c1 with ⟨a2, c2⟩
  rw [h2] at h; dsimp only at h
  rcases h3 : mac a.l3 x y.l3 c2 with ⟨a3, a4⟩
  rw [h3] at h; dsimp only at h
  rcases g0 : mac a0 (a0 * M.m64) M.modulus.l0 0 with ⟨z, d0⟩
  rw [g0] at h; dsimp only at h
  rcases g1 : mac a1 (a0 * M.m64) M.modulus.l1 d0 with ⟨b0, d1⟩
  rw [g1] at h; dsimp only at h
  rcases g2 : mac a2 (a0 * M.m64) M.modulus.l2 d1 with ⟨b1, d2⟩
  rw [g2] at h; dsimp only at h
  rcases g3 : mac a3 (a0 * M.m64) M.modulus.l3 d2 with ⟨b2, d3⟩
  rw [g3] at h; dsimp only at h
  rw [Prod.mk.injEq] at h
  obtain ⟨hr, ho⟩ := h
  obtain ⟨p1, p2, p3⟩ := row_core h0 h1 h2 h3 g0 g1 g2 g3
    (mac_low_zero hm (UInt64.toNat_mul _ _) g0) ha hb
  rw [hr] at p2 p3
  refine ⟨?_, p3, _, u64_lt _, p2⟩
  rw [← ho]
  exact decide_eq_false (by omega)

theorem toMontRow_spec {m r2 a r : U256} {m64 x : UInt64} {o : Bool}
    (hm : M64ok m m64) (h : toMontRow m r2 m64 a x = (r, o))
    (ha : a.toNat < r2.toNat + m.toNat) (hb : r2.toNat + m.toNat ≤ 2 ^ 256) :
    o = false ∧ r.toNat < r2.toNat + m.toNat ∧
    ∃ k < 2 ^ 64, 2 ^ 64 * r.toNat = a.toNat + x.toNat * r2.toNat + k * m.toNat := by
  unfold toMontRow at h
  dsimp only at h
  rcases h0 : mac a.l0 x r2.l0 0 with ⟨a0, c0⟩
  rw [h0] at h; dsimp only at h
  rcases h1 : mac a.l1 x r2.l1 c0 with ⟨a1, c1⟩
  rw [h1] at h; dsimp only at h
  rcases h2 : mac a.l2 x r2.l2 c1 with ⟨a2, c2⟩
  rw [h2] at h; dsimp only at h
  rcases h3 : mac a.l3 x r2.l3 c2 with ⟨a3, a4⟩
  rw [h3] at h; dsimp only at h
  rcases g0 : mac a0 ((x * r2.l0 + a.l0) * m64) m.l0 0 with ⟨z, d0⟩
  rw [g0] at h; dsimp only at h
  rcases g1 : mac a1 ((x * r2.l0 + a.l0) * m64) m.l1 d0 with ⟨b0, d1⟩
  rw [g1] at h; dsimp only at h
  rcases g2 : mac a2 ((x * r2.l0 + a.l0) * m64) m.l2 d1 with ⟨b1, d2⟩
  rw [g2] at h; dsimp only at h
  rcases g3 : mac a3 ((x * r2.l0 + a.l0) * m64) m.l3 d2 with ⟨b2, d3⟩
  rw [g3] at h; dsimp only at h
  rw [Prod.mk.injEq] at h
  obtain ⟨hr, ho⟩ := h
  have hk : ((x * r2.l0 + a.l0) * m64).toNat = a0.toNat * m64.toNat % 2 ^ 64 := by
    have e0 := mac_spec h0
    have ea : (x * r2.l0 + a.l0).toNat = a0.toNat := by
      have := u64_lt a0
      rw [UInt64.toNat_add, UInt64.toNat_mul, Nat.mod_add_mod]
      rw [zero64] at e0
      omega
    rw [UInt64.toNat_mul, ea]
  obtain ⟨p1, p2, p3⟩ := row_core h0 h1 h2 h3 g0 g1 g2 g3 (mac_low_zero hm hk g0) ha hb
  rw [hr] at p2 p3
  refine ⟨?_, p3, _, u64_lt _, p2⟩
  rw [← ho]
  exact decide_eq_false (by omega)

theorem four_rows {x Y M k0 k1 k2 k3 s0 s1 s2 s3 : Nat} {X : U256} (hX : x = X.toNat)
    (e0 : 2 ^ 64 * s0 = 0 + X.l0.toNat * Y + k0 * M) (e1 : 2 ^ 64 * s1 = s0 + X.l1.toNat * Y + k1 * M)
    (e2 : 2 ^ 64 * s2 = s1 + X.l2.toNat * Y + k2 * M) (e3 : 2 ^ 64 * s3 = s2 + X.l3.toNat * Y + k3 * M) :
    2 ^ 256 * s3 = x * Y + (k0 + 2 ^ 64 * k1 + 2 ^ 128 * k2 + 2 ^ 192 * k3) * M := by
  rw [hX]
  simp only [toNat]
  zify at *
  linear_combination e0 + 2 ^ 64 * e1 + 2 ^ 128 * e2 + 2 ^ 192 * e3

/-- conditional subtraction -/
theorem cond_sub {r m : U256} (h : r.toNat < 2 * m.toNat) :
    (if ge r m then sub r m else r).toNat < m.toNat ∧
    (if ge r m then sub r m else r).toNat % m.toNat = r.toNat % m.toNat := by
  by_cases hg : m.toNat ≤ r.toNat
  · rw [if_pos ((ge_iff r m).mpr hg), sub_of_le hg]
    refine ⟨by omega, ?_⟩
    conv_rhs => rw [show r.toNat = r.toNat - m.toNat + m.toNat by omega, Nat.add_mod_right]
  · rw [if_neg (by rw [ge_iff]; exact hg)]
    exact ⟨by omega, rfl⟩

theorem modEq_final {r s m T K : Nat} (h : 2 ^ 256 * s = T + K * m) (hr : r % m = s % m) :
    r * 2 ^ 256 % m = T % m := by
  rw [Nat.mul_mod, hr, ← Nat.mul_mod, Nat.mul_comm, h, Nat.add_mul_mod_self_right]

theorem mulRedcGeneric_spec {M : Mont} (x y : U256) (hm : M64ok M.modulus M.m64)
    (hy : y.toNat < M.modulus.toNat) (hb : 2 * M.modulus.toNat ≤ 2 ^ 256) :
    (mulRedcGeneric M x y).2 = false ∧ (mulRedcGeneric M x y).1.toNat < M.modulus.toNat ∧
    (mulRedcGeneric M x y).1.toNat * 2 ^ 256 % M.modulus.toNat = x.toNat * y.toNat % M.modulus.toNat := by
  unfold mulRedcGeneric
  rcases h0 : mulRedcRow M y ZERO x.l0 with ⟨s0, o0⟩
  dsimp only
  rcases h1 : mulRedcRow M y s0 x.l1 with ⟨s1, o1⟩
  dsimp only
  rcases h2 : mulRedcRow M y s1 x.l2 with ⟨s2, o2⟩
  dsimp only
  rcases h3 : mulRedcRow M y s2 x.l3 with ⟨s3, o3⟩
  dsimp only
  have hbb : y.toNat + M.modulus.toNat ≤ 2 ^ 256 := by omega
  obtain ⟨q0, b0, k0, l0, e0⟩ := mulRedcRow_spec hm h0 (by rw [zero_toNat]; omega) hbb
  obtain ⟨q1, b1, k1, l1, e1⟩ := mulRedcRow_spec hm h1 b0 hbb
  obtain ⟨q2, b2, k2, l2, e2⟩ := mulRedcRow_spec hm h2 b1 hbb
  obtain ⟨q3, b3, k3, l3, e3⟩ := mulRedcRow_spec hm h3 b2 hbb
  rw [zero_toNat] at e0
  have e := four_rows rfl e0 e1 e2 e3
  obtain ⟨c1, c2⟩ := cond_sub (r := s3) (m := M.modulus) (by omega)
  refine ⟨by rw [q0, q1, q2, q3]; rfl, c1, modEq_final e c2⟩

theorem toMontRows_spec {m r2 x s0 s1 s2 s3 : U256} {m64 : UInt64} {o0 o1 o2 o3 : Bool}
    (h0 : toMontRow m r2 m64 ZERO x.l0 = (s0, o0)) (h1 : toMontRow m r2 m64 s0 x.l1 = (s1, o1))
    (h2 : toMontRow m r2 m64 s1 x.l2 = (s2, o2)) (h3 : toMontRow m r2 m64 s2 x.l3 = (s3, o3))
    (hm : M64ok m m64) (hy : r2.toNat < m.toNat) (hb : 2 * m.toNat ≤ 2 ^ 256) :
    (o0 || o1 || o2 || o3) = false ∧ s3.toNat < 2 * m.toNat ∧
    ∃ K, 2 ^ 256 * s3.toNat = x.toNat * r2.toNat + K * m.toNat := by
  have hbb : r2.toNat + m.toNat ≤ 2 ^ 256 := by omega
  obtain ⟨q0, b0, k0, l0, e0⟩ := toMontRow_spec hm h0 (by rw [zero_toNat]; omega) hbb
  obtain ⟨q1, b1, k1, l1, e1⟩ := toMontRow_spec hm h1 b0 hbb
  obtain ⟨q2, b2, k2, l2, e2⟩ := toMontRow_spec hm h2 b1 hbb
  obtain ⟨q3, b3, k3, l3, e3⟩ := toMontRow_spec hm h3 b2 hbb
  rw [zero_toNat] at e0
  exact ⟨by rw [q0, q1, q2, q3]; rfl, by omega, _, four_rows rfl e0 e1 e2 e3⟩

/-- conditional subtraction as in `to_montgomery_const`: subtract always, add back if it borrowed -/
theorem sub_addback {r m : U256} {a0 a1 a2 a3 b0 b1 b2 b3 c0 c1 c2 c3 k0 k1 k2 k3 : UInt64}
    (s0 : sbb r.l0 m.l0 0 = (a0, b0)) (s1 : sbb r.l1 m.l1 b0 = (a1, b1))
    (s2 : sbb r.l2 m.l2 b1 = (a2, b2)) (s3 : sbb r.l3 m.l3 b2 = (a3, b3))
    (t0 : adc a0 (b3 * m.l0) 0 = (c0, k0)) (t1 : adc a1 (b3 * m.l1) k0 = (c1, k1))
    (t2 : adc a2 (b3 * m.l2) k1 = (c2, k2)) (t3 : adc a3 (b3 * m.l3) k2 = (c3, k3))
    (h : r.toNat < 2 * m.toNat) :
    U256.toNat ⟨c0, c1, c2, c3⟩ < m.toNat ∧ U256.toNat ⟨c0, c1, c2, c3⟩ % m.toNat = r.toNat % m.toNat := by
  obtain ⟨e0, l0⟩ := sbb_spec s0 (by rw [zero64]; omega)
  obtain ⟨e1, l1⟩ := sbb_spec s1 l0
  obtain ⟨e2, l2⟩ := sbb_spec s2 l1
  obtain ⟨e3, l3⟩ := sbb_spec s3 l2
  have f0 := adc_spec t0; have f1 := adc_spec t1; have f2 := adc_spec t2; have f3 := adc_spec t3
  rw [zero64] at e0 f0
  have hA : U256.toNat ⟨a0, a1, a2, a3⟩ + m.toNat = r.toNat + 2 ^ 256 * b3.toNat := by
    simp only [toNat]
    zify at e0 e1 e2 e3 ⊢
    linear_combination e0 + 2 ^ 64 * e1 + 2 ^ 128 * e2 + 2 ^ 192 * e3
  have hb : b3 = 0 ∨ b3 = 1 := by
    rcases Nat.le_one_iff_eq_zero_or_eq_one.mp l3 with h | h
    · exact Or.inl (UInt64.toNat_inj.mp h)
    · exact Or.inr (UInt64.toNat_inj.mp h)
  have rl := toNat_lt r
  have ml := toNat_lt m
  have al := toNat_lt ⟨a0, a1, a2, a3⟩
  rcases hb with rfl | rfl
  · simp only [UInt64.zero_mul, zero64] at f0 f1 f2 f3 hA
    have hC : U256.toNat ⟨c0, c1, c2, c3⟩ + 2 ^ 256 * k3.toNat = U256.toNat ⟨a0, a1, a2, a3⟩ := by
      simp only [toNat]
      zify at f0 f1 f2 f3 ⊢
      linear_combination f0 + 2 ^ 64 * f1 + 2 ^ 128 * f2 + 2 ^ 192 * f3
    have hk : k3.toNat = 0 := by omega
    have : U256.toNat ⟨c0, c1, c2, c3⟩ = r.toNat - m.toNat := by omega
    rw [this]
    refine ⟨by omega, ?_⟩
    conv_rhs => rw [show r.toNat = r.toNat - m.toNat + m.toNat by omega, Nat.add_mod_right]
  · simp only [UInt64.one_mul, one64] at f0 f1 f2 f3 hA
    have hC : U256.toNat ⟨c0, c1, c2, c3⟩ + 2 ^ 256 * k3.toNat = U256.toNat ⟨a0, a1, a2, a3⟩ + m.toNat := by
      simp only [toNat]
      zify at f0 f1 f2 f3 ⊢
      linear_combination f0 + 2 ^ 64 * f1 + 2 ^ 128 * f2 + 2 ^ 192 * f3
    have cl := toNat_lt ⟨c0, c1, c2, c3⟩
    have : U256.toNat ⟨c0, c1, c2, c3⟩ = r.toNat := by omega
    rw [this]
    exact ⟨by omega, rfl⟩

theorem to_montgomery_const_spec (x m r2 : U256) (m64 : UInt64)
    (hm : M64ok m m64) (hy : r2.toNat < m.toNat) (hb : 2 * m.toNat ≤ 2 ^ 256) :
    (to_montgomery_const x m m64 r2).2 = false ∧
    (to_montgomery_const x m m64 r2).1.toNat < m.toNat ∧
    (to_montgomery_const x m m64 r2).1.toNat * 2 ^ 256 % m.toNat = x.toNat * r2.toNat % m.toNat := by
  unfold to_montgomery_const
  rcases h0 : toMontRow m r2 m64 ZERO x.l0 with ⟨s0, o0⟩
  dsimp only
  rcases h1 : toMontRow m r2 m64 s0 x.l1 with ⟨s1, o1⟩
  dsimp only
  rcases h2 : toMontRow m r2 m64 s1 x.l2 with ⟨s2, o2⟩
  dsimp only
  rcases h3 : toMontRow m r2 m64 s2 x.l3 with ⟨s3, o3⟩
  dsimp only
  obtain ⟨q, b, K, e⟩ := toMontRows_spec h0 h1 h2 h3 hm hy hb
  rcases g0 : sbb s3.l0 m.l0 0 with ⟨a0, b0⟩
  dsimp only
  rcases g1 : sbb s3.l1 m.l1 b0 with ⟨a1, b1⟩
  dsimp only
  rcases g2 : sbb s3.l2 m.l2 b1 with ⟨a2, b2⟩
  dsimp only
  rcases g3 : sbb s3.l3 m.l3 b2 with ⟨a3, b3⟩
  dsimp only
  rcases t0 : adc a0 (b3 * m.l0) 0 with ⟨c0, k0⟩
  dsimp only
  rcases t1 : adc a1 (b3 * m.l1) k0 with ⟨c1, k1⟩
  dsimp only
  rcases t2 : adc a2 (b3 * m.l2) k1 with ⟨c2, k2⟩
  dsimp only
  rcases t3 : adc a3 (b3 * m.l3) k2 with ⟨c3, k3⟩
  dsimp only
  obtain ⟨p1, p2⟩ := sub_addback g0 g1 g2 g3 t0 t1 t2 t3 b
  exact ⟨q, p1, modEq_final e p2⟩

/-! ## reduction -/

theorem redc_bound {T r c K m : Nat} (h : 2 ^ 256 * (r + 2 ^ 256 * c) = T + K * m) (hK : K < 2 ^ 256)
    (hT : T < m * 2 ^ 256) (hm : 2 * m ≤ 2 ^ 256) : c = 0 ∧ r < 2 * m := by
  have h1 : K * m ≤ 2 ^ 256 * m := Nat.mul_le_mul_right _ hK.le
  rw [Nat.mul_comm m] at hT
  have : 2 ^ 256 * (r + 2 ^ 256 * c) < 2 ^ 256 * (2 * m) := by omega
  have := Nat.lt_of_mul_lt_mul_left this
  omega

theorem k_bound (a b c d : UInt64) :
    a.toNat + 2 ^ 64 * b.toNat + 2 ^ 128 * c.toNat + 2 ^ 192 * d.toNat < 2 ^ 256 :=
  toNat_lt ⟨a, b, c, d⟩

theorem redcGeneric_spec {M : Mont} (lo hi : U256) (hm : M64ok M.modulus M.m64)
    (hT : lo.toNat + 2 ^ 256 * hi.toNat < M.modulus.toNat * 2 ^ 256)
    (hb : 2 * M.modulus.toNat ≤ 2 ^ 256) :
    (redcGeneric M lo hi).toNat < M.modulus.toNat ∧
    (redcGeneric M lo hi).toNat * 2 ^ 256 % M.modulus.toNat
      = (lo.toNat + 2 ^ 256 * hi.toNat) % M.modulus.toNat := by
  unfold redcGeneric
  dsimp only
  generalize M.modulus = m at *
  generalize M.m64 = m64 at *
  rcases h0 : mac lo.l0 (lo.l0 * m64) m.l0 0 with ⟨z0, c0⟩
  dsimp only
  have z0e := mac_low_zero hm (UInt64.toNat_mul _ _) h0
  generalize lo.l0 * m64 = u0 at *
  rcases h1 : mac lo.l1 u0 m.l1 c0 with ⟨a1, c1⟩
  dsimp only
  rcases h2 : mac lo.l2 u0 m.l2 c1 with ⟨a2, c2⟩
  dsimp only
  rcases h3 : mac lo.l3 u0 m.l3 c2 with ⟨a3, c3⟩
  dsimp only
  rcases h4 : adc hi.l0 0 c3 with ⟨a4, q1⟩
  dsimp only
  rcases g0 : mac a1 (a1 * m64) m.l0 0 with ⟨z1, d0⟩
  dsimp only
  have z1e := mac_low_zero hm (UInt64.toNat_mul _ _) g0
  generalize a1 * m64 = u1 at *
  rcases g1 : mac a2 u1 m.l1 d0 with ⟨b2, d1⟩
  dsimp only
  rcases g2 : mac a3 u1 m.l2 d1 with ⟨b3, d2⟩
  dsimp only
  rcases g3 : mac a4 u1 m.l3 d2 with ⟨b4, d3⟩
  dsimp only
  rcases g4 : adc hi.l1 q1 d3 with ⟨b5, q2⟩
  dsimp only
  rcases i0 : mac b2 (b2 * m64) m.l0 0 with ⟨z2, e0⟩
  dsimp only
  have z2e := mac_low_zero hm (UInt64.toNat_mul _ _) i0
  generalize b2 * m64 = u2 at *
  rcases i1 : mac b3 u2 m.l1 e0 with ⟨f3, e1⟩
  dsimp only
  rcases i2 : mac b4 u2 m.l2 e1 with ⟨f4, e2⟩
  dsimp only
  rcases i3 : mac b5 u2 m.l3 e2 with ⟨f5, e3⟩
  dsimp only
  rcases i4 : adc hi.l2 q2 e3 with ⟨f6, q3⟩
  dsimp only
  rcases j0 : mac f3 (f3 * m64) m.l0 0 with ⟨z3, k0⟩
  dsimp only
  have z3e := mac_low_zero hm (UInt64.toNat_mul _ _) j0
  generalize f3 * m64 = u3 at *
  rcases j1 : mac f4 u3 m.l1 k0 with ⟨g4', k1⟩
  dsimp only
  rcases j2 : mac f5 u3 m.l2 k1 with ⟨g5', k2⟩
  dsimp only
  rcases j3 : mac f6 u3 m.l3 k2 with ⟨g6', k3⟩
  dsimp only
  rcases j4 : adc hi.l3 q3 k3 with ⟨g7', q4⟩
  dsimp only
  have h1 := mac_spec h1; have h2 := mac_spec h2; have h3 := mac_spec h3; have h4 := adc_spec h4
  have g1 := mac_spec g1; have g2 := mac_spec g2; have g3 := mac_spec g3; have g4 := adc_spec g4
  have i1 := mac_spec i1; have i2 := mac_spec i2; have i3 := mac_spec i3; have i4 := adc_spec i4
  have j1 := mac_spec j1; have j2 := mac_spec j2; have j3 := mac_spec j3; have j4 := adc_spec j4
  rw [zero64] at h4
  have key : 2 ^ 256 * (U256.toNat ⟨g4', g5', g6', g7'⟩ + 2 ^ 256 * q4.toNat)
      = lo.toNat + 2 ^ 256 * hi.toNat +
        (u0.toNat + 2 ^ 64 * u1.toNat + 2 ^ 128 * u2.toNat + 2 ^ 192 * u3.toNat) * m.toNat := by
    simp only [toNat]
    zify at h1 h2 h3 h4 g1 g2 g3 g4 i1 i2 i3 i4 j1 j2 j3 j4 z0e z1e z2e z3e ⊢
    linear_combination z0e + 2 ^ 64 * h1 + 2 ^ 128 * h2 + 2 ^ 192 * h3 + 2 ^ 256 * h4
      + 2 ^ 64 * (z1e + 2 ^ 64 * g1 + 2 ^ 128 * g2 + 2 ^ 192 * g3 + 2 ^ 256 * g4)
      + 2 ^ 128 * (z2e + 2 ^ 64 * i1 + 2 ^ 128 * i2 + 2 ^ 192 * i3 + 2 ^ 256 * i4)
      + 2 ^ 192 * (z3e + 2 ^ 64 * j1 + 2 ^ 128 * j2 + 2 ^ 192 * j3 + 2 ^ 256 * j4)
  obtain ⟨hc, hr⟩ := redc_bound key (k_bound _ _ _ _) hT hb
  rw [hc, Nat.mul_zero, Nat.add_zero] at key
  obtain ⟨c1, c2⟩ := cond_sub hr
  exact ⟨c1, modEq_final key c2⟩

theorem proth_toNat (m3 : UInt64) : U256.toNat ⟨1, 0, 0, m3⟩ = 1 + 2 ^ 192 * m3.toNat := by
  simp only [toNat, zero64, one64]

theorem redcProth_spec (m3 : UInt64) (lo hi : U256)
    (hT : lo.toNat + 2 ^ 256 * hi.toNat < (1 + 2 ^ 192 * m3.toNat) * 2 ^ 256)
    (hb : 2 * (1 + 2 ^ 192 * m3.toNat) ≤ 2 ^ 256) :
    (redcProth m3 lo hi).toNat < 1 + 2 ^ 192 * m3.toNat ∧
    (redcProth m3 lo hi).toNat * 2 ^ 256 % (1 + 2 ^ 192 * m3.toNat)
      = (lo.toNat + 2 ^ 256 * hi.toNat) % (1 + 2 ^ 192 * m3.toNat) := by
  unfold redcProth
  rcases h0 : sbb 0 lo.l0 0 with ⟨a0, c0⟩
  dsimp only
  rcases h1 : sbb 0 lo.l1 c0 with ⟨a1, c1⟩
  dsimp only
  rcases h2 : sbb 0 lo.l2 c1 with ⟨a2, c2⟩
  dsimp only
  rcases h3 : mac lo.l3 a0 m3 0 with ⟨t3, d0⟩
  dsimp only
  rcases h4 : sbb 0 t3 c2 with ⟨a3, c3⟩
  dsimp only
  rcases g0 : adc 0 hi.l0 c3 with ⟨b4, e0⟩
  dsimp only
  rcases g1 : adc 0 hi.l1 e0 with ⟨b5, e1⟩
  dsimp only
  rcases g2 : adc 0 hi.l2 e1 with ⟨b6, e2⟩
  dsimp only
  rcases g3 : adc 0 hi.l3 e2 with ⟨b7, e3⟩
  dsimp only
  rcases i0 : mac b4 a1 m3 d0 with ⟨f4, d1⟩
  dsimp only
  rcases i1 : mac b5 a2 m3 d1 with ⟨f5, d2⟩
  dsimp only
  rcases i2 : mac b6 a3 m3 d2 with ⟨f6, d3⟩
  dsimp only
  rcases i3 : adc b7 0 d3 with ⟨f7, d4⟩
  dsimp only
  rcases j0 : sbb f4 1 0 with ⟨r0, k0⟩
  dsimp only
  rcases j1 : sbb f5 0 k0 with ⟨r1, k1⟩
  dsimp only
  rcases j2 : sbb f6 0 k1 with ⟨r2, k2⟩
  dsimp only
  rcases j3 : sbb f7 m3 k2 with ⟨r3, k3⟩
  dsimp only
  have z1 : (0 : UInt64).toNat ≤ 1 := by rw [zero64]; omega
  obtain ⟨h0, l0⟩ := sbb_spec h0 z1
  obtain ⟨h1, l1⟩ := sbb_spec h1 l0
  obtain ⟨h2, l2⟩ := sbb_spec h2 l1
  have h3 := mac_spec h3
  obtain ⟨h4, l4⟩ := sbb_spec h4 l2
  have g0 := adc_spec g0; have g1 := adc_spec g1; have g2 := adc_spec g2; have g3 := adc_spec g3
  have i0 := mac_spec i0; have i1 := mac_spec i1; have i2 := mac_spec i2; have i3 := adc_spec i3
  obtain ⟨j0, n0⟩ := sbb_spec j0 z1
  obtain ⟨j1, n1⟩ := sbb_spec j1 n0
  obtain ⟨j2, n2⟩ := sbb_spec j2 n1
  obtain ⟨j3, n3⟩ := sbb_spec j3 n2
  rw [zero64] at h0 h1 h2 h3 h4 g0 g1 g2 g3 i3 j0 j1 j2
  rw [one64] at j0
  have key : 2 ^ 256 * (U256.toNat ⟨f4, f5, f6, f7⟩ + 2 ^ 256 * (e3.toNat + d4.toNat))
      = lo.toNat + 2 ^ 256 * hi.toNat +
        (a0.toNat + 2 ^ 64 * a1.toNat + 2 ^ 128 * a2.toNat + 2 ^ 192 * a3.toNat)
          * (1 + 2 ^ 192 * m3.toNat) := by
    simp only [toNat]
    zify at h0 h1 h2 h3 h4 g0 g1 g2 g3 i0 i1 i2 i3 ⊢
    linear_combination -1 * h0 - 2 ^ 64 * h1 - 2 ^ 128 * h2 + 2 ^ 192 * h3 - 2 ^ 192 * h4
      + 2 ^ 256 * (g0 + 2 ^ 64 * g1 + 2 ^ 128 * g2 + 2 ^ 192 * g3)
      + 2 ^ 256 * (i0 + 2 ^ 64 * i1 + 2 ^ 128 * i2 + 2 ^ 192 * i3)
  obtain ⟨hc, hr⟩ := redc_bound key (k_bound _ _ _ _) hT hb
  rw [hc, Nat.mul_zero, Nat.add_zero] at key
  have hR : U256.toNat ⟨r0, r1, r2, r3⟩ + (1 + 2 ^ 192 * m3.toNat)
      = U256.toNat ⟨f4, f5, f6, f7⟩ + 2 ^ 256 * k3.toNat := by
    simp only [toNat]
    zify at j0 j1 j2 j3 ⊢
    linear_combination j0 + 2 ^ 64 * j1 + 2 ^ 128 * j2 + 2 ^ 192 * j3
  have fl := toNat_lt ⟨f4, f5, f6, f7⟩
  have rl := toNat_lt ⟨r0, r1, r2, r3⟩
  by_cases hk : k3 = 0
  · rw [if_pos hk]
    rw [hk, zero64, Nat.mul_zero, Nat.add_zero] at hR
    refine ⟨by omega, modEq_final key ?_⟩
    rw [← hR, Nat.add_mod_right]
  · rw [if_neg hk]
    have : k3.toNat ≠ 0 := fun h => hk (UInt64.toNat_inj.mp h)
    exact ⟨by omega, modEq_final key rfl⟩

theorem mulRedcProth_spec (m3 : UInt64) (x y : U256)
    (hy : y.toNat < 1 + 2 ^ 192 * m3.toNat) (hb : 2 * (1 + 2 ^ 192 * m3.toNat) ≤ 2 ^ 256) :
    (mulRedcProth m3 x y).2 = false ∧ (mulRedcProth m3 x y).1.toNat < 1 + 2 ^ 192 * m3.toNat ∧
    (mulRedcProth m3 x y).1.toNat * 2 ^ 256 % (1 + 2 ^ 192 * m3.toNat)
      = x.toNat * y.toNat % (1 + 2 ^ 192 * m3.toNat) := by
  unfold mulRedcProth
  rcases h0 : mac 0 x.l0 y.l0 0 with ⟨a0, c0⟩
  dsimp only
  rcases h1 : mac 0 x.l0 y.l1 c0 with ⟨a1, c1⟩
  dsimp only
  rcases h2 : mac 0 x.l0 y.l2 c1 with ⟨a2, c2⟩
  dsimp only
  rcases h3 : mac 0 x.l0 y.l3 c2 with ⟨a3, a4⟩
  dsimp only
  rcases h4 : sbb 0 a0 0 with ⟨u0, c4⟩
  dsimp only
  rcases h5 : mac a3 u0 m3 0 with ⟨b3, d0⟩
  dsimp only
  rcases g0 : mac a1 x.l1 y.l0 c4 with ⟨b1, e0⟩
  dsimp only
  rcases g1 : mac a2 x.l1 y.l1 e0 with ⟨b2, e1⟩
  dsimp only
  rcases g2 : mac b3 x.l1 y.l2 e1 with ⟨f3, e2⟩
  dsimp only
  rcases g3 : mac a4 x.l1 y.l3 e2 with ⟨b4, a5⟩
  dsimp only
  rcases g4 : sbb 0 b1 0 with ⟨u1, e4⟩
  dsimp only
  rcases g5 : mac b4 u1 m3 d0 with ⟨f4, d1⟩
  dsimp only
  rcases i0 : mac b2 x.l2 y.l0 e4 with ⟨p2, q0⟩
  dsimp only
  rcases i1 : mac f3 x.l2 y.l1 q0 with ⟨p3, q1⟩
  dsimp only
  rcases i2 : mac f4 x.l2 y.l2 q1 with ⟨p4, q2⟩
  dsimp only
  rcases i3 : mac a5 x.l2 y.l3 q2 with ⟨p5, a6⟩
  dsimp only
  rcases i4 : sbb 0 p2 0 with ⟨u2, q4⟩
  dsimp only
  rcases i5 : mac p5 u2 m3 d1 with ⟨r5, d2⟩
  dsimp only
  rcases j0 : mac p3 x.l3 y.l0 q4 with ⟨s3, v0⟩
  dsimp only
  rcases j1 : mac p4 x.l3 y.l1 v0 with ⟨s4, v1⟩
  dsimp only
  rcases j2 : mac r5 x.l3 y.l2 v1 with ⟨s5, v2⟩
  dsimp only
  rcases j3 : mac a6 x.l3 y.l3 v2 with ⟨s6, a7⟩
  dsimp only
  rcases j4 : sbb 0 s3 0 with ⟨u3, v4⟩
  dsimp only
  rcases n0 : adc s6 0 d2 with ⟨t6, d3⟩
  dsimp only
  rcases n1 : adc s4 0 v4 with ⟨t4, w0⟩
  dsimp only
  rcases n2 : adc s5 0 w0 with ⟨t5, w1⟩
  dsimp only
  rcases n3 : mac t6 u3 m3 w1 with ⟨o6, w2⟩
  dsimp only
  have z1 : (0 : UInt64).toNat ≤ 1 := by rw [zero64]; omega
  have h0 := mac_spec h0; have h1 := mac_spec h1; have h2 := mac_spec h2; have h3 := mac_spec h3
  have h4 := (sbb_spec h4 z1).1; have h5 := mac_spec h5
  have g0 := mac_spec g0; have g1 := mac_spec g1; have g2 := mac_spec g2; have g3 := mac_spec g3
  have g4 := (sbb_spec g4 z1).1; have g5 := mac_spec g5
  have i0 := mac_spec i0; have i1 := mac_spec i1; have i2 := mac_spec i2; have i3 := mac_spec i3
  have i4 := (sbb_spec i4 z1).1; have i5 := mac_spec i5
  have j0 := mac_spec j0; have j1 := mac_spec j1; have j2 := mac_spec j2; have j3 := mac_spec j3
  have j4 := (sbb_spec j4 z1).1
  have n0 := adc_spec n0; have n1 := adc_spec n1; have n2 := adc_spec n2; have n3 := mac_spec n3
  rw [zero64] at h0 h1 h2 h3 h4 h5 g4 i4 j4 n0 n1 n2
  have key : 2 ^ 256 * (t4.toNat + 2 ^ 64 * t5.toNat + 2 ^ 128 * o6.toNat +
        2 ^ 192 * (a7.toNat + w2.toNat + d3.toNat))
      = x.toNat * y.toNat +
        (u0.toNat + 2 ^ 64 * u1.toNat + 2 ^ 128 * u2.toNat + 2 ^ 192 * u3.toNat)
          * (1 + 2 ^ 192 * m3.toNat) := by
    simp only [toNat]
    zify at h0 h1 h2 h3 h4 h5 g0 g1 g2 g3 g4 g5 i0 i1 i2 i3 i4 i5 j0 j1 j2 j3 j4 n0 n1 n2 n3 ⊢
    linear_combination h0 + 2 ^ 64 * h1 + 2 ^ 128 * h2 + 2 ^ 192 * h3 - h4 + 2 ^ 192 * h5
      + 2 ^ 64 * (g0 + 2 ^ 64 * g1 + 2 ^ 128 * g2 + 2 ^ 192 * g3 - g4 + 2 ^ 192 * g5)
      + 2 ^ 128 * (i0 + 2 ^ 64 * i1 + 2 ^ 128 * i2 + 2 ^ 192 * i3 - i4 + 2 ^ 192 * i5)
      + 2 ^ 192 * (j0 + 2 ^ 64 * j1 + 2 ^ 128 * j2 + 2 ^ 192 * j3 - j4 + 2 ^ 192 * n0)
      + 2 ^ 256 * (n1 + 2 ^ 64 * n2 + 2 ^ 128 * n3)
  have hKb := k_bound u0 u1 u2 u3
  have hxy : x.toNat * y.toNat ≤ 2 ^ 256 * y.toNat := Nat.mul_le_mul_right _ (toNat_lt x).le
  generalize u0.toNat + 2 ^ 64 * u1.toNat + 2 ^ 128 * u2.toNat + 2 ^ 192 * u3.toNat = K at key hKb
  have hKm : K * (1 + 2 ^ 192 * m3.toNat) ≤ 2 ^ 256 * (1 + 2 ^ 192 * m3.toNat) :=
    Nat.mul_le_mul_right _ hKb.le
  have hlt : t4.toNat + 2 ^ 64 * t5.toNat + 2 ^ 128 * o6.toNat +
        2 ^ 192 * (a7.toNat + w2.toNat + d3.toNat) < 2 * (1 + 2 ^ 192 * m3.toNat) := by
    have : 2 ^ 256 * (t4.toNat + 2 ^ 64 * t5.toNat + 2 ^ 128 * o6.toNat +
        2 ^ 192 * (a7.toNat + w2.toNat + d3.toNat)) < 2 ^ 256 * (2 * (1 + 2 ^ 192 * m3.toNat)) := by
      omega
    exact Nat.lt_of_mul_lt_mul_left this
  have hs : a7.toNat + w2.toNat + d3.toNat < 2 ^ 64 := by omega
  have hadd : (a7 + w2 + d3).toNat = a7.toNat + w2.toNat + d3.toNat := by
    rw [UInt64.toNat_add, UInt64.toNat_add]; omega
  have hv : U256.toNat ⟨t4, t5, o6, a7 + w2 + d3⟩ = t4.toNat + 2 ^ 64 * t5.toNat + 2 ^ 128 * o6.toNat +
        2 ^ 192 * (a7.toNat + w2.toNat + d3.toNat) := by
    simp only [toNat, hadd]
  rw [← hv] at key hlt
  have hc := cond_sub (r := ⟨t4, t5, o6, a7 + w2 + d3⟩) (m := ⟨1, 0, 0, m3⟩) (by rw [proth_toNat]; exact hlt)
  rw [proth_toNat] at hc
  exact ⟨decide_eq_false (by omega), hc.1, modEq_final key hc.2⟩

end U256
end OpenZKP
