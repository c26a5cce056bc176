import Verif.U256.LehmerLoop

/-! # `lehmer_update` and `lehmer_double` -/

namespace OpenZKP
namespace U256

theorem mat_mul_spec (a b : U256) (q00 q01 q10 q11 : UInt64) :
    (∃ k : Int, ((mat_mul a b q00 q01 q10 q11).1.toNat : Int)
      = q00.toNat * a.toNat - q01.toNat * b.toNat + 2 ^ 256 * k) ∧
    (∃ k : Int, ((mat_mul a b q00 q01 q10 q11).2.toNat : Int)
      = q11.toNat * b.toNat - q10.toNat * a.toNat + 2 ^ 256 * k) := by
  have z : (0 : UInt64).toNat = 0 := rfl
  unfold mat_mul
  rcases h1 : mac 0 q00 a.l0 0 with ⟨a0, ac0⟩; dsimp only
  rcases h2 : msb a0 q01 b.l0 0 with ⟨a0', ab0⟩; dsimp only
  rcases h3 : mac 0 q11 b.l0 0 with ⟨b0, bc0⟩; dsimp only
  rcases h4 : msb b0 q10 a.l0 0 with ⟨b0', bb0⟩; dsimp only
  rcases h5 : mac 0 q00 a.l1 ac0 with ⟨a1, ac1⟩; dsimp only
  rcases h6 : msb a1 q01 b.l1 ab0 with ⟨a1', ab1⟩; dsimp only
  rcases h7 : mac 0 q11 b.l1 bc0 with ⟨b1, bc1⟩; dsimp only
  rcases h8 : msb b1 q10 a.l1 bb0 with ⟨b1', bb1⟩; dsimp only
  rcases h9 : mac 0 q00 a.l2 ac1 with ⟨a2, ac2⟩; dsimp only
  rcases h10 : msb a2 q01 b.l2 ab1 with ⟨a2', ab2⟩; dsimp only
  rcases h11 : mac 0 q11 b.l2 bc1 with ⟨b2, bc2⟩; dsimp only
  rcases h12 : msb b2 q10 a.l2 bb1 with ⟨b2', bb2⟩; dsimp only
  rcases h13 : mac 0 q00 a.l3 ac2 with ⟨a3, ac3⟩; dsimp only
  rcases h14 : msb a3 q01 b.l3 ab2 with ⟨a3', ab3⟩; dsimp only
  rcases h15 : mac 0 q11 b.l3 bc2 with ⟨b3, bc3⟩; dsimp only
  rcases h16 : msb b3 q10 a.l3 bb2 with ⟨b3', bb3⟩; dsimp only
  have e1 := mac_spec h1; have e2 := msb_spec h2; have e3 := mac_spec h3; have e4 := msb_spec h4
  have e5 := mac_spec h5; have e6 := msb_spec h6; have e7 := mac_spec h7; have e8 := msb_spec h8
  have e9 := mac_spec h9; have e10 := msb_spec h10; have e11 := mac_spec h11; have e12 := msb_spec h12
  have e13 := mac_spec h13; have e14 := msb_spec h14; have e15 := mac_spec h15; have e16 := msb_spec h16
  rw [z] at e1 e2 e3 e4 e5 e7 e9 e11 e13 e15
  zify at e1 e2 e3 e4 e5 e6 e7 e8 e9 e10 e11 e12 e13 e14 e15 e16
  simp only [toNat]
  push_cast
  constructor
  · refine ⟨(ab3.toNat : Int) - ac3.toNat, ?_⟩
    linear_combination e1 + e2 + 2 ^ 64 * (e5 + e6) + 2 ^ 128 * (e9 + e10) + 2 ^ 192 * (e13 + e14)
  · refine ⟨(bb3.toNat : Int) - bc3.toNat, ?_⟩
    linear_combination e3 + e4 + 2 ^ 64 * (e7 + e8) + 2 ^ 128 * (e11 + e12) + 2 ^ 192 * (e15 + e16)

/-- `lehmer_update` applies the signed matrix modulo `2^256`. -/
theorem lehmer_update_spec (a b : U256) (q : Matrix) :
    (∃ k : Int, ((lehmer_update a b q).1.toNat : Int)
      = sgn q.even * (q.q00.toNat * a.toNat - q.q01.toNat * b.toNat) + 2 ^ 256 * k) ∧
    (∃ k : Int, ((lehmer_update a b q).2.toNat : Int)
      = sgn q.even * (q.q11.toNat * b.toNat - q.q10.toNat * a.toNat) + 2 ^ 256 * k) := by
  unfold lehmer_update
  rcases Bool.eq_false_or_eq_true q.even with h | h
  · rw [if_pos h, h]
    obtain ⟨⟨k, hk⟩, ⟨l, hl⟩⟩ := mat_mul_spec a b q.q00 q.q01 q.q10 q.q11
    exact ⟨⟨k, by rw [hk]; simp [sgn]⟩, ⟨l, by rw [hl]; simp [sgn]⟩⟩
  · rw [if_neg (by rw [h]; decide), h]
    obtain ⟨⟨k, hk⟩, ⟨l, hl⟩⟩ := mat_mul_spec a b q.q10 q.q11 q.q00 q.q01
    refine ⟨⟨l, ?_⟩, ⟨k, ?_⟩⟩
    · rw [Prod.fst_swap, hl]; simp [sgn]
    · rw [Prod.snd_swap, hk]; simp [sgn]

theorem eq_of_mod {a b : Nat} {k : Int} (ha : a < 2 ^ 256) (hb : b < 2 ^ 256) (h : (a : Int) = b + 2 ^ 256 * k) :
    a = b := by omega

/-- on the pair the matrix was computed for, `lehmer_update` is exact -/
theorem lehmer_update_step {a b : U256} {q : Matrix} {x y : Nat} (h : MStep q a.toNat b.toNat x y) :
    (lehmer_update a b q).1.toNat = x ∧ (lehmer_update a b q).2.toNat = y := by
  obtain ⟨⟨k, hk⟩, ⟨l, hl⟩⟩ := lehmer_update_spec a b q
  rw [← h.x_eq] at hk
  rw [← h.y_eq] at hl
  have hx := h.x_le_r0; have hy := h.lt; have ha := toNat_lt a
  exact ⟨eq_of_mod (toNat_lt _) (by omega) hk, eq_of_mod (toNat_lt _) (by omega) hl⟩

theorem l3_eq (x : U256) : x.l3.toNat = x.toNat / 2 ^ 192 := by
  have h0 := u64_lt x.l0; have h1 := u64_lt x.l1; have h2 := u64_lt x.l2
  unfold toNat; omega

/-- the two leading words computed from `r0 ≥ r1` -/
theorem prefix_spec (r0 r1 : U256) (h : r1.toNat ≤ r0.toNat) (hr : 0 < r0.toNat) :
    ∃ e0 e1, e0 < 2 ^ 192 ∧ e1 < 2 ^ 192 ∧
      r0.toNat * 2 ^ leading_zeros r0 = (shl r0 (leading_zeros r0)).l3.toNat * 2 ^ 192 + e0 ∧
      r1.toNat * 2 ^ leading_zeros r0 = (shl r1 (leading_zeros r0)).l3.toNat * 2 ^ 192 + e1 ∧
      2 ^ 63 ≤ (shl r0 (leading_zeros r0)).l3.toNat ∧
      (shl r1 (leading_zeros r0)).l3.toNat ≤ (shl r0 (leading_zeros r0)).l3.toNat := by
  obtain ⟨hs, hlo, hhi⟩ := leading_zeros_spec r0 hr
  generalize leading_zeros r0 = s at *
  have p1 : 2 ^ (256 - s) * 2 ^ s = 2 ^ 256 := by rw [← pow_add]; congr 1; omega
  have p2 : 2 ^ (255 - s) * 2 ^ s = 2 ^ 255 := by rw [← pow_add]; congr 1; omega
  have pp : 0 < 2 ^ s := by positivity
  have m0 : r0.toNat * 2 ^ s < 2 ^ 256 := by rw [← p1]; exact Nat.mul_lt_mul_of_pos_right hhi pp
  have m1 : r1.toNat * 2 ^ s ≤ r0.toNat * 2 ^ s := Nat.mul_le_mul_right _ h
  have m2 : 2 ^ 255 ≤ r0.toNat * 2 ^ s := by rw [← p2]; exact Nat.mul_le_mul_right _ hlo
  rw [l3_eq, l3_eq, shl_mod, shl_mod, Nat.mod_eq_of_lt m0, Nat.mod_eq_of_lt (lt_of_le_of_lt m1 m0)]
  generalize r0.toNat * 2 ^ s = R0 at *
  generalize r1.toNat * 2 ^ s = R1 at *
  exact ⟨R0 % 2 ^ 192, R1 % 2 ^ 192, by omega, by omega, by omega, by omega, by omega, by omega⟩

theorem dot2_ok (dbg : Bool) {a b c d : UInt64} (h : a.toNat * b.toNat + c.toNat * d.toNat < 2 ^ 64) :
    ∃ e, dot2 dbg a b c d = some e ∧ e.toNat = a.toNat * b.toNat + c.toNat * d.toNat := by
  obtain ⟨x, ex, hx⟩ := cmul_ok dbg (a := a) (b := b) (by omega)
  obtain ⟨y, ey, hy⟩ := cmul_ok dbg (a := c) (b := d) (by omega)
  obtain ⟨z, ez, hz⟩ := cadd_ok dbg (a := x) (b := y) (by omega)
  exact ⟨z, by rw [dot2, ex, Option.bind_some, ey, Option.bind_some, ez], by omega⟩

/-- product with the identity -/
theorem matProd_id (dbg : Bool) (q : Matrix) : matProd dbg .IDENTITY q = some q := by
  have z : (0 : UInt64).toNat = 0 := rfl
  have o : (1 : UInt64).toNat = 1 := rfl
  have h0 := u64_lt q.q00; have h1 := u64_lt q.q01; have h2 := u64_lt q.q10; have h3 := u64_lt q.q11
  obtain ⟨m0, e0, k0⟩ := dot2_ok dbg (a := 1) (b := q.q00) (c := 0) (d := q.q10) (by rw [z, o]; omega)
  obtain ⟨m1, e1, k1⟩ := dot2_ok dbg (a := 1) (b := q.q01) (c := 0) (d := q.q11) (by rw [z, o]; omega)
  obtain ⟨m2, e2, k2⟩ := dot2_ok dbg (a := 0) (b := q.q00) (c := 1) (d := q.q10) (by rw [z, o]; omega)
  obtain ⟨m3, e3, k3⟩ := dot2_ok dbg (a := 0) (b := q.q01) (c := 1) (d := q.q11) (by rw [z, o]; omega)
  rw [z, o] at k0 k1 k2 k3
  unfold matProd Matrix.IDENTITY
  dsimp only
  rw [e0, Option.bind_some, e1, Option.bind_some, e2, Option.bind_some, e3, Option.bind_some]
  congr 1
  rcases q with ⟨a, b, c, d, e⟩
  simp only [Matrix.mk.injEq]
  dsimp only at k0 k1 k2 k3
  refine ⟨UInt64.toNat_inj.1 (by omega), UInt64.toNat_inj.1 (by omega), UInt64.toNat_inj.1 (by omega),
    UInt64.toNat_inj.1 (by omega), by cases e <;> rfl⟩

/-- `lehmer_double` on `r0 ≥ r1 > 0` never panics, and returns the identity or a valid step. -/
theorem lehmer_double_spec (dbg : Bool) {r0 r1 : U256} (h : r1.toNat ≤ r0.toNat) (hr : 0 < r1.toNat) :
    ∃ Q, lehmer_double dbg r0 r1 = some Q ∧
      (Q = .IDENTITY ∨ ∃ x y, MStep Q r0.toNat r1.toNat x y) ∧
      (r0.toNat < 2 ^ 64 → Q ≠ .IDENTITY) := by
  have hr0 : 0 < r0.toNat := by omega
  unfold lehmer_double
  dsimp only
  rw [dassert_ok dbg ((ge_iff _ _).2 h), Option.bind_some]
  obtain ⟨hs, hlo, hhi⟩ := leading_zeros_spec r0 hr0
  by_cases h192 : 192 ≤ leading_zeros r0
  · rw [if_pos h192]
    have b0 : r0.toNat < 2 ^ 64 := lt_of_lt_of_le hhi (Nat.pow_le_pow_right (by norm_num) (by omega))
    have l0 : ∀ w : U256, w.toNat < 2 ^ 64 → w.l0.toNat = w.toNat := by
      intro w hw
      have := u64_lt w.l0
      unfold toNat at hw ⊢; omega
    have e0 := l0 r0 b0
    have e1 := l0 r1 (by omega)
    obtain ⟨-, lo1, -⟩ := leading_zeros_spec r1 hr
    have : 192 ≤ leading_zeros r1 := by
      by_contra hc
      have : 2 ^ 64 ≤ 2 ^ (255 - leading_zeros r1) := Nat.pow_le_pow_right (by norm_num) (by omega)
      omega
    rw [dassert_ok dbg (by simpa using this), Option.bind_some,
      dassert_ok dbg (by simp only [UInt64.le_iff_toNat_le, decide_eq_true_eq]; omega), Option.bind_some]
    obtain ⟨Q, X, eq, hQ⟩ := lehmer_small_spec dbg (r0 := r0.l0) (r1 := r1.l0) (by omega) (by omega)
    rw [e0, e1] at hQ
    exact ⟨Q, eq, Or.inr ⟨X, 0, hQ⟩, fun _ => hQ.ne_identity⟩
  · rw [if_neg h192]
    have big : ¬ r0.toNat < 2 ^ 64 := by
      have : 2 ^ 64 ≤ 2 ^ (255 - leading_zeros r0) := Nat.pow_le_pow_right (by norm_num) (by omega)
      omega
    obtain ⟨e0, e1, he0, he1, E0, E1, hm, hle⟩ := prefix_spec r0 r1 h hr0
    obtain ⟨Q, eQ, hQ⟩ := lehmer_loop_spec dbg hm hle
    rw [eQ, Option.bind_some]
    by_cases hid : Q = .IDENTITY
    · rw [if_pos hid]; exact ⟨Q, rfl, Or.inl hid, fun hc => absurd hc big⟩
    rw [if_neg hid]
    rcases hQ with hc | ⟨-, -, hQ⟩
    · exact absurd hc hid
    obtain ⟨X, Y, hst, hX⟩ := hQ _ _ _ he0 he1
    rw [← E0, ← E1] at hst
    obtain ⟨x, y, rfl, rfl, st⟩ := Step.unscale (by positivity) hst
    obtain ⟨ux, uy⟩ := lehmer_update_step (a := r0) (b := r1) (q := Q) st
    generalize hw1 : (lehmer_update r0 r1 Q).1 = w1 at *
    generalize hw2 : (lehmer_update r0 r1 Q).2 = w2 at *
    have hx0 : 0 < w1.toNat := by have := st.lt; omega
    obtain ⟨f0, f1, hf0, hf1, F0, F1, hm', hle'⟩ := prefix_spec w1 w2 (by rw [ux, uy]; exact st.lt.le) hx0
    obtain ⟨hs', hlo', hhi'⟩ := leading_zeros_spec w1 hx0
    obtain ⟨Qn, eQn, hQn⟩ := lehmer_loop_spec dbg hm' hle'
    rw [eQn, Option.bind_some]
    rcases hQn with rfl | ⟨bv, bu, hQn⟩
    · rw [matProd_id]
      exact ⟨Q, rfl, Or.inr ⟨x, y, st⟩, fun hc => absurd hc big⟩
    obtain ⟨Z, W, hst2, -⟩ := hQn _ _ _ hf0 hf1
    rw [← F0, ← F1] at hst2
    obtain ⟨z, w, rfl, rfl, st2⟩ := Step.unscale (by positivity) hst2
    rw [ux, uy] at st2
    have sc := st.comp st2
    -- the shift grew by at most 32
    have hshift : leading_zeros w1 ≤ leading_zeros r0 + 32 := by
      by_contra hc
      rw [ux] at hhi'
      have a1 : x * 2 ^ leading_zeros r0 < 2 ^ (256 - leading_zeros w1) * 2 ^ leading_zeros r0 :=
        Nat.mul_lt_mul_of_pos_right hhi' (by positivity)
      have a2 : 2 ^ (256 - leading_zeros w1) * 2 ^ leading_zeros r0 ≤ 2 ^ 223 := by
        rw [← pow_add]; exact Nat.pow_le_pow_right (by norm_num) (by omega)
      have a3 : 2 ^ 31 * 2 ^ 192 = 2 ^ 223 := by norm_num
      rw [a3] at hX
      omega
    -- bounds on the product
    have c0 : (shl w1 (leading_zeros w1)).l3.toNat * 2 ^ 192 ≤ x * 2 ^ leading_zeros w1 := by
      rw [← ux, F0]; exact Nat.le_add_right _ _
    have c1 : (shl w2 (leading_zeros w1)).l3.toNat * 2 ^ 192 ≤ y * 2 ^ leading_zeros w1 := by
      rw [← uy, F1]; exact Nat.le_add_right _ _
    have d0 : Qn.q11.toNat * 2 ^ 224 ≤ x * 2 ^ leading_zeros w1 := by
      have : (2:Nat) ^ 224 = 2 ^ 32 * 2 ^ 192 := by norm_num
      rw [this, ← Nat.mul_assoc]; exact le_trans (Nat.mul_le_mul_right _ bv) c0
    have d1 : Qn.q10.toNat * 2 ^ 224 ≤ y * 2 ^ leading_zeros w1 := by
      have : (2:Nat) ^ 224 = 2 ^ 32 * 2 ^ 192 := by norm_num
      rw [this, ← Nat.mul_assoc]; exact le_trans (Nat.mul_le_mul_right _ bu) c1
    have key : ∀ p p' : Nat, p' * x + p * y ≤ r0.toNat →
        Qn.q10.toNat * p + Qn.q11.toNat * p' < 2 ^ 64 := by
      intro p p' hp
      have e : (Qn.q10.toNat * p + Qn.q11.toNat * p') * 2 ^ 224 ≤ r0.toNat * 2 ^ leading_zeros w1 := by
        refine le_trans ?_ (Nat.mul_le_mul_right _ hp)
        rw [Nat.add_mul, Nat.add_mul, Nat.add_comm]
        refine Nat.add_le_add ?_ ?_
        · calc Qn.q11.toNat * p' * 2 ^ 224 = p' * (Qn.q11.toNat * 2 ^ 224) := by ring
            _ ≤ p' * (x * 2 ^ leading_zeros w1) := Nat.mul_le_mul_left _ d0
            _ = _ := by ring
        · calc Qn.q10.toNat * p * 2 ^ 224 = p * (Qn.q10.toNat * 2 ^ 224) := by ring
            _ ≤ p * (y * 2 ^ leading_zeros w1) := Nat.mul_le_mul_left _ d1
            _ = _ := by ring
      have e2 : r0.toNat * 2 ^ leading_zeros w1 < 2 ^ 64 * 2 ^ 224 := by
        calc r0.toNat * 2 ^ leading_zeros w1 ≤ r0.toNat * 2 ^ (leading_zeros r0 + 32) :=
              Nat.mul_le_mul_left _ (Nat.pow_le_pow_right (by norm_num) hshift)
          _ < 2 ^ (256 - leading_zeros r0) * 2 ^ (leading_zeros r0 + 32) :=
              Nat.mul_lt_mul_of_pos_right hhi (by positivity)
          _ = 2 ^ 64 * 2 ^ 224 := by rw [← pow_add, ← pow_add]; congr 1; omega
      exact Nat.lt_of_mul_lt_mul_right (lt_of_le_of_lt e e2)
    have V := key _ _ st.e0.symm.le
    have U := key _ _ (le_trans st.e1.symm.le h)
    obtain ⟨m0, g0, k0⟩ := dot2_ok dbg (lt_of_le_of_lt sc.mu U)
    obtain ⟨m1, g1, k1⟩ := dot2_ok dbg (lt_of_le_of_lt sc.mv V)
    obtain ⟨m2, g2, k2⟩ := dot2_ok dbg U
    obtain ⟨m3, g3, k3⟩ := dot2_ok dbg V
    have hp : MStep ⟨m0, m1, m2, m3, Qn.even ^^ !Q.even⟩ r0.toNat r1.toNat z w := by
      unfold MStep
      dsimp only
      rw [k0, k1, k2, k3]; exact sc
    refine ⟨_, ?_, Or.inr ⟨z, w, hp⟩, fun hc => absurd hc big⟩
    rw [matProd, g0, Option.bind_some, g1, Option.bind_some, g2, Option.bind_some, g3, Option.bind_some]

end U256
end OpenZKP
