import Verif.U256.LehmerLemmas

/-! # `lehmer_loop`: the matrix found from the leading 64 bits is valid -/

namespace OpenZKP
namespace U256

/-- `k` packs the cofactors `u` and `v` -/
def Pk (k : UInt64) (u v : Nat) : Prop := k.toNat = u * 2 ^ 32 + v ∧ v < 2 ^ 32

theorem limit_toNat : LIMIT.toNat = 2 ^ 32 := by decide

theorem Pk.u_eq {k : UInt64} {u v : Nat} (h : Pk k u v) : (k >>> 32).toNat = u := by
  have h32 : (32 : UInt64).toNat % 64 = 32 := by decide
  rw [UInt64.toNat_shiftRight, h32, h.1, Nat.shiftRight_eq_div_pow]
  have := h.2; omega

theorem Pk.v_eq {k : UInt64} {u v : Nat} (h : Pk k u v) : (k % LIMIT).toNat = v := by
  rw [UInt64.toNat_mod, limit_toNat, h.1]
  have := h.2; omega

theorem Pk.u_lt {k : UInt64} {u v : Nat} (h : Pk k u v) : u < 2 ^ 32 := by
  have := u64_lt k; have := h.1; omega

/-- what `lehmer_loop` promises about its result, for every pair of numbers with leading words
`A0, A1` -/
def LOK (Q : Matrix) (A0 A1 : Nat) : Prop :=
  Q = .IDENTITY ∨
  (Q.q11.toNat * 2 ^ 32 ≤ A0 ∧ Q.q10.toNat * 2 ^ 32 ≤ A1 ∧
    ∀ K e0 e1, e0 < K → e1 < K →
      ∃ X Y, MStep Q (A0 * K + e0) (A1 * K + e1) X Y ∧ 2 ^ 31 * K ≤ X)

theorem LOK_of {Q : Matrix} {A0 A1 x y : Nat} (h : MStep Q A0 A1 x y) (hx : 2 ^ 32 ≤ x)
    (c1 : (if Q.even then Q.q10.toNat else Q.q11.toNat) ≤ y)
    (c2 : y + (if Q.even then Q.q01.toNat + Q.q11.toNat else Q.q00.toNat + Q.q10.toNat) ≤ x) :
    LOK Q A0 A1 := by
  right
  refine ⟨le_trans (Nat.mul_le_mul_left _ hx) h.bound_v, le_trans (Nat.mul_le_mul_left _ hx) h.bound_u, ?_⟩
  intro K e0 e1 he0 he1
  obtain ⟨X, Y, hs, hb⟩ := jebelean Q.even h.e0 h.e1 h.det h.mu h.mv h.pu h.pv c1 c2 he0 he1
  refine ⟨X, Y, hs, ?_⟩
  have := Nat.mul_le_mul_right K hx
  omega

/-- Loop invariant of `lehmer_loop`; `f` is the parity of the index of `k0`. -/
structure LInv (A0 A1 : Nat) (s : LState) (f : Bool) (u0 v0 u1 v1 u2 v2 u3 v3 x0 : Nat) : Prop where
  p0 : Pk s.k0 u0 v0
  p1 : Pk s.k1 u1 v1
  p2 : Pk s.k2 u2 v2
  p3 : Pk s.k3 u3 v3
  s0 : (u0 = 1 ∧ v0 = 0 ∧ u1 = 0 ∧ v1 = 1 ∧ f = true) ∨ Step u0 v0 u1 v1 f A0 A1 x0 s.a1.toNat
  s1 : Step u1 v1 u2 v2 (!f) A0 A1 s.a1.toNat s.a2.toNat
  s2 : Step u2 v2 u3 v3 f A0 A1 s.a2.toNat s.a3.toNat
  cu : u0 + u1 ≤ u2
  cv : v0 + v1 ≤ v2
  cx : s.a1.toNat + s.a2.toNat ≤ x0
  du : u1 + u2 ≤ u3
  dv : v1 + v2 ≤ v3
  dx : s.a2.toNat + s.a3.toNat ≤ s.a1.toNat
  lim : 2 ^ 32 ≤ s.a2.toNat

/-- packed Euclid step -/
theorem Pk.step {k k' w : UInt64} {u v u' v' q : Nat} (h : Pk k u v) (h' : Pk k' u' v')
    (hv : v + q * v' < 2 ^ 32) (hw : w.toNat = k.toNat + q * k'.toNat) :
    Pk w (u + q * u') (v + q * v') := by
  refine ⟨?_, hv⟩
  rw [hw, h.1, h'.1]; ring

theorem lt_of_bound {a x A : Nat} (h : a * x ≤ A) (hA : A < 2 ^ 64) (hx : 2 ^ 32 ≤ x) : a < 2 ^ 32 := by
  by_contra hc
  have : 2 ^ 32 * 2 ^ 32 ≤ a * x := Nat.mul_le_mul (by omega) hx
  omega

theorem packed_lt {k k' : UInt64} {u v u' v' q : Nat} (h : Pk k u v) (h' : Pk k' u' v')
    (hu : u + q * u' < 2 ^ 32) (hv : v + q * v' < 2 ^ 32) : k.toNat + q * k'.toNat < 2 ^ 64 := by
  rw [h.1, h'.1]
  have : u * 2 ^ 32 + v + q * (u' * 2 ^ 32 + v') = (u + q * u') * 2 ^ 32 + (v + q * v') := by ring
  rw [this]; omega

theorem lehmerHalf_spec (dbg : Bool) {A0 A1 : Nat} (hA0 : A0 < 2 ^ 64) (hA1 : A1 < 2 ^ 64) {s : LState}
    {f : Bool} {u0 v0 u1 v1 u2 v2 u3 v3 x0 : Nat} (h : LInv A0 A1 s f u0 v0 u1 v1 u2 v2 u3 v3 x0)
    (hl : 2 ^ 32 ≤ s.a3.toNat) :
    ∃ s' u4 v4, lehmerHalf dbg s = some s' ∧ s'.even = s.even ∧ s'.a3.toNat < s.a3.toNat ∧
      LInv A0 A1 s' (!f) u1 v1 u2 v2 u3 v3 u4 v4 s.a1.toNat := by
  have hpos : 0 < s.a3.toNat := by omega
  have st := h.s2.pre.step hpos
  have hv := lt_of_bound st.bound_v hA0 hl
  have hu := lt_of_bound st.bound_u hA1 hl
  obtain ⟨w, ew, w1, w2⟩ := lehmer_unroll_spec dbg (a2 := s.a3) (a3 := s.a2) (k2 := s.k3) (k3 := s.k2) hpos
    h.s2.lt (packed_lt h.p2 h.p3 hu hv)
  have q1 : 1 ≤ s.a2.toNat / s.a3.toNat := Nat.div_pos h.s2.lt.le hpos
  have hm := Nat.div_add_mod s.a2.toNat s.a3.toNat
  refine ⟨⟨s.a2, s.a3, w.1, s.k1, s.k2, s.k3, w.2, s.even⟩, u2 + s.a2.toNat / s.a3.toNat * u3,
    v2 + s.a2.toNat / s.a3.toNat * v3, ?_, rfl, ?_, ?_⟩
  · rw [lehmerHalf, ew, Option.bind_some]
  · show w.1.toNat < _
    rw [w1]; exact Nat.mod_lt _ hpos
  · refine ⟨h.p1, h.p2, h.p3, Pk.step h.p2 h.p3 hv w2, Or.inr h.s1, ?_, ?_, h.du, h.dv, h.dx, ?_, ?_, ?_, hl⟩
    · rw [Bool.not_not]; exact h.s2
    · show Step _ _ _ _ _ _ _ s.a3.toNat w.1.toNat
      rw [w1]; exact st
    · nlinarith
    · nlinarith
    · show s.a3.toNat + w.1.toNat ≤ s.a2.toNat
      rw [w1]; nlinarith

theorem lehmerWhile_spec (dbg : Bool) {A0 A1 : Nat} (hA0 : A0 < 2 ^ 64) (hA1 : A1 < 2 ^ 64) (fuel : Nat)
    {s : LState} {u0 v0 u1 v1 u2 v2 u3 v3 x0 : Nat} (hf : s.a3.toNat < fuel) (he : s.even = true)
    (h : LInv A0 A1 s true u0 v0 u1 v1 u2 v2 u3 v3 x0) :
    ∃ s', lehmerWhile dbg fuel s = some s' ∧ s'.a3.toNat < 2 ^ 32 ∧
      ∃ u0 v0 u1 v1 u2 v2 u3 v3 x0, LInv A0 A1 s' s'.even u0 v0 u1 v1 u2 v2 u3 v3 x0 := by
  induction fuel generalizing s u0 v0 u1 v1 u2 v2 u3 v3 x0 with
  | zero => omega
  | succ fuel ih =>
    rw [lehmerWhile]
    by_cases h1 : s.a3 < LIMIT
    · rw [if_pos h1]
      have := UInt64.lt_iff_toNat_lt.1 h1
      rw [limit_toNat] at this
      exact ⟨s, rfl, this, u0, v0, u1, v1, u2, v2, u3, v3, x0, by rw [he]; exact h⟩
    · rw [if_neg h1]
      have hl := UInt64.le_iff_toNat_le.1 (UInt64.not_lt.1 h1)
      rw [limit_toNat] at hl
      obtain ⟨s1, u4, v4, e1, ev1, d1, h1'⟩ := lehmerHalf_spec dbg hA0 hA1 h hl
      rw [e1, Option.bind_some]
      by_cases h2 : s1.a3 < LIMIT
      · rw [if_pos h2]
        have := UInt64.lt_iff_toNat_lt.1 h2
        rw [limit_toNat] at this
        exact ⟨{ s1 with even := false }, rfl, this, u1, v1, u2, v2, u3, v3, u4, v4, s.a1.toNat,
          ⟨h1'.p0, h1'.p1, h1'.p2, h1'.p3, h1'.s0, h1'.s1, h1'.s2, h1'.cu, h1'.cv, h1'.cx, h1'.du, h1'.dv,
            h1'.dx, h1'.lim⟩⟩
      · rw [if_neg h2]
        have hl2 := UInt64.le_iff_toNat_le.1 (UInt64.not_lt.1 h2)
        rw [limit_toNat] at hl2
        obtain ⟨s2, u5, v5, e2, ev2, d2, h2'⟩ := lehmerHalf_spec dbg hA0 hA1 h1' hl2
        rw [e2, Option.bind_some]
        exact ih (by omega) (by rw [ev2, ev1, he]) h2'

/-- make a matrix from packed words -/
theorem mstep_of {k k' : UInt64} {u v u' v' : Nat} {f : Bool} {A0 A1 x y : Nat} (p : Pk k u v) (p' : Pk k' u' v')
    (h : Step u v u' v' f A0 A1 x y) : MStep ⟨k >>> 32, k % LIMIT, k' >>> 32, k' % LIMIT, f⟩ A0 A1 x y := by
  unfold MStep
  dsimp only
  rw [p.u_eq, p.v_eq, p'.u_eq, p'.v_eq]; exact h

theorem lehmerFinish_spec (dbg : Bool) {A0 A1 : Nat} {s : LState}
    {u0 v0 u1 v1 u2 v2 u3 v3 x0 : Nat} (h : LInv A0 A1 s s.even u0 v0 u1 v1 u2 v2 u3 v3 x0)
    (hl : s.a3.toNat < 2 ^ 32) :
    ∃ Q, lehmerFinish dbg s = some Q ∧ LOK Q A0 A1 := by
  have lim := h.lim
  have hu3 := h.p3.u_lt; have hv3 := h.p3.2
  have cu := h.cu; have cv := h.cv; have cx := h.cx; have du := h.du; have dv := h.dv; have dx := h.dx
  have m2u := h.s2.mu; have m2v := h.s2.mv
  have lt1 := h.s1.lt; have lt2 := h.s2.lt
  have a1lt := u64_lt s.a1
  have eu0 := h.p0.u_eq; have ev0 := h.p0.v_eq
  have eu1 := h.p1.u_eq; have ev1 := h.p1.v_eq
  have eu2 := h.p2.u_eq; have ev2 := h.p2.v_eq
  have eu3 := h.p3.u_eq; have ev3 := h.p3.v_eq
  -- the three candidate matrices
  have M2 := mstep_of h.p2 h.p3 h.s2
  have M1 := mstep_of h.p1 h.p2 h.s1
  have K0 : LOK ⟨s.k0 >>> 32, s.k0 % LIMIT, s.k1 >>> 32, s.k1 % LIMIT, s.even⟩ A0 A1 := by
    rcases h.s0 with ⟨rfl, rfl, rfl, rfl, hf⟩ | h0
    · left
      rw [hf]
      have a0 : s.k0 >>> 32 = 1 := UInt64.toNat_inj.1 eu0
      have a1 : s.k0 % LIMIT = 0 := UInt64.toNat_inj.1 ev0
      have a2 : s.k1 >>> 32 = 0 := UInt64.toNat_inj.1 eu1
      have a3 : s.k1 % LIMIT = 1 := UInt64.toNat_inj.1 ev1
      rw [a0, a1, a2, a3]; rfl
    · refine LOK_of (mstep_of h.p0 h.p1 h0) (by omega) ?_ ?_
      · dsimp only; rw [eu1, ev1]; split <;> omega
      · dsimp only; rw [eu0, eu1, ev0, ev1]; split <;> omega
  unfold lehmerFinish
  dsimp only
  rw [dassert_ok dbg (by simpa [UInt64.le_iff_toNat_le, limit_toNat] using lim), Option.bind_some,
    dassert_ok dbg (by simpa [UInt64.lt_iff_toNat_lt, limit_toNat] using hl), Option.bind_some]
  obtain ⟨d1, e1, hd1⟩ := csub_ok dbg (a := s.a1) (b := s.a2) lt1.le
  obtain ⟨d2, e2, hd2⟩ := csub_ok dbg (a := s.a2) (b := s.a3) lt2.le
  obtain ⟨w1, f1, hw1⟩ := cadd_ok dbg (a := s.k2 >>> 32) (b := s.k1 >>> 32) (by rw [eu1, eu2]; omega)
  obtain ⟨w2, f2, hw2⟩ := cadd_ok dbg (a := s.k3 % LIMIT) (b := s.k2 % LIMIT) (by rw [ev3, ev2]; omega)
  obtain ⟨w3, f3, hw3⟩ := cadd_ok dbg (a := s.k2 % LIMIT) (b := s.k1 % LIMIT) (by rw [ev1, ev2]; omega)
  obtain ⟨w4, f4, hw4⟩ := cadd_ok dbg (a := s.k3 >>> 32) (b := s.k2 >>> 32) (by rw [eu3, eu2]; omega)
  rw [eu2, eu1] at hw1
  rw [ev3, ev2] at hw2
  rw [ev2, ev1] at hw3
  rw [eu3, eu2] at hw4
  rcases Bool.eq_false_or_eq_true s.even with hev | hev
  · rw [if_pos hev, dassert_ok dbg (by simp only [UInt64.le_iff_toNat_le, decide_eq_true_eq]; rw [ev2]; omega),
      Option.bind_some, e1, Option.bind_some, f1, Option.bind_some, e2, Option.bind_some, f2, Option.bind_some]
    rw [hev] at M1 M2 K0
    split_ifs with c1 c2
    · refine ⟨_, rfl, LOK_of M2 lim ?_ ?_⟩
      · rw [if_pos rfl]; exact UInt64.le_iff_toNat_le.1 c2.1
      · have := UInt64.le_iff_toNat_le.1 c2.2
        dsimp only; rw [if_pos rfl, ev2, ev3]; omega
    · refine ⟨_, rfl, LOK_of M1 (by omega) ?_ ?_⟩
      · dsimp only; rw [if_neg (by decide), ev2]; omega
      · have := UInt64.le_iff_toNat_le.1 c1
        dsimp only; rw [if_neg (by decide), eu1, eu2]; omega
    · exact ⟨_, rfl, K0⟩
  · rw [if_neg (by rw [hev]; decide), dassert_ok dbg (by simp only [UInt64.le_iff_toNat_le, decide_eq_true_eq]; rw [eu2]; omega),
      Option.bind_some, e1, Option.bind_some, f3, Option.bind_some, e2, Option.bind_some, f4, Option.bind_some]
    rw [hev] at M1 M2 K0
    split_ifs with c1 c2
    · refine ⟨_, rfl, LOK_of M2 lim ?_ ?_⟩
      · dsimp only; rw [if_neg (by decide)]; exact UInt64.le_iff_toNat_le.1 c2.1
      · have := UInt64.le_iff_toNat_le.1 c2.2
        dsimp only; rw [if_neg (by decide), eu2, eu3]; omega
    · refine ⟨_, rfl, LOK_of M1 (by omega) ?_ ?_⟩
      · dsimp only; rw [if_pos (by decide), eu2]; omega
      · have := UInt64.le_iff_toNat_le.1 c1
        dsimp only; rw [if_pos (by decide), ev1, ev2]; omega
    · exact ⟨_, rfl, K0⟩

theorem lehmer_loop_spec (dbg : Bool) {a0 a1 : UInt64} (h0 : 2 ^ 63 ≤ a0.toNat) (h : a1.toNat ≤ a0.toNat) :
    ∃ Q, lehmer_loop dbg a0 a1 = some Q ∧ LOK Q a0.toNat a1.toNat := by
  have hA0 := u64_lt a0; have hA1 := u64_lt a1
  have e63 : (0x8000000000000000 : UInt64).toNat = 2 ^ 63 := by decide
  unfold lehmer_loop
  dsimp only
  rw [dassert_ok dbg (by simpa [UInt64.le_iff_toNat_le, e63] using h0), Option.bind_some,
    dassert_ok dbg (by simpa [UInt64.le_iff_toNat_le] using h), Option.bind_some]
  by_cases h1 : a1 < LIMIT
  · rw [if_pos h1]; exact ⟨_, rfl, Or.inl rfl⟩
  rw [if_neg h1]
  have hl := UInt64.le_iff_toNat_le.1 (UInt64.not_lt.1 h1)
  rw [limit_toNat] at hl
  have hpos : 0 < a1.toNat := by omega
  have P0 : Pk LIMIT 1 0 := ⟨by rw [limit_toNat]; norm_num, by norm_num⟩
  have P1 : Pk 1 0 1 := ⟨by decide, by norm_num⟩
  have st := (Pre.id h).step hpos
  have hv := lt_of_bound st.bound_v hA0 hl
  have hu := lt_of_bound st.bound_u hA1 hl
  have q1 : 1 ≤ a0.toNat / a1.toNat := Nat.div_pos h hpos
  obtain ⟨w, ew, w1, w2⟩ := loopStep_spec dbg (k := LIMIT) (k' := 1) hpos h (packed_lt P0 P1 hu hv)
  rw [ew, Option.bind_some]
  have P2 := Pk.step P0 P1 hv w2
  rw [← w1] at st
  by_cases h2 : w.1 < LIMIT
  · rw [if_pos h2]
    obtain ⟨d, ed, hd⟩ := csub_ok dbg (a := a1) (b := w.1) st.lt.le
    rw [ed, Option.bind_some]
    split_ifs with c
    · have M := mstep_of P1 P2 st
      have z0 : (1 : UInt64) >>> 32 = 0 := by decide
      have z1 : (1 : UInt64) % LIMIT = 1 := by decide
      rw [z0, z1] at M
      have c1 := UInt64.le_iff_toNat_le.1 c.1
      have c2 := UInt64.le_iff_toNat_le.1 c.2
      refine ⟨_, rfl, LOK_of M hl ?_ ?_⟩
      · dsimp only; rw [if_neg (by decide)]; exact c1
      · dsimp only; rw [if_neg (by decide)]
        have : (0 : UInt64).toNat = 0 := rfl
        have := st.lt
        omega
    · exact ⟨_, rfl, Or.inl rfl⟩
  · rw [if_neg h2]
    have hl2 := UInt64.le_iff_toNat_le.1 (UInt64.not_lt.1 h2)
    rw [limit_toNat] at hl2
    have hpos2 : 0 < w.1.toNat := by omega
    have st2 := st.pre.step hpos2
    have hv2 := lt_of_bound st2.bound_v hA0 hl2
    have hu2 := lt_of_bound st2.bound_u hA1 hl2
    have q2 : 1 ≤ a1.toNat / w.1.toNat := Nat.div_pos st.lt.le hpos2
    obtain ⟨z, ez, z1, z2⟩ := loopStep_spec dbg (k := 1) (k' := w.2) hpos2 st.lt.le (packed_lt P1 P2 hu2 hv2)
    rw [ez, Option.bind_some]
    have P3 := Pk.step P1 P2 hv2 z2
    rw [← z1] at st2
    have hm := Nat.div_add_mod a0.toNat a1.toNat
    have hm2 := Nat.div_add_mod a1.toNat w.1.toNat
    have inv : LInv a0.toNat a1.toNat ⟨a1, w.1, z.1, LIMIT, 1, w.2, z.2, true⟩ true _ _ _ _ _ _ _ _ a0.toNat :=
      ⟨P0, P1, P2, P3, Or.inl ⟨rfl, rfl, rfl, rfl, rfl⟩, st, st2, by nlinarith, by nlinarith,
        by dsimp only; rw [w1]; nlinarith, by nlinarith, by nlinarith, by dsimp only; rw [z1]; nlinarith, hl2⟩
    obtain ⟨s, es, hs, u0, v0, u1, v1, u2, v2, u3, v3, x0, hi⟩ :=
      lehmerWhile_spec dbg hA0 hA1 (z.1.toNat + 1) (Nat.lt_succ_self _) rfl inv
    rw [es, Option.bind_some]
    exact lehmerFinish_spec dbg hi hs

end U256
end OpenZKP
