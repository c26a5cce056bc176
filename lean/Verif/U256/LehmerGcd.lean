import Verif.U256.LehmerDouble

/-! # `gcd`, `gcd_extended` and `inv_mod` -/

namespace OpenZKP
namespace U256

/-- congruence modulo `2^256` of a word and an integer -/
def Cong (x : U256) (n : Int) : Prop := ∃ k : Int, (x.toNat : Int) = n + 2 ^ 256 * k

theorem Cong.eq {x : U256} {n : Nat} (h : Cong x n) (hn : n < 2 ^ 256) : x.toNat = n := by
  obtain ⟨k, hk⟩ := h
  exact eq_of_mod (toNat_lt _) hn hk

theorem cong_sub_mul {a b q : U256} {m n : Int} (ha : Cong a m) (hb : Cong b n) :
    Cong (sub a (mul q b)) (m - q.toNat * n) := by
  obtain ⟨k, hk⟩ := ha
  obtain ⟨l, hl⟩ := hb
  have e1 := sub_mod a (mul q b)
  have e2 := mul_mod q b
  have d1 := Nat.div_add_mod (a.toNat + (2 ^ 256 - (mul q b).toNat)) (2 ^ 256)
  have d2 := Nat.div_add_mod (q.toNat * b.toNat) (2 ^ 256)
  rw [← e1] at d1
  rw [← e2] at d2
  have hlt := toNat_lt (mul q b)
  generalize (a.toNat + (2 ^ 256 - (mul q b).toNat)) / 2 ^ 256 = d at d1
  generalize (q.toNat * b.toNat) / 2 ^ 256 = e at d2
  obtain ⟨c, hc⟩ := Nat.exists_eq_add_of_le hlt.le
  have hc' : 2 ^ 256 - (mul q b).toNat = c := by omega
  rw [hc'] at d1
  zify at d1 d2 hc
  refine ⟨1 - d + e + k - q.toNat * l, ?_⟩
  linear_combination d1 - hc - d2 + hk - (q.toNat : Int) * hl

theorem cong_update {a b : U256} {q : Matrix} {m n : Int} (ha : Cong a m) (hb : Cong b n) :
    Cong (lehmer_update a b q).1 (sgn q.even * (q.q00.toNat * m - q.q01.toNat * n)) ∧
    Cong (lehmer_update a b q).2 (sgn q.even * (q.q11.toNat * n - q.q10.toNat * m)) := by
  obtain ⟨k, hk⟩ := ha
  obtain ⟨l, hl⟩ := hb
  obtain ⟨⟨i, hi⟩, ⟨j, hj⟩⟩ := lehmer_update_spec a b q
  constructor
  · refine ⟨i + sgn q.even * (q.q00.toNat * k - q.q01.toNat * l), ?_⟩
    rw [hi, hk, hl]; ring
  · refine ⟨j + sgn q.even * (q.q11.toNat * l - q.q10.toNat * k), ?_⟩
    rw [hj, hk, hl]; ring

/-- invariant of the extended Euclid loop started on `(A0, A1)` -/
structure EInv (A0 A1 : Nat) (x : ExtState) (u v u' v' : Nat) : Prop where
  st : (u = 1 ∧ v = 0 ∧ u' = 0 ∧ v' = 1 ∧ x.even = true ∧ x.r0.toNat = A0 ∧ x.r1.toNat = A1 ∧ A1 ≤ A0) ∨
    Step u v u' v' x.even A0 A1 x.r0.toNat x.r1.toNat
  s0 : Cong x.s0 (sgn x.even * u)
  s1 : Cong x.s1 (-(sgn x.even * u'))
  t0 : Cong x.t0 (-(sgn x.even * v))
  t1 : Cong x.t1 (sgn x.even * v')

theorem EInv.le {A0 A1 : Nat} {x : ExtState} {u v u' v' : Nat} (h : EInv A0 A1 x u v u' v') :
    x.r1.toNat ≤ x.r0.toNat := by
  rcases h.st with ⟨_, _, _, _, _, h0, h1, hle⟩ | hs
  · omega
  · exact hs.lt.le

theorem EInv.comp {A0 A1 : Nat} {x : ExtState} {u v u' v' a b c d : Nat} {g : Bool} {z w : Nat}
    (h : EInv A0 A1 x u v u' v') (k : Step a b c d g x.r0.toNat x.r1.toNat z w) :
    Step (a * u + b * u') (a * v + b * v') (c * u + d * u') (c * v + d * v') (x.even ^^ !g) A0 A1 z w := by
  rcases h.st with ⟨rfl, rfl, rfl, rfl, he, h0, h1, hle⟩ | hs
  · rw [h0, h1] at k
    rw [he]
    have : (true ^^ !g) = g := by cases g <;> rfl
    rw [this]
    simpa using k
  · have := hs.comp k
    have e : (g ^^ !x.even) = (x.even ^^ !g) := by cases g <;> cases x.even <;> rfl
    rwa [e] at this

/-- debug division that does not panic is right, and the release build agrees -/
theorem div_dbg {a b q : U256} (hb : 0 < b.toNat) (h : div true a b = some q) :
    q.toNat = a.toNat / b.toNat ∧ div false a b = some q := by
  have hs : SafeDiv 5 a.toNat b.toNat := by
    by_contra hc
    rw [div, (div_rem_spec true a b hb).2 hc] at h
    exact absurd h (by simp)
  obtain ⟨q1, r1, e1, h1, -⟩ := (div_rem_spec true a b hb).1 hs
  obtain ⟨q2, r2, e2, h2, -⟩ := (div_rem_spec false a b hb).1 hs
  rw [div, e1] at h
  simp only [Option.some.injEq] at h
  subst h
  refine ⟨h1, ?_⟩
  rw [div, e2]
  simp only [Option.some.injEq]
  exact toNat_inj (h2.trans h1.symm)

theorem rem_dbg {a b r : U256} (hb : 0 < b.toNat) (h : rem true a b = some r) :
    r.toNat = a.toNat % b.toNat ∧ rem false a b = some r := by
  have hs : SafeDiv 5 a.toNat b.toNat := by
    by_contra hc
    rw [rem, (div_rem_spec true a b hb).2 hc] at h
    exact absurd h (by simp)
  obtain ⟨q1, r1, e1, -, h1⟩ := (div_rem_spec true a b hb).1 hs
  obtain ⟨q2, r2, e2, -, h2⟩ := (div_rem_spec false a b hb).1 hs
  rw [rem, e1] at h
  simp only [Option.some.injEq] at h
  subst h
  refine ⟨h1, ?_⟩
  rw [rem, e2]
  simp only [Option.some.injEq]
  exact toNat_inj (h2.trans h1.symm)

theorem euclid_step {r0 r1 : Nat} (h : r1 ≤ r0) (hr : 0 < r1) :
    Step 0 1 1 (r0 / r1) false r0 r1 r1 (r0 % r1) where
  e0 := by have := Nat.div_add_mod r0 r1; rw [Nat.mul_comm] at this; omega
  e1 := by ring
  det := by simp [sgn]
  lt := Nat.mod_lt _ hr
  mu := by omega
  mv := Nat.div_pos h hr
  pu := le_refl _
  pv := Nat.div_pos h hr

theorem EInv.euclid {A0 A1 : Nat} {x : ExtState} {u v u' v' : Nat} (h : EInv A0 A1 x u v u' v') {q : U256}
    (hr : 0 < x.r1.toNat) (hq : q.toNat = x.r0.toNat / x.r1.toNat) :
    ∃ u v u' v', EInv A0 A1 (extEuclid x q) u v u' v' ∧
      (extEuclid x q).r1.toNat < x.r1.toNat := by
  have es := euclid_step h.le hr
  have hc := h.comp es
  have er : (sub x.r0 (mul q x.r1)).toNat = x.r0.toNat % x.r1.toNat := by
    have c := cong_sub_mul (q := q) (a := x.r0) (b := x.r1) (m := x.r0.toNat) (n := x.r1.toNat)
      ⟨0, by ring⟩ ⟨0, by ring⟩
    have e : (x.r0.toNat : Int) - q.toNat * x.r1.toNat = ((x.r0.toNat % x.r1.toNat : Nat) : Int) := by
      have := Nat.div_add_mod x.r0.toNat x.r1.toNat
      rw [hq]
      generalize x.r0.toNat % x.r1.toNat = m at *
      zify at this ⊢
      linear_combination -this
    rw [e] at c
    have := Nat.mod_lt x.r0.toNat hr
    have := toNat_lt x.r1
    exact c.eq (by omega)
  have hn : sgn (!x.even) = - sgn x.even := by cases x.even <;> decide
  have he : (x.even ^^ !false) = !x.even := by cases x.even <;> rfl
  rw [he] at hc
  refine ⟨0 * u + 1 * u', 0 * v + 1 * v', 1 * u + x.r0.toNat / x.r1.toNat * u',
    1 * v + x.r0.toNat / x.r1.toNat * v', ⟨Or.inr ?_, ?_, ?_, ?_, ?_⟩, ?_⟩
  · show Step _ _ _ _ (!x.even) A0 A1 x.r1.toNat (sub x.r0 (mul q x.r1)).toNat
    rw [er]; exact hc
  · show Cong x.s1 _
    have := h.s1
    rw [show (extEuclid x q).even = !x.even from rfl, hn]
    convert this using 1; push_cast; ring
  · show Cong (sub x.s0 (mul q x.s1)) _
    have := cong_sub_mul (q := q) h.s0 h.s1
    rw [show (extEuclid x q).even = !x.even from rfl, hn]
    convert this using 1; rw [hq]; push_cast; ring
  · show Cong x.t1 _
    have := h.t1
    rw [show (extEuclid x q).even = !x.even from rfl, hn]
    convert this using 1; push_cast; ring
  · show Cong (sub x.t0 (mul q x.t1)) _
    have := cong_sub_mul (q := q) h.t0 h.t1
    rw [show (extEuclid x q).even = !x.even from rfl, hn]
    convert this using 1; rw [hq]; push_cast; ring
  · show (sub x.r0 (mul q x.r1)).toNat < _
    rw [er]; exact Nat.mod_lt _ hr

theorem EInv.lehmer {A0 A1 : Nat} {x : ExtState} {u v u' v' : Nat} (h : EInv A0 A1 x u v u' v') {q : Matrix}
    {z w : Nat} (hq : MStep q x.r0.toNat x.r1.toNat z w) :
    ∃ u v u' v', EInv A0 A1 (extLehmer x q) u v u' v' ∧ (extLehmer x q).r1.toNat < x.r1.toNat := by
  have hc := h.comp hq
  obtain ⟨e0, e1⟩ := lehmer_update_step hq
  obtain ⟨cs0, cs1⟩ := cong_update (q := q) h.s0 h.s1
  obtain ⟨ct0, ct1⟩ := cong_update (q := q) h.t0 h.t1
  have hs := sgn_mul x.even q.even
  refine ⟨q.q00.toNat * u + q.q01.toNat * u', q.q00.toNat * v + q.q01.toNat * v',
    q.q10.toNat * u + q.q11.toNat * u', q.q10.toNat * v + q.q11.toNat * v', ⟨Or.inr ?_, ?_, ?_, ?_, ?_⟩, ?_⟩
  · show Step _ _ _ _ (x.even ^^ !q.even) A0 A1 (lehmer_update x.r0 x.r1 q).1.toNat (lehmer_update x.r0 x.r1 q).2.toNat
    rw [e0, e1]; exact hc
  · show Cong (lehmer_update x.s0 x.s1 q).1 _
    rw [show (extLehmer x q).even = (x.even ^^ !q.even) from rfl, hs]
    convert cs0 using 1; push_cast; ring
  · show Cong (lehmer_update x.s0 x.s1 q).2 _
    rw [show (extLehmer x q).even = (x.even ^^ !q.even) from rfl, hs]
    convert cs1 using 1; push_cast; ring
  · show Cong (lehmer_update x.t0 x.t1 q).1 _
    rw [show (extLehmer x q).even = (x.even ^^ !q.even) from rfl, hs]
    convert ct0 using 1; push_cast; ring
  · show Cong (lehmer_update x.t0 x.t1 q).2 _
    rw [show (extLehmer x q).even = (x.even ^^ !q.even) from rfl, hs]
    convert ct1 using 1; push_cast; ring
  · show (lehmer_update x.r0 x.r1 q).2.toNat < _
    rw [e1]; exact hq.y_lt_r1

theorem ne_zero_pos {x : U256} (h : x ≠ ZERO) : 0 < x.toNat := by
  rcases Nat.eq_zero_or_pos x.toNat with h0 | h0
  · exact absurd (toNat_inj (h0.trans zero_toNat.symm)) h
  · exact h0

/-- A computation that gives the same result in the release profile whenever the debug profile does not
panic. -/
def Mono {α : Type} (f : Bool → Option α) : Prop := ∀ y, f true = some y → f false = some y

theorem Mono.const {α : Type} (a : Option α) : Mono fun _ => a := fun _ h => h

theorem Mono.bind {α β : Type} {f : Bool → Option α} {g : Bool → α → Option β} (hf : Mono f)
    (hg : ∀ a, Mono fun d => g d a) : Mono fun d => (f d).bind (g d) := by
  intro y h
  rcases e : f true with _ | a
  · simp only [e, Option.bind_none] at h; exact absurd h (by simp)
  · simp only [e, Option.bind_some] at h
    simp only [hf a e, Option.bind_some]
    exact hg a y h

theorem Mono.ite {α : Type} {c : Prop} [Decidable c] {f g : Bool → Option α} (hf : Mono f) (hg : Mono g) :
    Mono fun d => if c then f d else g d := by
  intro y h
  by_cases hc : c
  · simp only [if_pos hc] at h ⊢; exact hf y h
  · simp only [if_neg hc] at h ⊢; exact hg y h

theorem mono_cadd (a b : UInt64) : Mono fun d => cadd d a b := by
  intro y h; simp only [cadd] at h ⊢; split at h <;> simp_all
theorem mono_csub (a b : UInt64) : Mono fun d => csub d a b := by
  intro y h; simp only [csub] at h ⊢; split at h <;> simp_all
theorem mono_cmul (a b : UInt64) : Mono fun d => cmul d a b := by
  intro y h; simp only [cmul] at h ⊢; split at h <;> simp_all
theorem mono_dassert (c : Bool) : Mono fun d => dassert d c := by
  intro y h; simp only [dassert] at h ⊢; split at h <;> simp_all

theorem mono_div1 (a b : UInt64) : Mono fun d => div1 d a b := by
  have hl : ∀ n a, Mono fun d => div1Loop d b n a := by
    intro n
    induction n with
    | zero => intro a; exact (Mono.const _).bind fun q => mono_cadd _ _
    | succ n ih => intro a; exact (mono_csub _ _).bind fun a => (Mono.const _).ite (ih a)
  exact (mono_dassert _).bind fun _ => (mono_dassert _).bind fun _ => hl _ _

theorem mono_unroll (a2 a3 k2 k3 : UInt64) : Mono fun d => lehmer_unroll d a2 a3 k2 k3 := by
  have hl : ∀ n a3 k3, Mono fun d => unrollLoop d a2 k2 n a3 k3 := by
    intro n
    induction n with
    | zero =>
      intro a3 k3
      exact (Mono.const _).bind fun q => (mono_cmul _ _).bind fun _ => (mono_csub _ _).bind fun _ =>
        (mono_cmul _ _).bind fun _ => (mono_cadd _ _).bind fun _ => Mono.const _
    | succ n ih =>
      intro a3 k3
      exact (mono_csub _ _).bind fun _ => (mono_cadd _ _).bind fun _ => (Mono.const _).ite (ih _ _)
  exact (mono_dassert _).bind fun _ => (mono_dassert _).bind fun _ => hl _ _ _

theorem mono_smallStep (x y s s' t t' : UInt64) : Mono fun d => smallStep d x y s s' t t' :=
  (mono_div1 _ _).bind fun _ => (mono_cmul _ _).bind fun _ => (mono_csub _ _).bind fun _ =>
  (mono_cmul _ _).bind fun _ => (mono_cadd _ _).bind fun _ =>
  (mono_cmul _ _).bind fun _ => (mono_cadd _ _).bind fun _ => Mono.const _

theorem mono_loopStep (x y k k' : UInt64) : Mono fun d => loopStep d x y k k' :=
  (mono_div1 _ _).bind fun _ => (mono_cmul _ _).bind fun _ => (mono_csub _ _).bind fun _ =>
  (mono_cmul _ _).bind fun _ => (mono_cadd _ _).bind fun _ => Mono.const _

theorem mono_small (r0 r1 : UInt64) : Mono fun d => lehmer_small d r0 r1 := by
  have hl : ∀ n a b c d e f, Mono fun dbg => smallLoop dbg n a b c d e f := by
    intro n
    induction n with
    | zero => intro a b c d e f; exact Mono.const _
    | succ n ih =>
      intro a b c d e f
      exact (mono_smallStep _ _ _ _ _ _).bind fun _ => (Mono.const _).ite
        ((mono_smallStep _ _ _ _ _ _).bind fun _ => (Mono.const _).ite (ih _ _ _ _ _ _))
  exact (mono_dassert _).bind fun _ => (Mono.const _).ite (hl _ _ _ _ _ _ _)

theorem mono_while (n : Nat) (s : LState) : Mono fun d => lehmerWhile d n s := by
  have hh : ∀ s, Mono fun d => lehmerHalf d s := fun s => (mono_unroll _ _ _ _).bind fun _ => Mono.const _
  induction n generalizing s with
  | zero => exact Mono.const _
  | succ n ih =>
    exact (Mono.const _).ite ((hh _).bind fun _ => (Mono.const _).ite ((hh _).bind fun _ => ih _))

theorem mono_finish (s : LState) : Mono fun d => lehmerFinish d s :=
  (mono_dassert _).bind fun _ => (mono_dassert _).bind fun _ => Mono.ite
    ((mono_dassert _).bind fun _ => (mono_csub _ _).bind fun _ => (mono_cadd _ _).bind fun _ => Mono.ite
      ((mono_csub _ _).bind fun _ => (mono_cadd _ _).bind fun _ => (Mono.const _).ite (Mono.const _))
      (Mono.const _))
    ((mono_dassert _).bind fun _ => (mono_csub _ _).bind fun _ => (mono_cadd _ _).bind fun _ => Mono.ite
      ((mono_csub _ _).bind fun _ => (mono_cadd _ _).bind fun _ => (Mono.const _).ite (Mono.const _))
      (Mono.const _))

theorem mono_loop (a0 a1 : UInt64) : Mono fun d => lehmer_loop d a0 a1 :=
  (mono_dassert _).bind fun _ => (mono_dassert _).bind fun _ => (Mono.const _).ite <|
    (mono_loopStep _ _ _ _).bind fun _ => Mono.ite
      ((mono_csub _ _).bind fun _ => (Mono.const _).ite (Mono.const _))
      ((mono_loopStep _ _ _ _).bind fun _ => (mono_while _ _).bind fun _ => mono_finish _)

theorem mono_matProd (p q : Matrix) : Mono fun d => matProd d p q := by
  have hd : ∀ a b c d, Mono fun dbg => dot2 dbg a b c d := fun a b c d =>
    (mono_cmul _ _).bind fun _ => (mono_cmul _ _).bind fun _ => mono_cadd _ _
  exact (hd _ _ _ _).bind fun _ => (hd _ _ _ _).bind fun _ => (hd _ _ _ _).bind fun _ =>
    (hd _ _ _ _).bind fun _ => Mono.const _

theorem mono_double (r0 r1 : U256) : Mono fun d => lehmer_double d r0 r1 :=
  (mono_dassert _).bind fun _ => Mono.ite
    ((mono_dassert _).bind fun _ => (mono_dassert _).bind fun _ => mono_small _ _)
    ((mono_loop _ _).bind fun _ => (Mono.const _).ite ((mono_loop _ _).bind fun _ => mono_matProd _ _))

/-- both profiles compute the same Lehmer matrix -/
theorem lehmer_double_both {r0 r1 : U256} (h : r1.toNat ≤ r0.toNat) (hr : 0 < r1.toNat) :
    ∃ Q, (∀ dbg, lehmer_double dbg r0 r1 = some Q) ∧
      (Q = .IDENTITY ∨ ∃ x y, MStep Q r0.toNat r1.toNat x y) ∧
      (r0.toNat < 2 ^ 64 → Q ≠ .IDENTITY) := by
  obtain ⟨Q, e, hQ⟩ := lehmer_double_spec true h hr
  refine ⟨Q, fun dbg => ?_, hQ⟩
  cases dbg
  · exact mono_double r0 r1 Q e
  · exact e

theorem extLoop_spec {A0 A1 : Nat} (fuel : Nat) (x y : ExtState) {u v u' v' : Nat}
    (h : EInv A0 A1 x u v u' v') (hf : x.r1.toNat ≤ fuel) (hy : extLoop true fuel x = some y) :
    extLoop false fuel x = some y ∧ y.r1.toNat = 0 ∧ ∃ u v u' v', EInv A0 A1 y u v u' v' := by
  induction fuel generalizing x u v u' v' with
  | zero =>
    have h0 : x.r1 = ZERO := toNat_inj (by rw [zero_toNat]; omega)
    rw [extLoop, if_pos h0] at hy ⊢
    simp only [Option.some.injEq] at hy
    subst hy
    exact ⟨rfl, by omega, _, _, _, _, h⟩
  | succ fuel ih =>
    by_cases h0 : x.r1 = ZERO
    · rw [extLoop, if_pos h0] at hy ⊢
      simp only [Option.some.injEq] at hy
      subst hy
      exact ⟨rfl, by rw [h0, zero_toNat], _, _, _, _, h⟩
    · rw [extLoop, if_neg h0] at hy ⊢
      have hpos := ne_zero_pos h0
      obtain ⟨Q, eQ, hQ, -⟩ := lehmer_double_both h.le hpos
      rw [eQ, Option.bind_some] at hy ⊢
      by_cases hid : Q = .IDENTITY
      · rw [if_pos hid] at hy ⊢
        rcases hd : div true x.r0 x.r1 with _ | q
        · rw [hd] at hy; exact absurd hy (by simp)
        · rw [hd, Option.bind_some] at hy
          obtain ⟨hq, hd'⟩ := div_dbg hpos hd
          rw [hd', Option.bind_some]
          obtain ⟨_, _, _, _, hi, hlt⟩ := h.euclid hpos hq
          exact ih _ hi (by omega) hy
      · rw [if_neg hid] at hy ⊢
        rcases hQ with hc | ⟨z, w, hQ⟩
        · exact absurd hc hid
        · obtain ⟨_, _, _, _, hi, hlt⟩ := h.lehmer hQ
          exact ih _ hi (by omega) hy

/-- on one-limb numbers no full-precision division happens, so nothing panics -/
theorem extLoop_small (dbg : Bool) {A0 A1 : Nat} (hA : A0 < 2 ^ 64) (fuel : Nat) (x : ExtState) {u v u' v' : Nat}
    (h : EInv A0 A1 x u v u' v') (hf : x.r1.toNat ≤ fuel) : ∃ y, extLoop dbg fuel x = some y := by
  induction fuel generalizing x u v u' v' with
  | zero =>
    have h0 : x.r1 = ZERO := toNat_inj (by rw [zero_toNat]; omega)
    rw [extLoop, if_pos h0]; exact ⟨_, rfl⟩
  | succ fuel ih =>
    by_cases h0 : x.r1 = ZERO
    · rw [extLoop, if_pos h0]; exact ⟨_, rfl⟩
    · rw [extLoop, if_neg h0]
      have hpos := ne_zero_pos h0
      obtain ⟨Q, eQ, hQ, hn⟩ := lehmer_double_both h.le hpos
      have hr0 : x.r0.toNat < 2 ^ 64 := by
        rcases h.st with ⟨_, _, _, _, _, h0, _⟩ | hs
        · omega
        · have := hs.x_le_r0; omega
      have hid := hn hr0
      rw [eQ, Option.bind_some, if_neg hid]
      rcases hQ with hc | ⟨z, w, hQ⟩
      · exact absurd hc hid
      · obtain ⟨_, _, _, _, hi, hlt⟩ := h.lehmer hQ
        exact ih _ hi (by omega)

theorem invLoop_eq (dbg : Bool) (fuel : Nat) (x : ExtState) :
    invLoop dbg fuel x.r0 x.r1 x.t0 x.t1 x.even = (extLoop dbg fuel x).map fun y => (y.r0, y.t0, y.even) := by
  induction fuel generalizing x with
  | zero => rw [invLoop, extLoop]; split_ifs <;> rfl
  | succ fuel ih =>
    rw [invLoop, extLoop]
    split_ifs with h0
    · rfl
    · rcases lehmer_double dbg x.r0 x.r1 with _ | Q
      · rfl
      · simp only [Option.bind_some]
        split_ifs with hid
        · rcases div dbg x.r0 x.r1 with _ | q
          · rfl
          · simp only [Option.bind_some]
            exact ih (extEuclid x q)
        · exact ih (extLehmer x Q)

theorem gcdLoop_eq (dbg : Bool) (fuel : Nat) (x : ExtState) :
    gcdLoop dbg fuel x.r0 x.r1 = (extLoop dbg fuel x).map fun y => y.r0 := by
  induction fuel generalizing x with
  | zero => rw [gcdLoop, extLoop]; split_ifs <;> rfl
  | succ fuel ih =>
    rw [gcdLoop, extLoop]
    split_ifs with h0
    · rfl
    · rcases lehmer_double dbg x.r0 x.r1 with _ | Q
      · rfl
      · simp only [Option.bind_some]
        split_ifs with hid
        · rcases div dbg x.r0 x.r1 with _ | q
          · rfl
          · simp only [Option.bind_some]
            exact ih (extEuclid x q)
        · exact ih (extLehmer x Q)

theorem EInv.init {r0 r1 : U256} (h : r1.toNat ≤ r0.toNat) :
    EInv r0.toNat r1.toNat ⟨r0, r1, ONE, ZERO, ZERO, ONE, true⟩ 1 0 0 1 where
  st := Or.inl ⟨rfl, rfl, rfl, rfl, rfl, rfl, rfl, h⟩
  s0 := ⟨0, by rw [one_toNat]; simp [sgn]⟩
  s1 := ⟨0, by rw [zero_toNat]; simp⟩
  t0 := ⟨0, by rw [zero_toNat]; simp⟩
  t1 := ⟨0, by rw [one_toNat]; simp [sgn]⟩

/-- what the finished loop has computed -/
theorem EInv.final {A0 A1 : Nat} {x : ExtState} {u v u' v' : Nat} (h : EInv A0 A1 x u v u' v')
    (h0 : x.r1.toNat = 0) :
    x.r0.toNat = Nat.gcd A0 A1 ∧ A0 = v' * x.r0.toNat ∧ A1 = u' * x.r0.toNat ∧
      (x.r0.toNat : Int) = sgn x.even * (u * A0 - v * A1) ∧ v ≤ v' ∧ (u ≤ u' ∨ u = 1) ∧
      (u * v' - v * u' : Int) = sgn x.even := by
  rcases h.st with ⟨rfl, rfl, rfl, rfl, he, e0, e1, hle⟩ | hs
  · rw [h0] at e1
    subst e1
    subst e0
    rw [he]
    refine ⟨by simp, by ring, by ring, by simp [sgn], by omega, Or.inr rfl, by simp [sgn]⟩
  · have g := hs.gcd_eq
    rw [h0, Nat.gcd_zero_right] at g
    have e0 := hs.e0; have e1 := hs.e1
    rw [h0] at e0 e1
    exact ⟨g, by omega, by omega, hs.x_eq, hs.mv, Or.inl hs.mu, hs.det⟩

end U256
end OpenZKP
