import Verif.U256.Lehmer
import Verif.U256.LehmerMath
import Verif.U256.ShiftLemmas
import Verif.U256.DivRemLemmas

/-! # Lehmer's algorithm: the machine code computes valid steps -/

namespace OpenZKP
namespace U256

theorem cadd_ok (dbg : Bool) {a b : UInt64} (h : a.toNat + b.toNat < 2 ^ 64) :
    ∃ c, cadd dbg a b = some c ∧ c.toNat = a.toNat + b.toNat := by
  refine ⟨a + b, ?_, ?_⟩
  · unfold cadd; rw [if_neg]; simp; intro _; omega
  · rw [UInt64.toNat_add, Nat.mod_eq_of_lt h]

theorem csub_ok (dbg : Bool) {a b : UInt64} (h : b.toNat ≤ a.toNat) :
    ∃ c, csub dbg a b = some c ∧ c.toNat = a.toNat - b.toNat := by
  refine ⟨a - b, ?_, ?_⟩
  · unfold csub; rw [if_neg]; simp; intro _; omega
  · rw [UInt64.toNat_sub_of_le]; exact UInt64.le_iff_toNat_le.2 h

theorem cmul_ok (dbg : Bool) {a b : UInt64} (h : a.toNat * b.toNat < 2 ^ 64) :
    ∃ c, cmul dbg a b = some c ∧ c.toNat = a.toNat * b.toNat := by
  refine ⟨a * b, ?_, ?_⟩
  · unfold cmul; rw [if_neg]; simp; intro _; omega
  · rw [UInt64.toNat_mul, Nat.mod_eq_of_lt h]

theorem cdiv_ok {a b : UInt64} (h : 0 < b.toNat) :
    ∃ c, cdiv a b = some c ∧ c.toNat = a.toNat / b.toNat := by
  refine ⟨a / b, ?_, ?_⟩
  · unfold cdiv; rw [if_neg]; rintro rfl; simp at h
  · rw [UInt64.toNat_div]

theorem dassert_ok (dbg : Bool) {c : Bool} (h : c = true) : dassert dbg c = some () := by
  unfold dassert; subst h; simp

theorem div1Loop_spec (dbg : Bool) (b : UInt64) (hb : 0 < b.toNat) (n : Nat) (hn : n ≤ 19) (a : UInt64)
    (ha : 0 < n → b.toNat ≤ a.toNat) (hB : a.toNat + (19 - n) * b.toNat < 2 ^ 64) :
    ∃ q, div1Loop dbg b n a = some q ∧ q.toNat = (19 - n) + a.toNat / b.toNat := by
  induction n generalizing a with
  | zero =>
    obtain ⟨q, eq, hq⟩ := cdiv_ok (a := a) hb
    have h19 : (19 : UInt64).toNat = 19 := rfl
    have hle : 19 + a.toNat / b.toNat ≤ a.toNat + 19 * b.toNat := by
      have := Nat.div_le_self a.toNat b.toNat; nlinarith
    obtain ⟨c, ec, hc⟩ := cadd_ok dbg (a := 19) (b := q) (by rw [h19, hq]; omega)
    refine ⟨c, ?_, ?_⟩
    · rw [div1Loop, eq, Option.bind_some, ec]
    · rw [hc, h19, hq]
  | succ n ih =>
    have hba := ha (by omega)
    obtain ⟨a', ea, ha'⟩ := csub_ok dbg hba
    rw [div1Loop, ea, Option.bind_some]
    have hdiv : a.toNat / b.toNat = a'.toNat / b.toNat + 1 := by
      rw [ha', ← Nat.add_div_right _ hb, Nat.sub_add_cancel hba]
    by_cases hlt : a' < b
    · rw [if_pos hlt]
      refine ⟨_, rfl, ?_⟩
      have hlt' : a'.toNat < b.toNat := UInt64.lt_iff_toNat_lt.1 hlt
      rw [hdiv, Nat.div_eq_of_lt hlt', UInt64.toNat_ofNat', Nat.mod_eq_of_lt (by omega)]
      omega
    · rw [if_neg hlt]
      have hge : b.toNat ≤ a'.toNat := UInt64.le_iff_toNat_le.1 (UInt64.not_lt.1 hlt)
      obtain ⟨q, eq, hq⟩ := ih (by omega) a' (fun _ => hge) (by
        have : 19 - n = (19 - (n + 1)) + 1 := by omega
        rw [this, Nat.add_mul]; omega)
      refine ⟨q, eq, ?_⟩
      rw [hq, hdiv]; omega

theorem div1_spec (dbg : Bool) {a b : UInt64} (hb : 0 < b.toNat) (h : b.toNat ≤ a.toNat) :
    ∃ q, div1 dbg a b = some q ∧ q.toNat = a.toNat / b.toNat := by
  unfold div1
  rw [dassert_ok dbg (by simpa [UInt64.le_iff_toNat_le] using h), Option.bind_some,
    dassert_ok dbg (by simpa [UInt64.lt_iff_toNat_lt] using hb), Option.bind_some]
  have := div1Loop_spec dbg b hb 19 (le_refl _) a (fun _ => h) (by simpa using u64_lt a)
  simpa using this

theorem unrollLoop_spec (dbg : Bool) (a2 k2 : UInt64) (hb : 0 < a2.toNat) (n : Nat) (a3 k3 : UInt64)
    (ha : 0 < n → a2.toNat ≤ a3.toNat) (hB : k3.toNat + a3.toNat / a2.toNat * k2.toNat < 2 ^ 64) :
    ∃ w, unrollLoop dbg a2 k2 n a3 k3 = some w ∧ w.1.toNat = a3.toNat % a2.toNat ∧
      w.2.toNat = k3.toNat + a3.toNat / a2.toNat * k2.toNat := by
  induction n generalizing a3 k3 with
  | zero =>
    obtain ⟨q, eq, hq⟩ := cdiv_ok (a := a3) hb
    have hm := Nat.div_add_mod a3.toNat a2.toNat
    have h3 := u64_lt a3
    obtain ⟨p, ep, hp⟩ := cmul_ok dbg (a := q) (b := a2) (by rw [hq]; exact lt_of_le_of_lt (Nat.div_mul_le_self _ _) h3)
    obtain ⟨d, ed, hd⟩ := csub_ok dbg (a := a3) (b := p) (by rw [hp, hq]; exact Nat.div_mul_le_self _ _)
    obtain ⟨p', ep', hp'⟩ := cmul_ok dbg (a := q) (b := k2) (by rw [hq]; omega)
    obtain ⟨d', ed', hd'⟩ := cadd_ok dbg (a := k3) (b := p') (by rw [hp', hq]; omega)
    refine ⟨(d, d'), ?_, ?_, ?_⟩
    · rw [unrollLoop, eq, Option.bind_some, ep, Option.bind_some, ed, Option.bind_some, ep', Option.bind_some,
        ed', Option.bind_some]
    · show d.toNat = _
      rw [hd, hp, hq]; rw [Nat.mul_comm] at hm; omega
    · show d'.toNat = _
      rw [hd', hp', hq]
  | succ n ih =>
    have hba := ha (by omega)
    obtain ⟨a', ea, ha'⟩ := csub_ok dbg hba
    have hdiv : a3.toNat / a2.toNat = a'.toNat / a2.toNat + 1 := by
      rw [ha', ← Nat.add_div_right _ hb, Nat.sub_add_cancel hba]
    have hmod : a3.toNat % a2.toNat = a'.toNat % a2.toNat := by
      rw [ha', Nat.mod_eq_sub_mod hba]
    rw [hdiv, Nat.add_mul] at hB
    obtain ⟨k', ek, hk'⟩ := cadd_ok dbg (a := k3) (b := k2) (by omega)
    rw [unrollLoop, ea, Option.bind_some, ek, Option.bind_some]
    by_cases hlt : a' < a2
    · rw [if_pos hlt]
      have hlt' : a'.toNat < a2.toNat := UInt64.lt_iff_toNat_lt.1 hlt
      refine ⟨_, rfl, ?_, ?_⟩
      · rw [hmod, Nat.mod_eq_of_lt hlt']
      · show k'.toNat = _
        rw [hdiv, Nat.div_eq_of_lt hlt', hk']; omega
    · rw [if_neg hlt]
      have hge : a2.toNat ≤ a'.toNat := UInt64.le_iff_toNat_le.1 (UInt64.not_lt.1 hlt)
      obtain ⟨w, ew, h1, h2⟩ := ih a' k' (fun _ => hge) (by rw [hk']; omega)
      refine ⟨w, ew, by rw [h1, hmod], ?_⟩
      rw [h2, hk', hdiv, Nat.add_mul]; omega

theorem lehmer_unroll_spec (dbg : Bool) {a2 a3 k2 k3 : UInt64} (hb : 0 < a2.toNat)
    (h : a2.toNat < a3.toNat) (hB : k3.toNat + a3.toNat / a2.toNat * k2.toNat < 2 ^ 64) :
    ∃ w, lehmer_unroll dbg a2 a3 k2 k3 = some w ∧ w.1.toNat = a3.toNat % a2.toNat ∧
      w.2.toNat = k3.toNat + a3.toNat / a2.toNat * k2.toNat := by
  unfold lehmer_unroll
  rw [dassert_ok dbg (by simpa [UInt64.lt_iff_toNat_lt] using h), Option.bind_some,
    dassert_ok dbg (by simpa [UInt64.lt_iff_toNat_lt] using hb), Option.bind_some]
  exact unrollLoop_spec dbg a2 k2 hb 16 a3 k3 (fun _ => h.le) hB

theorem loopStep_spec (dbg : Bool) {x y k k' : UInt64} (hb : 0 < y.toNat) (h : y.toNat ≤ x.toNat)
    (hB : k.toNat + x.toNat / y.toNat * k'.toNat < 2 ^ 64) :
    ∃ w, loopStep dbg x y k k' = some w ∧ w.1.toNat = x.toNat % y.toNat ∧
      w.2.toNat = k.toNat + x.toNat / y.toNat * k'.toNat := by
  obtain ⟨q, eq, hq⟩ := div1_spec dbg hb h
  have hm := Nat.div_add_mod x.toNat y.toNat
  have h3 := u64_lt x
  obtain ⟨p, ep, hp⟩ := cmul_ok dbg (a := q) (b := y) (by rw [hq]; exact lt_of_le_of_lt (Nat.div_mul_le_self _ _) h3)
  obtain ⟨d, ed, hd⟩ := csub_ok dbg (a := x) (b := p) (by rw [hp, hq]; exact Nat.div_mul_le_self _ _)
  obtain ⟨p', ep', hp'⟩ := cmul_ok dbg (a := q) (b := k') (by rw [hq]; omega)
  obtain ⟨d', ed', hd'⟩ := cadd_ok dbg (a := k) (b := p') (by rw [hp', hq]; omega)
  refine ⟨(d, d'), ?_, ?_, ?_⟩
  · rw [loopStep, eq, Option.bind_some, ep, Option.bind_some, ed, Option.bind_some, ep', Option.bind_some,
      ed', Option.bind_some]
  · show d.toNat = _
    rw [hd, hp, hq]; rw [Nat.mul_comm] at hm; omega
  · show d'.toNat = _
    rw [hd', hp', hq]

theorem smallStep_spec (dbg : Bool) {x y s s' t t' : UInt64} (hb : 0 < y.toNat) (h : y.toNat ≤ x.toNat)
    (hs : s.toNat + x.toNat / y.toNat * s'.toNat < 2 ^ 64)
    (ht : t.toNat + x.toNat / y.toNat * t'.toNat < 2 ^ 64) :
    ∃ w, smallStep dbg x y s s' t t' = some w ∧ w.1.toNat = x.toNat % y.toNat ∧
      w.2.1.toNat = s.toNat + x.toNat / y.toNat * s'.toNat ∧
      w.2.2.toNat = t.toNat + x.toNat / y.toNat * t'.toNat := by
  obtain ⟨q, eq, hq⟩ := div1_spec dbg hb h
  have hm := Nat.div_add_mod x.toNat y.toNat
  have h3 := u64_lt x
  obtain ⟨p, ep, hp⟩ := cmul_ok dbg (a := q) (b := y) (by rw [hq]; exact lt_of_le_of_lt (Nat.div_mul_le_self _ _) h3)
  obtain ⟨d, ed, hd⟩ := csub_ok dbg (a := x) (b := p) (by rw [hp, hq]; exact Nat.div_mul_le_self _ _)
  obtain ⟨p', ep', hp'⟩ := cmul_ok dbg (a := q) (b := s') (by rw [hq]; omega)
  obtain ⟨d', ed', hd'⟩ := cadd_ok dbg (a := s) (b := p') (by rw [hp', hq]; omega)
  obtain ⟨p2, ep2, hp2⟩ := cmul_ok dbg (a := q) (b := t') (by rw [hq]; omega)
  obtain ⟨d2, ed2, hd2⟩ := cadd_ok dbg (a := t) (b := p2) (by rw [hp2, hq]; omega)
  refine ⟨(d, d', d2), ?_, ?_, ?_, ?_⟩
  · rw [smallStep, eq, Option.bind_some, ep, Option.bind_some, ed, Option.bind_some, ep', Option.bind_some,
      ed', Option.bind_some, ep2, Option.bind_some, ed2, Option.bind_some]
  · show d.toNat = _
    rw [hd, hp, hq]; rw [Nat.mul_comm] at hm; omega
  · show d'.toNat = _
    rw [hd', hp', hq]
  · show d2.toNat = _
    rw [hd2, hp2, hq]

/-- the step a `Matrix` of the code performs -/
def MStep (q : Matrix) (r0 r1 x y : Nat) : Prop :=
  Step q.q00.toNat q.q01.toNat q.q10.toNat q.q11.toNat q.even r0 r1 x y

theorem MStep.ne_identity {q : Matrix} {r0 r1 x y : Nat} (h : MStep q r0 r1 x y) : q ≠ .IDENTITY := by
  rintro rfl
  have := h.pu
  simp [Matrix.IDENTITY] at this

theorem smallLoop_spec (dbg : Bool) {A0 A1 : Nat} (hA0 : A0 < 2 ^ 64) (hA1 : A1 < 2 ^ 64) (fuel : Nat)
    (r0 r1 q00 q01 q10 q11 : UInt64) (hf : r1.toNat ≤ fuel) (hr : 0 < r1.toNat)
    (h : Pre q00.toNat q01.toNat q10.toNat q11.toNat true A0 A1 r0.toNat r1.toNat) :
    ∃ Q X, smallLoop dbg fuel r0 r1 q00 q01 q10 q11 = some Q ∧ MStep Q A0 A1 X 0 := by
  induction fuel generalizing r0 r1 q00 q01 q10 q11 with
  | zero => omega
  | succ fuel ih =>
    have s1 := h.step hr
    have bu := s1.bound_u; have bv := s1.bound_v
    obtain ⟨w, ew, w1, w2, w3⟩ := smallStep_spec dbg (x := r0) (y := r1) (s := q00) (s' := q10) (t := q01)
      (t' := q11) hr h.le (lt_of_le_of_lt (Nat.le_mul_of_pos_right _ hr) (lt_of_le_of_lt bu hA1))
      (lt_of_le_of_lt (Nat.le_mul_of_pos_right _ hr) (lt_of_le_of_lt bv hA0))
    rw [smallLoop, ew, Option.bind_some]
    rw [← w1, ← w2, ← w3] at s1
    by_cases h0 : w.1 = 0
    · rw [if_pos h0]
      refine ⟨_, r1.toNat, rfl, ?_⟩
      rw [h0] at s1
      exact s1
    · rw [if_neg h0]
      have hw : 0 < w.1.toNat := Nat.pos_of_ne_zero fun e => h0 (UInt64.toNat_inj.1 e)
      have s2 := s1.pre.step hw
      have bu := s2.bound_u; have bv := s2.bound_v
      obtain ⟨z, ez, z1, z2, z3⟩ := smallStep_spec dbg (x := r1) (y := w.1) (s := q10) (s' := w.2.1) (t := q11)
        (t' := w.2.2) hw s1.lt.le (lt_of_le_of_lt (Nat.le_mul_of_pos_right _ hw) (lt_of_le_of_lt bu hA1))
        (lt_of_le_of_lt (Nat.le_mul_of_pos_right _ hw) (lt_of_le_of_lt bv hA0))
      rw [ez, Option.bind_some]
      rw [← z1, ← z2, ← z3] at s2
      by_cases h1 : z.1 = 0
      · rw [if_pos h1]
        refine ⟨_, w.1.toNat, rfl, ?_⟩
        rw [h1] at s2
        exact s2
      · rw [if_neg h1]
        have hz : 0 < z.1.toNat := Nat.pos_of_ne_zero fun e => h1 (UInt64.toNat_inj.1 e)
        apply ih _ _ _ _ _ _ _ hz s2.pre
        have := s2.lt; have := s1.lt; omega

theorem lehmer_small_spec (dbg : Bool) {r0 r1 : UInt64} (h : r1.toNat ≤ r0.toNat) (hr : 0 < r1.toNat) :
    ∃ Q X, lehmer_small dbg r0 r1 = some Q ∧ MStep Q r0.toNat r1.toNat X 0 := by
  unfold lehmer_small
  rw [dassert_ok dbg (by simpa [UInt64.le_iff_toNat_le] using h), Option.bind_some,
    if_neg (by rintro rfl; simp at hr)]
  exact smallLoop_spec dbg (u64_lt r0) (u64_lt r1) _ _ _ _ _ _ _ (le_refl _) hr (Pre.id h)

end U256
end OpenZKP
