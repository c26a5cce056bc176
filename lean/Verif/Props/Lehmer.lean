import Verif.U256.LehmerGcd
import Verif.U256.Montgomery

/-!
# Property C08: gcd, extended gcd and modular inverse

Because the full-precision division of `division.rs` is wrong on rare operands (C03), each theorem reads:
for all inputs, either the debug build panics (and the release build may then return a wrong result, see
`C08_violated`), or both builds return the same, correct, result.  `C08_small` has no such exception.
-/

namespace OpenZKP.Props
open OpenZKP U256

theorem fuel_eq (r : U256) :
    r.l0.toNat + 2 ^ 64 * r.l1.toNat + 2 ^ 128 * r.l2.toNat + 2 ^ 192 * r.l3.toNat = r.toNat := rfl

theorem gcdLoop_run {r0 r1 : U256} (h : r1.toNat ≤ r0.toNat) :
    gcdLoop true r1.toNat r0 r1 = none ∨
    ∃ g : U256, (∀ dbg, gcdLoop dbg r1.toNat r0 r1 = some g) ∧ g.toNat = Nat.gcd r0.toNat r1.toNat := by
  have hd := fun dbg => gcdLoop_eq dbg r1.toNat ⟨r0, r1, ONE, ZERO, ZERO, ONE, true⟩
  dsimp only at hd
  rcases hr : extLoop true r1.toNat ⟨r0, r1, ONE, ZERO, ZERO, ONE, true⟩ with _ | y
  · left; rw [hd, hr]; rfl
  · right
    obtain ⟨h1, h2, u, v, u', v', hi⟩ := extLoop_spec _ _ _ (EInv.init h) (le_refl _) hr
    refine ⟨y.r0, fun dbg => ?_, (hi.final h2).1⟩
    cases dbg
    · rw [hd, h1]; rfl
    · rw [hd, hr]; rfl

/-- C08 (partial: inputs on which the debug build panics are left out): `gcd`. -/
theorem C08_gcd_partial (a b : U256) :
    gcd true a b = none ∨
    ∃ g : U256, (∀ dbg, gcd dbg a b = some g) ∧ g.toNat = Nat.gcd a.toNat b.toNat := by
  unfold gcd
  simp only [fuel_eq]
  by_cases h : gt b a = true
  · simp only [if_pos h]
    have := (gt_iff _ _).1 h
    rcases gcdLoop_run (r0 := b) (r1 := a) (by omega) with h1 | ⟨g, h1, h2⟩
    · exact Or.inl h1
    · exact Or.inr ⟨g, h1, by rw [h2, Nat.gcd_comm]⟩
  · simp only [if_neg h]
    have : ¬ a.toNat < b.toNat := fun hc => h ((gt_iff _ _).2 hc)
    exact gcdLoop_run (by omega)

theorem extGcd_run {r0 r1 : U256} (h : r1.toNat ≤ r0.toNat) {y : ExtState}
    (hr : extLoop true r1.toNat ⟨r0, r1, ONE, ZERO, ZERO, ONE, true⟩ = some y) :
    extLoop false r1.toNat ⟨r0, r1, ONE, ZERO, ZERO, ONE, true⟩ = some y ∧
    y.r0.toNat = Nat.gcd r0.toNat r1.toNat ∧
    ∃ u v : Nat, (y.r0.toNat : Int) = sgn y.even * (u * r0.toNat - v * r1.toNat) ∧
      (if y.even then y.s0 else sub ZERO y.s0).toNat = u ∧
      (if y.even then sub ZERO y.t0 else y.t0).toNat = v ∧
      u ≤ max 1 r1.toNat ∧ v ≤ r0.toNat := by
  obtain ⟨h1, h2, u, v, u', v', hi⟩ := extLoop_spec _ _ _ (EInv.init h) (le_refl _) hr
  obtain ⟨f1, f2, f3, f4, f5, f6, f7⟩ := hi.final h2
  have hz : ∀ (w : U256) (n : Int), Cong w n → Cong (sub ZERO w) (-n) := by
    intro w n hw
    obtain ⟨k, hk⟩ := hw
    have e := sub_mod ZERO w
    rw [zero_toNat, Nat.zero_add] at e
    have hl := toNat_lt w
    obtain ⟨c, hc⟩ := Nat.exists_eq_add_of_le hl.le
    have hc' : 2 ^ 256 - w.toNat = c := by omega
    have d := Nat.div_add_mod c (2 ^ 256)
    rw [hc'] at e
    rw [← e] at d
    refine ⟨1 - (c / 2 ^ 256 : Nat) - k, ?_⟩
    generalize c / 2 ^ 256 = q at d ⊢
    zify at d hc
    linear_combination d - hc - hk
  have hpos : v ≤ r0.toNat ∧ (u ≤ r1.toNat ∨ u ≤ 1) := by
    rcases Nat.eq_zero_or_pos y.r0.toNat with hg | hg
    · rcases hi.st with ⟨rfl, rfl, _⟩ | hs
      · exact ⟨by omega, Or.inr (le_refl _)⟩
      · have := hs.lt; omega
    · have a1 : v' ≤ r0.toNat := by rw [f2]; exact Nat.le_mul_of_pos_right _ hg
      have a2 : u' ≤ r1.toNat := by rw [f3]; exact Nat.le_mul_of_pos_right _ hg
      refine ⟨by omega, ?_⟩
      rcases f6 with f6 | f6 <;> omega
  have b0 := toNat_lt r0; have b1 := toNat_lt r1
  have c0 := hi.s0; have c1 := hi.t0
  refine ⟨h1, f1, u, v, f4, ?_, ?_, by omega, hpos.1⟩
  · rcases Bool.eq_false_or_eq_true y.even with he | he
    · rw [if_pos he]
      rw [he] at c0
      refine Cong.eq ?_ (by omega)
      convert c0 using 1; simp [sgn]
    · rw [if_neg (by rw [he]; decide)]
      rw [he] at c0
      refine Cong.eq ?_ (by omega)
      convert hz _ _ c0 using 1; simp [sgn]
  · rcases Bool.eq_false_or_eq_true y.even with he | he
    · rw [if_pos he]
      rw [he] at c1
      refine Cong.eq ?_ (by omega)
      convert hz _ _ c1 using 1; simp [sgn]
    · rw [if_neg (by rw [he]; decide)]
      rw [he] at c1
      refine Cong.eq ?_ (by omega)
      convert c1 using 1; simp [sgn]

/-- Bezout relation with explicit signs: `+` means `a·u - b·v = g`, `-` means `b·v - a·u = g`. -/
def Bezout (a b g u v : Nat) (plus : Bool) : Prop :=
  if plus then a * u = b * v + g else b * v = a * u + g

theorem bezout_of {a b g u v : Nat} {f : Bool} (h : (g : Int) = sgn f * (u * a - v * b)) : Bezout a b g u v f := by
  unfold Bezout
  rcases sgn_cases f with ⟨e, hs⟩ | ⟨e, hs⟩
  · rw [if_pos e]; rw [hs] at h; zify; linarith
  · rw [if_neg (by rw [e]; decide)]; rw [hs] at h; zify; linarith

/-- C08 (partial, as above): `gcd_extended` returns the gcd and Bezout coefficients bounded by the
operands. -/
theorem C08_gcd_extended_partial (a b : U256) :
    gcd_extended true a b = none ∨
    ∃ g u v plus, (∀ dbg, gcd_extended dbg a b = some (g, u, v, plus)) ∧
      g.toNat = Nat.gcd a.toNat b.toNat ∧ Bezout a.toNat b.toNat g.toNat u.toNat v.toNat plus ∧
      u.toNat ≤ max 1 b.toNat ∧ v.toNat ≤ max 1 a.toNat := by
  unfold gcd_extended
  dsimp only
  simp only [fuel_eq]
  by_cases h : gt b a = true
  · simp only [if_pos h]
    have hlt := (gt_iff _ _).1 h
    rcases hr : extLoop true a.toNat ⟨b, a, ONE, ZERO, ZERO, ONE, true⟩ with _ | y
    · left; rfl
    · right
      obtain ⟨h1, h2, u, v, h3, h4, h5, h6, h7⟩ := extGcd_run (r0 := b) (r1 := a) (by omega) hr
      refine ⟨y.r0, (if y.even then sub ZERO y.t0 else y.t0), (if y.even then y.s0 else sub ZERO y.s0), !y.even,
        fun dbg => ?_, ?_, ?_, ?_, ?_⟩
      · cases dbg
        · rw [h1]; rfl
        · rw [hr]; rfl
      · rw [h2, Nat.gcd_comm]
      · rw [h4, h5]
        apply bezout_of
        have e : sgn (!y.even) = - sgn y.even := by cases y.even <;> decide
        rw [h3, e]; ring
      · rw [h5]; omega
      · rw [h4]; omega
  · simp only [if_neg h]
    have hge : ¬ a.toNat < b.toNat := fun hc => h ((gt_iff _ _).2 hc)
    rcases hr : extLoop true b.toNat ⟨a, b, ONE, ZERO, ZERO, ONE, true⟩ with _ | y
    · left; rfl
    · right
      obtain ⟨h1, h2, u, v, h3, h4, h5, h6, h7⟩ := extGcd_run (r0 := a) (r1 := b) (by omega) hr
      refine ⟨y.r0, (if y.even then y.s0 else sub ZERO y.s0), (if y.even then sub ZERO y.t0 else y.t0), y.even,
        fun dbg => ?_, h2, ?_, ?_, ?_⟩
      · cases dbg
        · rw [h1]; rfl
        · rw [hr]; rfl
      · rw [h4, h5]
        exact bezout_of h3
      · rw [h4]; omega
      · rw [h5]; omega

/-- What a modular inverse has to be. -/
def IsInvMod (x m : Nat) (r : Option U256) : Prop :=
  (Nat.Coprime x m → ∃ y, r = some y ∧ y.toNat < m ∧ x * y.toNat % m = 1) ∧
  (¬ Nat.Coprime x m → r = none)

theorem invLoop_run {m r1 : U256} (hm : 1 < m.toNat) (h : r1.toNat < m.toNat) {y : ExtState}
    (hr : extLoop true r1.toNat ⟨m, r1, ONE, ZERO, ZERO, ONE, true⟩ = some y) :
    extLoop false r1.toNat ⟨m, r1, ONE, ZERO, ZERO, ONE, true⟩ = some y ∧
    IsInvMod r1.toNat m.toNat (if y.r0 = ONE then some (if y.even then add m y.t0 else y.t0) else none) := by
  obtain ⟨h1, h2, u, v, u', v', hi⟩ := extLoop_spec _ _ _ (EInv.init h.le) (le_refl _) hr
  obtain ⟨f1, f2, f3, f4, f5, f6, f7⟩ := hi.final h2
  refine ⟨h1, fun hc => ?_, fun hc => ?_⟩
  · have g1 : y.r0.toNat = 1 := by rw [f1, Nat.gcd_comm]; exact hc
    have e1 : y.r0 = ONE := toNat_inj (by rw [g1, one_toNat])
    rw [if_pos e1]
    rw [g1, Nat.mul_one] at f2 f3
    have hlt := toNat_lt m
    have hv : v < m.toNat := by
      rcases Nat.lt_or_ge v v' with h3 | h3
      · omega
      · exfalso
        have hvv : v = v' := by omega
        rw [← hvv] at f7
        have hdvd : (v : Int) ∣ sgn y.even := ⟨u - u', by rw [← f7]; ring⟩
        have : (v : Int) ∣ 1 := by
          have := Dvd.dvd.mul_left hdvd (sgn y.even)
          rwa [sgn_sq] at this
        have := Int.le_of_dvd (by norm_num) this
        omega
    have ct := hi.t0
    rw [g1] at f4
    rcases sgn_cases y.even with ⟨he, hs⟩ | ⟨he, hs⟩
    · rw [if_pos he]
      rw [hs] at ct f4
      have hvpos : 0 < v := by
        rcases Nat.eq_zero_or_pos v with hv0 | hv0
        · exfalso
          rw [hv0] at f4
          have : (m.toNat : Int) ∣ 1 := ⟨u, by push_cast at f4; linarith⟩
          have := Int.le_of_dvd (by norm_num) this
          omega
        · exact hv0
      have ev : (add m y.t0).toNat = m.toNat - v := by
        obtain ⟨k, hk⟩ := ct
        have := add_mod m y.t0
        have ht := toNat_lt y.t0
        omega
      refine ⟨_, rfl, by rw [ev]; omega, ?_⟩
      rw [ev]
      have key : (r1.toNat : Int) * ((m.toNat - v : Nat) : Int) = 1 + m.toNat * (r1.toNat - u) := by
        push_cast [Nat.cast_sub hv.le] at f4 ⊢
        linear_combination -f4
      have k2 : ((r1.toNat * (m.toNat - v) : Nat) : Int) % (m.toNat : Int) = 1 := by
        push_cast only [Nat.cast_mul]
        rw [key, Int.add_mul_emod_self_left]
        exact Int.emod_eq_of_lt (by norm_num) (by omega)
      exact_mod_cast k2
    · rw [if_neg (by rw [he]; decide)]
      rw [hs] at ct f4
      have ev : y.t0.toNat = v := by
        refine Cong.eq ?_ (by omega)
        convert ct using 1; ring
      refine ⟨_, rfl, by rw [ev]; exact hv, ?_⟩
      rw [ev]
      have key : (r1.toNat : Int) * (v : Int) = 1 + m.toNat * u := by
        push_cast at f4 ⊢
        linear_combination -f4
      have k2 : ((r1.toNat * v : Nat) : Int) % (m.toNat : Int) = 1 := by
        push_cast only [Nat.cast_mul]
        rw [key, Int.add_mul_emod_self_left]
        exact Int.emod_eq_of_lt (by norm_num) (by omega)
      exact_mod_cast k2
  · have g1 : y.r0 ≠ ONE := by
      intro hc'
      apply hc
      have : y.r0.toNat = 1 := by rw [hc', one_toNat]
      rw [f1, Nat.gcd_comm] at this
      exact this
    rw [if_neg g1]

theorem isInvMod_reduce {x m : Nat} {r : Option U256} (h : IsInvMod (x % m) m r) : IsInvMod x m r := by
  have e : Nat.Coprime (x % m) m ↔ Nat.Coprime x m := by
    unfold Nat.Coprime
    rw [← Nat.gcd_rec, Nat.gcd_comm]
  refine ⟨fun hc => ?_, fun hc => h.2 (fun hc' => hc (e.1 hc'))⟩
  obtain ⟨y, h1, h2, h3⟩ := h.1 (e.2 hc)
  refine ⟨y, h1, h2, ?_⟩
  rwa [Nat.mod_mul_mod] at h3

/-- C08 (partial, as above): `x.inv_mod(m)` for every modulus `m > 1`. -/
theorem C08_inv_mod_partial (x m : U256) (hm : 1 < m.toNat) :
    inv_mod true x m = none ∨
    ∃ r, (∀ dbg, inv_mod dbg x m = some r) ∧ IsInvMod x.toNat m.toNat r := by
  have main : ∀ r1 : U256, r1.toNat < m.toNat →
      ((invLoop true r1.toNat m r1 ZERO ONE true).map fun w =>
        if w.1 = ONE then some (if w.2.2 then add m w.2.1 else w.2.1) else none) = none ∨
      ∃ r, (∀ dbg, ((invLoop dbg r1.toNat m r1 ZERO ONE true).map fun w =>
        if w.1 = ONE then some (if w.2.2 then add m w.2.1 else w.2.1) else none) = some r) ∧
        IsInvMod r1.toNat m.toNat r := by
    intro r1 hr1
    have hd := fun dbg => invLoop_eq dbg r1.toNat ⟨m, r1, ONE, ZERO, ZERO, ONE, true⟩
    dsimp only at hd
    rcases hr : extLoop true r1.toNat ⟨m, r1, ONE, ZERO, ZERO, ONE, true⟩ with _ | y
    · left; rw [hd, hr]; rfl
    · right
      obtain ⟨h1, h2⟩ := invLoop_run hm hr1 hr
      refine ⟨_, fun dbg => ?_, h2⟩
      cases dbg
      · rw [hd, h1]; rfl
      · rw [hd, hr]; rfl
  unfold inv_mod
  simp only [fuel_eq]
  by_cases hge : ge x m = true
  · simp only [if_pos hge]
    rcases hr : rem true x m with _ | r1
    · left; rfl
    · obtain ⟨e1, e2⟩ := rem_dbg (by omega) hr
      rcases main r1 (by rw [e1]; exact Nat.mod_lt _ (by omega)) with h1 | ⟨r, h1, h2⟩
      · left; simpa using h1
      · right
        refine ⟨r, fun dbg => ?_, isInvMod_reduce (by rw [← e1]; exact h2)⟩
        cases dbg
        · rw [e2]; exact h1 false
        · rw [hr]; exact h1 true
  · simp only [if_neg hge]
    have : ¬ m.toNat ≤ x.toNat := fun hc => hge ((ge_iff _ _).2 hc)
    exact main x (by omega)

/-- C08 on one-limb operands: no exception is needed. -/
theorem C08_small (a b : U256) (ha : a.toNat < 2 ^ 64) (hb : b.toNat < 2 ^ 64) (dbg : Bool) :
    (∃ g, gcd dbg a b = some g ∧ g.toNat = Nat.gcd a.toNat b.toNat) ∧
    (1 < b.toNat → ∃ r, inv_mod dbg a b = some r ∧ IsInvMod a.toNat b.toNat r) := by
  constructor
  · have hne : gcd true a b ≠ none := by
      have key : ∀ r0 r1 : U256, r0.toNat < 2 ^ 64 → r1.toNat ≤ r0.toNat → gcdLoop true r1.toNat r0 r1 ≠ none := by
        intro r0 r1 h0 h1
        have hd := gcdLoop_eq true r1.toNat ⟨r0, r1, ONE, ZERO, ZERO, ONE, true⟩
        obtain ⟨y, hy⟩ := extLoop_small true h0 r1.toNat _ (EInv.init h1) (le_refl _)
        dsimp only at hd
        rw [hd, hy]; simp
      unfold gcd
      simp only [fuel_eq]
      by_cases h : gt b a = true
      · rw [if_pos h]
        have := (gt_iff _ _).1 h
        exact key _ _ hb (by omega)
      · rw [if_neg h]
        have : ¬ a.toNat < b.toNat := fun hc => h ((gt_iff _ _).2 hc)
        exact key _ _ ha (by omega)
    rcases C08_gcd_partial a b with h | ⟨g, h1, h2⟩
    · exact absurd h hne
    · exact ⟨g, h1 dbg, h2⟩
  · intro hm
    have key : ∀ r1 : U256, r1.toNat < b.toNat → ∃ w, invLoop true r1.toNat b r1 ZERO ONE true = some w := by
      intro r1 h1
      have hd := invLoop_eq true r1.toNat ⟨b, r1, ONE, ZERO, ZERO, ONE, true⟩
      obtain ⟨y, hy⟩ := extLoop_small true hb r1.toNat _ (EInv.init h1.le) (le_refl _)
      dsimp only at hd
      rw [hd, hy]; exact ⟨_, rfl⟩
    have hne : inv_mod true a b ≠ none := by
      unfold inv_mod
      simp only [fuel_eq]
      by_cases hge : ge a b = true
      · rw [if_pos hge]
        have hs : SafeDiv 5 a.toNat b.toNat := by
          left
          unfold numLimbs
          have : Nat.size b.toNat ≤ 64 := Nat.size_le.2 hb
          omega
        obtain ⟨q, r, e, -, hr⟩ := (div_rem_spec true a b (by omega)).1 hs
        have e' : rem true a b = some r := by rw [rem, e]
        rw [e', Option.bind_some]
        obtain ⟨w, hw⟩ := key r (by rw [hr]; exact Nat.mod_lt _ (by omega))
        rw [hw]; simp
      · rw [if_neg hge, Option.bind_some]
        have : ¬ b.toNat ≤ a.toNat := fun hc => hge ((ge_iff _ _).2 hc)
        obtain ⟨w, hw⟩ := key a (by omega)
        rw [hw]; simp
    rcases C08_inv_mod_partial a b hm with h | ⟨r, h1, h2⟩
    · exact absurd h hne
    · exact ⟨r, h1 dbg, h2⟩

/-- The 256-bit value `(2^187 + 17·2^128 + 2)/3`, found by search: a number below the field modulus on
whose inversion the faulty division step is met. -/
def badInv : U256 := ⟨0x5555555555555556, 0x5555555555555555, 0x2aaaaaaaaaaaab0, 0x0⟩

/-- C08 does not hold for all inputs: for this `x`, coprime to the modulus of the field, the debug build
panics and the release build returns a value that is not an inverse. -/
theorem C08_violated :
    Nat.Coprime badInv.toNat PROTH.modulus.toNat ∧ badInv.toNat < PROTH.modulus.toNat ∧
    inv_mod true badInv PROTH.modulus = none ∧
    ∃ y, inv_mod false badInv PROTH.modulus = some (some y) ∧
      badInv.toNat * y.toNat % PROTH.modulus.toNat ≠ 1 := by
  refine ⟨by decide +kernel, by decide +kernel, by decide +kernel, ⟨2402982825301244099, 7399844068009457462, 1425521717691147207, 4322935692035922454⟩, by decide +kernel, by decide +kernel⟩

/-- The theorems are not vacuous: on a 256-bit example the debug build does not panic. -/
example : inv_mod true ⟨0x123456789abcdef, 0xfedcba987654321, 5, 0x7ffffffffffffff⟩ PROTH.modulus ≠ none := by
  decide +kernel

example : gcd true ⟨0x123456789abcdef, 0xfedcba987654321, 5, 0x7ffffffffffffff⟩
    ⟨0x123456789abcdee, 0xfedcba987654321, 6, 0x8fffffffffffffff⟩ ≠ none := by decide +kernel

example : gcd_extended true ⟨0x123456789abcdef, 0xfedcba987654321, 5, 0x7ffffffffffffff⟩
    ⟨0x123456789abcdee, 0xfedcba987654321, 6, 0x8fffffffffffffff⟩ ≠ none := by decide +kernel

end OpenZKP.Props
