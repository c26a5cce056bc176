import Verif.Props.Division
import Verif.Props.Field

/-!
# C08, C14: operands on which gcd, extended gcd and inversion return the right result

Lehmer's algorithm skips divisions; every pair of numbers it divides is a pair of consecutive remainders of Euclid's
algorithm.  When none of those pairs is one on which the division of the library fails (`SafeDiv`, C03), the result
is right in both build profiles.  This is so for all operands below `2^192`.
-/

namespace OpenZKP.Props
open OpenZKP U256 PF

/-! ## Specification -/

/-- `x, y` are consecutive remainders of Euclid's algorithm on `a, b` -/
inductive Remainders (a b : Nat) : Nat → Nat → Prop
  | start : Remainders a b a b
  | next {x y : Nat} : Remainders a b x y → y ≠ 0 → Remainders a b y (x % y)

/-- the library's division is right on all steps of Euclid's algorithm on `a, b` -/
def SafeEuclid (a b : Nat) : Prop := ∀ x y, Remainders a b x y → y ≠ 0 → SafeDiv 5 x y

/-! ## Lehmer steps are sequences of Euclid steps -/

theorem Remainders.shift {a b x y : Nat} (hb : b ≠ 0) (h : Remainders b (a % b) x y) : Remainders a b x y := by
  induction h with
  | start => exact .next .start hb
  | next _ hy ih => exact .next ih hy

theorem Remainders.trans {a b c d x y : Nat} (h : Remainders a b c d) (k : Remainders c d x y) : Remainders a b x y := by
  induction k with
  | start => exact h
  | next _ hy ih => exact .next ih hy

/-- one Euclid step with quotient `q` and remainder `r` -/
theorem Remainders.of_quotient {r0 r1 q r x y : Nat} (h0 : r0 = q * r1 + r) (hr : r < r1) (h : Remainders r1 r x y) :
    Remainders r0 r1 x y := by
  apply Remainders.shift (by omega)
  have : r0 % r1 = r := by
    rw [h0, Nat.mul_comm, Nat.mul_add_mod, Nat.mod_eq_of_lt hr]
  rwa [this]

theorem Step.remainders (n : Nat) : ∀ {u v u' v' : Nat} {f : Bool} {r0 r1 x y : Nat}, u + u' ≤ n →
    Step u v u' v' f r0 r1 x y → Remainders r0 r1 x y := by
  induction n with
  | zero => intro u v u' v' f r0 r1 x y hn h; have := h.pu; omega
  | succ n ih =>
    intro u v u' v' f r0 r1 x y hn h
    have e0 := h.e0
    have e1 := h.e1
    have hlt := h.lt
    rcases Nat.eq_zero_or_pos u with hu | hu
    · -- a single Euclid step
      subst hu
      have d := h.det
      have hvu : v * u' = 1 := by
        rcases sgn_cases f with ⟨-, hs⟩ | ⟨-, hs⟩
        · rw [hs] at d; push_cast at d
          have : (0 : Int) ≤ v * u' := by positivity
          omega
        · rw [hs] at d; zify; push_cast at d; linarith
      obtain ⟨rfl, rfl⟩ : v = 1 ∧ u' = 1 := ⟨Nat.eq_one_of_mul_eq_one_right hvu, Nat.eq_one_of_mul_eq_one_left hvu⟩
      obtain rfl : r1 = x := by omega
      exact Remainders.of_quotient (q := v') (r := y) (by omega) hlt .start
    · have key : ∀ q s s' : Nat, v = q * u + s → v' = q * u' + s' → s ≤ s' → 1 ≤ s' → s' * x + s * y < r1 →
          s + s' ≤ n → Remainders r0 r1 x y := by
        intro q s s' hv hv' hss hs' hr hm
        refine Remainders.of_quotient (q := q) (r := s' * x + s * y) ?_ hr
          (ih (u := s) (v := u) (u' := s') (v' := u') (f := !f) hm ⟨e1, rfl, ?_, hlt, hss, h.mu, hs', h.pu⟩)
        · rw [e0, e1, hv, hv']; ring
        · have d := h.det
          have e : sgn (!f) = - sgn f := by cases f <;> decide
          rw [e, ← d, hv, hv']; push_cast; ring
      have hv := Nat.div_add_mod v u
      have hs := Nat.mod_lt v hu
      generalize v / u = q at hv
      generalize v % u = s at hv hs
      have d := h.det
      have mu := h.mu
      have mv := h.mv
      have pu := h.pu
      rcases sgn_cases f with ⟨-, hf⟩ | ⟨-, hf⟩
      · -- u v' = v u' + 1
        rw [hf] at d
        have d' : u * v' = v * u' + 1 := by zify; linarith
        have hq : q * u' ≤ v' := by
          by_contra hc
          have : u * v' < u * (q * u') := Nat.mul_lt_mul_of_pos_left (by omega) hu
          rw [← hv] at d'
          nlinarith
        obtain ⟨s', hs'⟩ := Nat.exists_eq_add_of_le hq
        have ds : u * s' = s * u' + 1 := by
          rw [hs', ← hv] at d'; nlinarith
        have h1 : 1 ≤ s' := by
          rcases Nat.eq_zero_or_pos s' with h0 | h0
          · rw [h0] at ds; omega
          · exact h0
        have h2 : s ≤ s' := by
          by_contra hc
          have : u * s' ≤ u * s := Nat.mul_le_mul_left _ (by omega)
          have : s * u ≤ s * u' := Nat.mul_le_mul_left _ mu
          nlinarith
        have h3 : s' ≤ u' := by
          by_contra hc
          have h4 : u * (u' + 1) ≤ u * s' := Nat.mul_le_mul_left _ (by omega)
          have h5 : (s + 1) * u' ≤ u * u' := Nat.mul_le_mul_right _ (by omega)
          nlinarith
        rcases Nat.lt_or_ge s' u' with h4 | h4
        · refine key q s s' (by rw [Nat.mul_comm]; exact hv.symm) hs' h2 h1 ?_ (by omega)
          rw [e1]
          have : s' * x < u' * x := Nat.mul_lt_mul_of_pos_right h4 (by omega)
          have : s * y ≤ u * y := Nat.mul_le_mul_right _ hs.le
          omega
        · obtain rfl : s' = u' := by omega
          have h5 : (u - s) * s' = 1 := by
            rw [Nat.sub_mul, ds]; omega
          have h6 : s' = 1 := Nat.eq_one_of_mul_eq_one_left h5
          have h7 : u = 1 := by omega
          have h8 : s = 0 := by omega
          subst h6 h7 h8
          rcases Nat.eq_zero_or_pos y with hy | hy
          · subst hy
            obtain rfl : r1 = x := by omega
            exact Remainders.of_quotient (q := v') (r := 0) (by omega) (by omega) .start
          · exact key q 0 1 (by omega) hs' (by omega) (by omega) (by omega) (by omega)
      · -- u v' + 1 = v u'
        rw [hf] at d
        have d' : u * v' + 1 = v * u' := by zify; linarith
        rcases Nat.eq_zero_or_pos s with h0 | h0
        · subst h0
          have h1 : u ∣ 1 := by
            have : u ∣ u * v' + 1 := by rw [d', ← hv]; exact ⟨q * u', by ring⟩
            exact (Nat.dvd_add_right (Dvd.intro _ rfl)).1 this
          obtain rfl : u = 1 := Nat.dvd_one.1 h1
          -- v' + 1 = v u'
          have hu2 : 2 ≤ u' := by
            by_contra hc
            have : u' = 1 := by omega
            subst this
            omega
          have hq1 : 1 ≤ q := by
            rcases Nat.eq_zero_or_pos q with h | h
            · have hv0 : v = 0 := by rw [← hv, h]
              rw [hv0, Nat.zero_mul] at d'; omega
            · exact h
          obtain ⟨q, rfl⟩ : ∃ k, q = k + 1 := ⟨q - 1, by omega⟩
          refine key q 1 (u' - 1) (by omega) ?_ (by omega) (by omega) ?_ (by omega)
          · have : v = q + 1 := by omega
            subst this
            have e : (q + 1) * u' = q * u' + u' := by ring
            omega
          · rw [e1]
            have : (u' - 1) * x < u' * x := Nat.mul_lt_mul_of_pos_right (by omega) (by omega)
            omega
        · have hq : q * u' ≤ v' := by
            by_contra hc
            have h1 : u * (v' + 1) ≤ u * (q * u') := Nat.mul_le_mul_left _ (by omega)
            rw [← hv] at d'
            nlinarith
          obtain ⟨s', hs'⟩ := Nat.exists_eq_add_of_le hq
          have ds : u * s' + 1 = s * u' := by
            rw [hs', ← hv] at d'; nlinarith
          have h2 : s ≤ s' := by
            by_contra hc
            have h3 : u * (s' + 1) ≤ u * s := Nat.mul_le_mul_left _ (by omega)
            have h4 : s * u ≤ s * u' := Nat.mul_le_mul_left _ mu
            nlinarith
          have h4 : s' < u' := by
            by_contra hc
            have h5 : u * u' ≤ u * s' := Nat.mul_le_mul_left _ (by omega)
            have h6 : s * u' ≤ u * u' := Nat.mul_le_mul_right _ hs.le
            omega
          refine key q s s' (by rw [Nat.mul_comm]; exact hv.symm) hs' h2 (by omega) ?_ (by omega)
          rw [e1]
          have : s' * x < u' * x := Nat.mul_lt_mul_of_pos_right h4 (by omega)
          have : s * y ≤ u * y := Nat.mul_le_mul_right _ hs.le
          omega

/-! ## The loop -/

theorem div_safe (dbg : Bool) {a b : U256} (hb : 0 < b.toNat) (hs : SafeDiv 5 a.toNat b.toNat) :
    ∃ q, U256.div dbg a b = some q ∧ q.toNat = a.toNat / b.toNat := by
  obtain ⟨q, r, e, h1, -⟩ := (div_rem_spec dbg a b hb).1 hs
  exact ⟨q, by rw [U256.div, e], h1⟩

theorem EInv.remainders {A0 A1 : Nat} {x : ExtState} {u v u' v' : Nat} (h : EInv A0 A1 x u v u' v') :
    Remainders A0 A1 x.r0.toNat x.r1.toNat := by
  rcases h.st with ⟨_, _, _, _, _, h0, h1, _⟩ | hs
  · rw [h0, h1]; exact .start
  · exact Step.remainders _ (le_refl _) hs

theorem extLoop_safe (dbg : Bool) {A0 A1 : Nat} (hA : SafeEuclid A0 A1) (fuel : Nat) (x : ExtState) {u v u' v' : Nat}
    (h : EInv A0 A1 x u v u' v') (hf : x.r1.toNat ≤ fuel) : ∃ y, extLoop dbg fuel x = some y := by
  induction fuel generalizing x u v u' v' with
  | zero =>
    have h0 : x.r1 = ZERO := toNat_inj (by rw [zero_toNat]; omega)
    rw [extLoop, if_pos h0]; exact ⟨_, rfl⟩
  | succ fuel ih =>
    by_cases h0 : x.r1 = ZERO
    · rw [extLoop, if_pos h0]; exact ⟨_, rfl⟩
    · rw [extLoop, if_neg h0]
      have hpos := ne_zero_pos h0
      obtain ⟨Q, eQ, hQ, -⟩ := lehmer_double_both h.le hpos
      rw [eQ, Option.bind_some]
      by_cases hid : Q = .IDENTITY
      · rw [if_pos hid]
        obtain ⟨q, hd, hq⟩ := div_safe dbg hpos (hA _ _ (EInv.remainders h) (by omega))
        rw [hd, Option.bind_some]
        obtain ⟨_, _, _, _, hi, hlt⟩ := h.euclid hpos hq
        exact ih _ hi (by omega)
      · rw [if_neg hid]
        rcases hQ with hc | ⟨z, w, hQ⟩
        · exact absurd hc hid
        · obtain ⟨_, _, _, _, hi, hlt⟩ := h.lehmer hQ
          exact ih _ hi (by omega)

/-! ## Theorems -/

/-- C08: when the division is right on the steps of Euclid's algorithm (larger number first), `gcd` returns the greatest
common divisor, in both build profiles; … -/
theorem C08_gcd_safe (dbg : Bool) (a b : U256) (hs : SafeEuclid (max a.toNat b.toNat) (min a.toNat b.toNat)) :
    ∃ g, U256.gcd dbg a b = some g ∧ g.toNat = Nat.gcd a.toNat b.toNat := by
  have hne : U256.gcd true a b ≠ none := by
    have key : ∀ r0 r1 : U256, SafeEuclid r0.toNat r1.toNat → r1.toNat ≤ r0.toNat → gcdLoop true r1.toNat r0 r1 ≠ none := by
      intro r0 r1 h0 h1
      have hd := gcdLoop_eq true r1.toNat ⟨r0, r1, ONE, ZERO, ZERO, ONE, true⟩
      obtain ⟨y, hy⟩ := extLoop_safe true h0 r1.toNat _ (EInv.init h1) (le_refl _)
      dsimp only at hd
      rw [hd, hy]; simp
    unfold U256.gcd
    simp only [fuel_eq]
    by_cases h : gt b a = true
    · rw [if_pos h]
      have := (gt_iff _ _).1 h
      rw [max_eq_right this.le, min_eq_left this.le] at hs
      exact key _ _ hs this.le
    · rw [if_neg h]
      have : b.toNat ≤ a.toNat := not_lt.1 fun hc => h ((gt_iff _ _).2 hc)
      rw [max_eq_left this, min_eq_right this] at hs
      exact key _ _ hs this
  rcases C08_gcd_partial a b with h | ⟨g, h1, h2⟩
  · exact absurd h hne
  · exact ⟨g, h1 dbg, h2⟩

/-- … `gcd_extended` returns it with Bezout coefficients; … -/
theorem C08_gcd_extended_safe (dbg : Bool) (a b : U256) (hs : SafeEuclid (max a.toNat b.toNat) (min a.toNat b.toNat)) :
    ∃ g u v plus, gcd_extended dbg a b = some (g, u, v, plus) ∧ g.toNat = Nat.gcd a.toNat b.toNat ∧
      Bezout a.toNat b.toNat g.toNat u.toNat v.toNat plus ∧ u.toNat ≤ max 1 b.toNat ∧ v.toNat ≤ max 1 a.toNat := by
  have hne : gcd_extended true a b ≠ none := by
    unfold gcd_extended
    dsimp only
    simp only [fuel_eq]
    by_cases h : gt b a = true
    · simp only [if_pos h]
      have hlt := (gt_iff _ _).1 h
      rw [max_eq_right hlt.le, min_eq_left hlt.le] at hs
      obtain ⟨y, hy⟩ := extLoop_safe true hs a.toNat _ (EInv.init hlt.le) (le_refl _)
      rw [hy]; simp
    · simp only [if_neg h]
      have hge : b.toNat ≤ a.toNat := not_lt.1 fun hc => h ((gt_iff _ _).2 hc)
      rw [max_eq_left hge, min_eq_right hge] at hs
      obtain ⟨y, hy⟩ := extLoop_safe true hs b.toNat _ (EInv.init hge) (le_refl _)
      rw [hy]; simp
  rcases C08_gcd_extended_partial a b with h | ⟨g, u, v, p, h1, h2⟩
  · exact absurd h hne
  · exact ⟨g, u, v, p, h1 dbg, h2⟩

/-- … and `inv_mod` returns the inverse of `x` modulo `m > 1`, or none exactly if there is none. -/
theorem C08_inv_mod_safe (dbg : Bool) (x m : U256) (hm : 1 < m.toNat) (hx : m.toNat ≤ x.toNat → SafeDiv 5 x.toNat m.toNat)
    (hs : SafeEuclid m.toNat (x.toNat % m.toNat)) : ∃ r, inv_mod dbg x m = some r ∧ IsInvMod x.toNat m.toNat r := by
  have key : ∀ r1 : U256, r1.toNat = x.toNat % m.toNat → ∃ w, invLoop true r1.toNat m r1 ZERO ONE true = some w := by
    intro r1 h1
    have hd := invLoop_eq true r1.toNat ⟨m, r1, ONE, ZERO, ZERO, ONE, true⟩
    have hlt : r1.toNat < m.toNat := by rw [h1]; exact Nat.mod_lt _ (by omega)
    obtain ⟨y, hy⟩ := extLoop_safe true (h1 ▸ hs) r1.toNat _ (EInv.init hlt.le) (le_refl _)
    dsimp only at hd
    rw [hd, hy]; exact ⟨_, rfl⟩
  have hne : inv_mod true x m ≠ none := by
    unfold inv_mod
    simp only [fuel_eq]
    by_cases hge : ge x m = true
    · rw [if_pos hge]
      obtain ⟨q, r, e, -, hr⟩ := (div_rem_spec true x m (by omega)).1 (hx ((ge_iff _ _).1 hge))
      have e' : U256.rem true x m = some r := by rw [U256.rem, e]
      rw [e', Option.bind_some]
      obtain ⟨w, hw⟩ := key r hr
      rw [hw]; simp
    · rw [if_neg hge, Option.bind_some]
      have : ¬ m.toNat ≤ x.toNat := fun hc => hge ((ge_iff _ _).2 hc)
      obtain ⟨w, hw⟩ := key x (Nat.mod_eq_of_lt (by omega)).symm
      rw [hw]; simp
  rcases C08_inv_mod_partial x m hm with h | ⟨r, h1, h2⟩
  · exact absurd h hne
  · exact ⟨r, h1 dbg, h2⟩

/-! ### Operands which are always safe -/

theorem safeDiv_of_192 {a b : Nat} (ha : a < 2 ^ 192) : SafeDiv 5 a b := by
  by_cases h3 : numLimbs b = 3
  · right
    intro j hj
    rw [h3] at hj ⊢
    have hs1 : 128 < b.size := by unfold numLimbs at h3; omega
    have hs2 : b.size ≤ 192 := by unfold numLimbs at h3; omega
    have hb2 : 2 ^ (b.size - 1) ≤ b := Nat.lt_size.mp (by omega)
    generalize hs : 64 * 3 - b.size = s at *
    have hV : 2 ^ 191 ≤ b * 2 ^ s := by
      calc 2 ^ 191 = 2 ^ (b.size - 1) * 2 ^ s := by rw [← pow_add]; congr 1; omega
        _ ≤ _ := Nat.mul_le_mul_right _ hb2
    have hA : a * 2 ^ s < 2 ^ 255 := by
      calc a * 2 ^ s < 2 ^ 192 * 2 ^ s := Nat.mul_lt_mul_of_pos_right ha (by positivity)
        _ ≤ 2 ^ 192 * 2 ^ 63 := Nat.mul_le_mul_left _ (Nat.pow_le_pow_right (by norm_num) (by omega))
        _ = 2 ^ 255 := by rw [← pow_add]
    generalize a * 2 ^ s = A at *
    generalize b * 2 ^ s = V at *
    have hle : A / (2 ^ 64) ^ (j + 1) ≤ A / 2 ^ 64 :=
      Nat.div_le_div_left (Nat.le_self_pow (by omega) _) (by norm_num)
    have h4 : A / 2 ^ 64 < 2 ^ 191 := by omega
    have e2 : (2 ^ 64) ^ (3 - 2) = 2 ^ 64 := by norm_num
    rw [e2, Nat.mod_eq_of_lt (by omega)]
    generalize A / (2 ^ 64) ^ (j + 1) = c at *
    calc c / 2 ^ 64 < 2 ^ 127 := by omega
      _ ≤ V / 2 ^ 64 := by omega
  · exact safeDiv5 a b (lt_trans ha (by norm_num)) h3

theorem Remainders.le {a b x y : Nat} (h : Remainders a b x y) : (x ≤ a ∨ x ≤ b) ∧ y ≤ b := by
  induction h with
  | start => exact ⟨.inl (le_refl _), le_refl _⟩
  | @next x y _ hy ih => exact ⟨.inr ih.2, (Nat.mod_lt x (by omega)).le.trans ih.2⟩

/-- numbers below `2^192` are safe -/
theorem safeEuclid_of_192 {a b : Nat} (ha : a < 2 ^ 192) (hb : b < 2 ^ 192) : SafeEuclid a b := by
  intro x y h _
  apply safeDiv_of_192
  rcases h.le.1 with h | h <;> omega

/-- so are pairs with one number below `2^128` -/
theorem safeEuclid_of_128 {a b : Nat} (ha : a < 2 ^ 256) (hb : b < 2 ^ 128) : SafeEuclid a b := by
  intro x y h _
  have hl := h.le
  apply safeDiv5
  · rcases hl.1 with h | h <;> omega
  · have : y.size ≤ 128 := Nat.size_le.2 (by omega)
    unfold numLimbs
    omega

/-- C08 holds in full, in both build profiles, for operands below `2^192`, and when one operand is below `2^128`. -/
theorem C08_in_range (dbg : Bool) (a b : U256)
    (h : (a.toNat < 2 ^ 192 ∧ b.toNat < 2 ^ 192) ∨ a.toNat < 2 ^ 128 ∨ b.toNat < 2 ^ 128) :
    (∃ g, U256.gcd dbg a b = some g ∧ g.toNat = Nat.gcd a.toNat b.toNat) ∧
    (∃ g u v plus, gcd_extended dbg a b = some (g, u, v, plus) ∧ g.toNat = Nat.gcd a.toNat b.toNat ∧
      Bezout a.toNat b.toNat g.toNat u.toNat v.toNat plus ∧ u.toNat ≤ max 1 b.toNat ∧ v.toNat ≤ max 1 a.toNat) ∧
    (1 < b.toNat → ∃ r, inv_mod dbg a b = some r ∧ IsInvMod a.toNat b.toNat r) := by
  have la := toNat_lt a
  have lb := toNat_lt b
  have hs : SafeEuclid (max a.toNat b.toNat) (min a.toNat b.toNat) := by
    rcases h with h | h
    · exact safeEuclid_of_192 (max_lt h.1 h.2) (lt_of_le_of_lt (min_le_left _ _) h.1)
    · apply safeEuclid_of_128 (max_lt la lb)
      rcases h with h | h
      · exact lt_of_le_of_lt (min_le_left _ _) h
      · exact lt_of_le_of_lt (min_le_right _ _) h
  refine ⟨C08_gcd_safe dbg a b hs, C08_gcd_extended_safe dbg a b hs, fun hm => C08_inv_mod_safe dbg a b hm ?_ ?_⟩
  · intro hle
    rw [max_eq_left hle, min_eq_right hle] at hs
    exact hs _ _ .start (by omega)
  · rcases Nat.lt_or_ge a.toNat b.toNat with hlt | hle
    · rw [Nat.mod_eq_of_lt hlt]
      rwa [max_eq_right hlt.le, min_eq_left hlt.le] at hs
    · rw [max_eq_left hle, min_eq_right hle] at hs
      exact fun x y hr => hs x y (hr.shift (by omega))

/-- C14: a field element is inverted rightly, in both build profiles, when the division is right on the steps of
Euclid's algorithm on the modulus and its Montgomery form; so when that form is below `2^128`. -/
theorem C14_inv_safe (P : Params) (h : FieldOK P) (dbg : Bool) (x : U256) (hx : Canon P x)
    (hs : SafeEuclid P.modulus.toNat x.toNat) : ∃ r, PF.inv P dbg x = some r ∧ IsFieldInv P x r := by
  have hlt : x.toNat < P.modulus.toNat := hx
  obtain ⟨r, hr, -⟩ := C08_inv_mod_safe true x P.modulus h.prime.one_lt (fun hc => absurd hc (by omega))
    (by rwa [Nat.mod_eq_of_lt hlt])
  rcases C14_inv_partial P h x hx with h1 | ⟨r, h1, h2⟩
  · unfold PF.inv at h1
    rw [hr] at h1
    exact absurd h1 (by simp)
  · exact ⟨r, h1 dbg, h2⟩

/-- operands of three limbs -/
example : ∃ g, U256.gcd true ⟨6, 0, 4, 0⟩ ⟨3, 5, 1, 0⟩ = some g ∧
    g.toNat = Nat.gcd (U256.toNat ⟨6, 0, 4, 0⟩) (U256.toNat ⟨3, 5, 1, 0⟩) :=
  (C08_in_range true _ _ (.inl ⟨by decide +kernel, by decide +kernel⟩)).1

/-- the exception is real: on the steps for `badInv` (C08_violated) the division fails -/
example : ¬ SafeEuclid BASE.modulus.toNat badInv.toNat := by
  intro hs
  obtain ⟨r, hr, -⟩ := C08_inv_mod_safe true badInv PROTH.modulus (by decide +kernel)
    (fun hc => absurd hc (by decide +kernel)) (by rwa [Nat.mod_eq_of_lt C08_violated.2.1])
  rw [C08_violated.2.2.1] at hr
  cases hr

end OpenZKP.Props
