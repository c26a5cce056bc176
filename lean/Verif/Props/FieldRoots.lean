import Verif.Props.Field

/-!
# Properties C11 (signed exponents), C15 (roots of unity) and C16 (square roots)
-/

namespace OpenZKP.Props
open OpenZKP U256 PF

section
variable (P : Params) (h : FieldOK P)
include h

/-- C11: a non-negative `isize` exponent gives the power in both profiles. -/
theorem C11_powI_nonneg (x : U256) (hx : Canon P x) (e : Int) (h0 : 0 ≤ e) (h1 : e < 2 ^ 63) (dbg : Bool) :
    ∃ y, powI P dbg x e = some (some y) ∧ Canon P y ∧ nat P y = nat P x ^ e.natAbs % P.modulus.toNat := by
  have ea : (UInt64.ofNat e.natAbs).toNat = e.natAbs := by
    rw [UInt64.toNat_ofNat', Nat.mod_eq_of_lt (by omega)]
  have := (C11_field_pow P h x hx (UInt64.ofNat e.natAbs) x).1
  rw [ea] at this
  refine ⟨_, ?_, this⟩
  unfold powI
  rw [if_neg, if_neg (by omega)]
  simp only [Bool.and_eq_true, beq_iff_eq, not_and]
  intro _; omega

/-- C11 (partial: without the operands on which the debug build panics, among them the least `isize`): a
negative exponent gives the power of the inverse, and `None` for zero. -/
theorem C11_powI_neg_partial (x : U256) (hx : Canon P x) (e : Int) (h0 : e < 0) (h1 : -2 ^ 63 ≤ e) :
    powI P true x e = none ∨ ∃ r, (∀ dbg, powI P dbg x e = some r) ∧
      (nat P x = 0 → r = none) ∧
      (nat P x ≠ 0 → ∃ y, r = some y ∧ Canon P y ∧ nat P y * nat P x ^ e.natAbs % P.modulus.toNat = 1) := by
  have hone := h.prime.one_lt
  have ea : (UInt64.ofNat e.natAbs).toNat = e.natAbs := by
    rw [UInt64.toNat_ofNat', Nat.mod_eq_of_lt (by omega)]
  by_cases hmin : e = -2 ^ 63
  · left; unfold powI; rw [if_pos]; simp [hmin]
  have hd : ∀ dbg, powI P dbg x e =
      (PF.inv P dbg x).map fun r => r.map fun n => PF.pow P n (UInt64.ofNat e.natAbs) := by
    intro dbg
    unfold powI
    rw [if_neg, if_pos h0]
    simp only [Bool.and_eq_true, beq_iff_eq, not_and]
    intro _; exact hmin
  rcases C14_inv_partial P h x hx with hi | ⟨r, hr, hi⟩
  · left; rw [hd, hi]; rfl
  · right
    refine ⟨_, fun dbg => by rw [hd, hr, Option.map_some], fun hz => by rw [hi.1 hz]; rfl, fun hz => ?_⟩
    obtain ⟨i, rfl, i1, i2⟩ := hi.2 hz
    obtain ⟨p1, p2⟩ := PF.pow_spec h.consts i1 (UInt64.ofNat e.natAbs)
    rw [ea] at p2
    refine ⟨_, rfl, p1, ?_⟩
    have e1 : (nat P x : ZMod P.modulus.toNat) * nat P i = 1 := by
      rw [← Nat.cast_mul, ← Nat.cast_one, ZMod.natCast_eq_natCast_iff, Nat.ModEq, i2, Nat.mod_eq_of_lt hone]
    have fin : ((nat P (PF.pow P i (UInt64.ofNat e.natAbs)) * nat P x ^ e.natAbs : Nat) : ZMod P.modulus.toNat)
        = (1 : Nat) := by
      rw [Nat.cast_mul, ← V_eq, p2, Nat.cast_pow, ← mul_pow, V_eq, mul_comm, e1, one_pow, Nat.cast_one]
    rw [ZMod.natCast_eq_natCast_iff, Nat.ModEq, Nat.mod_eq_of_lt hone] at fin
    exact fin

theorem root_aux {q n : Nat} (hq : q * n = P.modulus.toNat - 1) (hn : 0 < n) :
    orderOf ((nat P P.generator : ZMod P.modulus.toNat) ^ q) = n := by
  have hone := h.prime.one_lt
  have hq0 : q ≠ 0 := by rintro rfl; omega
  rw [orderOf_pow_of_dvd hq0, h.gen_order, ← hq, Nat.mul_div_cancel_left _ (Nat.pos_of_ne_zero hq0)]
  rw [h.gen_order, ← hq]; exact Nat.dvd_mul_right _ _

/-- C15: `root(n)` for a machine-word `n ≥ 1` has order exactly `n` when `n` divides `p - 1` and is `None`
otherwise. -/
theorem C15_root (n : UInt64) (hn : 0 < n.toNat) :
    (n.toNat ∣ P.modulus.toNat - 1 → ∃ w, root P n = some w ∧ Canon P w ∧
      orderOf (nat P w : ZMod P.modulus.toNat) = n.toNat) ∧
    (¬ n.toNat ∣ P.modulus.toNat - 1 → root P n = none) := by
  obtain ⟨q, r, e, e1, hr⟩ := div_rem_u64_spec P.order n hn
  rw [h.order] at e1 hr
  constructor
  · intro hd
    have hr0 : r = 0 := by
      rw [← UInt64.toNat_inj, hr, Nat.mod_eq_zero_of_dvd hd]; rfl
    obtain ⟨p1, p2⟩ := powU_spec h.consts h.gen q
    refine ⟨powU P P.generator q, ?_, p1, ?_⟩
    · unfold root; rw [e, hr0]; rfl
    · rw [← V_eq, p2, V_eq]
      apply root_aux P h _ hn
      rw [e1, Nat.div_mul_cancel hd]
  · intro hd
    have hr0 : r ≠ 0 := by
      rintro rfl
      exact hd (Nat.dvd_of_mod_eq_zero hr.symm)
    unfold root
    rw [e]
    simp [hr0]

/-- C15: `root(0)` is the one element. -/
theorem C15_root_zero : root P 0 = some (one P) := by
  unfold root div_rem_u64; rfl

/-- C15 for a 256-bit order (partial: a divisor on which the division of C03 is not safe is left out). -/
theorem C15_rootU_partial (n : U256) (hn : 0 < n.toNat) (hs : SafeDiv 5 P.order.toNat n.toNat) (dbg : Bool) :
    (n.toNat ∣ P.modulus.toNat - 1 → ∃ w, rootU P dbg n = some (some w) ∧ Canon P w ∧
      orderOf (nat P w : ZMod P.modulus.toNat) = n.toNat) ∧
    (¬ n.toNat ∣ P.modulus.toNat - 1 → rootU P dbg n = some none) := by
  obtain ⟨q, r, e, e1, e2⟩ := (div_rem_spec dbg P.order n hn).1 hs
  rw [h.order] at e1 e2
  constructor
  · intro hd
    have hr0 : r = ZERO := toNat_inj (by rw [e2, Nat.mod_eq_zero_of_dvd hd, zero_toNat])
    obtain ⟨p1, p2⟩ := powU_spec h.consts h.gen q
    refine ⟨powU P P.generator q, ?_, p1, ?_⟩
    · unfold rootU; rw [e, hr0]; rfl
    · rw [← V_eq, p2, V_eq]
      apply root_aux P h _ hn
      rw [e1, Nat.div_mul_cancel hd]
  · intro hd
    have hr0 : r ≠ ZERO := by
      rintro rfl
      exact hd (Nat.dvd_of_mod_eq_zero (by rw [← e2, zero_toNat]))
    unfold rootU
    rw [e]
    simp [hr0]

/-- C15: every non-zero element is a power of `generator()`. -/
theorem C15_generator (x : U256) (hx : Canon P x) (h0 : nat P x ≠ 0) :
    ∃ k : Nat, nat P x = nat P P.generator ^ k % P.modulus.toNat := by
  have : Fact P.modulus.toNat.Prime := ⟨h.prime⟩
  have hone := h.prime.one_lt
  have lx : nat P x < P.modulus.toNat := to_uint_lt h.consts hx
  have lg : nat P P.generator < P.modulus.toNat := to_uint_lt h.consts h.gen
  have gx : (nat P x : ZMod P.modulus.toNat) ≠ 0 := by
    intro hc
    rw [ZMod.natCast_eq_zero_iff] at hc
    exact absurd (Nat.le_of_dvd (Nat.pos_of_ne_zero h0) hc) (by omega)
  have g0 : (nat P P.generator : ZMod P.modulus.toNat) ≠ 0 := by
    intro hc
    have := h.gen_order
    rw [hc, orderOf_zero] at this
    rcases Nat.lt_or_ge 2 P.modulus.toNat with h2 | h2
    · omega
    · have := h.consts.odd; omega
  set g := Units.mk0 _ g0
  set u := Units.mk0 _ gx
  have ho : orderOf g = Nat.card (ZMod P.modulus.toNat)ˣ := by
    rw [← orderOf_units, Units.val_mk0, h.gen_order, Nat.card_eq_fintype_card, ZMod.card_units]
  have hmem : u ∈ Subgroup.zpowers g := by
    have : Subgroup.zpowers g = ⊤ := by
      apply Subgroup.eq_top_of_card_eq
      rw [Nat.card_zpowers, ho]
    rw [this]; trivial
  rw [mem_zpowers_iff_mem_range_orderOf, Finset.mem_image] at hmem
  obtain ⟨k, -, hk⟩ := hmem
  refine ⟨k, ?_⟩
  have : ((nat P P.generator ^ k : Nat) : ZMod P.modulus.toNat) = nat P x := by
    have := congrArg Units.val hk
    push_cast [g, u] at this ⊢
    exact this
  rw [ZMod.natCast_eq_natCast_iff, Nat.ModEq, Nat.mod_eq_of_lt lx] at this
  exact this.symm

/-! ### Square roots -/

theorem minus_one_spec : Canon P (PF.neg P (one P)) ∧ V P (PF.neg P (one P)) = -1 := by
  obtain ⟨o1, o2⟩ := one_spec h.consts
  obtain ⟨n1, n2⟩ := neg_spec h.consts o1
  exact ⟨n1, by rw [n2, o2]⟩

theorem beq_minus_one {x : U256} (hx : Canon P x) : (x == PF.neg P (one P)) = true ↔ V P x = -1 := by
  obtain ⟨n1, n2⟩ := minus_one_spec P h
  rw [beq_iff_eq]
  exact ⟨fun e => by rw [e, n2], fun e => V_inj h.consts hx n1 (by rw [e, n2])⟩

theorem square_iff (x : U256) (hx : Canon P x) :
    IsSquare (V P x) ↔ ∃ s : Nat, s * s % P.modulus.toNat = nat P x := by
  have lx : nat P x < P.modulus.toNat := to_uint_lt h.consts hx
  have : NeZero P.modulus.toNat := ⟨h.prime.ne_zero⟩
  constructor
  · rintro ⟨r, hr⟩
    refine ⟨r.val, ?_⟩
    have e : ((r.val * r.val : Nat) : ZMod P.modulus.toNat) = nat P x := by
      rw [Nat.cast_mul, ZMod.natCast_zmod_val, ← hr, V_eq]
    rw [ZMod.natCast_eq_natCast_iff, Nat.ModEq, Nat.mod_eq_of_lt lx] at e
    exact e
  · rintro ⟨s, hs⟩
    refine ⟨(s : ZMod _), ?_⟩
    rw [V_eq, ← hs, ZMod.natCast_mod, Nat.cast_mul]

/-- C16: `is_quadratic_residue` decides whether the element is a square (zero included). -/
theorem C16_is_quadratic_residue (x : U256) (hx : Canon P x) :
    is_quadratic_residue P x = true ↔ ∃ s : Nat, s * s % P.modulus.toNat = nat P x := by
  have : Fact P.modulus.toNat.Prime := ⟨h.prime⟩
  have hodd := h.consts.odd
  have hne2 : P.modulus.toNat ≠ 2 := by omega
  have : Fact (2 < P.modulus.toNat) := ⟨by have := h.prime.two_le; omega⟩
  rw [← square_iff P h x hx]
  obtain ⟨p1, p2⟩ := powU_spec h.consts hx (shr P.modulus 1)
  have hsh := shr_div P.modulus 1
  rw [pow_one] at hsh
  rw [hsh] at p2
  have hne : is_quadratic_residue P x = true ↔ ¬ V P (powU P x (shr P.modulus 1)) = -1 := by
    unfold is_quadratic_residue
    rw [← beq_minus_one P h p1, bne, Bool.not_eq_true']
    simp
  rw [hne, p2]
  by_cases hz : V P x = 0
  · rw [hz, zero_pow (by have := h.prime.two_le; omega)]
    refine ⟨fun _ => ⟨0, by simp⟩, fun _ hc => ?_⟩
    have : (1 : ZMod P.modulus.toNat) = 0 := by
      rw [← neg_eq_zero]; exact hc.symm
    exact one_ne_zero this
  · rw [ZMod.euler_criterion _ hz]
    have := ZMod.pow_div_two_eq_neg_one_or_one P.modulus.toNat hz
    constructor
    · intro hc; rcases this with h1 | h1
      · exact h1
      · exact absurd h1 hc
    · intro h1 hc
      rw [h1] at hc
      exact ZMod.neg_one_ne_one hc.symm

/-- The loop of `square_root`: after the iterations `1 .. k` the error `root²/x` has order dividing
`2^(t-1-k)` and `c^(2^(t-1-k)) = -1`. -/
theorem sqrtLoop {t : Nat} {x inverse root0 c0 : U256} (hx : Canon P x) (hi : Canon P inverse)
    (hr : Canon P root0) (hc : Canon P c0) (hinv : V P x * V P inverse = 1) (ht : t < 257)
    (h0 : (V P root0 * V P root0 * V P inverse) ^ 2 ^ (t - 1) = 1) (hc0 : V P c0 ^ 2 ^ (t - 1) = -1)
    (k : Nat) (hk : k ≤ t - 1) :
    let s := (List.range' 1 k).foldl (sqrtStep P t inverse) (root0, c0)
    Canon P s.1 ∧ Canon P s.2 ∧ (V P s.1 * V P s.1 * V P inverse) ^ 2 ^ (t - 1 - k) = 1 ∧
      V P s.2 ^ 2 ^ (t - 1 - k) = -1 := by
  have : Fact P.modulus.toNat.Prime := ⟨h.prime⟩
  induction k with
  | zero => exact ⟨hr, hc, h0, hc0⟩
  | succ k ih =>
    obtain ⟨i1, i2, i3, i4⟩ := ih (by omega)
    rw [List.range'_concat, List.foldl_append, List.foldl_cons, List.foldl_nil]
    generalize (List.range' 1 k).foldl (sqrtStep P t inverse) (root0, c0) = s at i1 i2 i3 i4
    obtain ⟨r, c⟩ := s
    dsimp only at i1 i2 i3 i4
    have ee : t - 1 - k = (t - 1 - (k + 1)) + 1 := by omega
    rw [ee, pow_succ, pow_mul] at i3 i4
    have e1 : (shl ONE (t - (1 + 1 * k) - 1)).toNat = 2 ^ (t - 1 - (k + 1)) := by
      rw [shl_mod, one_toNat, one_mul, show t - (1 + 1 * k) - 1 = t - 1 - (k + 1) by omega, Nat.mod_eq_of_lt]
      exact Nat.pow_lt_pow_right (by norm_num) (by omega)
    obtain ⟨s1, s2, -⟩ := square_spec h.consts i1
    obtain ⟨m1, m2⟩ := mul_spec h.consts s1 hi
    obtain ⟨p1, p2⟩ := powU_spec h.consts m1 (shl ONE (t - (1 + 1 * k) - 1))
    rw [e1, m2, s2] at p2
    obtain ⟨c1, c2, -⟩ := square_spec h.consts i2
    obtain ⟨n1, n2⟩ := mul_spec h.consts i1 i2
    unfold sqrtStep
    dsimp only
    have hcc : V P (PF.square P c) ^ 2 ^ (t - 1 - (k + 1)) = -1 := by
      rw [c2, ← pow_two, ← pow_mul, mul_comm, pow_mul]; exact i4
    by_cases hb : (powU P (PF.mul P (PF.square P r) inverse) (shl ONE (t - (1 + 1 * k) - 1)) ==
      PF.neg P (one P)) = true
    · rw [if_pos hb]
      have hv := (beq_minus_one P h p1).1 hb
      rw [p2] at hv
      refine ⟨n1, c1, ?_, hcc⟩
      have : V P (PF.mul P r c) * V P (PF.mul P r c) * V P inverse =
          (V P r * V P r * V P inverse) * V P (PF.square P c) := by
        rw [n2, c2]; ring
      rw [this, mul_pow, hv, hcc]; ring
    · rw [if_neg hb]
      refine ⟨i1, c1, ?_, hcc⟩
      have hv : ¬ (V P r * V P r * V P inverse) ^ 2 ^ (t - 1 - (k + 1)) = -1 := by
        rw [← p2]; exact fun hc => hb ((beq_minus_one P h p1).2 hc)
      rcases sq_eq_one_iff.1 i3 with h1 | h1
      · exact h1
      · exact absurd h1 hv

/-- C16 (partial: elements whose inversion panics in the debug build are left out): `square_root` returns
a square root exactly for squares. -/
theorem C16_square_root_partial (x : U256) (hx : Canon P x) :
    square_root P true x = none ∨ ∃ r, (∀ dbg, square_root P dbg x = some r) ∧
      (∀ y, r = some y → Canon P y ∧ nat P y * nat P y % P.modulus.toNat = nat P x) ∧
      (r = none ↔ ¬ ∃ s : Nat, s * s % P.modulus.toNat = nat P x) := by
  have : Fact P.modulus.toNat.Prime := ⟨h.prime⟩
  have hodd := h.consts.odd
  have hp2 := h.prime.two_le
  have lx : nat P x < P.modulus.toNat := to_uint_lt h.consts hx
  obtain ⟨z1, z2⟩ := zero_spec h.consts
  have fin : ∀ y, Canon P y → V P y * V P y = V P x → nat P y * nat P y % P.modulus.toNat = nat P x := by
    intro y hy e
    rw [V_eq, V_eq, ← Nat.cast_mul, ZMod.natCast_eq_natCast_iff, Nat.ModEq, Nat.mod_eq_of_lt lx] at e
    exact e
  by_cases hz : is_zero x = true
  · right
    have hz' := (is_zero_iff h.consts hx).1 hz
    refine ⟨some PF.zero, fun dbg => by unfold square_root; rw [if_pos hz], ?_, ?_⟩
    · rintro y hy
      rw [← Option.some.inj hy]
      exact ⟨z1, fin _ z1 (by rw [z2, hz', mul_zero])⟩
    · have : ∃ s : Nat, s * s % P.modulus.toNat = nat P x := by
        rw [← square_iff P h x hx, hz']; exact ⟨0, by simp⟩
      simp [this]
  have hz' : V P x ≠ 0 := fun e => hz ((is_zero_iff h.consts hx).2 e)
  have hqr := C16_is_quadratic_residue P h x hx
  by_cases hq : is_quadratic_residue P x = true
  · have hsq := hqr.1 hq
    rcases C14_inv_partial P h x hx with hi | ⟨r, hr, hi⟩
    · left; unfold square_root; rw [if_neg hz, hq, hi]; rfl
    · right
      have hnz : nat P x ≠ 0 := by
        intro e; apply hz'; rw [V_eq, e, Nat.cast_zero]
      obtain ⟨i, rfl, i1, i2⟩ := hi.2 hnz
      have hinv : V P x * V P i = 1 := by
        rw [V_eq, V_eq, ← Nat.cast_mul, ← Nat.cast_one, ZMod.natCast_eq_natCast_iff, Nat.ModEq, i2,
          Nat.mod_eq_of_lt (by omega)]
      obtain ⟨t1, m, t2⟩ := trailing_zeros_spec P.order (by rw [h.order]; omega)
      have hsig : (shr P.order (trailing_zeros P.order)).toNat = 2 * m + 1 := by
        rw [shr_div, t2, Nat.mul_div_cancel_left _ (by positivity)]
      set t := trailing_zeros P.order with ht
      have htpos : 0 < t := by
        rcases Nat.eq_zero_or_pos t with h0 | h0
        · rw [h0, h.order] at t2
          omega
        · exact h0
      have hord : P.modulus.toNat / 2 = (2 * m + 1) * 2 ^ (t - 1) := by
        have : 2 ^ t = 2 * 2 ^ (t - 1) := by rw [← pow_succ']; congr 1; omega
        rw [h.order, this] at t2
        have e3 : P.modulus.toNat / 2 = (P.modulus.toNat - 1) / 2 := by omega
        rw [e3, t2, Nat.mul_assoc, Nat.mul_div_cancel_left _ (by norm_num), Nat.mul_comm]
      have hmlt : 2 * m + 1 < 2 ^ 255 := by
        have a1 : 2 * m + 1 ≤ P.modulus.toNat / 2 := by
          rw [hord]; exact Nat.le_mul_of_pos_right _ (by positivity)
        have a2 := h.consts.le
        omega
      have hexp : (shr (U256.add (shr P.order t) ONE) 1).toNat = m + 1 := by
        rw [shr_div, add_mod, hsig, one_toNat, pow_one, Nat.mod_eq_of_lt (by omega)]
        omega
      obtain ⟨r1, r2⟩ := powU_spec h.consts hx (shr (U256.add (shr P.order t) ONE) 1)
      obtain ⟨c1, c2⟩ := powU_spec h.consts h.gen (shr P.order t)
      rw [hexp] at r2
      rw [hsig] at c2
      have euler : V P x ^ (P.modulus.toNat / 2) = 1 := by
        rw [← ZMod.euler_criterion _ hz', square_iff P h x hx]; exact hsq
      have h0 : (V P (powU P x (shr (U256.add (shr P.order t) ONE) 1)) *
          V P (powU P x (shr (U256.add (shr P.order t) ONE) 1)) * V P i) ^ 2 ^ (t - 1) = 1 := by
        have : V P x ^ (m + 1) * V P x ^ (m + 1) * V P i = V P x ^ (2 * m + 1) := by
          rw [← pow_add, show m + 1 + (m + 1) = (2 * m + 1) + 1 by omega, pow_succ, mul_assoc, hinv, mul_one]
        rw [r2, this, ← pow_mul, ← hord, euler]
      have hc0 : V P (powU P P.generator (shr P.order t)) ^ 2 ^ (t - 1) = -1 := by
        rw [c2, ← pow_mul, ← hord]
        have hg0 : V P P.generator ≠ 0 := by
          intro hc
          have := h.gen_order
          rw [← V_eq, hc, orderOf_zero] at this
          omega
        rcases ZMod.pow_div_two_eq_neg_one_or_one P.modulus.toNat hg0 with h1 | h1
        · exfalso
          have := orderOf_dvd_of_pow_eq_one h1
          rw [V_eq, h.gen_order] at this
          have := Nat.le_of_dvd (by omega) this
          omega
        · exact h1
      have loop := sqrtLoop P h hx i1 r1 c1 hinv (by omega : t < 257) h0 hc0 (t - 1) (le_refl _)
      obtain ⟨l1, -, l3, -⟩ := loop
      refine ⟨_, fun dbg => by
        unfold square_root
        rw [if_neg hz, hq, hr]
        rfl, ?_, ?_⟩
      · intro y hy
        have hy := Option.some.inj hy
        rw [← hy]
        refine ⟨l1, fin _ l1 ?_⟩
        rw [Nat.sub_self, pow_zero, pow_one] at l3
        unfold sqrtInit
        dsimp only
        rw [← ht]
        generalize V P (List.foldl (sqrtStep P t i) _ _).1 = A at l3 ⊢
        linear_combination V P x * l3 - A * A * hinv
      · simp [hsq]
  · right
    refine ⟨none, fun dbg => ?_, by simp, ?_⟩
    · unfold square_root
      rw [if_neg hz, if_pos (by simp [hq])]
    · simp only [true_iff]
      exact fun hc => hq (hqr.2 hc)

end

/-- The hypotheses are met and both outcomes occur: 4 has a square root, 3 (the generator) has none. -/
example : Canon BASE (from_uint_reduce BASE ⟨4, 0, 0, 0⟩) ∧
    square_root BASE true BASE.generator = some none := by
  refine ⟨by unfold Canon; decide +kernel, by decide +kernel⟩

/-- `2^192` and 7 divide `p - 1`, 3 does not. -/
example : (2 ^ 63 ∣ BASE.modulus.toNat - 1) ∧ (7 ∣ BASE.modulus.toNat - 1) ∧ ¬ (3 ∣ BASE.modulus.toNat - 1) := by
  decide +kernel

end OpenZKP.Props
