import Verif.Field.FieldLemmas
import Verif.Field.Primes
import Verif.Props.Lehmer

/-!
# Properties C11 (field powers), C13, C14, C15, C16, C57: prime fields

The observable value of a field element `x` is the integer `to_uint` returns for it, written `nat P x`.
`Canon P x` says that the representation is reduced; every constructor returns reduced representations
(`C13_convert`) and every operation preserves this.
-/

namespace OpenZKP.Props
open OpenZKP U256 PF

/-- The integer value of a field element, as returned by `to_uint`. -/
def nat (P : Params) (x : U256) : Nat := (to_uint P x).toNat

/-- What the parameters of a prime field have to satisfy. -/
structure FieldOK (P : Params) : Prop where
  consts : MontConsts P.toMont
  prime : P.modulus.toNat.Prime
  order : P.order.toNat = P.modulus.toNat - 1
  gen : Canon P P.generator
  gen_order : orderOf ((nat P P.generator : Nat) : ZMod P.modulus.toNat) = P.modulus.toNat - 1

/-- C57: the modulus of the base field is prime. -/
theorem C57_base_prime : Nat.Prime (2 ^ 251 + 17 * 2 ^ 192 + 1) ∧
    BASE.modulus.toNat = 2 ^ 251 + 17 * 2 ^ 192 + 1 := by
  have e : (2 ^ 251 + 17 * 2 ^ 192 + 1 : Nat) =
    3618502788666131213697322783095070105623107215331596699973092056135872020481 := by norm_num
  refine ⟨by rw [e]; exact prime_base, by decide +kernel⟩

/-- C57: the modulus of the scalar field is prime. -/
theorem C57_scalar_prime :
    Nat.Prime 0x0800000000000010ffffffffffffffffb781126dcae7b2321e66a241adc64d2f ∧
    SCALAR.modulus.toNat = 0x0800000000000010ffffffffffffffffb781126dcae7b2321e66a241adc64d2f :=
  ⟨prime_scalar, by decide +kernel⟩

theorem base_nat : BASE.modulus.toNat =
    3618502788666131213697322783095070105623107215331596699973092056135872020481 := by decide +kernel

theorem base_ok : FieldOK BASE := by
  refine ⟨C10_proth_constants.1, by rw [base_nat]; exact prime_base, by decide +kernel,
    by unfold Canon; decide +kernel, ?_⟩
  have e : nat BASE BASE.generator = 3 := by decide +kernel
  rw [e, base_nat]
  exact orderOf_of_pratt _ 3 256 prime_base_cert (by norm_num) (by norm_num) prime_base_fs (by decide +kernel)
    (by decide +kernel) (by decide +kernel)

theorem scalar_nat : SCALAR.modulus.toNat =
    0x0800000000000010ffffffffffffffffb781126dcae7b2321e66a241adc64d2f := by decide +kernel

theorem scalar_ok : FieldOK SCALAR := by
  refine ⟨C10_order_constants.1, by rw [scalar_nat]; exact prime_scalar, by decide +kernel,
    by unfold Canon; decide +kernel, ?_⟩
  have e : nat SCALAR SCALAR.generator = 0x383c078824b0a5defc345de1b24040d41519c5d2fd9051985e3b0c4a2b39171 := by
    decide +kernel
  rw [e, scalar_nat]
  exact orderOf_of_pratt _ _ 256 prime_scalar_cert (by norm_num) (by norm_num) prime_scalar_fs (by decide +kernel)
    (by decide +kernel) (by decide +kernel)

theorem nat_of_V {P : Params} (h : FieldOK P) {z : U256} (hz : Canon P z) {n : Nat}
    (e : V P z = (n : ZMod P.modulus.toNat)) : nat P z = n % P.modulus.toNat := by
  unfold V at e
  rw [ZMod.natCast_eq_natCast_iff] at e
  have := to_uint_lt h.consts hz
  unfold nat
  rw [← Nat.mod_eq_of_lt this]
  exact e

theorem V_eq {P : Params} (x : U256) : V P x = (nat P x : ZMod P.modulus.toNat) := rfl

section
variable (P : Params) (h : FieldOK P)
include h

/-- C13: conversions.  `from_uint` of a reduced integer and back is the identity; the reducing
conversions return the residue; every reduced representation is the conversion of its own value. -/
theorem C13_convert (u x : U256) :
    (u.toNat < P.modulus.toNat → ∀ dbg, ∃ y, from_uint P dbg u = some y ∧ Canon P y ∧ nat P y = u.toNat) ∧
    (Canon P (from_uint_reduce P u) ∧ nat P (from_uint_reduce P u) = u.toNat % P.modulus.toNat) ∧
    (∃ y, from_uint P false u = some y ∧ Canon P y ∧ nat P y = u.toNat % P.modulus.toNat) ∧
    (Canon P x → nat P x < P.modulus.toNat ∧ ∀ dbg, from_uint P dbg (to_uint P x) = some x) := by
  have hc := h.consts
  obtain ⟨a1, a2⟩ := to_montgomery_spec hc u
  obtain ⟨b1, b2⟩ := from_uint_reduce_spec hc u
  refine ⟨fun hu dbg => ?_, ⟨b1, nat_of_V h b1 b2⟩, ⟨_, rfl, a1, nat_of_V h a1 a2⟩, fun hx => ?_⟩
  · refine ⟨_, if_neg ?_, a1, ?_⟩
    · simp [(lt_iff u P.modulus).2 hu]
    · rw [nat_of_V h a1 a2, Nat.mod_eq_of_lt hu]
  · have hl := to_uint_lt hc hx
    refine ⟨hl, fun dbg => ?_⟩
    unfold from_uint
    rw [if_neg (by simp [(lt_iff (to_uint P x) P.modulus).2 hl])]
    congr 1
    exact (C10_convert P.toMont hc x x).2.2.2 hx

/-- C13: addition, doubling and tripling. -/
theorem C13_add (x y : U256) (hx : Canon P x) (hy : Canon P y) :
    (Canon P (add P x y) ∧ nat P (add P x y) = (nat P x + nat P y) % P.modulus.toNat) ∧
    (Canon P (double P x) ∧ nat P (double P x) = 2 * nat P x % P.modulus.toNat) ∧
    (Canon P (triple P x) ∧ nat P (triple P x) = 3 * nat P x % P.modulus.toNat) := by
  obtain ⟨a1, a2⟩ := add_spec h.consts hx hy
  obtain ⟨b1, b2⟩ := add_spec h.consts hx hx
  obtain ⟨c1, c2⟩ := add_spec h.consts b1 hx
  refine ⟨⟨a1, nat_of_V h a1 ?_⟩, ⟨b1, nat_of_V h b1 ?_⟩, ⟨c1, nat_of_V h c1 ?_⟩⟩
  · rw [a2]; push_cast; rfl
  · rw [b2]; push_cast; rw [← V_eq]; ring
  · rw [c2, b2]; push_cast; rw [← V_eq]; ring

/-- C13: subtraction and negation. -/
theorem C13_sub (x y : U256) (hx : Canon P x) (hy : Canon P y) :
    (Canon P (PF.sub P x y) ∧
      nat P (PF.sub P x y) = (nat P x + (P.modulus.toNat - nat P y)) % P.modulus.toNat) ∧
    (Canon P (PF.neg P x) ∧ nat P (PF.neg P x) = (P.modulus.toNat - nat P x) % P.modulus.toNat) := by
  have lx : nat P x < P.modulus.toNat := to_uint_lt h.consts hx
  have ly : nat P y < P.modulus.toNat := to_uint_lt h.consts hy
  obtain ⟨a1, a2⟩ := sub_spec h.consts hx hy
  obtain ⟨b1, b2⟩ := neg_spec h.consts hx
  refine ⟨⟨a1, nat_of_V h a1 ?_⟩, ⟨b1, nat_of_V h b1 ?_⟩⟩
  · rw [a2, Nat.cast_add, Nat.cast_sub ly.le, ZMod.natCast_self, zero_sub, V_eq, V_eq, sub_eq_add_neg]
  · rw [b2, Nat.cast_sub lx.le, ZMod.natCast_self, zero_sub]; rfl

/-- C13: multiplication and squaring. -/
theorem C13_mul (x y : U256) (hx : Canon P x) (hy : Canon P y) :
    (Canon P (PF.mul P x y) ∧ nat P (PF.mul P x y) = nat P x * nat P y % P.modulus.toNat) ∧
    PF.square P x = PF.mul P x x := by
  obtain ⟨a1, a2⟩ := mul_spec h.consts hx hy
  refine ⟨⟨a1, nat_of_V h a1 ?_⟩, (square_spec h.consts hx).2.2⟩
  rw [a2]; push_cast; rfl

/-- C13: equality, and the zero and one elements and tests. -/
theorem C13_eq (x y : U256) (hx : Canon P x) (hy : Canon P y) :
    (PF.eq x y = true ↔ nat P x = nat P y) ∧
    (Canon P zero ∧ nat P zero = 0) ∧ (Canon P (one P) ∧ nat P (one P) = 1) ∧
    (is_zero x = true ↔ nat P x = 0) ∧ (is_one P x = true ↔ nat P x = 1) := by
  have hone := h.prime.one_lt
  obtain ⟨z1, z2⟩ := zero_spec h.consts
  obtain ⟨o1, o2⟩ := one_spec h.consts
  have nz : nat P zero = 0 := by
    rw [nat_of_V h z1 (n := 0) (by rw [z2]; simp), Nat.zero_mod]
  have no : nat P (one P) = 1 := by
    rw [nat_of_V h o1 (n := 1) (by rw [o2]; simp), Nat.mod_eq_of_lt hone]
  have inj : ∀ a b, Canon P a → Canon P b → nat P a = nat P b → a = b := fun a b ha hb e =>
    V_inj h.consts ha hb (by rw [V_eq, V_eq, e])
  refine ⟨⟨fun e => ?_, fun e => ?_⟩, ⟨z1, nz⟩, ⟨o1, no⟩, ⟨fun e => ?_, fun e => ?_⟩, ⟨fun e => ?_, fun e => ?_⟩⟩
  · rw [beq_iff_eq.1 e]
  · rw [inj x y hx hy e]; exact beq_self_eq_true _
  · rw [beq_iff_eq.1 e]; exact nz
  · rw [inj x zero hx z1 (e.trans nz.symm)]; rfl
  · rw [beq_iff_eq.1 e]; exact no
  · rw [inj x (one P) hx o1 (e.trans no.symm)]; exact beq_self_eq_true _

theorem sum_spec (l : List U256) (hl : ∀ x ∈ l, Canon P x) (a : U256) (ha : Canon P a) :
    Canon P (l.foldl (add P) a) ∧ V P (l.foldl (add P) a) = V P a + (l.map (V P)).sum := by
  induction l generalizing a with
  | nil => exact ⟨ha, by simp⟩
  | cons x l ih =>
    obtain ⟨a1, a2⟩ := add_spec h.consts ha (hl x (by simp))
    obtain ⟨i1, i2⟩ := ih (fun y hy => hl y (by simp [hy])) _ a1
    refine ⟨i1, ?_⟩
    rw [List.foldl_cons, i2, a2, List.map_cons, List.sum_cons, add_assoc]

theorem product_spec (l : List U256) (hl : ∀ x ∈ l, Canon P x) (a : U256) (ha : Canon P a) :
    Canon P (l.foldl (PF.mul P) a) ∧ V P (l.foldl (PF.mul P) a) = V P a * (l.map (V P)).prod := by
  induction l generalizing a with
  | nil => exact ⟨ha, by simp⟩
  | cons x l ih =>
    obtain ⟨a1, a2⟩ := mul_spec h.consts ha (hl x (by simp))
    obtain ⟨i1, i2⟩ := ih (fun y hy => hl y (by simp [hy])) _ a1
    refine ⟨i1, ?_⟩
    rw [List.foldl_cons, i2, a2, List.map_cons, List.prod_cons, mul_assoc]

/-- C13: sums and products of iterators. -/
theorem C13_sum_product (l : List U256) (hl : ∀ x ∈ l, Canon P x) :
    (Canon P (PF.sum P l) ∧ nat P (PF.sum P l) = (l.map (nat P)).sum % P.modulus.toNat) ∧
    (Canon P (PF.product P l) ∧ nat P (PF.product P l) = (l.map (nat P)).prod % P.modulus.toNat) := by
  obtain ⟨z1, z2⟩ := zero_spec h.consts
  obtain ⟨o1, o2⟩ := one_spec h.consts
  obtain ⟨a1, a2⟩ := sum_spec P h l hl _ z1
  obtain ⟨b1, b2⟩ := product_spec P h l hl _ o1
  refine ⟨⟨a1, nat_of_V h a1 ?_⟩, ⟨b1, nat_of_V h b1 ?_⟩⟩
  · rw [a2, z2, zero_add]
    clear a1 a2 b1 b2 hl
    induction l with
    | nil => simp
    | cons x l ih => simp only [List.map_cons, List.sum_cons, Nat.cast_add, ih]; rfl
  · rw [b2, o2, one_mul]
    clear a1 a2 b1 b2 hl
    induction l with
    | nil => simp
    | cons x l ih => simp only [List.map_cons, List.prod_cons, Nat.cast_mul, ih]; rfl

/-- C13: machine integers are converted to their residue class. -/
theorem C13_from_int (v : Int) (h1 : -2 ^ 63 < v) (h2 : v < 2 ^ 63) :
    Canon P (from_i64 P v) ∧ (nat P (from_i64 P v) : Int) = v % P.modulus.toNat := by
  have habs : (ofU64 (UInt64.ofNat v.natAbs)).toNat = v.natAbs := by
    have e : (UInt64.ofNat v.natAbs).toNat = v.natAbs := by
      rw [UInt64.toNat_ofNat', Nat.mod_eq_of_lt (by omega)]
    unfold ofU64 U256.toNat
    rw [e]; simp
  obtain ⟨b1, b2⟩ := from_uint_reduce_spec h.consts (ofU64 (UInt64.ofNat v.natAbs))
  rw [habs] at b2
  have key : Canon P (from_i64 P v) ∧ V P (from_i64 P v) = (v : ZMod P.modulus.toNat) := by
    unfold from_i64
    by_cases hv : v < 0
    · rw [if_pos hv]
      obtain ⟨n1, n2⟩ := neg_spec h.consts b1
      refine ⟨n1, ?_⟩
      rw [n2, b2]
      have : v = -(v.natAbs : Int) := by omega
      conv_rhs => rw [this]
      rw [Int.cast_neg, Int.cast_natCast]
    · rw [if_neg hv]
      refine ⟨b1, ?_⟩
      rw [b2]
      have : v = (v.natAbs : Int) := by omega
      conv_rhs => rw [this]
      rw [Int.cast_natCast]
  refine ⟨key.1, ?_⟩
  have e := key.2
  have hl := to_uint_lt h.consts key.1
  rw [V_eq, ← Int.cast_natCast (R := ZMod P.modulus.toNat), ZMod.intCast_eq_intCast_iff] at e
  rw [← e, Int.emod_eq_of_lt (by omega)]
  unfold nat
  omega

/-- C13: conversion to `u128` succeeds exactly for values that fit, and to `i128` exactly for the values
`v` or `-v` with `v < 2^127`. -/
theorem C13_to_primitive (x : U256) (hx : Canon P x) (hbig : 2 ^ 129 < P.modulus.toNat) :
    (∀ n, to_u128 P x = some n ↔ (n < 2 ^ 128 ∧ nat P x = n)) ∧
    (∀ v : Int, to_i128 P x = some v ↔
      (-2 ^ 127 < v ∧ v < 2 ^ 127 ∧ (nat P x : Int) = v % P.modulus.toNat)) := by
  have hl := to_uint_lt h.consts hx
  have hodd := h.consts.odd
  have hlt256 := toNat_lt P.modulus
  have u128 : ∀ u : U256, ∀ n, u256_to_u128 u = some n ↔ (n < 2 ^ 128 ∧ u.toNat = n) := by
    intro u n
    have b0 := u64_lt u.l0; have b1 := u64_lt u.l1; have b2 := u64_lt u.l2; have b3 := u64_lt u.l3
    have e : (⟨0, 0, 1, 0⟩ : U256).toNat = 2 ^ 128 := by decide
    unfold u256_to_u128
    by_cases hu : lt u ⟨0, 0, 1, 0⟩ = true
    · rw [if_pos hu]
      rw [lt_iff, e] at hu
      have e2 : as_u128 u = u.toNat := by
        unfold as_u128
        unfold U256.toNat at hu ⊢
        omega
      rw [e2]
      constructor
      · intro hh; have := Option.some.inj hh; omega
      · rintro ⟨_, rfl⟩; rfl
    · rw [if_neg hu]
      rw [lt_iff, e] at hu
      constructor
      · intro hh; simp at hh
      · rintro ⟨h1, h2⟩; omega
  have i128 : ∀ u : U256, ∀ v : Int, u256_to_i128 u = some v ↔ (v < 2 ^ 127 ∧ (u.toNat : Int) = v) := by
    intro u v
    unfold u256_to_i128
    rcases hu : u256_to_u128 u with _ | n
    · have : ¬ u.toNat < 2 ^ 128 := by
        intro hc
        have := (u128 u u.toNat).2 ⟨hc, rfl⟩
        rw [hu] at this; simp at this
      simp only [Option.bind_none]
      constructor
      · intro hh; simp at hh
      · rintro ⟨h1, h2⟩; omega
    · obtain ⟨n1, n2⟩ := (u128 u n).1 hu
      rw [Option.bind_some]
      split
      · constructor
        · intro hh; have := Option.some.inj hh; omega
        · rintro ⟨h1, h2⟩; congr 1; omega
      · constructor
        · intro hh; simp at hh
        · rintro ⟨h1, h2⟩; omega
  refine ⟨fun n => u128 _ n, fun v => ?_⟩
  have hsh := shr_div P.modulus 1
  unfold to_i128
  dsimp only
  by_cases hlt : lt (to_uint P x) (shr P.modulus 1) = true
  · rw [if_pos hlt, i128]
    rw [lt_iff, hsh] at hlt
    constructor
    · rintro ⟨h1, h2⟩
      refine ⟨by omega, h1, ?_⟩
      rw [Int.emod_eq_of_lt (by omega) (by omega)]
      exact h2
    · rintro ⟨h1, h2, h3⟩
      refine ⟨h2, ?_⟩
      rcases lt_or_ge v 0 with hv | hv
      · exfalso
        have : v % (P.modulus.toNat : Int) = v + P.modulus.toNat := by
          rw [← Int.add_emod_right, Int.emod_eq_of_lt (by omega) (by omega)]
        unfold nat at h3
        omega
      · rw [Int.emod_eq_of_lt hv (by omega)] at h3
        exact h3
  · rw [if_neg hlt]
    rw [lt_iff, hsh] at hlt
    have hs : (U256.sub P.modulus (to_uint P x)).toNat = P.modulus.toNat - (to_uint P x).toNat := sub_of_le hl.le
    have hm : ∀ w : Option Int, (w.map fun v => -v) = some v ↔ w = some (-v) := by
      intro w
      cases w with
      | none => simp
      | some a => simp [neg_eq_iff_eq_neg]
    rw [hm, i128, hs]
    constructor
    · rintro ⟨h1, h2⟩
      refine ⟨by omega, by omega, ?_⟩
      have : v % (P.modulus.toNat : Int) = v + P.modulus.toNat := by
        rw [← Int.add_emod_right, Int.emod_eq_of_lt (by omega) (by omega)]
      unfold nat
      omega
    · rintro ⟨h1, h2, h3⟩
      refine ⟨by omega, ?_⟩
      rcases lt_or_ge v 0 with hv | hv
      · have : v % (P.modulus.toNat : Int) = v + P.modulus.toNat := by
          rw [← Int.add_emod_right, Int.emod_eq_of_lt (by omega) (by omega)]
        unfold nat at h3
        omega
      · exfalso
        rw [Int.emod_eq_of_lt hv (by omega)] at h3
        unfold nat at h3
        omega

/-- C11: powers with a `usize` and with a `U256` exponent. -/
theorem C11_field_pow (x : U256) (hx : Canon P x) (e : UInt64) (e' : U256) :
    (Canon P (PF.pow P x e) ∧ nat P (PF.pow P x e) = nat P x ^ e.toNat % P.modulus.toNat) ∧
    (Canon P (powU P x e') ∧ nat P (powU P x e') = nat P x ^ e'.toNat % P.modulus.toNat) := by
  obtain ⟨a1, a2⟩ := PF.pow_spec h.consts hx e
  obtain ⟨b1, b2⟩ := powU_spec h.consts hx e'
  refine ⟨⟨a1, nat_of_V h a1 ?_⟩, ⟨b1, nat_of_V h b1 ?_⟩⟩
  · rw [a2, Nat.cast_pow]; rfl
  · rw [b2, Nat.cast_pow]; rfl

/-- What inversion of `x` must return. -/
def IsFieldInv (P : Params) (x : U256) (r : Option U256) : Prop :=
  (nat P x = 0 → r = none) ∧
  (nat P x ≠ 0 → ∃ y, r = some y ∧ Canon P y ∧ nat P x * nat P y % P.modulus.toNat = 1)

/-- C14 (partial: operands on which the debug build panics are left out, see `C14_violated`): `inv`. -/
theorem C14_inv_partial (x : U256) (hx : Canon P x) :
    PF.inv P true x = none ∨ ∃ r, (∀ dbg, PF.inv P dbg x = some r) ∧ IsFieldInv P x r := by
  have hc := h.consts
  have hone := h.prime.one_lt
  have hr3 : Canon P P.r3 := by
    show P.r3.toNat < _; rw [hc.r3]; exact Nat.mod_lt _ (modulus_pos hc)
  rcases C08_inv_mod_partial x P.modulus hone with h1 | ⟨r, h1, h2⟩
  · left; unfold PF.inv; rw [h1]; rfl
  · right
    refine ⟨r.map fun ni => mul_redc P.toMont ni P.r3, fun dbg => by unfold PF.inv; rw [h1]; rfl, ?_⟩
    have hz : nat P x = 0 ↔ x.toNat = 0 := by
      have := (C13_eq P h x x hx hx).2.2.2.1
      rw [← this]
      unfold is_zero
      rw [beq_iff_eq]
      exact ⟨fun e => by rw [e, zero_toNat], fun e => toNat_inj (by rw [e, zero_toNat])⟩
    constructor
    · intro e
      have e0 := hz.1 e
      have : ¬ Nat.Coprime x.toNat P.modulus.toNat := by
        rw [e0, Nat.coprime_zero_left]; omega
      rw [h2.2 this]; rfl
    · intro e
      have e0 : x.toNat ≠ 0 := fun e' => e (hz.2 e')
      have hco : Nat.Coprime x.toNat P.modulus.toNat := by
        rw [Nat.coprime_comm, Nat.Prime.coprime_iff_not_dvd h.prime]
        exact fun hd => absurd (Nat.le_of_dvd (by omega) hd) (by unfold Canon at hx; omega)
      obtain ⟨y, rfl, y1, y2⟩ := h2.1 hco
      obtain ⟨m1, m2⟩ := mul_redc_V hc y hr3
      refine ⟨_, rfl, m1, ?_⟩
      have vr3 : V P P.r3 = 2 ^ 256 * 2 ^ 256 := by
        apply cancelR hc
        rw [V_mul_R hc hr3, hc.r3, ZMod.natCast_mod, ← pow_add, ← pow_add, Nat.cast_pow]; rfl
      have yx : (x.toNat : ZMod P.modulus.toNat) * y.toNat = 1 := by
        rw [← Nat.cast_mul, ← Nat.cast_one, ZMod.natCast_eq_natCast_iff, Nat.ModEq, y2, Nat.mod_eq_of_lt hone]
      have fin : V P x * V P (mul_redc P.toMont y P.r3) = 1 := by
        apply cancelR hc
        rw [mul_assoc, m2, vr3, ← yx, ← V_mul_R hc hx]; ring
      rw [V_eq, V_eq, ← Nat.cast_mul, ← Nat.cast_one, ZMod.natCast_eq_natCast_iff, Nat.ModEq,
        Nat.mod_eq_of_lt hone] at fin
      exact fin

/-- C14 (partial, as above): division is multiplication by the inverse; division by zero panics. -/
theorem C14_div_partial (x y : U256) (hx : Canon P x) (hy : Canon P y) :
    (nat P y = 0 → ∀ dbg, PF.div P dbg x y = none) ∧
    (nat P y ≠ 0 → PF.inv P true y = none ∨ ∃ z, (∀ dbg, PF.div P dbg x y = some z) ∧ Canon P z ∧
      nat P z * nat P y % P.modulus.toNat = nat P x) := by
  have hone := h.prime.one_lt
  have key := C14_inv_partial P h y hy
  constructor
  · intro e dbg
    unfold PF.div
    rcases hi : PF.inv P dbg y with _ | r
    · rfl
    · have : y = ZERO := by
        have := (C13_eq P h y y hy hy).2.2.2.1.2 e
        exact beq_iff_eq.1 this
      have e0 : y.toNat = 0 := by rw [this, zero_toNat]
      -- `inv` of zero never panics: no division step is executed
      have hz : ∀ dbg, PF.inv P dbg y = some none := by
        intro dbg
        unfold PF.inv
        have hnge : ¬ ge y P.modulus = true := by
          rw [ge_iff, e0]; omega
        rw [inv_mod, if_neg hnge, Option.bind_some, fuel_eq, e0]
        unfold invLoop
        rw [if_pos this, Option.map_some, Option.map_some]
        dsimp only
        rw [if_neg]
        · rfl
        · intro hc
          rw [hc, one_toNat] at hone
          omega
      rw [hz] at hi
      rw [← Option.some.inj hi]; rfl
  · intro e
    rcases key with k | ⟨r, k1, k2⟩
    · exact Or.inl k
    · right
      obtain ⟨i, rfl, i1, i2⟩ := k2.2 e
      obtain ⟨m1, m2⟩ := mul_spec h.consts hx i1
      refine ⟨PF.mul P x i, fun dbg => by unfold PF.div; rw [k1]; rfl, m1, ?_⟩
      have : (nat P y : ZMod P.modulus.toNat) * nat P i = 1 := by
        rw [← Nat.cast_mul, ← Nat.cast_one, ZMod.natCast_eq_natCast_iff, Nat.ModEq, i2, Nat.mod_eq_of_lt hone]
      have fin : ((nat P (PF.mul P x i) * nat P y : Nat) : ZMod P.modulus.toNat) = nat P x := by
        rw [Nat.cast_mul, ← V_eq, m2, V_eq, V_eq, mul_assoc, mul_comm (nat P i : ZMod P.modulus.toNat), this, mul_one]
      rw [ZMod.natCast_eq_natCast_iff, Nat.ModEq] at fin
      rw [fin, Nat.mod_eq_of_lt]
      exact to_uint_lt h.consts hx

end

/-- C14 does not hold for all elements: on this base-field element the debug build panics and the release
build returns something that is not its inverse. -/
theorem C14_violated : ∃ x : U256, Canon BASE x ∧ nat BASE x ≠ 0 ∧ PF.inv BASE true x = none ∧
    ∃ y, PF.inv BASE false x = some (some y) ∧ nat BASE x * nat BASE y % BASE.modulus.toNat ≠ 1 := by
  refine ⟨badInv, by unfold Canon; decide +kernel, by decide +kernel, by decide +kernel, ⟨9200392188993188242, 17131316097674997843, 15538477033391035178, 388971875700946971⟩, by decide +kernel,
    by decide +kernel⟩

/-- The hypotheses are met: 7 is a base-field element whose inverse is found in both profiles. -/
example : Canon BASE (from_uint_reduce BASE ⟨7, 0, 0, 0⟩) ∧
    PF.inv BASE true (from_uint_reduce BASE ⟨7, 0, 0, 0⟩) ≠ none ∧
    nat BASE (from_uint_reduce BASE ⟨7, 0, 0, 0⟩) = 7 := by
  refine ⟨by unfold Canon; decide +kernel, by decide +kernel, by decide +kernel⟩

end OpenZKP.Props
