import Verif.Field.Ints
import Verif.Props.Field
import Verif.Props.Conversion

/-!
# Property C97: machine integers and field elements

`nat P x` is the number below the modulus that the element `x` stands for, `Canon P x` says that its representation is reduced.
-/

namespace OpenZKP.Props
open OpenZKP U256 PF

namespace FieldInts

/-- the widths of the signed integer types -/
def widths : List Nat := [8, 16, 32, 64, 128]

theorem ofSigned_toNat {w : Nat} (hw : w ∈ widths) {n : Int} (h0 : 0 ≤ n) (h1 : n < 2 ^ (w - 1)) : (ofSigned w n).toNat = n.toNat := by
  obtain ⟨a, b⟩ := C59_from_signed n
  have e : ((ofSigned w n).toNat : Int) = n % 2 ^ 256 := by
    unfold ofSigned
    simp only [widths, List.mem_cons, List.not_mem_nil, or_false] at hw
    rcases hw with rfl | rfl | rfl | rfl | rfl
    · rw [if_neg (by norm_num)]; exact a (by norm_num at h1 ⊢; omega)
    · rw [if_neg (by norm_num)]; exact a (by norm_num at h1 ⊢; omega)
    · rw [if_neg (by norm_num)]; exact a (by norm_num at h1 ⊢; omega)
    · rw [if_neg (by norm_num)]; exact a (by norm_num at h1 ⊢; omega)
    · rw [if_pos rfl]; exact b (by norm_num at h1 ⊢; omega)
  have hb : n < 2 ^ 256 := by
    simp only [widths, List.mem_cons, List.not_mem_nil, or_false] at hw
    rcases hw with rfl | rfl | rfl | rfl | rfl <;> norm_num at h1 ⊢ <;> omega
  rw [Int.emod_eq_of_lt h0 hb] at e
  omega

theorem to_u128_iff (u : U256) (n : Nat) : u256_to_u128 u = some n ↔ (n < 2 ^ 128 ∧ u.toNat = n) := by
  have b0 := u64_lt u.l0; have b1 := u64_lt u.l1; have b2 := u64_lt u.l2; have b3 := u64_lt u.l3
  have e : (⟨0, 0, 1, 0⟩ : U256).toNat = 2 ^ 128 := by decide
  unfold u256_to_u128
  by_cases hu : lt u ⟨0, 0, 1, 0⟩ = true
  · rw [if_pos hu]
    rw [lt_iff, e] at hu
    have e2 : as_u128 u = u.toNat := by
      unfold as_u128
      unfold U256.toNat at hu ⊢
      omega
    rw [e2]
    constructor
    · intro hh; have := Option.some.inj hh; omega
    · rintro ⟨_, rfl⟩; rfl
  · rw [if_neg hu]
    rw [lt_iff, e] at hu
    constructor
    · intro hh; simp at hh
    · rintro ⟨h1, h2⟩; omega

/-- C97: conversion of a 256 bit integer to each of the wide machine integers gives the same integer, if the type has it, and otherwise nothing. -/
theorem C97_u256_to (u : U256) :
    (∀ n, u256_to_u128 u = some n ↔ (n < 2 ^ 128 ∧ u.toNat = n)) ∧ (∀ n, u256_to_u64 u = some n ↔ (n < 2 ^ 64 ∧ u.toNat = n)) ∧
    (∀ v : Int, u256_to_i128 u = some v ↔ (v < 2 ^ 127 ∧ (u.toNat : Int) = v)) ∧
    (∀ v : Int, u256_to_i64 u = some v ↔ (v < 2 ^ 63 ∧ (u.toNat : Int) = v)) := by
  refine ⟨to_u128_iff u, fun n => ?_, fun v => ?_, fun v => ?_⟩
  · simp only [u256_to_u64, Option.bind_eq_some_iff, to_u128_iff, narrowU64, Option.ite_none_right_eq_some, Option.some.injEq]
    constructor
    · rintro ⟨m, ⟨a, b⟩, c, d⟩; omega
    · rintro ⟨a, b⟩; exact ⟨n, ⟨by omega, b⟩, a, rfl⟩
  · unfold u256_to_i128
    rw [Option.bind_eq_some_iff]
    constructor
    · rintro ⟨m, a, b⟩
      have c := (to_u128_iff u m).1 a
      rw [Option.ite_none_right_eq_some] at b
      obtain ⟨d, e⟩ := b
      have := Option.some.inj e
      omega
    · rintro ⟨a, b⟩
      exact ⟨u.toNat, (to_u128_iff u _).2 ⟨by omega, rfl⟩, by rw [if_pos (by omega), b]⟩
  · unfold u256_to_i64 narrowI64
    rw [Option.bind_eq_some_iff]
    constructor
    · rintro ⟨m, a, b⟩
      have c := (to_u128_iff u m).1 a
      rw [Option.ite_none_right_eq_some] at b
      obtain ⟨d, e⟩ := b
      have := Option.some.inj e
      omega
    · rintro ⟨a, b⟩
      exact ⟨u.toNat, (to_u128_iff u _).2 ⟨by omega, rfl⟩, by rw [if_pos (by omega), b]⟩

section
variable {P : Params} (h : FieldOK P)
include h

theorem residue {z : U256} (hz : Canon P z) {v : Int} (e : V P z = (v : ZMod P.modulus.toNat)) : (nat P z : Int) = v % P.modulus.toNat := by
  have hl := to_uint_lt h.consts hz
  rw [V_eq, ← Int.cast_natCast (R := ZMod P.modulus.toNat), ZMod.intCast_eq_intCast_iff] at e
  rw [← e, Int.emod_eq_of_lt (by omega)]
  unfold nat
  omega

/-- C97: unsigned integers of every type are converted to their residue class. -/
theorem C97_from_unsigned (n : UInt64) (m : Nat) (hm : m < 2 ^ 128) :
    (Canon P (from_u64 P n) ∧ nat P (from_u64 P n) = n.toNat % P.modulus.toNat) ∧
    (Canon P (from_u128 P m) ∧ nat P (from_u128 P m) = m % P.modulus.toNat) := by
  obtain ⟨e1, e2, _⟩ := C59_from_unsigned n m hm true
  obtain ⟨a1, a2⟩ := from_uint_reduce_spec h.consts (ofU64 n)
  obtain ⟨b1, b2⟩ := from_uint_reduce_spec h.consts (ofU128 m)
  rw [e1] at a2
  rw [e2] at b2
  exact ⟨⟨a1, nat_of_V h a1 a2⟩, ⟨b1, nat_of_V h b1 b2⟩⟩

/-- C97, **partial**: signed integers of every type, except the least one of the type, are converted to their residue class, with and without overflow
checks. -/
theorem C97_from_signed_partial (dbg : Bool) (w : Nat) (hw : w ∈ widths) (n : Int) (h1 : -2 ^ (w - 1) < n) (h2 : n < 2 ^ (w - 1)) :
    ∃ x, from_signed P dbg w n = some x ∧ Canon P x ∧ (nat P x : Int) = n % P.modulus.toNat := by
  unfold from_signed as_sign_abs
  by_cases hn : n ≥ 0
  · rw [if_pos hn, Option.map_some, if_neg Bool.false_ne_true]
    obtain ⟨b1, b2⟩ := from_uint_reduce_spec h.consts (ofSigned w n)
    rw [ofSigned_toNat hw hn h2] at b2
    refine ⟨_, rfl, b1, residue h b1 ?_⟩
    rw [b2, ← Int.cast_natCast, Int.toNat_of_nonneg hn]
  · rw [if_neg hn, negInt, if_neg (by omega), Option.map_some, Option.map_some, if_pos rfl]
    obtain ⟨b1, b2⟩ := from_uint_reduce_spec h.consts (ofSigned w (-n))
    obtain ⟨n1, n2⟩ := neg_spec h.consts b1
    rw [ofSigned_toNat hw (by omega) (by omega)] at b2
    refine ⟨_, rfl, n1, residue h n1 ?_⟩
    rw [n2, b2, ← Int.cast_natCast, Int.toNat_of_nonneg (by omega), Int.cast_neg, neg_neg]

/-- C97: conversion to `u64` and `i64` gives the integer of that type that the element stands for, if there is one. -/
theorem C97_to_64 (x : U256) (hx : Canon P x) (hbig : 2 ^ 129 < P.modulus.toNat) :
    (∀ n, to_u64 P x = some n ↔ (n < 2 ^ 64 ∧ nat P x = n)) ∧
    (∀ v : Int, to_i64 P x = some v ↔ (-2 ^ 63 ≤ v ∧ v < 2 ^ 63 ∧ (nat P x : Int) = v % P.modulus.toNat)) := by
  obtain ⟨a, b⟩ := C13_to_primitive P h x hx hbig
  constructor
  · intro n
    unfold to_u64
    rw [Option.bind_eq_some_iff]
    constructor
    · rintro ⟨m, hm, e⟩
      obtain ⟨m1, m2⟩ := (a m).1 hm
      unfold narrowU64 at e
      split at e
      · next c => cases e; exact ⟨c, m2⟩
      · cases e
    · rintro ⟨n1, n2⟩
      exact ⟨n, (a n).2 ⟨by omega, n2⟩, by rw [narrowU64, if_pos n1]⟩
  · intro v
    unfold to_i64
    rw [Option.bind_eq_some_iff]
    constructor
    · rintro ⟨m, hm, e⟩
      obtain ⟨m1, m2, m3⟩ := (b m).1 hm
      unfold narrowI64 at e
      split at e
      · next c => cases e; exact ⟨c.1, c.2, m3⟩
      · cases e
    · rintro ⟨n1, n2, n3⟩
      exact ⟨v, (b v).2 ⟨by omega, by omega, n3⟩, by rw [narrowI64, if_pos ⟨n1, n2⟩]⟩

/-- C97, **partial**: conversion to `u128` and `i128` gives the integer of that type that the element stands for, if there is one, except the least `i128`. -/
theorem C97_to_128_partial (x : U256) (hx : Canon P x) (hbig : 2 ^ 129 < P.modulus.toNat) :
    (∀ n, to_u128 P x = some n ↔ (n < 2 ^ 128 ∧ nat P x = n)) ∧
    (∀ v : Int, to_i128 P x = some v ↔ (-2 ^ 127 < v ∧ v < 2 ^ 127 ∧ (nat P x : Int) = v % P.modulus.toNat)) :=
  C13_to_primitive P h x hx hbig

/-- C97, **partial**: a signed integer, other than the least of its type, converted to a field element and back is the same. -/
theorem C97_roundtrip_partial (hbig : 2 ^ 129 < P.modulus.toNat) (dbg : Bool) (w : Nat) (hw : w ∈ widths) (n : Int) (h1 : -2 ^ (w - 1) < n)
    (h2 : n < 2 ^ (w - 1)) :
    ∃ x, from_signed P dbg w n = some x ∧ to_i128 P x = some n ∧ (w ≤ 64 → to_i64 P x = some n) := by
  obtain ⟨x, e, c, r⟩ := C97_from_signed_partial h dbg w hw n h1 h2
  refine ⟨x, e, ((C97_to_128_partial h x c hbig).2 n).2 ⟨?_, ?_, r⟩, fun h64 => ((C97_to_64 h x c hbig).2 n).2 ⟨?_, ?_, r⟩⟩ <;>
    simp only [widths, List.mem_cons, List.not_mem_nil, or_false] at hw <;>
    rcases hw with rfl | rfl | rfl | rfl | rfl <;> norm_num at h1 h2 ⊢ <;> omega

/-- C97 is violated at the upper conversion: the element of the least `i128` is not converted to it. -/
theorem C97_to_i128_violated (hbig : 2 ^ 129 < P.modulus.toNat) (x : U256) (hx : Canon P x) (e : (nat P x : Int) = (-2 ^ 127) % P.modulus.toNat) :
    to_i128 P x = none := by
  rcases r : to_i128 P x with _ | v
  · rfl
  · exfalso
    obtain ⟨a, b, c⟩ := ((C97_to_128_partial h x hx hbig).2 v).1 r
    rw [e] at c
    have p0 : (0 : Int) < P.modulus.toNat := by omega
    have d : (P.modulus.toNat : Int) ∣ -2 ^ 127 - v := Int.ModEq.dvd (show v ≡ -2 ^ 127 [ZMOD P.modulus.toNat] from c.symm)
    obtain ⟨q, hq⟩ := d
    have hlt : -2 ^ 127 - v < 0 := by omega
    have hgt : -(P.modulus.toNat : Int) < -2 ^ 127 - v := by omega
    have q0 : q < 0 := by
      by_contra hc
      have := mul_nonneg p0.le (not_lt.1 hc)
      omega
    have : (P.modulus.toNat : Int) * q ≤ P.modulus.toNat * (-1) := mul_le_mul_of_nonneg_left (by omega) p0.le
    omega

end

theorem some_of_check {α : Type} {o : Option α} {q : α → Prop} [DecidablePred q] (h : (o.map fun x => decide (q x)) = some true) :
    ∃ x, o = some x ∧ q x := by
  cases o with
  | none => cases h
  | some x => exact ⟨x, rfl, by simpa using h⟩

/-- C97 is violated: in both fields of the library, the conversion of the least integer of every signed type panics with overflow checks, and without them
its result is not the residue class of the integer. -/
theorem C97_violated (P : Params) (hP : P = BASE ∨ P = SCALAR) (w : Nat) (hw : w ∈ widths) :
    from_signed P true w (-2 ^ (w - 1)) = none ∧
    ∃ x, from_signed P false w (-2 ^ (w - 1)) = some x ∧ (nat P x : Int) ≠ (-2 ^ (w - 1)) % P.modulus.toNat := by
  simp only [widths, List.mem_cons, List.not_mem_nil, or_false] at hw
  rcases hP with rfl | rfl <;> rcases hw with rfl | rfl | rfl | rfl | rfl <;>
    exact ⟨by decide +kernel, some_of_check (by decide +kernel)⟩

/-- Non-vacuous: both fields are large enough, and -1 and -2 ^ 63 + 1 come back from the base field; 5 as an `u8` is the element 5. -/
example : 2 ^ 129 < BASE.modulus.toNat ∧ 2 ^ 129 < SCALAR.modulus.toNat ∧
    (∃ x, from_signed BASE true 64 (-1) = some x ∧ nat BASE x = BASE.modulus.toNat - 1 ∧ to_i64 BASE x = some (-1)) ∧
    (from_signed BASE true 64 (-2 ^ 63 + 1)).bind (to_i64 BASE) = some (-2 ^ 63 + 1) ∧ nat BASE (from_u64 BASE 5) = 5 := by
  refine ⟨by decide +kernel, by decide +kernel, some_of_check (by decide +kernel), by decide +kernel, by decide +kernel⟩

/-- Non-vacuous: 2 ^ 64 fits 128 bits and not 64, 2 ^ 63 is not an `i64`. -/
example : u256_to_u128 (ofU128 (2 ^ 64)) = some (2 ^ 64) ∧ u256_to_u64 (ofU128 (2 ^ 64)) = none ∧ u256_to_u64 (ofU128 (2 ^ 63)) = some (2 ^ 63) ∧
    u256_to_i64 (ofU128 (2 ^ 63)) = none ∧ u256_to_i64 (ofU128 7) = some 7 := by decide +kernel

/-- Non-vacuous: there is an element that stands for the least `i128`. -/
example : ∃ x, Canon BASE x ∧ (nat BASE x : Int) = (-2 ^ 127) % BASE.modulus.toNat ∧ to_i128 BASE x = none :=
  ⟨neg BASE (from_u128 BASE (2 ^ 127)), by unfold Canon; decide +kernel, by decide +kernel, by decide +kernel⟩

end FieldInts
end OpenZKP.Props
