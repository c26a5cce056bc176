import Verif.U256.Macros
import Verif.Props.Encoding
import Verif.Props.Montgomery
import Verif.Field.PrimeField

/-!
# C86: what the literals `hex!`, `u256h!` and `field_element!` denote

The specification is that of C56: `hexTable` lists the hexadecimal digits (both cases) with their values,
`HexDigits s vs` says that `vs` are the values of the digits `s`, `hexValue vs` is the number they write.
-/

namespace OpenZKP
namespace Props
namespace Literals

open U256

/-- value of a list of bytes, least significant first -/
def leVal (l : List UInt8) : Nat := l.foldr (fun b a => b.toNat + 256 * a) 0

theorem leVal_reverse (l : List UInt8) : leVal l.reverse = beValue l := by
  unfold leVal beValue
  rw [List.foldr_reverse]
  congr 1
  funext a b
  omega

theorem leVal_lt (l : List UInt8) : leVal l < 256 ^ l.length := by
  induction l with
  | nil => simp [leVal]
  | cons b l ih =>
    have hb := b.toNat_lt
    have e : leVal (b :: l) = b.toNat + 256 * leVal l := rfl
    rw [e, List.length_cons, pow_succ]
    omega

theorem leVal_append (a b : List UInt8) : leVal (a ++ b) = leVal a + 256 ^ a.length * leVal b := by
  induction a with
  | nil => simp [leVal]
  | cons x a ih =>
    have e : ∀ l, leVal (x :: l) = x.toNat + 256 * leVal l := fun _ => rfl
    rw [List.cons_append, e, e, ih, List.length_cons, pow_succ]
    ring

theorem or_byte (r : UInt64) (b : UInt8) (j : Nat) (hj : j < 8) (hr : r.toNat < 256 ^ j) :
    (r ||| (b.toUInt64 <<< UInt64.ofNat (8 * j))).toNat = r.toNat + 256 ^ j * b.toNat ∧
    r.toNat + 256 ^ j * b.toNat < 256 ^ (j + 1) := by
  have hb := b.toNat_lt
  have e256 : (256 : Nat) ^ j = 2 ^ (8 * j) := by rw [pow_mul]; norm_num
  have hlt : r.toNat + 256 ^ j * b.toNat < 256 ^ (j + 1) := by
    have : 256 ^ j * b.toNat ≤ 256 ^ j * 255 := Nat.mul_le_mul_left _ (by omega)
    rw [pow_succ]; omega
  refine ⟨?_, hlt⟩
  have h64 : (256 : Nat) ^ (j + 1) ≤ 2 ^ 64 :=
    le_trans (Nat.pow_le_pow_right (by norm_num) (show j + 1 ≤ 8 by omega)) (by norm_num)
  have e1 : (UInt64.ofNat (8 * j)).toNat % 64 = 8 * j := by
    rw [UInt64.toNat_ofNat']; omega
  have hp : b.toNat * 2 ^ (8 * j) < 2 ^ 64 := by
    rw [← e256, Nat.mul_comm]; omega
  rw [UInt64.toNat_or, UInt64.toNat_shiftLeft, e1, UInt8.toNat_toUInt64, Nat.shiftLeft_eq, Nat.mod_eq_of_lt hp,
    Nat.or_comm, ← Nat.shiftLeft_eq,
    ← Nat.shiftLeft_add_eq_or_of_lt (show r.toNat < 2 ^ (8 * j) by rw [← e256]; exact hr),
    Nat.shiftLeft_eq, e256]
  ring

theorem limbLoop_spec (n j : Nat) (it : List UInt8) (r : UInt64) (hj : j + n ≤ 8) (hr : r.toNat < 256 ^ j) :
    (limbLoop n j it r).1.toNat = r.toNat + 256 ^ j * leVal (it.take n) ∧
    (limbLoop n j it r).2 = if n ≤ it.length then some (it.drop n) else none := by
  induction n generalizing j it r with
  | zero => simp [limbLoop, leVal]
  | succ n ih =>
    cases it with
    | nil => simp [limbLoop, leVal]
    | cons b it =>
      obtain ⟨e, hlt⟩ := or_byte r b j (by omega) hr
      obtain ⟨h1, h2⟩ := ih (j + 1) it (r ||| (b.toUInt64 <<< UInt64.ofNat (8 * j))) (by omega) (by rw [e]; exact hlt)
      rw [limbLoop]
      refine ⟨?_, ?_⟩
      · rw [h1, e, List.take_succ_cons]
        have : leVal (b :: it.take n) = b.toNat + 256 * leVal (it.take n) := rfl
        rw [this, pow_succ]
        ring
      · rw [h2]
        simp

/-- value of a list of limbs, least significant first -/
def limbsVal (l : List UInt64) : Nat := l.foldr (fun b a => b.toNat + 2 ^ 64 * a) 0

theorem limbsVal_zero (n : Nat) : limbsVal (List.replicate n 0) = 0 := by
  induction n with
  | zero => rfl
  | succ n ih =>
    have : limbsVal (List.replicate (n + 1) 0) = 0 + 2 ^ 64 * limbsVal (List.replicate n 0) := rfl
    rw [this, ih]
    omega

theorem limbsLoop_spec (n : Nat) (it : List UInt8) (h : it.length ≤ 8 * n) :
    (limbsLoop n it).length = n ∧ limbsVal (limbsLoop n it) = leVal it := by
  induction n generalizing it with
  | zero =>
    have : it = [] := by cases it with | nil => rfl | cons => simp at h
    subst this
    exact ⟨rfl, rfl⟩
  | succ n ih =>
    obtain ⟨h1, h2⟩ := limbLoop_spec 8 0 it 0 (by omega) (by simp)
    have e0 : ((0 : UInt64)).toNat = 0 := rfl
    rw [e0, pow_zero, zero_add, one_mul] at h1
    have ec : ∀ (c : UInt64) l, limbsVal (c :: l) = c.toNat + 2 ^ 64 * limbsVal l := fun _ _ => rfl
    rw [limbsLoop]
    generalize limbLoop 8 0 it 0 = q at h1 h2
    obtain ⟨c, o⟩ := q
    dsimp only at h1 h2
    by_cases hl : 8 ≤ it.length
    · rw [if_pos hl] at h2
      subst h2
      dsimp only
      obtain ⟨k1, k2⟩ := ih (it.drop 8) (by simp; omega)
      refine ⟨by simp [k1], ?_⟩
      rw [ec, k2, h1]
      have := leVal_append (it.take 8) (it.drop 8)
      rw [List.take_append_drop, List.length_take, Nat.min_eq_left hl] at this
      rw [this, show (256 : Nat) ^ 8 = 2 ^ 64 by norm_num]
    · rw [if_neg hl] at h2
      subst h2
      dsimp only
      refine ⟨by simp, ?_⟩
      rw [ec, limbsVal_zero, h1, List.take_of_length_le (by omega)]
      omega

theorem bytes_to_limbs_spec (l : List UInt8) :
    (32 < l.length → bytes_to_limbs l = none) ∧
    (l.length ≤ 32 → ∃ x, bytes_to_limbs l = some x ∧ x.toNat = beValue l) := by
  refine ⟨fun h => by rw [bytes_to_limbs, if_pos h], fun h => ?_⟩
  obtain ⟨h1, h2⟩ := limbsLoop_spec 4 l.reverse (by simp; omega)
  rw [leVal_reverse] at h2
  rw [bytes_to_limbs, if_neg (by omega)]
  match hq : limbsLoop 4 l.reverse, h1 with
  | [c0, c1, c2, c3], _ =>
    refine ⟨_, rfl, ?_⟩
    rw [hq] at h2
    rw [← h2]
    simp only [limbsVal, List.foldr_cons, List.foldr_nil, U256.toNat]
    ring

theorem digits_of {s : List Char} (h : ∀ c ∈ s, (hexVal c).isSome) : ∃ vs, HexDigits s vs := by
  induction s with
  | nil => exact ⟨[], .nil⟩
  | cons c s ih =>
    obtain ⟨vs, hv⟩ := ih fun x hx => h x (List.mem_cons_of_mem _ hx)
    obtain ⟨v, e⟩ := Option.isSome_iff_exists.1 (h c List.mem_cons_self)
    exact ⟨v :: vs, .cons (table_of_hexVal e) hv⟩

theorem hexDecode_bytes (s : List Char) (l : List UInt8) (h : hexDecode s = some l) :
    ∃ vs, HexDigits s vs ∧ vs.length = 2 * l.length ∧
      ∀ i (h : i < l.length), ∃ hi lo, vs[2 * i]? = some hi ∧ vs[2 * i + 1]? = some lo ∧
        l[i].toNat = 16 * hi + lo := by
  match s with
  | [] =>
    rw [hexDecode, Option.some.injEq] at h
    subst h
    exact ⟨[], .nil, rfl, fun i hi => absurd hi (by simp)⟩
  | [c] => simp [hexDecode] at h
  | a :: b :: r =>
    unfold hexDecode at h
    split at h
    · rename_i x y l' ha hb hl
      obtain ⟨vs, k1, k2, k3⟩ := hexDecode_bytes r l' hl
      rw [Option.some.injEq] at h
      subst h
      refine ⟨x :: y :: vs, .cons (table_of_hexVal ha) (.cons (table_of_hexVal hb) k1), by simp [k2]; omega, ?_⟩
      intro i hi
      cases i with
      | zero =>
        have := hexVal_lt ha
        have := hexVal_lt hb
        refine ⟨x, y, rfl, rfl, ?_⟩
        rw [List.getElem_cons_zero, UInt8.toNat_ofNat_of_lt' (by simp only [UInt8.size]; omega)]
      | succ i =>
        obtain ⟨hi', lo, e1, e2, e3⟩ := k3 i (by simpa using hi)
        refine ⟨hi', lo, ?_, ?_, ?_⟩
        · rw [show 2 * (i + 1) = 2 * i + 1 + 1 by ring]; simpa using e1
        · rw [show 2 * (i + 1) + 1 = 2 * i + 1 + 1 + 1 by ring]; simpa using e2
        · simpa using e3
    · simp at h

/-- **C86 (`hex!`).** The literal compiles exactly for the strings of an even number of hexadecimal digits,
and denotes the bytes they write, two digits a byte. -/
theorem C86_hex (s : List Char) :
    ((hexMacro s).isSome ↔ s.length % 2 = 0 ∧ ∃ vs, HexDigits s vs) ∧
    (∀ l, hexMacro s = some l → ∃ vs, HexDigits s vs ∧ vs.length = 2 * l.length ∧
      ∀ i (h : i < l.length), ∃ hi lo, vs[2 * i]? = some hi ∧ vs[2 * i + 1]? = some lo ∧
        l[i].toNat = 16 * hi + lo) := by
  refine ⟨⟨fun h => ?_, fun ⟨h1, vs, h2⟩ => ?_⟩, fun l h => ?_⟩
  · obtain ⟨l, e⟩ := Option.isSome_iff_exists.1 h
    obtain ⟨h1, h2⟩ := hexDecode_some e
    exact ⟨by omega, digits_of h2⟩
  · obtain ⟨l, e, _⟩ := hexDecode_spec s vs (hexDigits_map h2) h1
    rw [hexMacro, e]; rfl
  · exact hexDecode_bytes s l h

/-- **C86 (`u256h!`).** The literal compiles exactly for the strings of an even number, at most 64, of
hexadecimal digits, and denotes the number they write. -/
theorem C86_u256h (s : List Char) :
    ((u256hMacro s).isSome ↔ s.length % 2 = 0 ∧ s.length ≤ 64 ∧ ∃ vs, HexDigits s vs) ∧
    (∀ x vs, u256hMacro s = some x → HexDigits s vs → x.toNat = hexValue vs) := by
  have key : ∀ l, hexDecode s = some l → ((u256hMacro s).isSome ↔ l.length ≤ 32) ∧
      ∀ x, u256hMacro s = some x → x.toNat = beValue l := by
    intro l e
    obtain ⟨k1, k2⟩ := bytes_to_limbs_spec l
    rw [u256hMacro, e, Option.bind_some]
    by_cases hl : l.length ≤ 32
    · obtain ⟨x, ex, hx⟩ := k2 hl
      rw [ex]
      refine ⟨by simp [hl], fun y hy => ?_⟩
      rw [Option.some.injEq] at hy
      rw [← hy, hx]
    · rw [k1 (by omega)]
      exact ⟨by simp; omega, fun y hy => by simp at hy⟩
  refine ⟨⟨fun h => ?_, fun ⟨h1, h2, vs, h3⟩ => ?_⟩, fun x vs h hv => ?_⟩
  · cases e : hexDecode s with
    | none => rw [u256hMacro, e] at h; simp at h
    | some l =>
      obtain ⟨h1, h2⟩ := hexDecode_some e
      have := (key l e).1.1 h
      exact ⟨by omega, by omega, digits_of h2⟩
  · obtain ⟨l, e, hl, _⟩ := hexDecode_spec s vs (hexDigits_map h3) h1
    exact (key l e).1.2 (by omega)
  · cases e : hexDecode s with
    | none => rw [u256hMacro, e] at h; simp at h
    | some l =>
      obtain ⟨h1, _⟩ := hexDecode_some e
      obtain ⟨l', e', _, hval⟩ := hexDecode_spec s vs (hexDigits_map hv) (by omega)
      rw [e, Option.some.injEq] at e'
      subst e'
      rw [(key l e).2 x h, hexValue, beValue]
      exact hval 0

/-- **C86 (`field_element!`).** The literal compiles for exactly the strings for which `u256h!` does.  The
constant is a reduced representation (below the modulus), and the element it represents is the number
written, modulo the prime: it is the element the run-time conversion of that number yields. -/
theorem C86_field_element (s : List Char) :
    (∀ c, fieldElementMacro s = some c ↔ ∃ x, u256hMacro s = some x ∧ to_montgomery PROTH x = c) ∧
    (∀ c vs, fieldElementMacro s = some c → HexDigits s vs →
      c.toNat < PROTH.modulus.toNat ∧ (PF.to_uint PF.BASE c).toNat = hexValue vs % PROTH.modulus.toNat) := by
  have key : fieldElementMacro s = (u256hMacro s).map (to_montgomery PROTH) := by
    unfold fieldElementMacro u256hMacro
    cases hexDecode s with
    | none => rfl
    | some l =>
      rw [Option.bind_some, Option.bind_some]
      cases bytes_to_limbs l with
      | none => rfl
      | some x => rw [Option.bind_some, Option.map_some, C55_macro_convert]
  refine ⟨fun c => by rw [key, Option.map_eq_some_iff], fun c vs h hv => ?_⟩
  rw [key, Option.map_eq_some_iff] at h
  obtain ⟨x, hx, rfl⟩ := h
  have hc := C10_convert PROTH C10_proth_constants.1 x x
  have hpos : 0 < PROTH.modulus.toNat := by decide
  refine ⟨by rw [hc.1]; exact Nat.mod_lt _ hpos, ?_⟩
  have e : PF.to_uint PF.BASE (to_montgomery PROTH x) = from_montgomery PROTH (to_montgomery PROTH x) := rfl
  rw [e, hc.2.1, (C86_u256h s).2 x vs hx hv]

/-- Instances: the literals `hex!("0123456789abCDeF")` and `u256h!` of the tests of the library, a literal
of more than one limb, the element `3` written with leading zeros; an odd number of digits, a sign, a
prefix and 66 digits are refused. -/
example :
    hexMacro "0123456789abCDeF".toList = some [0x01, 0x23, 0x45, 0x67, 0x89, 0xAB, 0xCD, 0xEF] ∧
    HexDigits "1fe2".toList [1, 15, 14, 2] ∧
    u256hMacro "1fe2".toList = some ⟨0x1fe2, 0, 0, 0⟩ ∧
    u256hMacro "0000000000000004000000000000000300000000000000020000000000000001".toList = some ⟨1, 2, 3, 4⟩ ∧
    u256hMacro "0512345678000000aB".toList = some ⟨0x12345678000000ab, 5, 0, 0⟩ ∧
    fieldElementMacro "01".toList = some ⟨18446744073709551585, 18446744073709551615, 18446744073709551615, 576460752303422960⟩ ∧
    u256hMacro "123".toList = none ∧ u256hMacro "-1".toList = none ∧ u256hMacro "0x12".toList = none ∧
    u256hMacro (List.replicate 66 '0') = none := by
  refine ⟨by decide +kernel, ?_, by decide +kernel, by decide +kernel, by decide +kernel, by decide +kernel,
    by decide +kernel, by decide +kernel, by decide +kernel, by decide +kernel⟩
  exact .cons (by decide) (.cons (by decide) (.cons (by decide) (.cons (by decide) .nil)))

end Literals
end Props
end OpenZKP
