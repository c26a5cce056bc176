import Verif.U256.EncodingLemmas
import Verif.Props.U256
import Mathlib.Data.Set.Card
import Mathlib.Order.Interval.Finset.Nat

/-!
# C07, C56, C58: strings and random sampling

The specification side uses Lean's own decimal numerals: `Nat.toDigits 10 n` is the canonical numeral of
`n` and `Nat.ofDigitChars 10 s 0` the value of a string of digits.
-/

namespace OpenZKP
namespace Props

open U256

/-- `ceil(2^256 / 10)` -/
def ceil10 : Nat := (2 ^ 256 + 9) / 10

theorem ceil10_eq : max10.toNat = ceil10 := by decide +kernel

/-- Printing gives the canonical decimal numeral, in both build profiles, without panicking. -/
theorem C07_print (dbg : Bool) (x : U256) : to_decimal_string dbg x = some (Nat.toDigits 10 x.toNat) :=
  to_decimal_string_eq dbg x

/-- Parsing, the part that holds: for a non-empty string of digits none of whose proper prefixes has
exactly the value `ceil(2^256/10)`, the parser accepts exactly when the value is below `2^256`, returns
that value, and otherwise reports an overflow.  (Missing: the excluded strings, where the code is wrong;
see `C07_violated`.) -/
theorem C07_parse_partial (s : List Char) (hs : s ≠ []) (hd : ∀ c ∈ s, c.isDigit = true)
    (hp : ∀ p, p <+: s → p ≠ s → Nat.ofDigitChars 10 p 0 ≠ ceil10) :
    (Nat.ofDigitChars 10 s 0 < 2 ^ 256 →
      ∃ x, from_decimal_str s = some (.ok x) ∧ x.toNat = Nat.ofDigitChars 10 s 0) ∧
    (2 ^ 256 ≤ Nat.ofDigitChars 10 s 0 → from_decimal_str s = some (.error .Overflow)) := by
  have := decLoop_spec s hd ZERO (by rw [zero_toNat, ceil10_eq]; exact hp)
  rw [zero_toNat] at this
  unfold from_decimal_str
  rw [if_neg (by simpa using hs)]
  exact this

/-- Every string of digits with value below `2^256` is parsed correctly: the bad prefixes only occur in
strings whose value is too large. -/
theorem C07_parse_in_range (s : List Char) (hs : s ≠ []) (hd : ∀ c ∈ s, c.isDigit = true)
    (hv : Nat.ofDigitChars 10 s 0 < 2 ^ 256) :
    ∃ x, from_decimal_str s = some (.ok x) ∧ x.toNat = Nat.ofDigitChars 10 s 0 := by
  refine (C07_parse_partial s hs hd ?_).1 hv
  rintro p ⟨t, rfl⟩ hne h
  rw [Nat.ofDigitChars_append, h, Nat.ofDigitChars_eq_ofDigitChars_zero] at hv
  have ht : t ≠ [] := by rintro rfl; simp at hne
  have : 0 < t.length := List.length_pos_iff.2 ht
  have h10 : 10 ^ 1 ≤ 10 ^ t.length := Nat.pow_le_pow_right (by norm_num) this
  have hc : 2 ^ 256 ≤ 10 * ceil10 := by unfold ceil10; norm_num
  have : 10 * ceil10 ≤ 10 ^ t.length * ceil10 := Nat.mul_le_mul_right _ (by simpa using h10)
  omega

/-- Printing and parsing back gives the value, for every value. -/
theorem C07_round_trip (dbg : Bool) (x : U256) :
    (to_decimal_string dbg x).bind from_decimal_str = some (.ok x) := by
  rw [C07_print, Option.bind_some]
  obtain ⟨y, e, hy⟩ := C07_parse_in_range (Nat.toDigits 10 x.toNat) Nat.toDigits_ne_nil
    (fun c hc => Nat.isDigit_of_mem_toDigits (by norm_num) (by norm_num) hc)
    (by rw [Nat.ofDigitChars_ten_toDigits]; exact toNat_lt x)
  rw [e, toNat_inj (x := y) (y := x) (by rw [hy, Nat.ofDigitChars_ten_toDigits])]

/-- Whatever is accepted is a non-empty string of digits: signs, spaces, letters and the empty string are
never accepted. -/
theorem C07_accepts_only_digits (s : List Char) (x : U256) (h : from_decimal_str s = some (.ok x)) :
    s ≠ [] ∧ ∀ c ∈ s, c.isDigit = true := by
  unfold from_decimal_str at h
  split at h
  · simp at h
  · rename_i hs
    exact ⟨by simpa using hs, decLoop_ok_digits s ZERO x h⟩

/-- Non-vacuous: the largest value parses, one more is rejected, a letter is an error. -/
example : from_decimal_str "115792089237316195423570985008687907853269984665640564039457584007913129639935".toList =
      some (.ok MAX) ∧
    from_decimal_str "115792089237316195423570985008687907853269984665640564039457584007913129639936".toList =
       some (.error .Overflow) ∧
    from_decimal_str "12a".toList = some (.error .InnerError) ∧
    to_decimal_string true MAX = some
      "115792089237316195423570985008687907853269984665640564039457584007913129639935".toList := by decide +kernel

/-- C07 is violated: `2^256 + 4` (an 78-digit numeral) is accepted, as `4`; and a character outside ASCII
makes the parser panic instead of returning an error. -/
theorem C07_violated :
    (∃ s : List Char, (∀ c ∈ s, c.isDigit = true) ∧ 2 ^ 256 ≤ Nat.ofDigitChars 10 s 0 ∧
      ∃ x, from_decimal_str s = some (.ok x) ∧ x.toNat = 4) ∧
    from_decimal_str ['1', 'é'] = none := by
  refine ⟨⟨"115792089237316195423570985008687907853269984665640564039457584007913129639940".toList, ?_, ?_,
    ⟨4, 0, 0, 0⟩, by decide +kernel, by decide +kernel⟩, by decide +kernel⟩
  · decide +kernel
  · decide +kernel

/-! ## hexadecimal -/

/-- The hexadecimal digits and their values. -/
def hexTable : List (Char × Nat) :=
  [('0', 0), ('1', 1), ('2', 2), ('3', 3), ('4', 4), ('5', 5), ('6', 6), ('7', 7), ('8', 8), ('9', 9),
   ('a', 10), ('b', 11), ('c', 12), ('d', 13), ('e', 14), ('f', 15),
   ('A', 10), ('B', 11), ('C', 12), ('D', 13), ('E', 14), ('F', 15)]

/-- `vs` are the values of the hexadecimal digits `s`. -/
def HexDigits (s : List Char) (vs : List Nat) : Prop :=
  List.Forall₂ (fun c v => (c, v) ∈ hexTable) s vs

/-- value of a list of hexadecimal digits, most significant first -/
def hexValue (vs : List Nat) : Nat := vs.foldl (fun a v => 16 * a + v) 0

theorem hexVal_of_table {c : Char} {v : Nat} (h : (c, v) ∈ hexTable) : hexVal c = some v := by
  have : ∀ p ∈ hexTable, hexVal p.1 = some p.2 := by decide
  exact this (c, v) h

theorem table_of_hexVal {c : Char} {v : Nat} (h : hexVal c = some v) : (c, v) ∈ hexTable := by
  have key : ∀ n < 128, ∀ v, hexVal (Char.ofNat n) = some v → (Char.ofNat n, v) ∈ hexTable := by
    intro n hn v hv
    have hv16 := hexVal_lt hv
    have : ∀ n : Fin 128, ∀ v : Fin 16, hexVal (Char.ofNat n) = some v.1 → (Char.ofNat n, v.1) ∈ hexTable := by
      decide +kernel
    exact this ⟨n, hn⟩ ⟨v, hv16⟩ hv
  by_cases hc : c.toNat < 128
  · have := key c.toNat hc v (by rwa [Char.ofNat_toNat])
    rwa [Char.ofNat_toNat] at this
  · exfalso
    have e9 : '9'.toNat = 57 := rfl
    have ef : 'f'.toNat = 102 := rfl
    have eF : 'F'.toNat = 70 := rfl
    unfold hexVal at h
    rw [e9, ef, eF] at h
    rw [if_neg (fun h => by omega), if_neg (fun h => by omega), if_neg (fun h => by omega)] at h
    simp at h

theorem hexDigits_map {s : List Char} {vs : List Nat} (h : HexDigits s vs) : s.map hexVal = vs.map some := by
  induction h with
  | nil => rfl
  | cons h _ ih => rw [List.map_cons, List.map_cons, hexVal_of_table h, ih]

/-- A string of at most 64 hexadecimal digits is read as its value, with or without the prefix `0x`. -/
theorem C56_from_hex_partial (s : List Char) (vs : List Nat) (h : HexDigits s vs) (hl : s.length ≤ 64) :
    ∃ x, from_hex_str s = some x ∧ from_hex_str ('0' :: 'x' :: s) = some x ∧ x.toNat = hexValue vs := by
  have hm := hexDigits_map h
  have hlen : s.length = vs.length := by simpa using congrArg List.length hm
  have hs := map_some_isSome hm
  obtain ⟨x, e, hx⟩ := from_hex_trimmed s s vs (trim0x_of_hex s hs) hm (Or.inl hl)
  obtain ⟨y, e', hy⟩ := from_hex_trimmed ('0' :: 'x' :: s) s vs (trim_prefix s hs) hm (Or.inl hl)
  rw [List.take_of_length_le (by omega)] at hx hy
  refine ⟨x, e, ?_, hx⟩
  rw [e', toNat_inj (x := y) (y := x) (by rw [hx, hy])]

/-- Printing in hexadecimal and parsing back gives the value; the printed form is `0x` followed by exactly
64 hexadecimal digits of the value. -/
theorem C56_round_trip (x : U256) :
    from_hex_str (to_hex_string x) = some x ∧
    ∃ s vs, to_hex_string x = '0' :: 'x' :: s ∧ s.length = 64 ∧ HexDigits s vs ∧ hexValue vs = x.toNat := by
  have hm := hexEncode_map (to_bytes_be x)
  have hd : ∀ (s : List Char) (vs : List Nat), s.map hexVal = vs.map some → HexDigits s vs := by
    intro s
    induction s with
    | nil => intro vs h; cases vs with
      | nil => exact .nil
      | cons => simp at h
    | cons c s ih => intro vs h; cases vs with
      | nil => simp at h
      | cons v vs =>
        simp only [List.map_cons, List.cons.injEq] at h
        exact .cons (table_of_hexVal h.1) (ih vs h.2)
  have hv : hexValue ((to_bytes_be x).flatMap fun b => [b.toNat / 16, b.toNat % 16]) = x.toNat := by
    rw [hexValue, hexEncode_val, ← to_bytes_be_value x, beValue]
  have hlen : (hexEncode (to_bytes_be x)).length = 64 := by
    rw [hexEncode_length, to_bytes_be_length]
  refine ⟨?_, hexEncode (to_bytes_be x), _, rfl, hlen, hd _ _ hm, hv⟩
  obtain ⟨y, _, e, hy⟩ := C56_from_hex_partial _ _ (hd _ _ hm) (by omega)
  unfold to_hex_string
  rw [e, toNat_inj (x := y) (y := x) (by rw [hy, hv])]

/-- What happens on every other string: if, after removing all leading `0x`, a character is not a
hexadecimal digit, or more than 64 characters of an odd number remain, the call panics; if an even number
above 64 of digits remains, the value of the first 64 digits is returned and the rest ignored. -/
theorem C56_other_strings (s : List Char) :
    ((∃ c ∈ trim0x s, ∀ v, (c, v) ∉ hexTable) → from_hex_str s = none) ∧
    (64 < (trim0x s).length → (trim0x s).length % 2 = 1 → from_hex_str s = none) ∧
    (∀ vs, HexDigits (trim0x s) vs → (trim0x s).length % 2 = 0 →
      ∃ x, from_hex_str s = some x ∧ x.toNat = hexValue (vs.take 64)) := by
  refine ⟨?_, ?_, fun vs hv he => ?_⟩
  · rintro ⟨c, hc, hn⟩
    unfold from_hex_str
    dsimp only
    cases h : hexDecode (List.replicate (64 - (trim0x s).length) '0' ++ trim0x s) with
    | none => rfl
    | some l =>
      obtain ⟨_, h2⟩ := hexDecode_some h
      have := h2 c (by simp [hc])
      obtain ⟨v, hv⟩ := Option.isSome_iff_exists.1 this
      exact absurd (table_of_hexVal hv) (hn v)
  · intro h64 hodd
    unfold from_hex_str
    dsimp only
    cases h : hexDecode (List.replicate (64 - (trim0x s).length) '0' ++ trim0x s) with
    | none => rfl
    | some l =>
      obtain ⟨h1, _⟩ := hexDecode_some h
      simp at h1
      omega
  · exact from_hex_trimmed s _ vs rfl (hexDigits_map hv) (Or.inr he)

/-- C56 is violated: a 66-digit string is accepted (its last two digits are dropped), and a string with
several `0x` prefixes is accepted. -/
theorem C56_violated :
    (∃ s : List Char, s.length = 66 ∧ (∀ c ∈ s, ∃ v, (c, v) ∈ hexTable) ∧ ∃ x, from_hex_str s = some x) ∧
    from_hex_str "0x0x1f".toList = some ⟨31, 0, 0, 0⟩ := by
  refine ⟨⟨List.replicate 66 'f', by decide, ?_, MAX, by decide +kernel⟩, by decide +kernel⟩
  intro c hc
  rw [List.eq_of_mem_replicate hc]
  exact ⟨15, by decide⟩

/-- Non-vacuous: mixed case, shorter than 64 digits, with a leading zero. -/
example : HexDigits "0aF3".toList [0, 10, 15, 3] ∧ from_hex_str "0aF3".toList = some ⟨0xaf3, 0, 0, 0⟩ ∧
    to_hex_string ⟨0xaf3, 0, 0, 1⟩ =
      "0x0000000000000001000000000000000000000000000000000000000000000af3".toList := by
  refine ⟨?_, by decide +kernel, by decide +kernel⟩
  repeat' first | exact .nil | refine .cons (by decide) ?_

/-! ## random sampling -/

/-- The sampler `u` draws uniformly from the integers in `[lo, hi)`: it consumes words of the random source
until one is accepted; what it returns lies in the range; every value of the range is the result of equally
many words; and at least half of all words are accepted, so that it terminates almost surely. -/
structure UniformOn (u : Uniform) (lo hi : Nat) : Prop where
  no_word : u.sample [] = none
  step : ∀ w ws, u.sample (w :: ws) = (u.sample [w]).or (u.sample ws)
  in_range : ∀ w v, u.sample [w] = some v → lo ≤ v.toNat ∧ v.toNat < hi
  uniform : ∃ n, 0 < n ∧ ∀ v : U256, lo ≤ v.toNat → v.toNat < hi → {w | u.sample [w] = some v}.ncard = n
  accepts : 2 ^ 255 ≤ {w | (u.sample [w]).isSome}.ncard

theorem ncard_interval (a b : Nat) (hb : b ≤ 2 ^ 256) : {w : U256 | a ≤ w.toNat ∧ w.toNat < b}.ncard = b - a := by
  have hinj : Function.Injective U256.toNat := fun x y h => toNat_inj h
  rw [← Set.ncard_image_of_injective _ hinj]
  have : U256.toNat '' {w : U256 | a ≤ w.toNat ∧ w.toNat < b} = ((Finset.Ico a b : Finset Nat) : Set Nat) := by
    ext n
    simp only [Set.mem_image, Set.mem_setOf_eq, Finset.coe_Ico, Set.mem_Ico]
    constructor
    · rintro ⟨x, h, rfl⟩; exact h
    · intro h
      obtain ⟨x, rfl⟩ := toNat_surj n (by omega)
      exact ⟨x, h, rfl⟩
  rw [this, Set.ncard_coe_finset, Nat.card_Ico]

theorem ranged_sample_one (low range w : U256) :
    (Uniform.Ranged low range).sample [w] =
      if (shr w (leading_zeros range)).toNat < range.toNat then some (add (shr w (leading_zeros range)) low)
      else none := by
  have h := ge_iff (shr w (leading_zeros range)) range
  unfold Uniform.sample sampleLoop
  by_cases hl : (shr w (leading_zeros range)).toNat < range.toNat
  · rw [if_pos hl]
    dsimp only
    rw [if_neg (by rw [h]; omega)]; rfl
  · rw [if_neg hl]
    dsimp only
    rw [if_pos (by rw [h]; omega)]; rfl

theorem ranged_uniform (low range : U256) (h0 : 0 < range.toNat) (hs : low.toNat + range.toNat ≤ 2 ^ 256) :
    UniformOn (.Ranged low range) low.toNat (low.toNat + range.toNat) := by
  obtain ⟨hz, hlo, hhi⟩ := leading_zeros_spec range h0
  set s := leading_zeros range with hsdef
  have hp : 2 ^ 256 = 2 ^ (256 - s) * 2 ^ s := by rw [← pow_add]; congr 1; omega
  have hs0 : 0 < 2 ^ s := by positivity
  have hval : ∀ w : U256, (shr w s).toNat < range.toNat →
      (add (shr w s) low).toNat = w.toNat / 2 ^ s + low.toNat := by
    intro w hw
    rw [add_mod, shr_div]
    rw [shr_div] at hw
    exact Nat.mod_eq_of_lt (by omega)
  have hiff : ∀ (w v : U256), low.toNat ≤ v.toNat → v.toNat < low.toNat + range.toNat →
      ((Uniform.Ranged low range).sample [w] = some v ↔
        (v.toNat - low.toNat) * 2 ^ s ≤ w.toNat ∧ w.toNat < (v.toNat - low.toNat + 1) * 2 ^ s) := by
    intro w v h1 h2
    rw [ranged_sample_one, ← hsdef]
    rw [← Nat.le_div_iff_mul_le hs0, ← Nat.div_lt_iff_lt_mul hs0]
    split
    · rename_i hw
      have := hval w hw
      constructor
      · intro e
        simp only [Option.some.injEq] at e
        rw [e] at this
        omega
      · intro e
        rw [toNat_inj (x := add (shr w s) low) (y := v) (by omega)]
    · rename_i hw
      rw [shr_div] at hw
      constructor
      · intro e; simp at e
      · intro e; omega
  refine ⟨rfl, ?_, ?_, ⟨2 ^ s, hs0, ?_⟩, ?_⟩
  · intro w ws
    have h := ge_iff (shr w s) range
    rw [ranged_sample_one, ← hsdef]
    unfold Uniform.sample
    dsimp only
    rw [← hsdef]
    by_cases hl : (shr w s).toNat < range.toNat
    · rw [if_pos hl, sampleLoop, if_neg (by rw [h]; omega)]; rfl
    · rw [if_neg hl, sampleLoop, if_pos (by rw [h]; omega)]; rfl
  · intro w v e
    rw [ranged_sample_one, ← hsdef] at e
    split at e
    · rename_i hw
      have := hval w hw
      simp only [Option.some.injEq] at e
      rw [e] at this
      rw [shr_div] at hw
      generalize w.toNat / 2 ^ s = q at *
      omega
    · simp at e
  · intro v h1 h2
    have : {w | (Uniform.Ranged low range).sample [w] = some v} =
        {w : U256 | (v.toNat - low.toNat) * 2 ^ s ≤ w.toNat ∧ w.toNat < (v.toNat - low.toNat + 1) * 2 ^ s} := by
      ext w; exact hiff w v h1 h2
    rw [this, ncard_interval]
    · rw [Nat.add_mul]; omega
    · rw [hp]; exact Nat.mul_le_mul_right _ (by omega)
  · have : {w | ((Uniform.Ranged low range).sample [w]).isSome} =
        {w : U256 | 0 ≤ w.toNat ∧ w.toNat < range.toNat * 2 ^ s} := by
      ext w
      simp only [Set.mem_setOf_eq, Nat.zero_le, true_and]
      rw [ranged_sample_one, ← hsdef, ← Nat.div_lt_iff_lt_mul hs0, shr_div]
      split
      · rename_i hh; exact ⟨fun _ => hh, fun _ => rfl⟩
      · rename_i hh; exact ⟨fun h => by simp at h, fun h => absurd h hh⟩
    rw [this, ncard_interval]
    · have h255 : 2 ^ 255 = 2 ^ (255 - s) * 2 ^ s := by rw [← pow_add]; congr 1; omega
      rw [h255, Nat.sub_zero]
      exact Nat.mul_le_mul_right _ hlo
    · rw [hp]; exact Nat.mul_le_mul_right _ hhi.le

/-- Sampling from `[low, high)`. -/
theorem C58_half_open (low high : U256) (h : low.toNat < high.toNat) :
    UniformOn (Uniform.new low high) low.toNat high.toNat := by
  have hs : (sub high low).toNat = high.toNat - low.toNat := sub_of_le h.le
  have := toNat_lt high
  have key := ranged_uniform low (sub high low) (by omega) (by omega)
  rw [hs, show low.toNat + (high.toNat - low.toNat) = high.toNat by omega] at key
  exact key

/-- Sampling from `[low, high]`, including the full range. -/
theorem C58_inclusive (low high : U256) (h : low.toNat ≤ high.toNat) :
    UniformOn (Uniform.new_inclusive low high) low.toNat (high.toNat + 1) := by
  have hl := toNat_lt high
  have hm : MAX.toNat = 2 ^ 256 - 1 := by decide +kernel
  unfold Uniform.new_inclusive
  by_cases hf : low = ZERO ∧ high = MAX
  · obtain ⟨rfl, rfl⟩ := hf
    rw [if_pos ⟨rfl, rfl⟩, zero_toNat, hm]
    refine ⟨rfl, fun w ws => rfl, ?_, ⟨1, by norm_num, ?_⟩, ?_⟩
    · intro w v e
      have := toNat_lt v
      omega
    · intro v _ _
      have : {w | Uniform.Full.sample [w] = some v} = {v} := by
        ext w; simp [Uniform.sample]
      rw [this, Set.ncard_singleton]
    · have : {w | (Uniform.Full.sample [w]).isSome} = {w : U256 | 0 ≤ w.toNat ∧ w.toNat < 2 ^ 256} := by
        ext w; simpa [Uniform.sample] using toNat_lt w
      rw [this, ncard_interval _ _ le_rfl]
      norm_num
  · rw [if_neg hf]
    have hne : high.toNat - low.toNat + 1 < 2 ^ 256 := by
      by_contra hc
      refine hf ⟨toNat_inj ?_, toNat_inj ?_⟩
      · rw [zero_toNat]; omega
      · rw [hm]; omega
    have hs : (add (sub high low) ONE).toNat = high.toNat - low.toNat + 1 := by
      rw [add_mod, sub_of_le h, one_toNat]
      exact Nat.mod_eq_of_lt hne
    have key := ranged_uniform low (add (sub high low) ONE) (by omega) (by omega)
    rw [hs, show low.toNat + (high.toNat - low.toNat + 1) = high.toNat + 1 by omega] at key
    exact key

/-- What the sampler returns is in the range whatever the random source yields. -/
theorem C58_in_range (low high v : U256) (h : low.toNat < high.toNat) (ws : List U256)
    (hv : (Uniform.new low high).sample ws = some v) : low.toNat ≤ v.toNat ∧ v.toNat < high.toNat := by
  have hu := C58_half_open low high h
  induction ws with
  | nil => rw [hu.no_word] at hv; simp at hv
  | cons w ws ih =>
    rw [hu.step] at hv
    cases hw : (Uniform.new low high).sample [w] with
    | none => rw [hw] at hv; exact ih (by simpa using hv)
    | some u => rw [hw] at hv; simp at hv; exact hu.in_range w v (by rw [hw, hv])

/-- An empty range is not rejected: the sampler consumes the whole random source and never returns. -/
theorem C58_empty_range (low : U256) (ws : List U256) : (Uniform.new low low).sample ws = none := by
  have h0 : (sub low low).toNat = 0 := by rw [sub_of_le le_rfl]; omega
  unfold Uniform.new Uniform.sample
  have : ∀ ws, sampleLoop (sub low low) (leading_zeros (sub low low)) ws = none := by
    intro ws
    induction ws with
    | nil => rfl
    | cons w ws ih => rw [sampleLoop, if_pos (by rw [ge_iff, h0]; omega), ih]
  simp [this]

/-- Non-vacuous: range `[5, 8)`; the first word is rejected (it is 3 after the shift), the second gives 6. -/
example : (Uniform.new ⟨5, 0, 0, 0⟩ ⟨8, 0, 0, 0⟩).sample [MAX, ⟨7, 0, 0, 0x4000000000000000⟩] =
    some ⟨6, 0, 0, 0⟩ := by decide +kernel

end Props
end OpenZKP
