import Verif.U256.Encoding
import Verif.U256.DivRemLemmas
import Verif.U256.ShiftLemmas
import Mathlib.Tactic.IntervalCases

/-! # Lemmas about decimal and hexadecimal strings and sampling -/

namespace OpenZKP
namespace U256

theorem max10_toNat : max10.toNat = 11579208923731619542357098500868790785326998466564056403945758400791312963994 := by
  decide +kernel

theorem ofU64_toNat (d : UInt64) : (ofU64 d).toNat = d.toNat := by
  simp [ofU64, toNat]

theorem digit10_of_isDigit {c : Char} (h : c.isDigit = true) :
    digit10 c = some (UInt64.ofNat (c.toNat - '0'.toNat)) ∧ c.toNat < 128 ∧ c.toNat - '0'.toNat < 10 := by
  have h' : 48 ≤ c.toNat ∧ c.toNat ≤ 57 := by
    simp only [Char.isDigit, Bool.and_eq_true, decide_eq_true_eq] at h
    exact ⟨by simpa [UInt32.le_iff_toNat_le] using h.1, by simpa [UInt32.le_iff_toNat_le] using h.2⟩
  have e0 : '0'.toNat = 48 := rfl
  have e9 : '9'.toNat = 57 := rfl
  refine ⟨?_, by omega, by omega⟩
  unfold digit10
  rw [if_pos (by omega)]

theorem isDigit_of_digit10 {c : Char} {d : UInt64} (h : digit10 c = some d) : c.isDigit = true := by
  unfold digit10 at h
  have e0 : '0'.toNat = 48 := rfl
  have e9 : '9'.toNat = 57 := rfl
  rw [e0, e9] at h
  split at h
  · rename_i h'
    simp only [Char.isDigit, Bool.and_eq_true, decide_eq_true_eq]
    exact ⟨by simpa [UInt32.le_iff_toNat_le] using h'.1, by simpa [UInt32.le_iff_toNat_le] using h'.2⟩
  · simp at h

theorem ofDigit_ge (cs : List Char) (n : Nat) : n ≤ Nat.ofDigitChars 10 cs n := by
  rw [Nat.ofDigitChars_eq_ofDigitChars_zero]
  have : 0 < 10 ^ cs.length := by positivity
  nlinarith

theorem decLoop_spec (cs : List Char) (hd : ∀ c ∈ cs, c.isDigit = true) (r : U256)
    (hp : ∀ p, p <+: cs → p ≠ cs → Nat.ofDigitChars 10 p r.toNat ≠ max10.toNat) :
    (Nat.ofDigitChars 10 cs r.toNat < 2 ^ 256 →
      ∃ x, decLoop cs r = some (.ok x) ∧ x.toNat = Nat.ofDigitChars 10 cs r.toNat) ∧
    (2 ^ 256 ≤ Nat.ofDigitChars 10 cs r.toNat → decLoop cs r = some (.error .Overflow)) := by
  induction cs generalizing r with
  | nil =>
    have := toNat_lt r
    simp only [Nat.ofDigitChars_nil, decLoop]
    exact ⟨fun _ => ⟨r, rfl, rfl⟩, fun h => by omega⟩
  | cons c cs ih =>
    obtain ⟨e, hc, hlt⟩ := digit10_of_isDigit (hd c (by simp))
    have h0 := hp [] (by simp) (by simp)
    rw [Nat.ofDigitChars_nil] at h0
    have hge := ofDigit_ge cs (10 * r.toNat + (c.toNat - '0'.toNat))
    rw [Nat.ofDigitChars_cons]
    have hM := max10_toNat
    unfold decLoop
    by_cases hg : gt r max10 = true
    · rw [if_pos hg]
      rw [gt_iff] at hg
      rw [hM] at hg
      refine ⟨fun h => ?_, fun _ => rfl⟩
      norm_num at h hge
      omega
    · rw [if_neg hg, if_neg (show ¬ 128 ≤ c.toNat by omega), e]
      rw [gt_iff] at hg
      have hr : r.toNat ≤ 11579208923731619542357098500868790785326998466564056403945758400791312963993 := by omega
      have hm : (mul r (ofU64 10)).toNat = 10 * r.toNat := by
        rw [mul_mod, ofU64_toNat]
        have : (10 : UInt64).toNat = 10 := rfl
        rw [this, Nat.mul_comm]
        apply Nat.mod_eq_of_lt
        norm_num; omega
      have hdg : (ofU64 (UInt64.ofNat (c.toNat - '0'.toNat))).toNat = c.toNat - '0'.toNat := by
        rw [ofU64_toNat, UInt64.toNat_ofNat_of_lt']
        simp only [UInt64.size]; omega
      have ha := add_mod (mul r (ofU64 10)) (ofU64 (UInt64.ofNat (c.toNat - '0'.toNat)))
      rw [hm, hdg] at ha
      generalize hD : c.toNat - '0'.toNat = d at *
      dsimp only
      by_cases hov : 10 * r.toNat + d < 2 ^ 256
      · rw [Nat.mod_eq_of_lt hov] at ha
        have hl : ¬ lt (add (mul r (ofU64 10)) (ofU64 (UInt64.ofNat d))) (mul r (ofU64 10)) = true := by
          rw [lt_iff, ha, hm]; omega
        rw [if_neg hl]
        rw [← ha]
        apply ih (fun c h => hd c (by simp [h]))
        intro p hpre hne
        rw [ha]
        have := hp (c :: p) (by simpa using hpre) (by simpa using hne)
        rwa [Nat.ofDigitChars_cons, hD] at this
      · have hl : lt (add (mul r (ofU64 10)) (ofU64 (UInt64.ofNat d))) (mul r (ofU64 10)) = true := by
          rw [lt_iff, ha, hm]
          norm_num at hov ⊢
          omega
        rw [if_pos hl]
        exact ⟨fun h => by omega, fun _ => rfl⟩

theorem decLoop_ok_digits (cs : List Char) (r x : U256) (h : decLoop cs r = some (.ok x)) :
    ∀ c ∈ cs, c.isDigit = true := by
  induction cs generalizing r with
  | nil => simp
  | cons c cs ih =>
    unfold decLoop at h
    split at h
    · simp at h
    split at h
    · simp at h
    split at h
    · simp at h
    · rename_i d hd
      dsimp only at h
      split at h
      · simp at h
      · intro c' hc'
        rcases List.mem_cons.1 hc' with rfl | h'
        · exact isDigit_of_digit10 hd
        · exact ih _ h c' h'

theorem safe10 (n : Nat) : SafeDiv 5 n (ofU64 10).toNat := by
  left
  rw [ofU64_toNat]
  decide

theorem charOf_eq {d : Nat} (h : d < 10) : charOf d = Nat.digitChar d := by
  interval_cases d <;> rfl

theorem toDecLoop_spec (dbg : Bool) (fuel : Nat) (x : U256) (hf : x.toNat < 2 ^ fuel) :
    ∃ l, toDecLoop dbg fuel x = some l ∧ (0 < x.toNat → l.reverse = Nat.toDigits 10 x.toNat) ∧
      (x.toNat = 0 → l = []) := by
  induction fuel generalizing x with
  | zero =>
    have h0 : x.toNat = 0 := by simpa using hf
    refine ⟨[], ?_, by omega, fun _ => rfl⟩
    unfold toDecLoop
    rw [if_neg]
    rw [gt_iff, zero_toNat]; omega
  | succ fuel ih =>
    unfold toDecLoop
    by_cases h0 : x.toNat = 0
    · refine ⟨[], ?_, by omega, fun _ => rfl⟩
      rw [if_neg]
      rw [gt_iff, zero_toNat]; omega
    · have h10 : (ofU64 10).toNat = 10 := by rw [ofU64_toNat]; rfl
      obtain ⟨q, r, e, hq, hr⟩ := (div_rem_spec dbg x (ofU64 10) (by omega)).1 (safe10 _)
      rw [h10] at hq hr
      have e1 : rem dbg x (ofU64 10) = some r := by rw [rem, e]
      have e2 : div dbg x (ofU64 10) = some q := by rw [div, e]
      have hq2 : q.toNat < 2 ^ fuel := by
        rw [hq]
        rw [pow_succ] at hf
        omega
      obtain ⟨l, el, hl1, hl2⟩ := ih q hq2
      have hr0 : r.l0.toNat = r.toNat := by
        have : r.toNat < 10 := by omega
        unfold toNat at this ⊢
        omega
      refine ⟨charOf r.l0.toNat :: l, ?_, fun _ => ?_, fun h => absurd h h0⟩
      · rw [if_pos (by rw [gt_iff, zero_toNat]; omega), e1, Option.bind_some, e2, Option.bind_some, el,
          Option.map_some]
      · rw [List.reverse_cons, hr0, charOf_eq (by omega), hr]
        by_cases hlt : x.toNat < 10
        · rw [hl2 (by omega), Nat.toDigits_of_lt_base hlt, Nat.mod_eq_of_lt hlt]; rfl
        · rw [Nat.toDigits_of_base_le (by omega) (show 10 ≤ x.toNat by omega), ← hq, hl1 (by omega)]

theorem to_decimal_string_eq (dbg : Bool) (x : U256) :
    to_decimal_string dbg x = some (Nat.toDigits 10 x.toNat) := by
  unfold to_decimal_string
  by_cases h : x = ZERO
  · rw [if_pos h, h, zero_toNat, Nat.toDigits_zero]
  · rw [if_neg h]
    obtain ⟨l, e, h1, _⟩ := toDecLoop_spec dbg 256 x (toNat_lt x)
    have : 0 < x.toNat := by
      rcases Nat.eq_zero_or_pos x.toNat with h' | h'
      · exact absurd (toNat_inj (by rw [h', zero_toNat])) h
      · exact h'
    rw [e, Option.map_some, h1 this]

/-! ## hexadecimal -/

theorem hexVal_lt {c : Char} {v : Nat} (h : hexVal c = some v) : v < 16 := by
  have e0 : '0'.toNat = 48 := rfl
  have e9 : '9'.toNat = 57 := rfl
  have ea : 'a'.toNat = 97 := rfl
  have ef : 'f'.toNat = 102 := rfl
  have eA : 'A'.toNat = 65 := rfl
  have eF : 'F'.toNat = 70 := rfl
  unfold hexVal at h
  rw [e0, e9, ea, ef, eA, eF] at h
  split at h
  · simp at h; omega
  split at h
  · simp at h; omega
  split at h
  · simp at h; omega
  · simp at h

theorem hexVal_hexChar {d : Nat} (h : d < 16) : hexVal (hexChar d) = some d := by
  interval_cases d <;> rfl

theorem hexDecode_spec (s : List Char) (vs : List Nat) (h : s.map hexVal = vs.map some) (he : s.length % 2 = 0) :
    ∃ l, hexDecode s = some l ∧ l.length = s.length / 2 ∧
      ∀ acc, l.foldl (fun a x => 256 * a + x.toNat) acc = vs.foldl (fun a v => 16 * a + v) acc := by
  match s, vs with
  | [], [] => exact ⟨[], rfl, rfl, fun _ => rfl⟩
  | [], _ :: _ => simp at h
  | [_], _ => simp at he
  | _ :: _ :: _, [] => simp at h
  | _ :: _ :: _, [_] => simp at h
  | a :: b :: s, x :: y :: vs =>
    simp only [List.map_cons, List.cons.injEq] at h
    obtain ⟨ha, hb, hs⟩ := h
    obtain ⟨l, e, hl, hv⟩ := hexDecode_spec s vs hs (by simp at he; omega)
    have hx := hexVal_lt ha
    have hy := hexVal_lt hb
    refine ⟨UInt8.ofNat (16 * x + y) :: l, ?_, by simp [hl]; omega, fun acc => ?_⟩
    · simp [hexDecode, ha, hb, e]
    · simp only [List.foldl_cons]
      rw [hv]
      congr 1
      rw [UInt8.toNat_ofNat_of_lt' (by simp only [UInt8.size]; omega)]
      ring

theorem hexDecode_some {s : List Char} {l : List UInt8} (h : hexDecode s = some l) :
    s.length = 2 * l.length ∧ ∀ c ∈ s, (hexVal c).isSome := by
  match s with
  | [] => simp [hexDecode] at h; subst h; simp
  | [_] => simp [hexDecode] at h
  | a :: b :: s =>
    unfold hexDecode at h
    split at h
    · rename_i x y l' ha hb hl
      obtain ⟨h1, h2⟩ := hexDecode_some hl
      simp at h
      subst h
      refine ⟨by simp [h1]; omega, ?_⟩
      intro c hc
      simp only [List.mem_cons] at hc
      rcases hc with rfl | rfl | hc
      · simp [ha]
      · simp [hb]
      · exact h2 c hc
    · simp at h

theorem trim0x_of_hex (s : List Char) (h : ∀ c ∈ s, (hexVal c).isSome) : trim0x s = s := by
  unfold trim0x
  split
  · have := h 'x' (by simp)
    exact absurd this (by decide)
  · rfl

theorem hexEncode_map (l : List UInt8) :
    (hexEncode l).map hexVal = (l.flatMap fun b => [b.toNat / 16, b.toNat % 16]).map some := by
  induction l with
  | nil => rfl
  | cons b l ih =>
    have hb : b.toNat < 256 := b.toNat_lt
    simp only [hexEncode, List.flatMap_cons, List.map_append] at ih ⊢
    rw [ih]
    congr 1
    simp [hexVal_hexChar (show b.toNat / 16 < 16 by omega), hexVal_hexChar (show b.toNat % 16 < 16 by omega)]

theorem hexEncode_val (l : List UInt8) (acc : Nat) :
    (l.flatMap fun b => [b.toNat / 16, b.toNat % 16]).foldl (fun a v => 16 * a + v) acc =
      l.foldl (fun a x => 256 * a + x.toNat) acc := by
  induction l generalizing acc with
  | nil => rfl
  | cons b l ih =>
    rw [List.flatMap_cons, List.foldl_append, ih]
    simp only [List.foldl_cons, List.foldl_nil]
    congr 1
    omega

theorem hexEncode_length (l : List UInt8) : (hexEncode l).length = 2 * l.length := by
  induction l with
  | nil => rfl
  | cons b l ih =>
    simp only [hexEncode, List.flatMap_cons, List.length_append] at ih ⊢
    rw [ih]; simp; omega

theorem map_some_isSome {s : List Char} {vs : List Nat} (h : s.map hexVal = vs.map some) :
    ∀ c ∈ s, (hexVal c).isSome := by
  intro c hc
  have : hexVal c ∈ s.map hexVal := List.mem_map_of_mem hc
  rw [h] at this
  obtain ⟨v, _, e⟩ := List.mem_map.1 this
  rw [← e]; rfl

theorem trim_prefix (s : List Char) (h : ∀ c ∈ s, (hexVal c).isSome) : trim0x ('0' :: 'x' :: s) = s := by
  rw [trim0x, trim0x_of_hex s h]

theorem from_hex_trimmed (s t : List Char) (vs : List Nat) (ht : trim0x s = t) (h : t.map hexVal = vs.map some)
    (hl : t.length ≤ 64 ∨ t.length % 2 = 0) :
    ∃ x, from_hex_str s = some x ∧ x.toNat = (vs.take 64).foldl (fun a v => 16 * a + v) 0 := by
  have hlen : t.length = vs.length := by simpa using congrArg List.length h
  have h' : (List.replicate (64 - t.length) '0' ++ t).map hexVal =
      (List.replicate (64 - t.length) 0 ++ vs).map some := by
    rw [List.map_append, List.map_append, h, List.map_replicate, List.map_replicate]
    rfl
  obtain ⟨l, e, hl1, _⟩ := hexDecode_spec _ _ h' (by simp; omega)
  have hL : (List.replicate (64 - t.length) '0' ++ t).length = 64 - t.length + t.length := by simp
  rw [hL] at hl1
  -- the first 64 characters
  have h2 : ((List.replicate (64 - t.length) '0' ++ t).take 64).map hexVal =
      ((List.replicate (64 - t.length) 0 ++ vs).take 64).map some := by
    rw [List.map_take, List.map_take, h']
  obtain ⟨l2, e2, hl2, hv2⟩ := hexDecode_spec _ _ h2 (by simp; omega)
  have htake : ∀ (k : Nat) (s : List Char) (l : List UInt8), hexDecode s = some l →
      hexDecode (s.take (2 * k)) = some (l.take k) := by
    intro k
    induction k with
    | zero => intro s l _; simp [hexDecode]
    | succ k ih =>
      intro s l h
      match s with
      | [] => simp [hexDecode] at h; subst h; simp [hexDecode]
      | [_] => simp [hexDecode] at h
      | a :: b :: s =>
        unfold hexDecode at h
        split at h
        · rename_i x y l' ha hb hl
          simp at h
          subst h
          have := ih s l' hl
          rw [show 2 * (k + 1) = 2 * k + 1 + 1 by ring, List.take_succ_cons, List.take_succ_cons,
            List.take_succ_cons]
          simp [hexDecode, ha, hb, this]
        · simp at h
  have e3 := htake 32 _ _ e
  rw [show 2 * 32 = 64 by norm_num, e2] at e3
  obtain ⟨x, ex, hx⟩ := from_bytes_be_eq (l.take 32) (by rw [List.length_take, hl1]; omega)
  refine ⟨x, ?_, ?_⟩
  · unfold from_hex_str
    dsimp only
    rw [ht, e, Option.bind_some, ex]
  · rw [hx, beValue]
    have : l2 = l.take 32 := by simpa using e3
    rw [← this, hv2, List.take_append]
    rw [List.foldl_append]
    congr 1
    · have : ∀ n, (List.replicate n 0).foldl (fun a v => 16 * a + v) 0 = 0 := by
        intro n
        induction n with
        | zero => rfl
        | succ n ih => rw [List.replicate_succ, List.foldl_cons]; simpa using ih
      rw [List.take_replicate, this]
    · rw [List.length_replicate]
      rcases Nat.lt_or_ge 64 t.length with h64 | h64
      · congr 1; omega
      · rw [List.take_of_length_le (by omega), List.take_of_length_le (by omega)]

end U256
end OpenZKP
