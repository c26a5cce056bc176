import Verif.Field.Codec
import Verif.Props.Field
import Verif.Props.Encoding
import Verif.Props.Conversion
import Verif.EC.Concrete
import Mathlib.Data.Nat.Digits.Defs

/-!
# Property C67: binary and textual encodings

A reader of the encoding needs to know only: a number is 32 bytes, least significant first (`leValue`).
-/

namespace OpenZKP.Props
open OpenZKP U256 PF EC Codec

/-- The number written by a list of bytes, least significant first. -/
def leValue (l : List UInt8) : Nat := Nat.ofDigits 256 (l.map UInt8.toNat)

theorem leValue_nil : leValue [] = 0 := rfl

theorem leValue_cons (b : UInt8) (l : List UInt8) : leValue (b :: l) = b.toNat + 256 * leValue l := by
  simp [leValue, Nat.ofDigits_cons]

theorem leNat_eq (l : List UInt8) : leNat l = leValue l := by
  induction l with
  | nil => rfl
  | cons b l ih => rw [leValue_cons, leNat, ih]

theorem leValue_append (a b : List UInt8) : leValue (a ++ b) = leValue a + 256 ^ a.length * leValue b := by
  induction a with
  | nil => simp [leValue_nil]
  | cons x a ih => rw [List.cons_append, leValue_cons, leValue_cons, ih, List.length_cons, pow_succ]; ring

theorem leBytes_length (k n : Nat) : (leBytes k n).length = k := by
  induction k generalizing n with
  | zero => rfl
  | succ k ih => rw [leBytes, List.length_cons, ih]

theorem leBytes_value (k n : Nat) : leValue (leBytes k n) = n % 256 ^ k := by
  induction k generalizing n with
  | zero => simp [leBytes, leValue_nil, Nat.mod_one]
  | succ k ih =>
    rw [leBytes, leValue_cons, ih, UInt8.toNat_ofNat', pow_succ 256 k, Nat.mul_comm (256 ^ k), Nat.mod_mul]

theorem leValue_lt (l : List UInt8) : leValue l < 256 ^ l.length := by
  induction l with
  | nil => simp [leValue_nil]
  | cons b l ih =>
    rw [leValue_cons, List.length_cons, pow_succ]
    have := b.toNat_lt
    omega

theorem leValue_inj {a b : List UInt8} (hl : a.length = b.length) (h : leValue a = leValue b) : a = b := by
  induction a generalizing b with
  | nil => exact (List.length_eq_zero_iff.1 hl.symm).symm
  | cons x a ih =>
    cases b with
    | nil => simp at hl
    | cons y b =>
      rw [leValue_cons, leValue_cons] at h
      have h1 := x.toNat_lt
      have h2 := y.toNat_lt
      rw [UInt8.toNat_inj.1 (show x.toNat = y.toNat by omega), ih (by simpa using hl) (by omega)]

theorem encodeU64_spec (v : UInt64) : (encodeU64 v).length = 8 ∧ leValue (encodeU64 v) = v.toNat := by
  refine ⟨leBytes_length _ _, ?_⟩
  unfold encodeU64
  rw [leBytes_value, Nat.mod_eq_of_lt (by have := v.toNat_lt; norm_num; omega)]

/-- C67: the encoding of a number is its 32 bytes, least significant first. -/
theorem C67_bytes (x : U256) : (encodeU256 x).length = 32 ∧ leValue (encodeU256 x) = x.toNat := by
  have h0 := encodeU64_spec x.l0
  have h1 := encodeU64_spec x.l1
  have h2 := encodeU64_spec x.l2
  have h3 := encodeU64_spec x.l3
  unfold encodeU256
  refine ⟨by simp [h0.1, h1.1, h2.1, h3.1], ?_⟩
  rw [leValue_append, leValue_append, leValue_append]
  simp only [List.length_append, h0, h1, h2, h3, toNat]
  norm_num

theorem decodeU64_long (input : List UInt8) (h : 8 ≤ input.length) :
    decodeU64 input = some (.ok (UInt64.ofNat (leNat (input.take 8)), input.drop 8)) := by
  unfold decodeU64
  rw [if_neg (by omega)]

theorem word_value (l : List UInt8) (h : 8 ≤ l.length) :
    (UInt64.ofNat (leNat (l.take 8))).toNat = leValue (l.take 8) := by
  rw [leNat_eq, UInt64.toNat_ofNat']
  have := leValue_lt (l.take 8)
  rw [List.length_take_of_le h] at this
  exact Nat.mod_eq_of_lt (by norm_num at this ⊢; exact this)

/-- C67: decoding a number reads exactly 32 bytes and returns the number they write; with fewer
bytes it returns an error. It never panics. -/
theorem C67_decode (input : List UInt8) :
    (input.length < 32 → decodeU256 input = some (.error ())) ∧
    (32 ≤ input.length → ∃ x, decodeU256 input = some (.ok (x, input.drop 32)) ∧
      x.toNat = leValue (input.take 32)) := by
  constructor
  · intro h
    unfold decodeU256
    by_cases h1 : input.length < 8
    · rw [decodeU64, if_pos h1]; rfl
    rw [decodeU64_long _ (by omega)]; simp only [andThen]
    by_cases h2 : input.length < 16
    · rw [decodeU64, if_pos (by rw [List.length_drop]; omega)]
    rw [decodeU64_long _ (by rw [List.length_drop]; omega)]; simp only [andThen, List.drop_drop]
    by_cases h3 : input.length < 24
    · rw [decodeU64, if_pos (by rw [List.length_drop]; omega)]
    rw [decodeU64_long _ (by rw [List.length_drop]; omega)]; simp only [andThen, List.drop_drop]
    rw [decodeU64, if_pos (by rw [List.length_drop]; omega)]
  · intro h
    unfold decodeU256
    rw [decodeU64_long _ (by omega)]; simp only [andThen]
    rw [decodeU64_long _ (by rw [List.length_drop]; omega)]; simp only [andThen, List.drop_drop]
    rw [decodeU64_long _ (by rw [List.length_drop]; omega)]; simp only [andThen, List.drop_drop]
    rw [decodeU64_long _ (by rw [List.length_drop]; omega)]; simp only [andThen, List.drop_drop]
    refine ⟨_, rfl, ?_⟩
    simp only [toNat]
    rw [word_value _ (by omega), word_value _ (by rw [List.length_drop]; omega),
      word_value _ (by rw [List.length_drop]; omega), word_value _ (by rw [List.length_drop]; omega)]
    have e : input.take 32 = input.take 8 ++ ((input.drop 8).take 8 ++ ((input.drop (8 + 8)).take 8 ++
        (input.drop (8 + 8 + 8)).take 8)) := by
      rw [show 32 = 8 + (8 + (8 + 8)) from rfl, List.take_add, List.take_add, List.take_add, List.drop_drop,
        List.drop_drop]
    rw [e, leValue_append, leValue_append, leValue_append]
    simp only [List.length_take, List.length_drop]
    rw [Nat.min_eq_left (by omega), Nat.min_eq_left (by omega), Nat.min_eq_left (by omega)]
    norm_num
    ring

/-- C67: numbers round-trip, and a decoded number re-encodes to the bytes it was read from. -/
theorem C67_number (x : U256) (rest input : List UInt8) :
    decodeU256 (encodeU256 x ++ rest) = some (.ok (x, rest)) ∧
    (decodeU256 input = some (.ok (x, rest)) → input = encodeU256 x ++ rest) := by
  obtain ⟨hl, hv⟩ := C67_bytes x
  constructor
  · obtain ⟨y, e, hy⟩ := (C67_decode (encodeU256 x ++ rest)).2 (by simp [hl])
    rw [List.take_append_of_le_length (by omega), List.take_of_length_le (by omega), hv] at hy
    rw [e, toNat_inj hy, List.drop_append_of_le_length (by omega), List.drop_of_length_le (by omega), List.nil_append]
  · intro h
    by_cases hs : input.length < 32
    · rw [(C67_decode input).1 hs] at h; simp at h
    obtain ⟨y, e, hy⟩ := (C67_decode input).2 (by omega)
    rw [e] at h
    simp only [Option.some.injEq, Except.ok.injEq, Prod.mk.injEq] at h
    obtain ⟨rfl, rfl⟩ := h
    rw [leValue_inj (a := encodeU256 y) (b := input.take 32) (by rw [hl, List.length_take_of_le (by omega)])
      (by rw [hv, hy]), List.take_append_drop]

section
variable (P : Params) (h : FieldOK P)
include h

/-- C67: the encoding of a field element is its value, 32 bytes, least significant first; it
round-trips in both profiles, whatever follows it. -/
theorem C67_field (x : U256) (hx : Canon P x) (dbg : Bool) (rest : List UInt8) :
    (encodeField P x).length = 32 ∧ leValue (encodeField P x) = nat P x ∧
    decodeField P dbg (encodeField P x ++ rest) = some (.ok (x, rest)) := by
  refine ⟨(C67_bytes _).1, (C67_bytes _).2, ?_⟩
  unfold decodeField encodeField
  rw [(C67_number _ rest []).1]
  simp only [andThen]
  rw [((C13_convert P h ZERO x).2.2.2 hx).2 dbg]
  rfl

/-- C67, **partial**: what decoding a field element accepts.  Missing: only encodings written by the encoder should be
accepted, the others should be errors; see `C67_violated`. -/
theorem C67_field_decode_partial (dbg : Bool) (input : List UInt8) :
    (input.length < 32 → decodeField P dbg input = some (.error ())) ∧
    (32 ≤ input.length → leValue (input.take 32) < P.modulus.toNat →
      ∃ x, Canon P x ∧ decodeField P dbg input = some (.ok (x, input.drop 32)) ∧
        input = encodeField P x ++ input.drop 32) ∧
    (32 ≤ input.length → P.modulus.toNat ≤ leValue (input.take 32) →
      decodeField P true input = none ∧
      ∃ x, Canon P x ∧ decodeField P false input = some (.ok (x, input.drop 32)) ∧
        nat P x = leValue (input.take 32) % P.modulus.toNat ∧ input ≠ encodeField P x ++ input.drop 32) := by
  refine ⟨fun hl => ?_, fun hl hv => ?_, fun hl hv => ?_⟩
  · unfold decodeField
    rw [(C67_decode input).1 hl]
    rfl
  · obtain ⟨u, e, hu⟩ := (C67_decode input).2 hl
    obtain ⟨x, e1, c1, n1⟩ := (C13_convert P h u ZERO).1 (by omega) dbg
    refine ⟨x, c1, ?_, ?_⟩
    · unfold decodeField
      rw [e]
      simp only [andThen, e1]
      rfl
    · unfold encodeField
      rw [show to_uint P x = u from toNat_inj n1]
      exact (C67_number u _ _).2 e
  · obtain ⟨u, e, hu⟩ := (C67_decode input).2 hl
    refine ⟨?_, ?_⟩
    · unfold decodeField
      rw [e]
      have : lt u P.modulus = false := by
        rw [← Bool.not_eq_true, lt_iff]
        omega
      simp [andThen, from_uint, this]
    · obtain ⟨x, e1, c1, n1⟩ := (C13_convert P h u ZERO).2.2.1
      refine ⟨x, c1, ?_, by rw [n1, hu], fun hc => ?_⟩
      · unfold decodeField
        rw [e]
        simp only [andThen, e1]
        rfl
      · have g : leValue (input.take 32) = leValue ((encodeField P x ++ input.drop 32).take 32) := by rw [← hc]
        have g1 := C67_bytes (to_uint P x)
        have g2 := ((C13_convert P h u x).2.2.2 c1).1
        unfold encodeField at g
        rw [List.take_append_of_le_length (by omega), List.take_of_length_le (l := encodeU256 _) (by omega), g1.2] at g
        unfold nat at g2
        omega

/-- C67: field elements round-trip through `serde`, in both kinds of format. -/
theorem C67_serde (x : U256) (hx : Canon P x) (dbg human : Bool) :
    deserializeField P dbg human (serializeField P human x) = some (.ok x) := by
  have e := ((C13_convert P h ZERO x).2.2.2 hx).2 dbg
  unfold deserializeField serializeField serializeU256 deserializeU256
  cases human
  · obtain ⟨y, e1, hy⟩ := from_bytes_be_eq (to_bytes_be (to_uint P x)) (to_bytes_be_length _)
    have : y = to_uint P x := toNat_inj (by rw [hy, to_bytes_be_value])
    subst this
    simp [to_bytes_be_length, e1, e]
  · simp [(C56_round_trip (to_uint P x)).1, e]

end

/-- C67: points, public keys, private keys and signatures round-trip. -/
theorem C67_structures (dbg : Bool) (rest : List UInt8) :
    (∀ p : Affine U256, (∀ x y, p = .Point x y → Canon BASE x ∧ Canon BASE y) →
      decodeAffine dbg (encodeAffine p ++ rest) = some (.ok (p, rest))) ∧
    (∀ r w, Canon SCALAR r → Canon SCALAR w →
      decodeSignature dbg (encodeSignature (r, w) ++ rest) = some (.ok ((r, w), rest))) := by
  constructor
  · intro p hp
    cases p with
    | Zero => rfl
    | Point x y =>
      obtain ⟨hx, hy⟩ := hp x y rfl
      have e1 := (C67_field BASE base_ok x hx dbg (encodeField BASE y ++ rest)).2.2
      have e2 := (C67_field BASE base_ok y hy dbg rest).2.2
      rw [encodeAffine, List.cons_append, decodeAffine, if_neg (by decide), if_pos rfl, List.append_assoc, e1]
      simp only [andThen]
      rw [e2]
  · intro r w hr hw
    have e1 := (C67_field SCALAR scalar_ok r hr dbg (encodeField SCALAR w ++ rest)).2.2
    have e2 := (C67_field SCALAR scalar_ok w hw dbg rest).2.2
    unfold decodeSignature encodeSignature
    rw [List.append_assoc, e1]
    simp only [andThen]
    rw [e2]

/-- C67, **partial**: in a debug build nothing but what the encoders write is decoded.  Missing: other inputs panic
there instead of returning an error, and release builds accept them; see `C67_violated` and `C67_field_decode_partial`. -/
theorem C67_canonical_partial :
    (∀ P, FieldOK P → ∀ input x rest, decodeField P true input = some (.ok (x, rest)) →
      Canon P x ∧ input = encodeField P x ++ rest) ∧
    (∀ input p rest, decodeAffine true input = some (.ok (p, rest)) →
      (∀ x y, p = .Point x y → Canon BASE x ∧ Canon BASE y) ∧ input = encodeAffine p ++ rest) ∧
    (∀ input r w rest, decodeSignature true input = some (.ok ((r, w), rest)) →
      Canon SCALAR r ∧ Canon SCALAR w ∧ input = encodeSignature (r, w) ++ rest) := by
  have key : ∀ P, FieldOK P → ∀ input x rest, decodeField P true input = some (.ok (x, rest)) →
      Canon P x ∧ input = encodeField P x ++ rest := by
    intro P h input x rest e
    obtain ⟨h1, h2, h3⟩ := C67_field_decode_partial P h true input
    by_cases hl : input.length < 32
    · rw [h1 hl] at e; simp at e
    by_cases hv : leValue (input.take 32) < P.modulus.toNat
    · obtain ⟨y, c, e1, e2⟩ := h2 (by omega) hv
      rw [e1] at e
      simp only [Option.some.injEq, Except.ok.injEq, Prod.mk.injEq] at e
      obtain ⟨rfl, rfl⟩ := e
      exact ⟨c, e2⟩
    · rw [(h3 (by omega) (by omega)).1] at e; simp at e
  refine ⟨key, ?_, ?_⟩
  · intro input p rest e
    cases input with
    | nil => simp [decodeAffine] at e
    | cons t input =>
      rw [decodeAffine] at e
      split_ifs at e with h0 h1
      · simp only [Option.some.injEq, Except.ok.injEq, Prod.mk.injEq] at e
        obtain ⟨rfl, rfl⟩ := e
        subst h0
        exact ⟨fun x y h => (nomatch h), rfl⟩
      · subst h1
        unfold andThen at e
        split at e
        · simp at e
        · simp at e
        next x r1 e1 =>
          beta_reduce at e
          split at e
          · simp at e
          · simp at e
          next y r2 e2 =>
            simp only [Option.some.injEq, Except.ok.injEq, Prod.mk.injEq] at e
            obtain ⟨rfl, rfl⟩ := e
            obtain ⟨c1, i1⟩ := key BASE base_ok _ _ _ e1
            obtain ⟨c2, i2⟩ := key BASE base_ok _ _ _ e2
            refine ⟨by intro x' y' h; cases h; exact ⟨c1, c2⟩, ?_⟩
            rw [i1, i2, encodeAffine, List.cons_append, List.append_assoc]
      · simp at e
  · intro input r w rest e
    unfold decodeSignature andThen at e
    split at e
    · simp at e
    · simp at e
    next x r1 e1 =>
      beta_reduce at e
      split at e
      · simp at e
      · simp at e
      next y r2 e2 =>
        simp only [Option.some.injEq, Except.ok.injEq, Prod.mk.injEq] at e
        obtain ⟨⟨rfl, rfl⟩, rfl⟩ := e
        obtain ⟨c1, i1⟩ := key SCALAR scalar_ok _ _ _ e1
        obtain ⟨c2, i2⟩ := key SCALAR scalar_ok _ _ _ e2
        refine ⟨c1, c2, ?_⟩
        rw [i1, i2, encodeSignature, List.append_assoc]

/-- C67: what `serde` decodes from a binary format: the 32 bytes, most significant first, of a number below the
modulus give the element that serializes to them; any other number of bytes, and a string, is an error. -/
theorem C67_serde_decode (P : Params) (h : FieldOK P) (dbg : Bool) :
    (∀ b : List UInt8, b.length ≠ 32 → deserializeField P dbg false (.bytes b) = some (.error ())) ∧
    (∀ s, deserializeField P dbg false (.string s) = some (.error ())) ∧
    (∀ b, deserializeField P dbg true (.bytes b) = some (.error ())) ∧
    (∀ b : List UInt8, b.length = 32 → beValue b < P.modulus.toNat →
      ∃ x, Canon P x ∧ nat P x = beValue b ∧ deserializeField P dbg false (.bytes b) = some (.ok x) ∧
        serializeField P false x = .bytes b) ∧
    (∀ b : List UInt8, b.length = 32 → P.modulus.toNat ≤ beValue b →
      deserializeField P true false (.bytes b) = none) := by
  refine ⟨fun b hb => ?_, fun s => rfl, fun b => rfl, fun b hb hv => ?_, fun b hb hv => ?_⟩
  · simp [deserializeField, deserializeU256, hb]
  · obtain ⟨u, e, hu⟩ := from_bytes_be_eq b hb
    obtain ⟨x, e1, c1, n1⟩ := (C13_convert P h u ZERO).1 (by omega) dbg
    refine ⟨x, c1, by rw [n1, hu], by simp [deserializeField, deserializeU256, hb, e, e1], ?_⟩
    rw [serializeField, show to_uint P x = u from toNat_inj n1, serializeU256, if_neg (by simp)]
    congr 1
    obtain ⟨a, e2, -, e3⟩ := C06_roundtrip_bytes b hb
    rw [e] at e2
    rw [Option.some.inj e2, e3]
  · obtain ⟨u, e, hu⟩ := from_bytes_be_eq b hb
    have : lt u P.modulus = false := by
      rw [← Bool.not_eq_true, lt_iff]
      omega
    simp [deserializeField, deserializeU256, hb, e, from_uint, this]

/-- C67 is violated: the 32 bytes of the modulus plus one are decoded as the field element one in a release build
(a second encoding of the same element) and panic in a debug build instead of returning an error; and a public key
that is not on the curve is decoded. -/
theorem C67_violated :
    (∃ input : List UInt8, input.length = 32 ∧ input ≠ encodeField BASE (one BASE) ∧
      decodeField BASE false input = some (.ok (one BASE, [])) ∧ decodeField BASE true input = none) ∧
    (∃ input : List UInt8, ∃ x y, decodeAffine true input = some (.ok (.Point x y, [])) ∧
      Affine.is_on_curve BETA (.Point ((nat BASE x : Nat) : Fp) ((nat BASE y : Nat) : Fp)) = false) :=
  ⟨⟨encodeU256 ⟨2, 0, 0, 0x0800000000000011⟩, by decide +kernel, by decide +kernel, by decide +kernel,
    by decide +kernel⟩, ⟨1 :: List.replicate 64 0, zero, zero, by decide +kernel, by decide +kernel⟩⟩

/-- C67: what the bytes of points, keys and signatures are: a signature is `r` and then `w`; the point at infinity is the byte 0, another
point the byte 1 and its two coordinates, `x` first.  Text formats have the prefix `0x` and 64 hexadecimal digits, most significant first. -/
theorem C67_layout :
    (∀ r w, (encodeSignature (r, w)).length = 64 ∧ leValue ((encodeSignature (r, w)).take 32) = nat SCALAR r ∧
      leValue ((encodeSignature (r, w)).drop 32) = nat SCALAR w) ∧
    encodeAffine .Zero = [0] ∧
    (∀ x y, (encodeAffine (.Point x y)).length = 65 ∧ (encodeAffine (.Point x y)).head? = some 1 ∧
      leValue (((encodeAffine (.Point x y)).drop 1).take 32) = nat BASE x ∧ leValue ((encodeAffine (.Point x y)).drop 33) = nat BASE y) ∧
    (∀ P x, ∃ s vs, serializeField P true x = .string ('0' :: 'x' :: s) ∧ s.length = 64 ∧ HexDigits s vs ∧ hexValue vs = nat P x) := by
  have l : ∀ P x, (encodeField P x).length = 32 ∧ leValue (encodeField P x) = nat P x := fun P x => C67_bytes _
  refine ⟨fun r w => ?_, rfl, fun x y => ?_, fun P x => ?_⟩
  · have e : encodeSignature (r, w) = encodeField SCALAR r ++ encodeField SCALAR w := rfl
    rw [e, List.take_left' (l SCALAR r).1, List.drop_left' (l SCALAR r).1]
    exact ⟨by rw [List.length_append, (l _ _).1, (l _ _).1], (l _ _).2, (l _ _).2⟩
  · have e : encodeAffine (.Point x y) = 1 :: (encodeField BASE x ++ encodeField BASE y) := rfl
    rw [e, List.drop_succ_cons, List.drop_succ_cons, List.drop_zero, List.take_left' (l BASE x).1, List.drop_left' (l BASE x).1]
    exact ⟨by rw [List.length_cons, List.length_append, (l _ _).1, (l _ _).1], rfl, (l _ _).2, (l _ _).2⟩
  · obtain ⟨s, vs, e, h1, h2, h3⟩ := (C56_round_trip (to_uint P x)).2
    exact ⟨s, vs, by rw [← e]; rfl, h1, h2, h3⟩

/-- Non-vacuous: the encoding of one, and a signature. -/
example : encodeField BASE (one BASE) = 1 :: List.replicate 31 0 ∧
    (encodeSignature (one SCALAR, SCALAR.generator)).length = 64 ∧ Canon SCALAR SCALAR.generator :=
  ⟨by decide +kernel, by decide +kernel, by unfold Canon; decide +kernel⟩

end OpenZKP.Props
