import Verif.EC.Nonce
import Verif.Props.Ecdsa
import Verif.Props.U256

/-!
# Property C92: which signatures pass for a digest, and who can make them

The equation of a signature `(r, w)` for a digest under the key `Q` is `x(digest·w·G + r·w·Q) = r` modulo the group
order `n` (`C28_verify_partial`: what `verify` tests when no exceptional addition is met).
-/

namespace OpenZKP.Props
open OpenZKP EC U256

/-! ## Specification -/

/-- the equation a signature has to satisfy -/
def SignatureOf (Q : Pt BETA) (digest r w : Fn) : Prop := r ≠ 0 ∧ w ≠ 0 ∧ xModN (verifyPoint Q digest r w) = some r

/-! ## Multiples of the generator -/

theorem neg_smul_G (a : Fn) : (-a).val • G = -(a.val • G) := by
  rw [eq_neg_iff_add_eq_zero, add_smul_G, neg_add_cancel, ZMod.val_zero, zero_nsmul]

theorem smul_G_inj {a b : Fn} (h : a.val • G = b.val • G) : a = b := by
  by_contra hne
  apply key_ne (a - b) (sub_ne_zero.2 hne)
  rw [sub_eq_add_neg, ← add_smul_G, neg_smul_G, h, add_neg_cancel]

theorem xModN_neg (P : Pt BETA) : xModN (-P) = xModN P := by
  cases P with
  | zero => rfl
  | some x y h => rfl

/-- points with the same first coordinate are equal or opposite -/
theorem same_x {x y y' : Fp} (h : (curve BETA).Nonsingular x y) (h' : (curve BETA).Nonsingular x y') :
    (WeierstrassCurve.Affine.Point.some x y h : Pt BETA) = .some x y' h' ∨
      (WeierstrassCurve.Affine.Point.some x y h : Pt BETA) = -.some x y' h' := by
  rcases WeierstrassCurve.Affine.Y_eq_of_X_eq h.1 h'.1 rfl with e | e
  · left; subst e; rfl
  · right
    rw [WeierstrassCurve.Affine.Point.neg_some]
    subst e; rfl

theorem verifyPoint_G (key digest r w : Fn) : verifyPoint (key.val • G) digest r w = (w * (r * key + digest)).val • G := by
  unfold verifyPoint
  rw [mul_smul_G, add_smul_G]
  congr 2
  ring

/-! ## Theorems -/

/-- C92: the signatures of a digest under the key `key·G` are exactly the pairs `(r, k/(r·key + digest))` for a
scalar `k` whose multiple of the generator has the first coordinate `r`: making one for a given digest and a given
`k` takes the private key. -/
theorem C92_forms (key digest r w : Fn) : SignatureOf (key.val • G) digest r w ↔
    r ≠ 0 ∧ ∃ k : Fn, xModN (k.val • G) = some r ∧ r * key + digest ≠ 0 ∧ w = k * (r * key + digest)⁻¹ := by
  unfold SignatureOf
  rw [verifyPoint_G]
  constructor
  · rintro ⟨hr, hw, hx⟩
    have hs : r * key + digest ≠ 0 := by
      intro h0
      rw [h0, mul_zero, ZMod.val_zero, zero_nsmul] at hx
      exact absurd hx (by simp [xModN, ← WeierstrassCurve.Affine.Point.zero_def])
    exact ⟨hr, _, hx, hs, by rw [mul_assoc, mul_inv_cancel₀ hs, mul_one]⟩
  · rintro ⟨hr, k, hx, hs, rfl⟩
    have e : k * (r * key + digest)⁻¹ * (r * key + digest) = k := by
      rw [mul_assoc, inv_mul_cancel₀ hs, mul_one]
    refine ⟨hr, ?_, by rw [e]; exact hx⟩
    apply mul_ne_zero _ (inv_ne_zero hs)
    rintro rfl
    rw [ZMod.val_zero, zero_nsmul] at hx
    exact absurd hx (by simp [xModN, ← WeierstrassCurve.Affine.Point.zero_def])

/-- C92 fails: whoever has a signature can make another one for the same digest, by the opposite `w`. -/
theorem C92_malleable (key digest r w : Fn) (h : SignatureOf (key.val • G) digest r w) :
    SignatureOf (key.val • G) digest r (-w) ∧ -w ≠ w := by
  obtain ⟨hr, hw, hx⟩ := h
  refine ⟨⟨hr, neg_ne_zero.2 hw, ?_⟩, ?_⟩
  · rw [verifyPoint_G, neg_mul, neg_smul_G, xModN_neg, ← verifyPoint_G]
    exact hx
  · intro e
    have h2 : (2 : Fn) ≠ 0 := by decide +kernel
    apply hw
    have : (2 : Fn) * w = 0 := by linear_combination -e
    exact (mul_eq_zero.1 this).resolve_left h2

/-- the first coordinate of a point of the group, as a number -/
def xOf : Pt BETA → Option Nat
  | .zero => none
  | .some x _ _ => some x.val

theorem xOf_same {P P' : Pt BETA} {m : Nat} (h : xOf P = some m) (h' : xOf P' = some m) : P' = P ∨ P' = -P := by
  cases P with
  | zero => exact absurd h (by simp [xOf])
  | some x y hp =>
    cases P' with
    | zero => exact absurd h' (by simp [xOf])
    | some x' y' hp' =>
      obtain rfl : x' = x := ZMod.val_injective _ ((Option.some.inj h').trans (Option.some.inj h).symm)
      exact same_x hp' hp

/-- a coordinate below `p` which is `r` modulo `n` is `r` or `r + n` -/
theorem xOf_of_xModN {P : Pt BETA} {r : Fn} (h : xModN P = some r) :
    xOf P = some r.val ∨ (r.val + PF.SCALAR.modulus.toNat < PF.BASE.modulus.toNat ∧
      xOf P = some (r.val + PF.SCALAR.modulus.toNat)) := by
  cases P with
  | zero => exact absurd h (by simp [xModN])
  | some x y hp =>
    have hx : ((x.val : Nat) : Fn) = r := Option.some.inj h
    have hlt := ZMod.val_lt x
    have hm : x.val % PF.SCALAR.modulus.toNat = r.val := by rw [← hx, ZMod.val_natCast]
    have hnp : PF.BASE.modulus.toNat < 2 * PF.SCALAR.modulus.toNat := by
      rw [base_modulus, scalar_modulus]; norm_num
    unfold xOf
    rcases Nat.lt_or_ge x.val PF.SCALAR.modulus.toNat with h1 | h1
    · rw [Nat.mod_eq_of_lt h1] at hm
      exact .inl (congrArg some hm)
    · rw [Nat.mod_eq_sub_mod h1, Nat.mod_eq_of_lt (by omega)] at hm
      exact .inr ⟨by omega, congrArg some (by omega)⟩

/-- C92, the part that holds: apart from its sign, `w` is determined by the key, the digest and `r`, unless `r` is
one of the few residues below `p - n`, … -/
theorem C92_unique_partial (key digest r w w' : Fn) (h : SignatureOf (key.val • G) digest r w)
    (h' : SignatureOf (key.val • G) digest r w') (hr : PF.BASE.modulus.toNat ≤ r.val + PF.SCALAR.modulus.toNat) :
    w' = w ∨ w' = -w := by
  obtain ⟨-, k, hx, hs, rfl⟩ := (C92_forms _ _ _ _).1 h
  obtain ⟨-, k', hx', -, rfl⟩ := (C92_forms _ _ _ _).1 h'
  have e := (xOf_of_xModN hx).resolve_right (by omega)
  have e' := (xOf_of_xModN hx').resolve_right (by omega)
  rcases xOf_same e e' with h | h
  · exact .inl (by rw [smul_G_inj h])
  · rw [← neg_smul_G] at h
    exact .inr (by rw [smul_G_inj h, neg_mul])

/-- … and then there are at most four values. -/
theorem C92_at_most_four (key digest r : Fn) : {w | SignatureOf (key.val • G) digest r w}.encard ≤ 4 := by
  have two : ∀ m, {P : Pt BETA | xOf P = some m}.encard ≤ 2 := by
    intro m
    rcases Set.eq_empty_or_nonempty {P : Pt BETA | xOf P = some m} with h | ⟨P, hP⟩
    · rw [h, Set.encard_empty]; exact zero_le
    · refine (Set.encard_le_encard (t := {P, -P}) fun P' hP' => ?_).trans
        ((Set.encard_insert_le _ _).trans (by rw [Set.encard_singleton]; norm_num))
      exact xOf_same hP hP'
  by_cases hs : r * key + digest = 0
  · have : {w | SignatureOf (key.val • G) digest r w} = ∅ := by
      ext w
      simp only [Set.mem_setOf_eq, Set.mem_empty_iff_false, iff_false]
      intro h
      obtain ⟨-, k, -, hs', -⟩ := (C92_forms _ _ _ _).1 h
      exact hs' hs
    rw [this, Set.encard_empty]; exact zero_le
  · have inj : Set.InjOn (fun w : Fn => (w * (r * key + digest)).val • G) {w | SignatureOf (key.val • G) digest r w} := by
      intro a _ b _ hab
      exact mul_right_cancel₀ hs (smul_G_inj hab)
    rw [← inj.encard_image]
    refine (Set.encard_le_encard (t := {P | xOf P = some r.val} ∪
      {P | xOf P = some (r.val + PF.SCALAR.modulus.toNat)}) ?_).trans
      ((Set.encard_union_le _ _).trans ((add_le_add (two _) (two _)).trans (by norm_num)))
    rintro P ⟨w, hw, rfl⟩
    have hx := hw.2.2
    rw [verifyPoint_G] at hx
    rcases xOf_of_xModN hx with h | h
    · exact .inl h
    · exact .inr h.2

/-- C92 fails for digests which are not fixed beforehand: without the private key, from any two scalars, anyone gets
a digest with a signature of it. -/
theorem C92_forgery (Q : Pt BETA) (u v r : Fn) (hv : v ≠ 0) (hr : r ≠ 0) (hx : xModN (u.val • G + v.val • Q) = some r) :
    SignatureOf Q (u * (v * r⁻¹)⁻¹) r (v * r⁻¹) := by
  have hw : v * r⁻¹ ≠ 0 := mul_ne_zero hv (inv_ne_zero hr)
  refine ⟨hr, hw, ?_⟩
  unfold verifyPoint
  rw [mul_assoc u, inv_mul_cancel₀ hw, mul_one, mul_comm v, ← mul_assoc, mul_inv_cancel₀ hr, one_mul]
  exact hx

/-! ### Nonces -/

/-- C92: two signatures made with one nonce for different digests give away the private key, … -/
theorem C92_reuse (key k digest digest' r : Fn) (hd : digest ≠ digest') (hk : k ≠ 0) (hr : r ≠ 0)
    (hs : r * key + digest ≠ 0) (hs' : r * key + digest' ≠ 0) (w w' : Fn) (hw : w = k * (r * key + digest)⁻¹)
    (hw' : w' = k * (r * key + digest')⁻¹) : key = (w' * digest' - w * digest) * (r * (w - w'))⁻¹ := by
  have e : w * (r * key + digest) = k := by rw [hw, mul_assoc, inv_mul_cancel₀ hs, mul_one]
  have e' : w' * (r * key + digest') = k := by rw [hw', mul_assoc, inv_mul_cancel₀ hs', mul_one]
  have hne : w ≠ w' := by
    intro h
    rw [← h] at e'
    have hw0 : w ≠ 0 := by rw [hw]; exact mul_ne_zero hk (inv_ne_zero hs)
    have := mul_left_cancel₀ hw0 (e.trans e'.symm)
    exact hd (add_left_cancel this)
  have hx : r * (w - w') ≠ 0 := mul_ne_zero hr (sub_ne_zero.2 hne)
  apply mul_right_cancel₀ hx
  rw [mul_assoc, inv_mul_cancel₀ hx, mul_one]
  linear_combination e - e'

theorem toUint_inj {a b : Fn} (h : toUint a = toUint b) : a = b := by
  apply ZMod.val_injective
  rw [← fn_uint, ← fn_uint, h]

theorem to_bytes_be_inj {a b : U256} (h : to_bytes_be a = to_bytes_be b) : a = b := by
  have := C06_roundtrip_value a
  rw [h, C06_roundtrip_value b] at this
  exact (Option.some.inj this).symm

/-- C92: … but `sign` hashes different messages for different keys, digests or tries: when it uses one nonce twice,
SHA3 has given, for two different messages, two values which are equal modulo the group order. -/
theorem C92_nonce (sha3 : List UInt8 → U256) (key key' digest digest' : Fn) (i i' : Nat) (hi : i < 1000) (hi' : i' < 1000)
    (h : nonceHash sha3 key digest i = nonceHash sha3 key' digest' i') :
    (key = key' ∧ digest = digest' ∧ i = i') ∨
      ∃ m m' : List UInt8, m.length = 96 ∧ m'.length = 96 ∧ m ≠ m' ∧
        (sha3 m).toNat ≡ (sha3 m').toNat [MOD PF.SCALAR.modulus.toNat] := by
  have len : ∀ x, (to_bytes_be x).length = 32 := fun x => (C06_to_bytes x).1
  by_cases hm : nonceMessage key digest i = nonceMessage key' digest' i'
  · left
    unfold nonceMessage at hm
    obtain ⟨h1, h2⟩ := List.append_inj hm (by rw [len, len])
    obtain ⟨h2, h3⟩ := List.append_inj h2 (by rw [len, len])
    refine ⟨toUint_inj (to_bytes_be_inj h1), toUint_inj (to_bytes_be_inj h2), ?_⟩
    have h3 := congrArg (fun x : U256 => x.l0.toNat) (to_bytes_be_inj h3)
    simp only [UInt64.toNat_ofNat'] at h3
    rwa [Nat.mod_eq_of_lt (by omega), Nat.mod_eq_of_lt (by omega)] at h3
  · right
    refine ⟨_, _, ?_, ?_, hm, ?_⟩
    · unfold nonceMessage; simp [len]
    · unfold nonceMessage; simp [len]
    · exact (ZMod.natCast_eq_natCast_iff _ _ _).1 h

/-! ### The code accepts the altered signature -/

set_option maxRecDepth 100000 in
theorem verify_negated : (public_key 5).bind (fun q => verify q (r16 * 3⁻¹) (r16, -(3 * r16⁻¹))) = some true := by
  unfold public_key verify GENERATOR_TABLE
  rw [GENERATOR_eq]
  decide +kernel

/-- C92 fails: a signature made by `sign` and a different one for the same digest are both accepted by `verify`. -/
theorem C92_violated : ∃ (hash : Fn → Fn → Nat → Fn) (key digest r w w' : Fn) (q : Affine Fp), public_key key = some q ∧
    sign hash key digest = some (r, w) ∧ w' ≠ w ∧ verify q digest (r, w) = some true ∧ verify q digest (r, w') = some true := by
  obtain ⟨q, hq, hv⟩ := C27_sign_verify_partial (fun _ _ _ => 16) 5 (r16 * 3⁻¹) r16 (3 * r16⁻¹)
    (by have : (5 : Fn).val = 5 := by decide +kernel
        rw [this, scalar_modulus]; norm_num) sign_example noExceptional_example
  refine ⟨fun _ _ _ => 16, 5, r16 * 3⁻¹, r16, 3 * r16⁻¹, -(3 * r16⁻¹), q, hq, sign_example, ?_, hv, ?_⟩
  · decide +kernel
  · have := verify_negated
    rwa [hq, Option.bind_some] at this

/-- the hypotheses of `C92_malleable` and `C92_unique_partial` are met by that signature -/
example : SignatureOf ((5 : Fn).val • G) (r16 * 3⁻¹) r16 (3 * r16⁻¹) ∧
    PF.BASE.modulus.toNat ≤ r16.val + PF.SCALAR.modulus.toNat :=
  ⟨C27_equation (fun _ _ _ => 16) 5 (r16 * 3⁻¹) r16 (3 * r16⁻¹) sign_example, by
    have h : r16.val = 320701079910027581516523363326206993828482289921925795495069010139755848876 := by decide +kernel
    rw [h, base_modulus, scalar_modulus]; norm_num⟩

/-- the hypotheses of `C92_forgery`: under the key `G`, from the scalars 1 and 1 -/
example : (1 : Fn) ≠ 0 ∧ badR ≠ 0 ∧ xModN ((1 : Fn).val • G + (1 : Fn).val • G) = some badR := by
  have hv1 : (1 : Fn).val = 1 := by decide +kernel
  rw [hv1, one_nsmul]
  exact ⟨one_ne_zero, badR_ne, two_G⟩

/-- the hypotheses of `C92_reuse`: key 2, nonce 1, digests 3 and 5 -/
example : (2 : Fn) = ((7⁻¹ : Fn) * 5 - 5⁻¹ * 3) * (1 * (5⁻¹ - 7⁻¹))⁻¹ :=
  C92_reuse 2 1 3 5 1 (by decide +kernel) (by decide +kernel) (by decide +kernel) (by decide +kernel) (by decide +kernel)
    5⁻¹ 7⁻¹ (by decide +kernel) (by decide +kernel)

end OpenZKP.Props
