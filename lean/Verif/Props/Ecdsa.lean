import Verif.Props.Curve

/-!
# Properties C27 (signatures verify) and C28 (what verification accepts)

Scalars are residues modulo the group order `n` (`Fn`), coordinates residues modulo the base prime (`Fp`).
-/

namespace OpenZKP.Props
open OpenZKP EC U256

/-! ## Specification -/

/-- the `x` coordinate, read modulo the group order; none for the zero point -/
def xModN : Pt BETA → Option Fn
  | .zero => none
  | .some x _ _ => some (x.val : Nat)

/-- the point computed by a verification -/
noncomputable def verifyPoint (Q : Pt BETA) (digest r w : Fn) : Pt BETA := (digest * w).val • G + (r * w).val • Q

/-- No addition made by the double multiplication `a·G + b·Q` meets equal or opposite non-zero points. -/
def NoExceptional (Q : Pt BETA) (a b : Fn) : Prop :=
  (∀ i, i < 8 → (2 * i + 1) • Q ≠ 0) ∧
  ∀ da db, non_adjacent_form (toUint a) 7 = some da → non_adjacent_form (toUint b) 5 = some db →
    ∀ i, i < 257 →
      ¬ Clash ((2 * highSum da (i + 1)) • G + (2 * highSum db (i + 1)) • Q) (da i • G) ∧
      ¬ Clash ((highSum da i) • G + (2 * highSum db (i + 1)) • Q) (db i • Q)

/-! ## C28 -/

theorem on_curve_ofPoint (Q : Pt BETA) : Affine.is_on_curve BETA (ofPoint Q) = true :=
  (C23_on_curve two_ne disc_ne _).2 ⟨Q, rfl⟩

/-- C28, the part that holds: for a key on the curve and non-zero `r` and `w`, when no exceptional addition is
met, `verify` accepts exactly when the `x` coordinate of `digest·w·G + r·w·Q`, modulo `n`, is `r`.
Missing: the exceptional additions, and rejecting (instead of panicking) in the other cases. -/
theorem C28_verify_partial (Q : Pt BETA) (digest r w : Fn) (hr : r ≠ 0) (hw : w ≠ 0)
    (hne : NoExceptional Q (digest * w) (r * w)) :
    verify (ofPoint Q) digest (r, w) = some (decide (xModN (verifyPoint Q digest r w) = some r)) := by
  unfold verify
  rw [if_neg hr, if_neg hw, if_neg (by rw [on_curve_ofPoint]; simp)]
  obtain ⟨l, el, hl⟩ := table_G
  obtain ⟨da, ea, _⟩ := naf_spec 7 (by norm_num) (by norm_num) (toUint (digest * w))
  obtain ⟨db, eb, _⟩ := naf_spec 5 (by norm_num) (by norm_num) (toUint (r * w))
  obtain ⟨j, ej, hj⟩ := double_base_mul_eq two_ne G Q l hl (toUint (digest * w)) (toUint (r * w)) hne.1 da db ea eb
    (hne.2 da db ea eb)
  simp only [el, Option.bind_some]
  rw [ej, Option.map_some, hj, fn_uint, fn_uint]
  change some _ = some (decide (xModN (verifyPoint Q digest r w) = some r))
  unfold verifyPoint
  generalize (digest * w).val • G + (r * w).val • Q = V
  cases V with
  | zero => simp [xModN, ofPoint]
  | some x y h => simp [xModN, ofPoint]

/-- C28: what happens outside: `verify` panics when `r` or `w` is zero or the key is not on the curve. -/
theorem C28_panics (q : Affine Fp) (digest r w : Fn)
    (h : r = 0 ∨ w = 0 ∨ Affine.is_on_curve BETA q = false) : verify q digest (r, w) = none := by
  unfold verify
  by_cases hr : r = 0
  · rw [if_pos hr]
  by_cases hw : w = 0
  · rw [if_neg hr, if_pos hw]
  · rw [if_neg hr, if_neg hw, if_pos (h.resolve_left hr |>.resolve_left hw)]

/-- C28: `verify` also panics on the zero key, which is on the curve. -/
theorem C28_zero_key (digest r w : Fn) : verify .Zero digest (r, w) = none := by
  unfold verify
  by_cases hr : r = 0
  · rw [if_pos hr]
  by_cases hw : w = 0
  · rw [if_neg hr, if_pos hw]
  rw [if_neg hr, if_neg hw, if_neg (by simp [Affine.is_on_curve])]
  obtain ⟨l, el, _⟩ := table_G
  have hb : batch_convert (window_table (.Zero : Affine Fp) 8) = none := by
    rw [C26_batch_convert, if_neg]
    intro h
    exact h Jacobian.ZERO (by simp [window_table, tableLoop, Jacobian.ofAffine]) rfl
  simp only [el, Option.bind_some]
  unfold double_base_mul
  rw [hb]; rfl

/-- `x(2G)`: with this as digest and as `r`, and `w = 1/r`, verification under the key `G` computes `G + G` -/
def badR : Fn := ((0x0759ca09377679ecd535a81e83039658bf40959283187c654c5416f439403cf5 : Nat) : Fn)

theorem verify_bad : (double_base_mul <$> GENERATOR_TABLE <*> some U256.ONE <*> some GENERATOR <*> some U256.ONE).map
    (fun o => o.map Jacobian.z) = some (some 0) := by
  unfold GENERATOR_TABLE
  rw [GENERATOR_eq]
  decide +kernel

theorem badR_ne : badR ≠ 0 := by decide +kernel

theorem two_G : xModN (G + G) = some badR := by
  have h := double_eq two_ne G
  rw [ofPoint_G] at h
  have e : (Affine.double GENERATOR).bind (fun a => match a with
      | .Zero => none
      | .Point x _ => some ((x.val : Nat) : Fn)) = some badR := by
    rw [GENERATOR_eq]; decide +kernel
  rw [h, Option.bind_some] at e
  generalize G + G = V at e
  cases V with
  | zero => simp [ofPoint] at e
  | some x y h => simpa [xModN, ofPoint] using e

/-- C28 fails: a signature which satisfies the equation is rejected. -/
theorem C28_violated : ∃ (Q : Pt BETA) (digest r w : Fn), r ≠ 0 ∧ w ≠ 0 ∧
    xModN (verifyPoint Q digest r w) = some r ∧ verify (ofPoint Q) digest (r, w) = some false := by
  have hone : badR * badR⁻¹ = 1 := mul_inv_cancel₀ badR_ne
  have hw : badR⁻¹ ≠ 0 := inv_ne_zero badR_ne
  have hv1 : (1 : Fn).val = 1 := by decide +kernel
  have hu1 : toUint (1 : Fn) = U256.ONE := by decide +kernel
  refine ⟨G, badR, badR, badR⁻¹, badR_ne, hw, ?_, ?_⟩
  · unfold verifyPoint
    rw [hone, hv1, one_nsmul]
    exact two_G
  · unfold verify
    rw [if_neg badR_ne, if_neg hw, if_neg (by rw [on_curve_ofPoint]; simp)]
    obtain ⟨l, el, _⟩ := table_G
    have h := verify_bad
    simp only [el, Option.bind_some, hone, hu1, ofPoint_G] at h ⊢
    cases hb : double_base_mul l U256.ONE GENERATOR U256.ONE with
    | none => simp [hb] at h
    | some j =>
      have hz : j.z = 0 := by simpa [hb] using h
      rw [Option.map_some, toAffine_zero hz]

/-! ## C27 -/

theorem mod_smul_G (m : Nat) : ((m : Fn)).val • G = m • G := by
  rw [ZMod.val_natCast, ← order_G, mod_addOrderOf_nsmul]

theorem mul_smul_G (a b : Fn) : a.val • b.val • G = (a * b).val • G := by
  rw [← mul_nsmul', ← mod_smul_G]
  congr 2

theorem add_smul_G (a b : Fn) : a.val • G + b.val • G = (a + b).val • G := by
  rw [← add_nsmul, ← mod_smul_G]
  congr 2

theorem key_ne (a : Fn) (h : a ≠ 0) : a.val • G ≠ 0 := by
  intro h0
  have := addOrderOf_dvd_of_nsmul_eq_zero h0
  rw [order_G] at this
  have hlt := ZMod.val_lt a
  exact h ((ZMod.val_eq_zero a).1 (Nat.eq_zero_of_dvd_of_lt this hlt))

theorem bad_of_val (k : Fn) (h : k.val = PF.SCALAR.modulus.toNat - 94) : toUint k = badScalar := by
  apply U256.toNat_inj
  rw [fn_uint, h, badScalar_val]

/-- the affine value computed by `base_mul` on the generator table -/
theorem base_mul_affine (k : Fn) (l : List (Affine Fp)) (el : GENERATOR_TABLE = some l) (hl : IsTable l 32 G) :
    ∃ j, base_mul l (toUint k) = some j ∧
      Jacobian.toAffine j = if k.val = PF.SCALAR.modulus.toNat - 94 then .Zero else ofPoint (k.val • G) := by
  by_cases h : k.val = PF.SCALAR.modulus.toNat - 94
  · obtain ⟨l', r, el', er, hr, _⟩ := C26_base_mul_violated
    obtain rfl : l = l' := by rw [el] at el'; exact Option.some.inj el'
    refine ⟨r, by rw [bad_of_val k h]; exact er, ?_⟩
    rw [if_pos h]; exact hr
  · obtain ⟨r, er, hr⟩ := base_mul_ok G order_G l hl (toUint k) (by rw [fn_uint]; exact ZMod.val_lt k)
      (by rw [fn_uint]; exact h)
    refine ⟨r, er, ?_⟩
    rw [if_neg h]
    rw [fn_uint] at hr
    exact hr

/-- C27: the public key of a private key other than `0` and `n - 94` is the multiple of the generator. -/
theorem C27_public_key_partial (key : Fn) (h : key.val ≠ PF.SCALAR.modulus.toNat - 94) :
    public_key key = some (ofPoint (key.val • G)) := by
  obtain ⟨l, el, hl⟩ := table_G
  obtain ⟨j, ej, hj⟩ := base_mul_affine key l el hl
  unfold public_key
  rw [el, Option.bind_some, ej, Option.map_some, hj, if_neg h]

/-- what one attempt of `sign` computes -/
theorem signTry_spec (key digest k : Fn) (l : List (Affine Fp)) (el : GENERATOR_TABLE = some l) (hl : IsTable l 32 G) :
    signTry l key digest k = some (
      if k = 0 ∨ k.val = PF.SCALAR.modulus.toNat - 94 then none
      else (xModN (k.val • G)).bind fun r =>
        if r = 0 ∨ r * key + digest = 0 then none else some (r, k * (r * key + digest)⁻¹)) := by
  unfold signTry
  by_cases h0 : k = 0
  · rw [if_pos h0, if_pos (.inl h0)]
  rw [if_neg h0]
  obtain ⟨j, ej, hj⟩ := base_mul_affine k l el hl
  rw [ej, Option.map_some, hj]
  by_cases hb : k.val = PF.SCALAR.modulus.toNat - 94
  · rw [if_pos hb, if_pos (.inr hb)]
  rw [if_neg hb, if_neg (by tauto)]
  generalize k.val • G = V
  cases V with
  | zero => rfl
  | some x y hn =>
    simp only [ofPoint, xModN, Option.bind_some]
    by_cases hr : ((x.val : Nat) : Fn) = 0
    · rw [if_pos hr, if_pos (.inl hr)]
    · rw [if_neg hr]
      by_cases hs : ((x.val : Nat) : Fn) * key + digest = 0
      · rw [finv, if_pos hs, if_pos (.inr hs)]; rfl
      · rw [finv, if_neg hs, if_neg (by tauto)]; rfl

/-- a nonce value which lets `sign` finish -/
def GoodNonce (key digest k : Fn) : Prop :=
  k ≠ 0 ∧ k.val ≠ PF.SCALAR.modulus.toNat - 94 ∧ ∃ r, xModN (k.val • G) = some r ∧ r ≠ 0 ∧ r * key + digest ≠ 0

theorem signLoop_some (hash : Fn → Fn → Nat → Fn) (key digest : Fn) (l : List (Affine Fp)) (el : GENERATOR_TABLE = some l)
    (hl : IsTable l 32 G) (ns : List Nat) (s : Fn × Fn) (h : signLoop l hash key digest ns = some s) :
    ∃ k, GoodNonce key digest k ∧ xModN (k.val • G) = some s.1 ∧ s.1 ≠ 0 ∧ s.1 * key + digest ≠ 0 ∧
      s.2 = k * (s.1 * key + digest)⁻¹ := by
  induction ns with
  | nil => simp [signLoop] at h
  | cons n ns ih =>
    unfold signLoop at h
    rw [signTry_spec key digest _ l el hl, Option.bind_some] at h
    generalize hash key digest n = k at h
    by_cases h0 : k = 0 ∨ k.val = PF.SCALAR.modulus.toNat - 94
    · rw [if_pos h0] at h; exact ih h
    rw [if_neg h0] at h
    cases hx : xModN (k.val • G) with
    | none => rw [hx] at h; exact ih h
    | some r =>
      rw [hx, Option.bind_some] at h
      by_cases hr : r = 0 ∨ r * key + digest = 0
      · rw [if_pos hr] at h; exact ih h
      · rw [if_neg hr] at h
        have := Option.some.inj h
        subst this
        push Not at h0 hr
        exact ⟨k, ⟨h0.1, h0.2, r, hx, hr.1, hr.2⟩, hx, hr.1, hr.2, rfl⟩

theorem signLoop_returns (hash : Fn → Fn → Nat → Fn) (key digest : Fn) (l : List (Affine Fp))
    (el : GENERATOR_TABLE = some l) (hl : IsTable l 32 G) (ns : List Nat) :
    (∃ s, signLoop l hash key digest ns = some s) ↔ ∃ n ∈ ns, GoodNonce key digest (hash key digest n) := by
  induction ns with
  | nil => simp [signLoop]
  | cons n ns ih =>
    unfold signLoop
    rw [signTry_spec key digest _ l el hl, Option.bind_some]
    simp only [List.mem_cons, exists_eq_or_imp]
    generalize hash key digest n = k
    by_cases h0 : k = 0 ∨ k.val = PF.SCALAR.modulus.toNat - 94
    · rw [if_pos h0]
      have : ¬ GoodNonce key digest k := by unfold GoodNonce; tauto
      simp only [this, false_or]
      exact ih
    rw [if_neg h0]
    push Not at h0
    cases hx : xModN (k.val • G) with
    | none =>
      have : ¬ GoodNonce key digest k := by unfold GoodNonce; rw [hx]; simp
      simp only [this, false_or]
      exact ih
    | some r =>
      rw [Option.bind_some]
      by_cases hr : r = 0 ∨ r * key + digest = 0
      · rw [if_pos hr]
        have : ¬ GoodNonce key digest k := by
          rintro ⟨_, _, r', hx', h1, h2⟩
          rw [hx] at hx'
          obtain rfl := Option.some.inj hx'
          tauto
        simp only [this, false_or]
        exact ih
      · rw [if_neg hr]
        push Not at hr
        have : GoodNonce key digest k := ⟨h0.1, h0.2, r, hx, hr.1, hr.2⟩
        exact ⟨fun _ => .inl this, fun _ => ⟨_, rfl⟩⟩

/-- C27: `sign` returns (does not panic) exactly when one of the 1000 nonces is usable. -/
theorem C27_sign_returns (hash : Fn → Fn → Nat → Fn) (key digest : Fn) :
    (∃ s, sign hash key digest = some s) ↔ ∃ n, n < 1000 ∧ GoodNonce key digest (hash key digest n) := by
  obtain ⟨l, el, hl⟩ := table_G
  unfold sign
  rw [el, Option.bind_some, signLoop_returns hash key digest l el hl]
  simp

/-- C27, the part that holds: whatever the nonce hash, a signature returned by `sign` satisfies the verification
equation with non-zero components … -/
theorem C27_equation (hash : Fn → Fn → Nat → Fn) (key digest r w : Fn) (h : sign hash key digest = some (r, w)) :
    r ≠ 0 ∧ w ≠ 0 ∧ xModN (verifyPoint (key.val • G) digest r w) = some r := by
  obtain ⟨l, el, hl⟩ := table_G
  unfold sign at h
  rw [el, Option.bind_some] at h
  obtain ⟨k, hk, hx, hr, hs, hw⟩ := signLoop_some hash key digest l el hl _ _ h
  simp only at hx hr hs hw
  refine ⟨hr, ?_, ?_⟩
  · rw [hw]; exact mul_ne_zero hk.1 (inv_ne_zero hs)
  · unfold verifyPoint
    rw [mul_smul_G, add_smul_G]
    have : digest * w + r * w * key = k := by
      rw [hw]
      field_simp
      ring
    rw [this, hx]

/-- … so `verify` accepts it under the public key, unless the key is `n - 94` or the verification meets an
exceptional addition. -/
theorem C27_sign_verify_partial (hash : Fn → Fn → Nat → Fn) (key digest r w : Fn)
    (hbad : key.val ≠ PF.SCALAR.modulus.toNat - 94) (h : sign hash key digest = some (r, w))
    (hne : NoExceptional (key.val • G) (digest * w) (r * w)) :
    ∃ q, public_key key = some q ∧ verify q digest (r, w) = some true := by
  obtain ⟨hr, hw, hx⟩ := C27_equation hash key digest r w h
  refine ⟨_, C27_public_key_partial key hbad, ?_⟩
  rw [C28_verify_partial _ _ _ _ hr hw hne, decide_eq_true hx]

/-- C27 fails: the private key `n - 94` has the zero point as its public key, and every verification with it
panics. -/
theorem C27_violated : ∃ key : Fn, key ≠ 0 ∧ public_key key = some .Zero ∧
    ∀ digest s, verify .Zero digest s = none := by
  obtain ⟨l, el, hl⟩ := table_G
  have hv : ((PF.SCALAR.modulus.toNat - 94 : Nat) : Fn).val = PF.SCALAR.modulus.toNat - 94 :=
    ZMod.val_cast_of_lt (by rw [scalar_modulus]; norm_num)
  refine ⟨((PF.SCALAR.modulus.toNat - 94 : Nat) : Fn), ?_, ?_, fun digest s => C28_zero_key digest s.1 s.2⟩
  · intro h0
    rw [h0, ZMod.val_zero, scalar_modulus] at hv
    norm_num at hv
  · obtain ⟨j, ej, hj⟩ := base_mul_affine _ l el hl
    unfold public_key
    rw [el, Option.bind_some, ej, Option.map_some, hj, if_pos hv]

/-! ### A concrete signature meeting the hypotheses: key 5, nonce 16, digest `x(16 G)/3` -/

def r16 : Fn := ((320701079910027581516523363326206993828482289921925795495069010139755848876 : Nat) : Fn)

set_option maxRecDepth 100000 in
theorem sign_example : sign (fun _ _ _ => 16) 5 (r16 * 3⁻¹) = some (r16, 3 * r16⁻¹) := by
  unfold sign GENERATOR_TABLE
  rw [GENERATOR_eq]
  decide +kernel

/-- a digit expansion with a single digit `c` at position 0 -/
theorem single_digit {d : Nat → Int} {c : Int}
    (h : ((List.range 257).map d) = c :: List.replicate 256 0) :
    d 0 = c ∧ (∀ i, 0 < i → i < 257 → d i = 0) ∧ (∀ i, highSum d (i + 1) = 0) := by
  have hz : ∀ i, 0 < i → i < 257 → d i = 0 := by
    intro i h0 hi
    have := congrArg (fun l => l[i]?) h
    obtain ⟨k, rfl⟩ : ∃ k, i = k + 1 := ⟨i - 1, by omega⟩
    simp only [List.getElem?_map, List.getElem?_range hi, Option.map_some, List.getElem?_cons_succ] at this
    rw [List.getElem?_replicate, if_pos (by omega)] at this
    exact Option.some.inj this
  refine ⟨?_, hz, ?_⟩
  · have := congrArg (fun l => l[0]?) h
    simp only [List.getElem?_map, List.getElem?_range (show 0 < 257 by norm_num), Option.map_some,
      List.getElem?_cons_zero] at this
    exact Option.some.inj this
  · intro i
    unfold highSum
    apply Finset.sum_eq_zero
    intro j hj
    rw [Finset.mem_range] at hj
    rw [hz _ (by omega) (by omega), zero_mul]

theorem smul_G_ne (m : Nat) (h0 : 0 < m) (h : m < 1000) : m • G ≠ 0 := by
  intro hm
  have := addOrderOf_dvd_of_nsmul_eq_zero hm
  rw [order_G, scalar_modulus] at this
  exact absurd (Nat.le_of_dvd h0 this) (by omega)

theorem noExceptional_example : NoExceptional ((5 : Fn).val • G) (r16 * 3⁻¹ * (3 * r16⁻¹)) (r16 * (3 * r16⁻¹)) := by
  have e5 : (5 : Fn).val = 5 := by decide +kernel
  have ea : r16 * 3⁻¹ * (3 * r16⁻¹) = 1 := by decide +kernel
  have eb : r16 * (3 * r16⁻¹) = 3 := by decide +kernel
  rw [e5, ea, eb]
  refine ⟨?_, ?_⟩
  · intro i hi
    rw [← mul_nsmul']
    exact smul_G_ne _ (by omega) (by omega)
  · intro da db ha hb i hi
    have la : ((non_adjacent_form (toUint (1 : Fn)) 7).map fun d => (List.range 257).map d) =
        some (1 :: List.replicate 256 0) := by decide +kernel
    have lb : ((non_adjacent_form (toUint (3 : Fn)) 5).map fun d => (List.range 257).map d) =
        some (3 :: List.replicate 256 0) := by decide +kernel
    rw [ha, Option.map_some] at la
    rw [hb, Option.map_some] at lb
    obtain ⟨a0, az, ah⟩ := single_digit (Option.some.inj la)
    obtain ⟨b0, bz, bh⟩ := single_digit (Option.some.inj lb)
    rw [ah, bh]
    refine ⟨?_, ?_⟩
    · rintro ⟨hR, -, -⟩
      apply hR
      rw [mul_zero, zero_smul, zero_smul, add_zero]
    · rintro ⟨-, hT, hRT⟩
      rcases Nat.eq_zero_or_pos i with rfl | hpos
      · have hs : highSum da 0 = 1 := by
          rw [highSum_step da 0 (by norm_num), ah, a0]; norm_num
        rw [b0, hs, mul_zero, zero_smul, add_zero, one_smul] at hRT
        have e15 : (3 : Int) • (5 • G) = 15 • G := by
          rw [show (3 : Int) = ((3 : Nat) : Int) from rfl, natCast_zsmul, ← mul_nsmul']
        rw [e15] at hRT
        rcases hRT with h | h
        · refine smul_G_ne 14 (by norm_num) (by norm_num) ?_
          have h1 : 14 • G + G = G := by
            rw [← succ_nsmul]; exact h.symm
          simpa using h1
        · refine smul_G_ne 16 (by norm_num) (by norm_num) ?_
          rw [succ_nsmul]
          nth_rw 2 [h]
          exact add_neg_cancel _
      · apply hT
        rw [bz i hpos hi, zero_smul]

/-- the hypotheses of `C27_sign_verify_partial` and `C28_verify_partial` are met -/
example : ∃ q, public_key 5 = some q ∧ verify q (r16 * 3⁻¹) (r16, 3 * r16⁻¹) = some true :=
  C27_sign_verify_partial (fun _ _ _ => 16) 5 (r16 * 3⁻¹) r16 (3 * r16⁻¹)
    (by have : (5 : Fn).val = 5 := by decide +kernel
        rw [this, scalar_modulus]; norm_num) sign_example noExceptional_example

end OpenZKP.Props
