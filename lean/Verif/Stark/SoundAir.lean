import Verif.Stark.BadSpec
import Verif.Stark.Proximity

/-!
Lemmas: combinations of constraints; few coefficients and points are bad.
-/

namespace OpenZKP
namespace Stark
namespace Accept
open FFT U256 Props Polynomial

section
variable {F : Type} [Field F] [DecidableEq F]

local notation "ι" => algebraMap F[X] (RatFunc F)

theorem fits_unique (columns : Nat → Prop) (n e size : Nat) (y : Nat → F) (hy : Set.InjOn y (Finset.range size : Finset Nat)) (hsize : n + 2 * e < size)
    (R : Nat → List F) (T T' : Nat → F[X]) (h : Fits columns n e size y R T) (h' : Fits columns n e size y R T') : T = T' := by
  funext i
  by_cases hi : columns i
  · obtain ⟨d1, c1⟩ := (h i).2 hi
    obtain ⟨d2, c2⟩ := (h' i).2 hi
    have hdeg : ∀ P : F[X], P.natDegree ≤ n → P.degree < (n + 1 : Nat) := by
      intro P hP
      refine lt_of_le_of_lt degree_le_natDegree ?_
      have : P.natDegree < n + 1 := by omega
      exact_mod_cast this
    let A := (Finset.range size).filter fun q => (R q).getD i 0 ≠ (T i).eval (y q)
    let B := (Finset.range size).filter fun q => (R q).getD i 0 ≠ (T' i).eval (y q)
    refine eq_of_agree ((Finset.range size).filter fun q => q ∉ A ∪ B) y (hy.mono (Finset.coe_subset.2 (Finset.filter_subset _ _))) _ _ (n + 1)
      (hdeg _ d1) (hdeg _ d2) ?_ ?_
    · have h1 : ((Finset.range size).filter fun q => q ∉ A ∪ B).card + ((Finset.range size).filter fun q => ¬ q ∉ A ∪ B).card = (Finset.range size).card :=
        Finset.card_filter_add_card_filter_not _
      have h2 : ((Finset.range size).filter fun q => ¬ q ∉ A ∪ B).card ≤ (A ∪ B).card := by
        apply Finset.card_le_card
        intro q hq
        have := (Finset.mem_filter.1 hq).2
        rwa [not_not] at this
      have h3 := Finset.card_union_le A B
      rw [Finset.card_range] at h1
      have c1 : A.card ≤ e := c1
      have c2 : B.card ≤ e := c2
      omega
    · intro q hq
      obtain ⟨hq, hn⟩ := Finset.mem_filter.1 hq
      rw [Finset.mem_union, not_or] at hn
      have h1 : (R q).getD i 0 = (T i).eval (y q) := by
        by_contra h1
        exact hn.1 (Finset.mem_filter.2 ⟨hq, h1⟩)
      have h2 : (R q).getD i 0 = (T' i).eval (y q) := by
        by_contra h2
        exact hn.2 (Finset.mem_filter.2 ⟨hq, h2⟩)
      rw [← h1, h2]
  · rw [(h i).1 hi, (h' i).1 hi]

/-! ## coefficients -/

omit [DecidableEq F] in
theorem isPoly_line (g h : RatFunc F) (a a' : F) (hne : a ≠ a') (h1 : IsPoly (g + RatFunc.C a * h)) (h2 : IsPoly (g + RatFunc.C a' * h)) :
    IsPoly g ∧ IsPoly h := by
  obtain ⟨P, hP⟩ := h1
  obtain ⟨P', hP'⟩ := h2
  have hd : RatFunc.C (a - a') ≠ (0 : RatFunc F) := by
    rw [Ne, map_eq_zero]
    exact sub_ne_zero.2 hne
  have hh : h = ι (C (a - a')⁻¹ * (P - P')) := by
    rw [map_mul, map_sub, ← hP, ← hP', RatFunc.algebraMap_C, map_inv₀]
    rw [eq_inv_mul_iff_mul_eq₀ hd, map_sub]
    ring
  refine ⟨⟨P - C a * (C (a - a')⁻¹ * (P - P')), ?_⟩, ⟨_, hh⟩⟩
  rw [map_sub, map_mul, ← hh, ← hP, RatFunc.algebraMap_C]
  ring

theorem badCoefficient_card (c : Constraints F) (g : F) (target e size : Nat) (y : Nat → F) (hy : Set.InjOn y (Finset.range size : Finset Nat))
    (hsize : c.trace_nrows + 2 * e < size) (R : Nat → List F) (before : List F) (S : Finset F)
    (hS : ∀ a ∈ S, a ∈ BadCoefficient c g target e size y R before) : S.card ≤ 1 := by
  rw [Finset.card_le_one]
  intro a ha a' ha'
  by_contra hne
  obtain ⟨T, hT, h1, h2⟩ := hS a ha
  obtain ⟨T', hT', h1', h2'⟩ := hS a' ha'
  obtain rfl := fits_unique _ _ _ _ _ hy hsize _ _ _ hT hT'
  exact h2 (isPoly_line _ _ a a' hne h1 h1')

/-- some coefficient is bad, given those before it -/
theorem coefficients_sound (c : Constraints F) (g : F) (target e size : Nat) (y : Nat → F) (R : Nat → List F) (coefficients : List F)
    (T : Nat → F[X]) (hT : Fits (Used c) c.trace_nrows e size y R T)
    (hbad : ∀ t < coefficients.length, coefficients.getD t 0 ∉ BadCoefficient c g target e size y R (coefficients.take t)) :
    ∀ K, K ≤ coefficients.length → IsPoly (combination c g T target K coefficients) → ∀ t < K, IsPoly (term c g T target t) := by
  intro K
  induction K with
  | zero => intro _ _ t ht; omega
  | succ K ih =>
    intro hK hp t ht
    have e1 : combination c g T target (K + 1) coefficients =
        combination c g T target K (coefficients.take K) + RatFunc.C (coefficients.getD K 0) * term c g T target K := by
      unfold combination
      rw [Finset.sum_range_succ]
      congr 1
      apply Finset.sum_congr rfl
      intro i hi
      have hi := Finset.mem_range.1 hi
      congr 2
      rw [List.getD, List.getD, List.getElem?_take_of_lt hi]
    have e2 : combination c g T target K (coefficients.take K) = combination c g T target K coefficients := by
      unfold combination
      apply Finset.sum_congr rfl
      intro i hi
      have hi := Finset.mem_range.1 hi
      congr 2
      rw [List.getD, List.getD, List.getElem?_take_of_lt hi]
    have hlen : (coefficients.take K).length = K := by rw [List.length_take]; omega
    have hboth : IsPoly (combination c g T target K (coefficients.take K)) ∧ IsPoly (term c g T target K) := by
      by_contra hno
      refine hbad K (by omega) ⟨T, hT, ?_, ?_⟩
      · rw [hlen, ← e1]; exact hp
      · rw [hlen]; exact hno
    rw [e2] at hboth
    by_cases htK : t = K
    · subst htK; exact hboth.2
    · exact ih (by omega) hboth.1 t (by omega)

/-! ## the point -/

/-- `r` is a fraction, with numerator and denominator of degree at most `s`, defined at `z` with the value `v` -/
def Frac (r : RatFunc F) (z v : F) (s : Nat) : Prop :=
  ∃ N D : F[X], D.eval z ≠ 0 ∧ r = ι N / ι D ∧ v * D.eval z = N.eval z ∧ N.natDegree ≤ s ∧ D.natDegree ≤ s

omit [DecidableEq F] in
theorem ne_of_eval {D : F[X]} {z : F} (h : D.eval z ≠ 0) : ι D ≠ 0 := by
  apply iota_ne
  rintro rfl
  simp at h

omit [DecidableEq F] in
theorem frac_poly (P : F[X]) (z : F) (s : Nat) (h : P.natDegree ≤ s) : Frac (ι P) z (P.eval z) s :=
  ⟨P, 1, by simp, by simp, by simp, h, by simp⟩

omit [DecidableEq F] in
theorem frac_add {r r' : RatFunc F} {z v v' : F} {s s' : Nat} (h : Frac r z v s) (h' : Frac r' z v' s') : Frac (r + r') z (v + v') (s + s') := by
  obtain ⟨N, D, h1, rfl, h2, h3, h4⟩ := h
  obtain ⟨N', D', h1', rfl, h2', h3', h4'⟩ := h'
  refine ⟨N * D' + D * N', D * D', by rw [eval_mul]; exact mul_ne_zero h1 h1', ?_, ?_, ?_, ?_⟩
  · rw [map_add, map_mul, map_mul, map_mul, div_add_div _ _ (ne_of_eval h1) (ne_of_eval h1')]
  · rw [eval_mul, eval_add, eval_mul, eval_mul, ← h2, ← h2']; ring
  · refine (natDegree_add_le _ _).trans (max_le ?_ ?_)
    · exact natDegree_mul_le.trans (by omega)
    · exact natDegree_mul_le.trans (by omega)
  · exact natDegree_mul_le.trans (by omega)

omit [DecidableEq F] in
theorem frac_mul {r r' : RatFunc F} {z v v' : F} {s s' : Nat} (h : Frac r z v s) (h' : Frac r' z v' s') : Frac (r * r') z (v * v') (s + s') := by
  obtain ⟨N, D, h1, rfl, h2, h3, h4⟩ := h
  obtain ⟨N', D', h1', rfl, h2', h3', h4'⟩ := h'
  refine ⟨N * N', D * D', by rw [eval_mul]; exact mul_ne_zero h1 h1', ?_, ?_, natDegree_mul_le.trans (by omega), natDegree_mul_le.trans (by omega)⟩
  · rw [map_mul, map_mul, div_mul_div_comm]
  · rw [eval_mul, eval_mul, ← h2, ← h2']; ring

omit [DecidableEq F] in
theorem frac_neg {r : RatFunc F} {z v : F} {s : Nat} (h : Frac r z v s) : Frac (-r) z (-v) s := by
  obtain ⟨N, D, h1, rfl, h2, h3, h4⟩ := h
  exact ⟨-N, D, h1, by rw [map_neg, neg_div], by rw [eval_neg, ← h2]; ring, by rwa [natDegree_neg], h4⟩

omit [DecidableEq F] in
theorem frac_inv {r : RatFunc F} {z v : F} {s : Nat} (hv : v ≠ 0) (h : Frac r z v s) : Frac r⁻¹ z v⁻¹ s := by
  obtain ⟨N, D, h1, rfl, h2, h3, h4⟩ := h
  refine ⟨D, N, ?_, by rw [inv_div], ?_, h4, h3⟩
  · rw [← h2]; exact mul_ne_zero hv h1
  · rw [← h2, ← mul_assoc, inv_mul_cancel₀ hv, one_mul]

omit [DecidableEq F] in
theorem frac_pow {r : RatFunc F} {z v : F} {s : Nat} (h : Frac r z v s) (k : Nat) : Frac (r ^ k) z (v ^ k) (k * s) := by
  obtain ⟨N, D, h1, rfl, h2, h3, h4⟩ := h
  refine ⟨N ^ k, D ^ k, by rw [eval_pow]; exact pow_ne_zero _ h1, by rw [map_pow, map_pow, div_pow], ?_, ?_, ?_⟩
  · rw [eval_pow, eval_pow, ← h2, mul_pow]
  · exact natDegree_pow_le.trans (Nat.mul_le_mul_left _ h3)
  · exact natDegree_pow_le.trans (Nat.mul_le_mul_left _ h4)

omit [DecidableEq F] in
theorem frac_aeval {r : RatFunc F} {z v : F} {s : Nat} (h : Frac r z v s) (P : F[X]) (k : Nat) (hk : P.natDegree ≤ k) :
    Frac (aeval r P) z (P.eval v) (k * s) := by
  obtain ⟨N, D, h1, rfl, h2, h3, h4⟩ := h
  have hDi : ι D ≠ 0 := ne_of_eval h1
  refine ⟨∑ i ∈ Finset.range (k + 1), C (P.coeff i) * (N ^ i * D ^ (k - i)), D ^ k, by rw [eval_pow]; exact pow_ne_zero _ h1, ?_, ?_, ?_, ?_⟩
  · rw [aeval_eq_sum_range' (show P.natDegree < k + 1 by omega), map_sum, Finset.sum_div]
    apply Finset.sum_congr rfl
    intro i hi
    rw [Finset.mem_range] at hi
    rw [Algebra.smul_def, map_mul, map_mul, map_pow, map_pow, map_pow, div_pow]
    conv_rhs => rw [show (ι D) ^ k = (ι D) ^ i * (ι D) ^ (k - i) by rw [← pow_add]; congr 1; omega]
    rw [show algebraMap F (RatFunc F) (P.coeff i) = ι (C (P.coeff i)) by
      rw [IsScalarTower.algebraMap_apply F F[X] (RatFunc F)]; rfl]
    field_simp
  · rw [eval_eq_sum_range' (show P.natDegree < k + 1 by omega), eval_finset_sum, Finset.sum_mul]
    apply Finset.sum_congr rfl
    intro i hi
    rw [Finset.mem_range] at hi
    rw [eval_mul, eval_mul, eval_C, eval_pow, eval_pow, eval_pow, ← h2, mul_pow]
    rw [show (eval z D) ^ k = (eval z D) ^ i * (eval z D) ^ (k - i) by rw [← pow_add]; congr 1; omega]
    ring
  · apply natDegree_sum_le_of_forall_le
    intro i hi
    rw [Finset.mem_range] at hi
    refine (natDegree_C_mul_le _ _).trans (natDegree_mul_le.trans ?_)
    have a1 := natDegree_pow_le (p := N) (n := i)
    have a2 := natDegree_pow_le (p := D) (n := k - i)
    have b1 : i * N.natDegree ≤ i * s := Nat.mul_le_mul_left _ h3
    have b2 : (k - i) * D.natDegree ≤ (k - i) * s := Nat.mul_le_mul_left _ h4
    have b3 : i * s + (k - i) * s = k * s := by rw [← Nat.add_mul]; congr 1; omega
    omega
  · exact natDegree_pow_le.trans (Nat.mul_le_mul_left _ h4)

/-- a constraint that has a value is a fraction with that value -/
theorem frac_constraint (c : Constraints F) (g : F) (T : Nat → F[X]) (n : Nat) (hT : ∀ i, (T i).natDegree ≤ n) (z : F) (e : Expr F) :
    ∀ v, constraintValue c g T z e = some v → Frac (constraintFunction c g T e) z v (fractionSize n e) := by
  unfold constraintValue constraintFunction
  induction e with
  | X => intro v h; cases h; simpa [denote, fractionSize] using frac_poly (X : F[X]) z 1 natDegree_X_le
  | Constant a => intro v h; cases h; simpa [denote, fractionSize] using frac_poly (C a) z 0 (by simp)
  | Trace i j =>
    intro v h
    cases h
    have := frac_poly ((T i).comp (C (g ^ j) * X)) z n (by
      refine natDegree_comp_le.trans ?_
      have : (C (g ^ j) * X : F[X]).natDegree ≤ 1 := (natDegree_C_mul_le _ _).trans natDegree_X_le
      have := Nat.mul_le_mul (hT i) this
      simpa using this)
    rw [eval_comp, eval_mul, eval_C, eval_X, mul_comm (g ^ j) z] at this
    exact this
  | Polynomial p a ih =>
    intro v h
    obtain ⟨u, h1, rfl⟩ := Option.map_eq_some_iff.1 h
    exact frac_aeval (ih u h1) (toPoly p) _ (le_refl _)
  | ClaimPolynomial i d a nm ih =>
    intro v h
    simp only [claimValue] at h
    split at h
    · rename_i P u h1 h2
      split at h
      · rename_i h3
        cases h
        obtain ⟨l, hl, rfl⟩ := Option.map_eq_some_iff.1 h1
        have e1 : c.claim_polynomials.getD i [] = l := by rw [List.getD, hl]; rfl
        simp only [denote, e1]
        exact frac_aeval (ih u h2) _ _ h3
      · cases h
    · cases h
  | Add a b iha ihb =>
    intro v h
    simp only [claimValue] at h
    split at h
    · rename_i u u' h1 h2
      cases h
      exact frac_add (iha u h1) (ihb u' h2)
    · cases h
  | Neg a ih =>
    intro v h
    obtain ⟨u, h1, rfl⟩ := Option.map_eq_some_iff.1 h
    exact frac_neg (ih u h1)
  | Mul a b iha ihb =>
    intro v h
    simp only [claimValue] at h
    split at h
    · rename_i u u' h1 h2
      cases h
      exact frac_mul (iha u h1) (ihb u' h2)
    · cases h
  | Inv a ih =>
    intro v h
    simp only [claimValue] at h
    split at h
    · rename_i u h1
      split at h
      · cases h
      · rename_i h2
        cases h
        exact frac_inv h2 (ih u h1)
    · cases h
  | Exp a k ih =>
    intro v h
    obtain ⟨u, h1, rfl⟩ := Option.map_eq_some_iff.1 h
    exact frac_pow (ih u h1) k

theorem frac_sum {r : Nat → RatFunc F} {z : F} {v : Nat → F} {s : Nat → Nat} (n : Nat) (h : ∀ i < n, Frac (r i) z (v i) (s i)) :
    Frac (∑ i ∈ Finset.range n, r i) z (∑ i ∈ Finset.range n, v i) (∑ i ∈ Finset.range n, s i) := by
  induction n with
  | zero => simpa using frac_poly (0 : F[X]) z 0 (by simp)
  | succ n ih =>
    rw [Finset.sum_range_succ, Finset.sum_range_succ, Finset.sum_range_succ]
    exact frac_add (ih fun i hi => h i (by omega)) (h n (by omega))

omit [Field F] [DecidableEq F] in
theorem sum_range_two_mul {A : Type} [AddCommMonoid A] (f : Nat → A) (n : Nat) :
    ∑ t ∈ Finset.range (2 * n), f t = ∑ i ∈ Finset.range n, (f (2 * i) + f (2 * i + 1)) := by
  induction n with
  | zero => rfl
  | succ n ih =>
    rw [Finset.sum_range_succ, ← ih, show 2 * (n + 1) = 2 * n + 1 + 1 by ring, Finset.sum_range_succ, Finset.sum_range_succ, add_assoc]

omit [DecidableEq F] in
theorem frac_zero_root {r : RatFunc F} {z : F} {s : Nat} (hr : r ≠ 0) (h : Frac r z 0 s) : r.num.eval z = 0 ∧ r.num.natDegree ≤ s := by
  obtain ⟨N, D, h1, h2, h3, h4, h5⟩ := h
  have hN : N.eval z = 0 := by rw [← h3, zero_mul]
  have hD0 : D ≠ 0 := by rintro rfl; simp at h1
  have hN0 : N ≠ 0 := by
    rintro rfl
    rw [map_zero, zero_div] at h2
    exact hr h2
  have hx : r.num * D = N * r.denom := (RatFunc.num_mul_eq_mul_denom_iff hD0).2 h2
  refine ⟨?_, ?_⟩
  · have := congrArg (eval z) hx
    rw [eval_mul, eval_mul, hN, zero_mul] at this
    exact (mul_eq_zero.1 this).resolve_right h1
  · have : r.num ∣ N := by
      rw [h2]; exact RatFunc.num_div_dvd N hD0
    exact (natDegree_le_of_dvd this hN0).trans h4

omit [DecidableEq F] in
theorem frac_sub {r r' : RatFunc F} {z v v' : F} {s s' : Nat} (h : Frac r z v s) (h' : Frac r' z v' s') : Frac (r - r') z (v - v') (s + s') := by
  rw [sub_eq_add_neg, sub_eq_add_neg]
  exact frac_add h (frac_neg h')

/-- a bound for the number of bad points -/
noncomputable def pointBound (c : Constraints F) (target width : Nat) : Nat :=
  ∑ i ∈ Finset.range c.expressions.length, (2 * fractionSize c.trace_nrows (c.expressions.getD i .X) +
    adjustment c.trace_nrows target (c.expressions.getD i .X)) + (c.trace_nrows * width + width)

theorem combination_frac (c : Constraints F) (g : F) (T : Nat → F[X]) (hT : ∀ i, (T i).natDegree ≤ c.trace_nrows) (target : Nat) (coefficients vs : List F) (z : F)
    (hvs : List.Forall₂ (fun e v => constraintValue c g T z e = some v) c.expressions vs) :
    Frac (combination c g T target (2 * c.expressions.length) coefficients) z
      (∑ i ∈ Finset.range c.expressions.length, (coefficients.getD (2 * i) 0 + coefficients.getD (2 * i + 1) 0 *
        z ^ adjustment c.trace_nrows target (c.expressions.getD i .X)) * vs.getD i 0)
      (∑ i ∈ Finset.range c.expressions.length, (2 * fractionSize c.trace_nrows (c.expressions.getD i .X) +
        adjustment c.trace_nrows target (c.expressions.getD i .X))) := by
  unfold combination
  rw [sum_range_two_mul]
  apply frac_sum
  intro i hi
  have hlen := hvs.length_eq
  have hv : constraintValue c g T z (c.expressions.getD i .X) = some (vs.getD i 0) := by
    have := hvs.get (i := i) hi (by omega)
    rw [List.getD_eq_getElem _ _ hi, List.getD_eq_getElem _ _ (by omega)]
    exact this
  have hf := frac_constraint c g T c.trace_nrows hT z _ _ hv
  unfold term
  rw [show 2 * i % 2 = 0 by omega, if_pos rfl, show 2 * i / 2 = i by omega, show (2 * i + 1) % 2 = 1 by omega, if_neg (by omega), show (2 * i + 1) / 2 = i by omega]
  generalize c.expressions.getD i .X = e at *
  generalize coefficients.getD (2 * i) 0 = a
  generalize coefficients.getD (2 * i + 1) 0 = a'
  have h1 := frac_mul (frac_poly (C a) z 0 (by simp)) hf
  have h2 := frac_mul (frac_poly (C a' * X ^ adjustment c.trace_nrows target e) z _ (natDegree_C_mul_X_pow_le _ _)) hf
  have h3 := frac_add h1 h2
  simp only [eval_C, eval_mul, eval_pow, eval_X, map_mul, map_pow, RatFunc.algebraMap_C, RatFunc.algebraMap_X] at h3
  convert h3 using 1
  · ring
  · ring
  · ring

theorem joined_degree (width n : Nat) (H : Nat → F[X]) (hH : ∀ i, (H i).natDegree ≤ n) : (joined width H).natDegree ≤ n * width + width := by
  unfold joined
  apply natDegree_sum_le_of_forall_le
  intro j hj
  have hj := Finset.mem_range.1 hj
  refine natDegree_mul_le.trans ?_
  have h1 : ((H j).comp (X ^ width)).natDegree ≤ n * width := by
    refine natDegree_comp_le.trans ?_
    rw [natDegree_X_pow]
    exact Nat.mul_le_mul_right _ (hH j)
  have h2 : (X ^ j : F[X]).natDegree ≤ j := natDegree_X_pow_le _
  omega

theorem fits_degree {columns : Nat → Prop} {n e size : Nat} {y : Nat → F} {R : Nat → List F} {T : Nat → F[X]} (h : Fits columns n e size y R T) (i : Nat) :
    (T i).natDegree ≤ n := by
  by_cases hi : columns i
  · exact ((h i).2 hi).1
  · rw [(h i).1 hi]; simp

theorem badPoint_card (c : Constraints F) (g : F) (target width e size : Nat) (y : Nat → F) (hy : Set.InjOn y (Finset.range size : Finset Nat))
    (hsize : c.trace_nrows + 2 * e < size) (R C : Nat → List F) (coefficients : List F) (S : Finset F)
    (hS : ∀ z ∈ S, z ∈ BadPoint c g target width e size y R C coefficients) : S.card ≤ pointBound c target width := by
  rcases S.eq_empty_or_nonempty with rfl | ⟨z0, hz0⟩
  · simp
  obtain ⟨T, H, vs0, hT, hH, -, -, hne⟩ := hS z0 hz0
  let r := combination c g T target (2 * c.expressions.length) coefficients - ι (joined width H)
  have hr : r ≠ 0 := sub_ne_zero.2 hne
  have hroot : ∀ z ∈ S, r.num.eval z = 0 ∧ r.num.natDegree ≤ pointBound c target width := by
    intro z hz
    obtain ⟨T', H', vs, hT', hH', h1, h2, -⟩ := hS z hz
    obtain rfl := fits_unique _ _ _ _ _ hy hsize _ _ _ hT hT'
    obtain rfl := fits_unique _ _ _ _ _ hy hsize _ _ _ hH hH'
    have hf := frac_sub (combination_frac c g T (fits_degree hT) target coefficients vs z h1)
      (frac_poly (joined width H) z _ (joined_degree width c.trace_nrows H (fits_degree hH)))
    rw [h2, sub_self] at hf
    exact frac_zero_root hr hf
  have hn : r.num ≠ 0 := RatFunc.num_ne_zero hr
  have hsub : S ⊆ r.num.roots.toFinset := by
    intro z hz
    rw [Multiset.mem_toFinset, mem_roots hn]
    exact (hroot z hz).1
  calc S.card ≤ r.num.roots.toFinset.card := Finset.card_le_card hsub
    _ ≤ r.num.roots.card := Multiset.toFinset_card_le _
    _ ≤ r.num.natDegree := card_roots' _
    _ ≤ _ := (hroot z0 hz0).2

end
end Accept
end Stark
end OpenZKP
