import Verif.Stark.BadSpec
import Verif.Stark.Proximity

/-!
Lemmas: folding and combining words; few coefficients are bad.
-/

namespace OpenZKP
namespace Stark
namespace Accept
open FFT U256 Props Polynomial

section
variable {F : Type} [Field F] [DecidableEq F]

omit [DecidableEq F] in
theorem pt_injOn (m : Nat) (w : F) (ho : orderOf w = 2 ^ m) : Set.InjOn (fun q => w ^ rev m q) (Finset.range (2 ^ m) : Finset Nat) := by
  intro a ha b hb h
  have ha := Finset.mem_range.1 ha
  have hb := Finset.mem_range.1 hb
  have h1 : rev m a = rev m b := by
    refine pow_injOn_Iio_orderOf (x := w) ?_ ?_ h
    · rw [ho]; exact rev_lt m a
    · rw [ho]; exact rev_lt m b
  have := congrArg (rev m) h1
  rwa [rev_rev m a ha, rev_rev m b hb] at this

omit [DecidableEq F] in
theorem orderOf_sq (m : Nat) (w : F) (ho : orderOf w = 2 ^ (m + 1)) : orderOf (w ^ 2) = 2 ^ m := by
  rw [orderOf_pow_of_dvd (by norm_num) (by rw [ho]; exact dvd_pow_self 2 (by omega)), ho, pow_succ, Nat.mul_div_cancel _ (by norm_num)]

omit [DecidableEq F] in
theorem orderOf_pow_two (n : Nat) : ∀ (m : Nat) (w : F), n ≤ m → orderOf w = 2 ^ m → orderOf (w ^ 2 ^ n) = 2 ^ (m - n) := by
  intro m w hn ho
  rw [orderOf_pow_of_dvd (by positivity) (by rw [ho]; exact pow_dvd_pow 2 hn), ho, Nat.pow_div hn (by norm_num)]

omit [DecidableEq F] in
/-- folding is linear in the word -/
theorem foldMany_add (n : Nat) : ∀ (w : F) (m : Nat) (a s : F) (U V : Nat → F) (j : Nat),
    foldMany n w m a (fun i => U i + s * V i) j = foldMany n w m a U j + s * foldMany n w m a V j := by
  induction n with
  | zero => intro w m a s U V j; rfl
  | succ n ih =>
    intro w m a s U V j
    rw [foldMany, foldMany, foldMany, ← ih]
    congr 1
    funext i
    unfold foldOnce
    ring

omit [DecidableEq F] in
/-- the folds of a coset are the values of a polynomial -/
theorem fold_curve (n : Nat) : ∀ (w : F) (m : Nat) (V : Nat → F) (j : Nat),
    ∃ G : F[X], G.degree < (2 ^ n : Nat) ∧ ∀ a, foldMany n w m a V j = G.eval a := by
  induction n with
  | zero =>
    intro w m V j
    refine ⟨C (V j), lt_of_le_of_lt degree_C_le (by norm_num), fun a => by rw [eval_C]; rfl⟩
  | succ n ih =>
    intro w m V j
    obtain ⟨G0, h0, e0⟩ := ih (w ^ 2) (m - 1) (fun i => V (2 * i) + V (2 * i + 1)) j
    obtain ⟨G1, h1, e1⟩ := ih (w ^ 2) (m - 1) (fun i => (w ^ rev m (2 * i))⁻¹ * (V (2 * i) - V (2 * i + 1))) j
    refine ⟨expand F 2 G0 + X * expand F 2 G1, ?_, ?_⟩
    · have hn : ∀ G : F[X], G.degree < (2 ^ n : Nat) → (expand F 2 G).natDegree + 2 ≤ 2 ^ (n + 1) := by
        intro G hG
        have := natDegree_lt_iff_degree_lt_of_pos hG
        rw [natDegree_expand, pow_succ]
        omega
      refine (degree_lt_iff_coeff_zero _ _).2 ?_
      intro i hi
      have hi : 2 ^ (n + 1) ≤ i := by exact_mod_cast hi
      rw [coeff_add, coeff_eq_zero_of_natDegree_lt (by have := hn G0 h0; omega), zero_add]
      apply coeff_eq_zero_of_natDegree_lt
      refine lt_of_le_of_lt natDegree_mul_le ?_
      have := hn G1 h1
      have : (X : F[X]).natDegree ≤ 1 := natDegree_X_le
      omega
    · intro a
      rw [eval_add, eval_mul, eval_X, expand_eval, expand_eval, ← e0, ← e1, foldMany, ← foldMany_add]
      congr 1
      funext i
      unfold foldOnce
      ring
where
  natDegree_lt_iff_degree_lt_of_pos {G : F[X]} {n : Nat} (h : G.degree < (2 ^ n : Nat)) : G.natDegree < 2 ^ n := by
    by_cases hG : G = 0
    · subst hG; simp
    · exact (natDegree_lt_iff_degree_lt hG).2 h

omit [DecidableEq F] in
/-- folding with the coefficient equal to a point of the coset gives the value there -/
theorem fold_at_point (n : Nat) : ∀ (w : F) (m : Nat) (V : Nat → F) (q : Nat), n ≤ m → orderOf w = 2 ^ m →
    foldMany n w m (w ^ rev m q) V (q / 2 ^ n) = 2 ^ n * V q := by
  induction n with
  | zero => intro w m V q _ _; simp [foldMany]
  | succ n ih =>
    intro w m V q hn ho
    obtain ⟨m, rfl⟩ : ∃ m', m = m' + 1 := ⟨m - 1, by omega⟩
    rw [foldMany]
    have hw := orderOf_ne_zero ho
    have hone := neg_one_half m w ho
    have hrev : (w ^ rev (m + 1) q) ^ 2 = (w ^ 2) ^ rev m (q / 2) := by
      have : ((-1 : F) ^ (q % 2)) ^ 2 = 1 := by rw [← pow_mul, Nat.mul_comm, pow_mul]; norm_num
      rw [rev_succ, pow_add, pow_mul, hone, mul_pow, this, mul_one, ← pow_mul, ← pow_mul, Nat.mul_comm]
    rw [hrev, show m + 1 - 1 = m by omega]
    have e : q / 2 ^ (n + 1) = (q / 2) / 2 ^ n := by rw [pow_succ, Nat.mul_comm, Nat.div_div_eq_div_mul]
    rw [e, ih (w ^ 2) m _ (q / 2) (by omega) (orderOf_sq m w ho)]
    have hpow : w ^ rev m (q / 2) ≠ 0 := pow_ne_zero _ hw
    have key : foldOnce w (m + 1) (w ^ rev (m + 1) q) V (q / 2) = 2 * V q := by
      unfold foldOnce
      rw [rev_two_mul]
      rcases Nat.mod_two_eq_zero_or_one q with h | h
      · have hq : q = 2 * (q / 2) := by omega
        have : rev (m + 1) q = rev m (q / 2) := by rw [rev_succ, h]; simp
        rw [this, mul_inv_cancel₀ hpow, ← hq]
        ring
      · have hq : 2 * (q / 2) + 1 = q := by omega
        have : rev (m + 1) q = rev m (q / 2) + 2 ^ m := by rw [rev_succ, h]; simp
        rw [this, pow_add, hone, mul_neg_one, neg_mul, mul_inv_cancel₀ hpow, hq]
        ring
    rw [key]
    ring

/-- few folding coefficients are bad -/
theorem badFold_card (n m : Nat) (w : F) (D e : Nat) (L : Nat → F) (hn : n ≤ m) (ho : orderOf w = 2 ^ m) (hD : D + (2 ^ n + 1) * e ≤ 2 ^ (m - n))
    (S : Finset F) (hS : ∀ a ∈ S, a ∈ BadFold n m w D e L) : S.card ≤ (2 ^ n - 1) * (e + 1) := by
  by_contra hcard
  choose! P hP using hS
  choose G hG1 hG2 using fun j => fold_curve n w m L j
  have ho' := orderOf_pow_two n m w hn ho
  obtain ⟨A, hAS, a, ha, hA, hcurve⟩ := curve (2 ^ n) e D (Nat.one_le_two_pow) (Finset.range (2 ^ (m - n))) (fun j => (w ^ 2 ^ n) ^ rev (m - n) j)
    (pt_injOn _ _ ho') G (fun j _ => hG1 j) S P (fun a ha => (hP a ha).1.1) (fun a ha => by
      have := (hP a ha).1.2
      simp only [hG2] at this
      exact this) (by rw [Finset.card_range]; exact hD) (by omega)
  apply (hP a ha).2
  have h2 : (2 : F) ^ n ≠ 0 ∨ n = 0 := by
    by_cases h0 : n = 0
    · exact Or.inr h0
    · left
      obtain ⟨m, rfl⟩ : ∃ m', m = m' + 1 := ⟨m - 1, by omega⟩
      apply pow_ne_zero
      intro h2
      have h1 := neg_one_half m w ho
      have : (-1 : F) = 1 := by linear_combination -h2
      rw [this] at h1
      have := orderOf_dvd_of_pow_eq_one h1
      rw [ho] at this
      have := Nat.le_of_dvd (by positivity) this
      rw [pow_succ] at this
      have : 0 < 2 ^ m := by positivity
      omega
  have h2' : (2 : F) ^ n ≠ 0 := by
    rcases h2 with h | rfl
    · exact h
    · simp
  refine ⟨C ((2 ^ n)⁻¹) * ∑ l ∈ A, expand F (2 ^ n) (P l) * Lagrange.basis A id l, ?_, ?_⟩
  · have hmem : C (((2 : F) ^ n)⁻¹) * ∑ l ∈ A, expand F (2 ^ n) (P l) * Lagrange.basis A id l ∈ degreeLT F (D * 2 ^ n) := by
      rw [← smul_eq_C_mul]
      apply Submodule.smul_mem
      apply Submodule.sum_mem
      intro l hl
      rw [mem_degreeLT]
      have hb : (Lagrange.basis A id l).natDegree < 2 ^ n := by
        have := Lagrange.degree_basis (s := A) (v := id) (Set.injOn_id _) hl
        rw [hA] at this
        rw [natDegree_eq_of_degree_eq_some this]
        have : 0 < 2 ^ n := by positivity
        omega
      have hPl := (hP l (hAS hl)).1.1
      by_cases hz : P l = 0
      · rw [hz, map_zero, zero_mul, degree_zero]
        exact WithBot.bot_lt_coe _
      · have hPn : (P l).natDegree < D := (natDegree_lt_iff_degree_lt hz).2 hPl
        refine lt_of_le_of_lt degree_le_natDegree ?_
        have : (expand F (2 ^ n) (P l) * Lagrange.basis A id l).natDegree < D * 2 ^ n := by
          refine lt_of_le_of_lt natDegree_mul_le ?_
          rw [natDegree_expand]
          have : ((P l).natDegree + 1) * 2 ^ n ≤ D * 2 ^ n := Nat.mul_le_mul_right _ hPn
          rw [Nat.add_mul, Nat.one_mul] at this
          omega
        exact_mod_cast this
    exact mem_degreeLT.1 hmem
  · intro q hq hag
    have hj : q / 2 ^ n < 2 ^ (m - n) := by
      rw [Nat.div_lt_iff_lt_mul (by positivity), ← pow_add]
      rwa [show m - n + n = m by omega]
    have h1 := hcurve (q / 2 ^ n) (Finset.mem_range.2 hj) (by rw [← hG2]; exact hag)
    have h3 := fold_at_point n w m L q hn ho
    rw [hG2, h1] at h3
    have h4 : (w ^ rev m q) ^ 2 ^ n = (w ^ 2 ^ n) ^ rev (m - n) (q / 2 ^ n) := by
      have e1 : rev m q = rev n (q % 2 ^ n) * 2 ^ (m - n) + rev (m - n) (q / 2 ^ n) := by
        have := rev_concat n (m - n) (q / 2 ^ n) (q % 2 ^ n) (Nat.mod_lt _ (by positivity))
        rwa [show m - n + n = m by omega, Nat.div_add_mod'] at this
      rw [e1, ← pow_mul, ← pow_mul, Nat.add_mul, pow_add]
      have e2 : w ^ (rev n (q % 2 ^ n) * 2 ^ (m - n) * 2 ^ n) = 1 := by
        rw [mul_assoc, ← pow_add, show m - n + n = m by omega, mul_comm, pow_mul, ← ho, pow_orderOf_eq_one, one_pow]
      rw [e2, one_mul, Nat.mul_comm]
    rw [eval_mul, eval_C, eval_finset_sum]
    simp only [eval_mul, expand_eval, h4]
    rw [through, eval_finset_sum] at h3
    simp only [eval_mul, eval_C] at h3
    rw [h3, ← mul_assoc, inv_mul_cancel₀ h2', one_mul]

/-- few coefficients of a combination are bad -/
theorem badMix_card (m : Nat) (w : F) (D e : Nat) (u h : Nat → F) (ho : orderOf w = 2 ^ m) (hD : D + 3 * e ≤ 2 ^ m)
    (S : Finset F) (hS : ∀ a ∈ S, a ∈ BadMix m w D e u h) : S.card ≤ e + 1 := by
  by_contra hcard
  choose! P hP using hS
  have heval : ∀ j a, (C (u j) + X * C (h j)).eval a = u j + a * h j := by
    intro j a; rw [eval_add, eval_mul, eval_C, eval_C, eval_X]
  obtain ⟨A, hAS, a, ha, hA, hcurve⟩ := curve 2 e D (by norm_num) (Finset.range (2 ^ m)) (fun j => w ^ rev m j)
    (pt_injOn _ _ ho) (fun j => C (u j) + X * C (h j)) (fun j _ => by
      refine (degree_lt_iff_coeff_zero _ _).2 ?_
      intro i hi
      have hi : 2 ≤ i := by exact_mod_cast hi
      obtain ⟨i, rfl⟩ : ∃ i', i = i' + 2 := ⟨i - 2, by omega⟩
      simp [coeff_C]) S P (fun a ha => (hP a ha).1.1) (fun a ha => by
      have := (hP a ha).1.2
      simp only [heval]
      exact this) (by rw [Finset.card_range]; exact hD) (by omega)
  apply (hP a ha).2
  have hdeg : ∀ f : F → F, (∑ l ∈ A, C (f l) * P l).degree < D := by
    intro f
    have hmem : ∑ l ∈ A, C (f l) * P l ∈ degreeLT F D := by
      apply Submodule.sum_mem
      intro l hl
      rw [← smul_eq_C_mul]
      exact Submodule.smul_mem _ _ (mem_degreeLT.2 (hP l (hAS hl)).1.1)
    exact mem_degreeLT.1 hmem
  refine ⟨∑ l ∈ A, C ((Lagrange.basis A id l).coeff 0) * P l, ∑ l ∈ A, C ((Lagrange.basis A id l).coeff 1) * P l, hdeg _, hdeg _, ?_⟩
  intro q hq hag
  have h1 := hcurve q (Finset.mem_range.2 hq) (by rw [heval]; exact hag)
  have h0 := congrArg (coeff · 0) h1
  have h1 := congrArg (coeff · 1) h1
  simp only [through, finset_sum_coeff, coeff_C_mul, coeff_add, coeff_C_zero, coeff_X_mul_zero, add_zero, coeff_X_mul, coeff_C_succ, zero_add] at h0 h1
  simp only [eval_finset_sum, eval_mul, eval_C]
  constructor
  · rw [h0]; exact Finset.sum_congr rfl fun l _ => mul_comm _ _
  · rw [h1]; exact Finset.sum_congr rfl fun l _ => mul_comm _ _

open Classical in
/-- FRI: without bad coefficients, positions that pass are positions at which the word is a polynomial -/
theorem fri_sound (last : List F) (e : Nat) : ∀ (ns : List Nat) (Ls : List (Nat → F)) (as : List F) (w : F) (m : Nat) (f : Nat → F),
    ns.sum ≤ m → ((Finset.range (2 ^ m)).filter fun q => ¬ Chain last ns Ls as w m (f q) q).card ≤ e * 2 ^ ns.sum → 
    ¬ SomeBadFold last.length e ns Ls as w m →
    ∃ P : F[X], P.degree < (last.length * 2 ^ ns.sum : Nat) ∧ ∀ q < 2 ^ m, Chain last ns Ls as w m (f q) q → f q = P.eval (w ^ rev m q) := by
  intro ns
  induction ns with
  | nil =>
    intro Ls as w m f hm hcard hbad
    refine ⟨∑ i ∈ Finset.range last.length, C (last.getD i 0) * X ^ i, ?_, ?_⟩
    · have hmem : ∑ i ∈ Finset.range last.length, C (last.getD i 0) * X ^ i ∈ degreeLT F last.length := by
        apply Submodule.sum_mem
        intro i hi
        rw [mem_degreeLT]
        refine lt_of_le_of_lt (degree_C_mul_X_pow_le _ _) ?_
        exact_mod_cast Finset.mem_range.1 hi
      simpa using mem_degreeLT.1 hmem
    · intro q hq hc
      match Ls, as, hc with
      | [], [], hc =>
        rw [show f q = _ from hc, eval_finset_sum]
        simp
  | cons n ns ih =>
    intro Ls as w m f hm hcard hbad
    match Ls, as with
    | [], _ => exact ⟨0, by rw [degree_zero]; exact WithBot.bot_lt_coe _, fun q _ h => absurd h (by simp [Chain])⟩
    | _ :: _, [] => exact ⟨0, by rw [degree_zero]; exact WithBot.bot_lt_coe _, fun q _ h => absurd h (by simp [Chain])⟩
    | L :: Ls, a :: as =>
      rw [List.sum_cons] at hm hcard ⊢
      rw [SomeBadFold, not_or] at hbad
      obtain ⟨hb1, hb2⟩ := hbad
      have hcosets : ((Finset.range (2 ^ (m - n))).filter fun j => ¬ Chain last ns Ls as (w ^ 2 ^ n) (m - n) (foldMany n w m a L j) j).card ≤ e * 2 ^ ns.sum := by
        have h1 : ((Finset.range (2 ^ (m - n))).filter fun j => ¬ Chain last ns Ls as (w ^ 2 ^ n) (m - n) (foldMany n w m a L j) j).card * 2 ^ n ≤
            ((Finset.range (2 ^ m)).filter fun q => ¬ Chain last (n :: ns) (L :: Ls) (a :: as) w m (f q) q).card := by
          have e0 : ((Finset.range (2 ^ (m - n))).filter fun j => ¬ Chain last ns Ls as (w ^ 2 ^ n) (m - n) (foldMany n w m a L j) j).card * 2 ^ n =
            (((Finset.range (2 ^ (m - n))).filter fun j => ¬ Chain last ns Ls as (w ^ 2 ^ n) (m - n) (foldMany n w m a L j) j) ×ˢ Finset.range (2 ^ n)).card := by
              rw [Finset.card_product, Finset.card_range]
          rw [e0]
          apply Finset.card_le_card_of_injOn (fun x => x.1 * 2 ^ n + x.2)
          · intro x hx
            obtain ⟨h1, h2⟩ := Finset.mem_product.1 hx
            obtain ⟨h1, h3⟩ := Finset.mem_filter.1 h1
            have h1 := Finset.mem_range.1 h1
            have h2 := Finset.mem_range.1 h2
            have e1 : (x.1 * 2 ^ n + x.2) / 2 ^ n = x.1 := by
              rw [Nat.mul_comm, Nat.mul_add_div (by positivity), Nat.div_eq_of_lt h2, Nat.add_zero]
            simp only [Finset.coe_filter, Set.mem_setOf_eq, Finset.mem_range]
            refine ⟨?_, ?_⟩
            · have : (x.1 + 1) * 2 ^ n ≤ 2 ^ (m - n) * 2 ^ n := Nat.mul_le_mul_right _ h1
              rw [← pow_add, show m - n + n = m by omega, Nat.add_mul, Nat.one_mul] at this
              omega
            · intro hc
              have := hc.2
              rw [e1] at this
              exact h3 this
          · intro x hx y hy h
            have h2 := Finset.mem_range.1 (Finset.mem_product.1 hx).2
            have h3 := Finset.mem_range.1 (Finset.mem_product.1 hy).2
            have e1 : x.1 = y.1 := by
              have := congrArg (· / 2 ^ n) h
              simp only at this
              rwa [Nat.mul_comm, Nat.mul_add_div (by positivity), Nat.div_eq_of_lt h2, Nat.add_zero, Nat.mul_comm y.1, Nat.mul_add_div (by positivity),
                Nat.div_eq_of_lt h3, Nat.add_zero] at this
            refine Prod.ext e1 ?_
            have h : x.1 * 2 ^ n + x.2 = y.1 * 2 ^ n + y.2 := h
            rw [e1] at h
            omega
        have h2 : e * 2 ^ (n + ns.sum) = (e * 2 ^ ns.sum) * 2 ^ n := by rw [pow_add]; ring
        rw [h2] at hcard
        exact Nat.le_of_mul_le_mul_right (h1.trans hcard) (by positivity)
      obtain ⟨P', hP', hag⟩ := ih Ls as (w ^ 2 ^ n) (m - n) (foldMany n w m a L) (by omega) hcosets hb2
      have hclose : Close (m - n) (w ^ 2 ^ n) (last.length * 2 ^ ns.sum) (e * 2 ^ ns.sum) (foldMany n w m a L) P' := by
        refine ⟨hP', le_trans (Finset.card_le_card ?_) hcosets⟩
        intro j hj
        obtain ⟨h1, h2⟩ := Finset.mem_filter.1 hj
        exact Finset.mem_filter.2 ⟨h1, fun h3 => h2 (hag j (Finset.mem_range.1 h1) h3)⟩
      have : ∃ P : F[X], P.degree < (last.length * 2 ^ ns.sum * 2 ^ n : Nat) ∧
          ∀ q < 2 ^ m, foldMany n w m a L (q / 2 ^ n) = P'.eval ((w ^ 2 ^ n) ^ rev (m - n) (q / 2 ^ n)) → L q = P.eval (w ^ rev m q) := by
        by_contra hno
        exact hb1 ⟨P', hclose, hno⟩
      obtain ⟨P, hP1, hP2⟩ := this
      refine ⟨P, ?_, ?_⟩
      · have : last.length * 2 ^ (n + ns.sum) = last.length * 2 ^ ns.sum * 2 ^ n := by rw [pow_add]; ring
        rw [this]; exact hP1
      · intro q hq hc
        rw [Chain] at hc
        rw [← hc.1]
        apply hP2 q hq
        apply hag _ _ hc.2
        rw [Nat.div_lt_iff_lt_mul (by positivity), ← pow_add]
        rwa [show m - n + n = m by omega]

/-- combinations: without bad coefficients, positions at which the combination is a polynomial are positions at which every word is one -/
theorem mix_sound (m : Nat) (w : F) (D e : Nat) (h : Nat → Nat → F) (coefficients : List F) (hbad : ¬ SomeBadMix m w D e h coefficients) :
    ∀ K, K ≤ coefficients.length → ∀ P', Close m w D e (fun q => ∑ i ∈ Finset.range K, coefficients.getD i 0 * h i q) P' →
    ∃ P : Nat → F[X], ∀ i < K, (P i).degree < D ∧
      ∀ q < 2 ^ m, ∑ i ∈ Finset.range K, coefficients.getD i 0 * h i q = P'.eval (w ^ rev m q) → h i q = (P i).eval (w ^ rev m q) := by
  intro K
  induction K with
  | zero => intro _ P' _; exact ⟨fun _ => 0, fun i hi => absurd hi (Nat.not_lt_zero _)⟩
  | succ K ih =>
    intro hK P' hclose
    have hstep : ∃ P Q : F[X], P.degree < D ∧ Q.degree < D ∧ ∀ q < 2 ^ m, ∑ i ∈ Finset.range K, coefficients.getD i 0 * h i q + coefficients.getD K 0 * h K q =
        P'.eval (w ^ rev m q) → ∑ i ∈ Finset.range K, coefficients.getD i 0 * h i q = P.eval (w ^ rev m q) ∧ h K q = Q.eval (w ^ rev m q) := by
      by_contra hno
      apply hbad
      refine ⟨K, by omega, P', ?_, hno⟩
      simpa only [Finset.sum_range_succ] using hclose
    obtain ⟨P0, Q, h1, h2, h3⟩ := hstep
    obtain ⟨P, hP⟩ := ih (by omega) P0 ⟨h1, by
      refine le_trans (Finset.card_le_card ?_) hclose.2
      intro q hq
      obtain ⟨hq1, hq2⟩ := Finset.mem_filter.1 hq
      refine Finset.mem_filter.2 ⟨hq1, fun heq => hq2 ?_⟩
      simp only [Finset.sum_range_succ] at heq
      exact (h3 q (Finset.mem_range.1 hq1) heq).1⟩
    refine ⟨fun i => if i = K then Q else P i, ?_⟩
    intro i hi
    by_cases hiK : i = K
    · subst hiK
      simp only [if_true]
      refine ⟨h2, fun q hq heq => ?_⟩
      rw [Finset.sum_range_succ] at heq
      exact (h3 q hq heq).2
    · simp only [hiK, if_false]
      obtain ⟨g1, g2⟩ := hP i (by omega)
      refine ⟨g1, fun q hq heq => ?_⟩
      rw [Finset.sum_range_succ] at heq
      exact g2 q hq (h3 q hq heq).1

end
end Accept
end Stark
end OpenZKP
