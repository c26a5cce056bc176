import Verif.Stark.Constraints
import Verif.Merkle.IndexLemmas
import Verif.Props.Expr

/-!
# Constraint systems: C43, C44, C60
-/

namespace OpenZKP
namespace Props
open Stark Polynomial Merkle

section
variable {F : Type} [Field F] [DecidableEq F]

/-! ## C43 -/

theorem csub_some {a b c : Nat} (h : csub a b = some c) : b ≤ a ∧ c = a - b := by
  unfold csub at h
  split at h
  · next hle => cases h; exact ⟨hle, rfl⟩
  · simp at h

/-- Specification: the power of `X` that raises a constraint with the reported degrees to the target degree. -/
def adjustment (nrows target : Nat) (e : Expr F) : Nat := target + (e.degree (nrows - 1)).2 - (e.degree (nrows - 1)).1

/-- the shape of the result of `combine` -/
theorem combine_shape (c : Constraints F) (coeffs : List F) (E : Expr F) (h : c.combine coeffs = some E) :
    ∃ d target Es, c.degree = some d ∧ target + 1 = d * c.trace_nrows ∧ coeffs.length = 2 * c.expressions.length ∧ E = Expr.sum Es ∧
      (c.expressions.zip (Constraints.tuples coeffs)).mapM (fun x => Constraints.combineOne c.trace_nrows target x.1 x.2.1 x.2.2) = some Es := by
  unfold Constraints.combine at h
  split at h
  · next hl =>
    obtain ⟨d, h1, h2⟩ := Option.bind_eq_some_iff.1 h
    obtain ⟨target, h3, h4⟩ := Option.bind_eq_some_iff.1 h2
    obtain ⟨Es, h5, rfl⟩ := Option.map_eq_some_iff.1 h4
    obtain ⟨h6, h7⟩ := csub_some h3
    exact ⟨d, target, Es, h1, by omega, hl.symm, rfl, h5⟩
  · simp at h

theorem combineOne_shape {n target : Nat} {e E : Expr F} {lo hi : F} (h : Constraints.combineOne n target e lo hi = some E) :
    E = .Mul (.Add (.Constant lo) (.Mul (.Constant hi) (.Exp .X (adjustment n target e)))) e ∧
      (e.degree (n - 1)).1 ≤ target + (e.degree (n - 1)).2 := by
  unfold Constraints.combineOne at h
  obtain ⟨td, h1, h2⟩ := Option.bind_eq_some_iff.1 h
  obtain ⟨adj, h3, rfl⟩ := Option.map_eq_some_iff.1 h2
  obtain ⟨_, rfl⟩ := csub_some h1
  obtain ⟨h4, rfl⟩ := csub_some h3
  exact ⟨rfl, h4⟩

/-- a list of values of expressions gives the value of the sum -/
theorem sum_evaluate (x : F) (trace : Nat → Int → Option F) (Es : List (Expr F)) (vs : List F)
    (h : List.Forall₂ (fun e v => e.evaluate x trace = some v) Es vs) : (Expr.sum Es).evaluate x trace = some vs.sum := by
  have key : ∀ (Es : List (Expr F)) (vs : List F) (e : Expr F) (v : F), e.evaluate x trace = some v →
      List.Forall₂ (fun e v => e.evaluate x trace = some v) Es vs → (Es.foldl Expr.add e).evaluate x trace = some (v + vs.sum) := by
    intro Es
    induction Es with
    | nil => intro vs e v he h; cases h; simpa using he
    | cons a Es ih =>
      intro vs e v he h
      cases h with
      | cons ha hEs =>
        rw [List.foldl_cons, List.sum_cons, ← add_assoc]
        apply ih
        · show (Expr.Add e a).evaluate x trace = _
          rw [Expr.evaluate, he, ha]; rfl
        · exact hEs
  cases h with
  | nil => rfl
  | cons ha hEs => rw [List.sum_cons]; exact key _ _ _ _ ha hEs

theorem sum_denote (T : Nat → Int → F[X]) (claims : Nat → F[X]) (Es : List (Expr F)) :
    denote T claims (Expr.sum Es) = (Es.map (denote T claims)).sum := by
  have key : ∀ (Es : List (Expr F)) (e : Expr F), denote T claims (Es.foldl Expr.add e) = denote T claims e + (Es.map (denote T claims)).sum := by
    intro Es
    induction Es with
    | nil => intro e; simp
    | cons a Es ih =>
      intro e
      rw [List.foldl_cons, ih, List.map_cons, List.sum_cons, ← add_assoc]
      rfl
  cases Es with
  | nil => simp [Expr.sum, denote]
  | cons e Es => rw [Expr.sum, key, List.map_cons, List.sum_cons]

/-- an induction over constraints with their two coefficients each -/
theorem combine_terms {A : Type} [AddCommMonoid A] (n target : Nat) (g : Expr F → A) (term : Expr F → A → F → F → A)
    (es : List (Expr F)) : ∀ (coeffs : List F) (vs : List A) (Es : List (Expr F)), coeffs.length = 2 * es.length →
      vs.length = es.length →
      (es.zip (Constraints.tuples coeffs)).mapM (fun x => Constraints.combineOne n target x.1 x.2.1 x.2.2) = some Es →
      (∀ (i : Nat) (e : Expr F) (v : A) (E : Expr F) (lo hi : F), es[i]? = some e → vs[i]? = some v → Constraints.combineOne n target e lo hi = some E → g E = term e v lo hi) →
      (Es.map g).sum = ∑ i ∈ Finset.range es.length, term (es.getD i .X) (vs.getD i 0) (coeffs.getD (2 * i) 0) (coeffs.getD (2 * i + 1) 0) := by
  induction es with
  | nil =>
    intro coeffs vs Es _ _ h _
    rw [List.zip_nil_left, List.mapM_nil] at h
    cases h; rfl
  | cons e es ih =>
    intro coeffs vs Es h1 h2 h3 hg
    match coeffs, vs, h1, h2 with
    | lo :: hi :: coeffs, v :: vs, h1, h2 =>
      rw [Constraints.tuples, List.zip_cons_cons, List.mapM_cons] at h3
      obtain ⟨E, h4, h5⟩ := Option.bind_eq_some_iff.1 h3
      obtain ⟨Es', h6, h7⟩ := Option.bind_eq_some_iff.1 h5
      cases h7
      simp only [List.length_cons] at h1 h2
      rw [List.map_cons, List.sum_cons, List.length_cons, Finset.sum_range_succ', add_comm,
        ih coeffs vs Es' (by omega) (by omega) h6 (fun i e v E lo hi a b c => hg (i + 1) e v E lo hi (by simpa using a) (by simpa using b) c),
        hg 0 e v E lo hi rfl rfl h4]
      congr 1
    | [_], _, h1, _ => simp at h1; omega
    | [], _, h1, _ => simp at h1

/-- every element of the combination was built -/
theorem combine_mem (n target : Nat) (es : List (Expr F)) : ∀ (coeffs : List F) (Es : List (Expr F)), coeffs.length = 2 * es.length →
      (es.zip (Constraints.tuples coeffs)).mapM (fun x => Constraints.combineOne n target x.1 x.2.1 x.2.2) = some Es →
      ∀ e ∈ es, (e.degree (n - 1)).1 ≤ target + (e.degree (n - 1)).2 := by
  induction es with
  | nil => intro _ _ _ _ e he; simp at he
  | cons e es ih =>
    intro coeffs Es h1 h3
    match coeffs, h1 with
    | lo :: hi :: coeffs, h1 =>
      rw [Constraints.tuples, List.zip_cons_cons, List.mapM_cons] at h3
      obtain ⟨E, h4, h5⟩ := Option.bind_eq_some_iff.1 h3
      obtain ⟨Es', h6, h7⟩ := Option.bind_eq_some_iff.1 h5
      simp only [List.length_cons] at h1
      intro e' he'
      rcases List.mem_cons.1 he' with rfl | he'
      · exact (combineOne_shape h4).2
      · exact ih coeffs Es' (by omega) h6 e' he'
    | [_], h1 => simp at h1; omega
    | [], h1 => simp at h1

/-- the values of the combined terms -/
theorem combine_values (x : F) (trace : Nat → Int → Option F) (n target : Nat) (es : List (Expr F)) : ∀ (coeffs : List F) (vs : List F)
      (Es : List (Expr F)), coeffs.length = 2 * es.length → List.Forall₂ (fun e v => Expr.evaluate x trace e = some v) es vs →
      (es.zip (Constraints.tuples coeffs)).mapM (fun x => Constraints.combineOne n target x.1 x.2.1 x.2.2) = some Es →
      ∃ ws, List.Forall₂ (fun e v => Expr.evaluate x trace e = some v) Es ws ∧
        ws.sum = ∑ i ∈ Finset.range es.length, (coeffs.getD (2 * i) 0 + coeffs.getD (2 * i + 1) 0 * x ^ adjustment n target (es.getD i .X)) * vs.getD i 0 := by
  induction es with
  | nil =>
    intro coeffs vs Es _ _ h
    rw [List.zip_nil_left, List.mapM_nil] at h
    cases h; exact ⟨[], .nil, rfl⟩
  | cons e es ih =>
    intro coeffs vs Es h1 h2 h3
    match coeffs, h1 with
    | lo :: hi :: coeffs, h1 =>
      rw [Constraints.tuples, List.zip_cons_cons, List.mapM_cons] at h3
      obtain ⟨E, h4, h5⟩ := Option.bind_eq_some_iff.1 h3
      obtain ⟨Es', h6, h7⟩ := Option.bind_eq_some_iff.1 h5
      cases h7
      cases h2 with
      | @cons _ v _ vs hv hvs =>
        simp only [List.length_cons] at h1
        obtain ⟨ws, hw1, hw2⟩ := ih coeffs vs Es' (by omega) hvs h6
        refine ⟨(lo + hi * x ^ adjustment n target e) * v :: ws, .cons ?_ hw1, ?_⟩
        · rw [(combineOne_shape h4).1]
          simp only [Expr.evaluate, hv, Option.bind_some, Option.map_some]
        · rw [List.sum_cons, List.length_cons, Finset.sum_range_succ', add_comm, hw2]
          congr 1
    | [_], h1 => simp at h1; omega
    | [], h1 => simp at h1

/-- C43: the combination with the coefficients `c₀, c₁, c₂, ...` has at every point the value
`Σᵢ (c₂ᵢ + c₂ᵢ₊₁ · x^aᵢ) · vᵢ`, where `vᵢ` is the value of constraint `i` and `aᵢ` is the difference between the target degree
`degree · rows - 1` and the reported degree of constraint `i`; no such difference is negative. -/
theorem C43_evaluate (c : Constraints F) (coeffs : List F) (E : Expr F) (h : c.combine coeffs = some E) :
    ∃ d target, c.degree = some d ∧ target + 1 = d * c.trace_nrows ∧ coeffs.length = 2 * c.expressions.length ∧
      (∀ e ∈ c.expressions, (e.degree (c.trace_nrows - 1)).1 ≤ target + (e.degree (c.trace_nrows - 1)).2) ∧
      ∀ (x : F) (trace : Nat → Int → Option F) (vs : List F),
        List.Forall₂ (fun e v => Expr.evaluate x trace e = some v) c.expressions vs →
        E.evaluate x trace = some (∑ i ∈ Finset.range c.expressions.length,
          (coeffs.getD (2 * i) 0 + coeffs.getD (2 * i + 1) 0 * x ^ adjustment c.trace_nrows target (c.expressions.getD i .X)) * vs.getD i 0) := by
  obtain ⟨d, target, Es, h1, h2, h3, rfl, h4⟩ := combine_shape c coeffs E h
  refine ⟨d, target, h1, h2, h3, combine_mem _ _ _ _ _ h3 h4, ?_⟩
  intro x trace vs hvs
  obtain ⟨ws, hw1, hw2⟩ := combine_values x trace _ _ _ coeffs vs Es h3 hvs h4
  rw [sum_evaluate x trace Es ws hw1, hw2]

/-- C43: when each constraint is a polynomial `Cᵢ` within its reported degree (numerator minus denominator), the combination is
a polynomial of degree at most `degree · rows - 1`. -/
theorem C43_degree (c : Constraints F) (coeffs : List F) (E : Expr F) (h : c.combine coeffs = some E) (T : Nat → Int → F[X])
    (claims : Nat → F[X]) (Cs : List F[X]) (hC : List.Forall₂ (fun e (P : F[X]) => denote T claims e = algebraMap F[X] (RatFunc F) P ∧
      (P = 0 ∨ P.natDegree + (e.degree (c.trace_nrows - 1)).2 ≤ (e.degree (c.trace_nrows - 1)).1)) c.expressions Cs) :
    ∃ d Q, c.degree = some d ∧ denote T claims E = algebraMap F[X] (RatFunc F) Q ∧ Q.natDegree + 1 ≤ d * c.trace_nrows ∧
      Q = ∑ i ∈ Finset.range c.expressions.length, (C (coeffs.getD (2 * i) 0) + C (coeffs.getD (2 * i + 1) 0) *
        X ^ adjustment c.trace_nrows (d * c.trace_nrows - 1) (c.expressions.getD i .X)) * Cs.getD i 0 := by
  obtain ⟨d, target, Es, h1, h2, h3, rfl, h4⟩ := combine_shape c coeffs E h
  have ht : d * c.trace_nrows - 1 = target := by omega
  have hmem := combine_mem _ _ _ _ _ h3 h4
  refine ⟨d, _, h1, ?_, ?_, rfl⟩
  · rw [sum_denote, map_sum, ht]
    rw [combine_terms c.trace_nrows target (denote T claims)
      (fun e v lo hi => (RatFunc.C lo + RatFunc.C hi * RatFunc.X ^ adjustment c.trace_nrows target e) * v) c.expressions coeffs
      (Cs.map (algebraMap F[X] (RatFunc F))) Es h3 (by rw [List.length_map, ← hC.length_eq]) h4 ?_]
    · apply Finset.sum_congr rfl
      intro i hi
      rw [Finset.mem_range] at hi
      have : (Cs.map (algebraMap F[X] (RatFunc F))).getD i 0 = algebraMap F[X] (RatFunc F) (Cs.getD i 0) := by
        rw [List.getD, List.getD, List.getElem?_map]
        cases Cs[i]? <;> simp
      rw [this]
      simp only [map_mul, map_add, map_pow, RatFunc.algebraMap_C, RatFunc.algebraMap_X]
    · intro i e v E lo hi he hv hE
      rw [(combineOne_shape hE).1]
      simp only [denote]
      congr 1
      rw [List.getElem?_map] at hv
      obtain ⟨P, hP, rfl⟩ := Option.map_eq_some_iff.1 hv
      have := List.forall₂_iff_get.1 hC
      obtain ⟨hi1, hi2⟩ := List.getElem?_eq_some_iff.1 he
      obtain ⟨hj1, hj2⟩ := List.getElem?_eq_some_iff.1 hP
      have := (this.2 i hi1 hj1).1
      simp only [List.get_eq_getElem] at this
      rw [hi2, hj2] at this
      exact this
  · rw [ht, ← h2]
    apply Nat.add_le_add_right
    apply natDegree_sum_le_of_forall_le
    intro i hi
    rw [Finset.mem_range] at hi
    have hi' : i < Cs.length := by rw [← hC.length_eq]; exact hi
    have e1 : c.expressions.getD i .X = c.expressions[i] := by simp [List.getD, List.getElem?_eq_getElem hi]
    have e2 : Cs.getD i 0 = Cs[i] := by simp [List.getD, List.getElem?_eq_getElem hi']
    rw [e1, e2]
    have hd := (List.forall₂_iff_get.1 hC).2 i hi hi'
    simp only [List.get_eq_getElem] at hd
    have hm := hmem _ (List.getElem_mem hi)
    rcases hd.2 with h0 | hd
    · rw [h0, mul_zero, natDegree_zero]; omega
    · refine natDegree_mul_le.trans ?_
      have hadj : (C (coeffs.getD (2 * i) 0) + C (coeffs.getD (2 * i + 1) 0) * X ^ adjustment c.trace_nrows target c.expressions[i]).natDegree
          ≤ adjustment c.trace_nrows target c.expressions[i] := by
        refine (natDegree_add_le _ _).trans ?_
        rw [natDegree_C, Nat.zero_max]
        exact (natDegree_C_mul_le _ _).trans (natDegree_X_pow_le _)
      have : adjustment c.trace_nrows target c.expressions[i] + (c.expressions[i].degree (c.trace_nrows - 1)).1 =
        target + (c.expressions[i].degree (c.trace_nrows - 1)).2 := by unfold adjustment; omega
      omega

/-- C43: `combine` succeeds exactly when there are two coefficients per constraint, the system is non-empty with a degree, the
target degree `degree · rows - 1` exists, and no constraint is above it. -/
theorem C43_defined (c : Constraints F) (coeffs : List F) (d target : Nat) (hd : c.degree = some d) (ht : target + 1 = d * c.trace_nrows)
    (hl : coeffs.length = 2 * c.expressions.length)
    (hle : ∀ e ∈ c.expressions, (e.degree (c.trace_nrows - 1)).1 ≤ target + (e.degree (c.trace_nrows - 1)).2) :
    (c.combine coeffs).isSome = true := by
  unfold Constraints.combine
  rw [if_pos hl.symm, hd, Option.bind_some]
  have hn : 1 ≤ c.trace_nrows := by
    rcases Nat.eq_zero_or_pos c.trace_nrows with h | h
    · rw [h, Nat.mul_zero] at ht; omega
    · exact h
  have e : csub (d * c.trace_nrows) 1 = some target := by unfold csub; rw [if_pos (by omega)]; congr 1; omega
  rw [e, Option.bind_some, Option.isSome_map]
  have : ∀ x ∈ c.expressions.zip (Constraints.tuples coeffs), Constraints.combineOne c.trace_nrows target x.1 x.2.1 x.2.2 =
      some (.Mul (.Add (.Constant x.2.1) (.Mul (.Constant x.2.2) (.Exp .X (adjustment c.trace_nrows target x.1)))) x.1) := by
    intro x hx
    have := hle x.1 (List.of_mem_zip hx).1
    unfold Constraints.combineOne csub
    rw [if_pos hn, Option.bind_some, if_pos this]
    rfl
  rw [mapM_some _ _ _ this]
  rfl

end

-- two constraints on a trace with 4 rows: (T(0,1) - T(0,0)^2) / (X^4 - 1) · (X - 1) and (T(0,0) - 3) / (X - 1)
def sampleConstraints : Constraints ℚ :=
  ⟨[], 4, 1, [.Mul (.Mul (.Add (.Trace 0 1) (.Neg (.Exp (.Trace 0 0) 2))) (.Inv (.Add (.Exp .X 4) (.Neg (.Constant 1))))) (.Add .X (.Neg (.Constant 1))),
    .Mul (.Add (.Trace 0 0) (.Neg (.Constant 3))) (.Inv (.Add .X (.Neg (.Constant 1))))], 16, 0, 45, [2], []⟩

example : sampleConstraints.degree = some 2 := by decide +kernel
example : (sampleConstraints.combine [1, 2, 3, 4]).isSome = true := by decide +kernel

/-! ## C44 -/

/-- C44: on the base field, a system is accepted exactly when the number of rows is 0 or divides `p - 1`. -/
theorem C44_accepts (n cols : Nat) (hn : n < 2 ^ 64) (seed : List UInt8) (es : List (Expr (ZMod PF.BASE.modulus.toNat))) :
    (∃ c, Constraints.from_expressions baseRoot n cols seed es = .ok c) ↔ n = 0 ∨ n ∣ PF.BASE.modulus.toNat - 1 := by
  have hto : (UInt64.ofNat n).toNat = n := by rw [UInt64.toNat_ofNat']; exact Nat.mod_eq_of_lt hn
  unfold Constraints.from_expressions
  by_cases h0 : n = 0
  · subst h0
    have : baseRoot 0 = some (nat PF.BASE (PF.one PF.BASE) : ZMod PF.BASE.modulus.toNat) := by
      unfold baseRoot
      rw [show UInt64.ofNat 0 = 0 from rfl, C15_root_zero _ base_ok]; rfl
    rw [this]
    exact iff_of_true ⟨_, rfl⟩ (Or.inl rfl)
  · obtain ⟨h1, h2⟩ := C15_root PF.BASE base_ok (UInt64.ofNat n) (by rw [hto]; omega)
    rw [hto] at h1 h2
    by_cases hd : n ∣ PF.BASE.modulus.toNat - 1
    · obtain ⟨w, hw, _⟩ := h1 hd
      have : ∃ v, baseRoot n = some v := ⟨_, by unfold baseRoot; rw [hw]; rfl⟩
      obtain ⟨v, hv⟩ := this
      rw [hv]
      exact iff_of_true ⟨_, rfl⟩ (Or.inr hd)
    · have : baseRoot n = none := by unfold baseRoot; rw [h2 hd]; rfl
      rw [this]
      refine iff_of_false ?_ (by tauto)
      rintro ⟨c, hc⟩; cases hc

/-- C44 (partial: one direction): every number of rows that is a power of two (below 2^64) is accepted, with the
documented defaults. -/
theorem C44_power_of_two_partial (k cols : Nat) (hk : k < 64) (seed : List UInt8) (es : List (Expr (ZMod PF.BASE.modulus.toNat))) :
    ∃ c, Constraints.from_expressions baseRoot (2 ^ k) cols seed es = .ok c ∧ c.trace_nrows = 2 ^ k ∧ c.trace_ncolumns = cols ∧
      c.expressions = es ∧ c.channel_seed = seed ∧ c.blowup = 16 ∧ c.pow_bits = 0 ∧ c.num_queries = 45 ∧
      c.fri_layout = default_fri_layout (2 ^ k) ∧ c.claim_polynomials = [] := by
  obtain ⟨w, hw⟩ := C20_base_field.2 k hk
  unfold Constraints.from_expressions
  rw [hw]
  exact ⟨_, rfl, rfl, rfl, rfl, rfl, rfl, rfl, rfl, rfl, rfl⟩

/-- C44: systems with 0 or 5 rows, which are not powers of two, are accepted. -/
theorem C44_violated (cols : Nat) (seed : List UInt8) (es : List (Expr (ZMod PF.BASE.modulus.toNat))) :
    (∃ c, Constraints.from_expressions baseRoot 0 cols seed es = .ok c) ∧
    (∃ c, Constraints.from_expressions baseRoot 5 cols seed es = .ok c) ∧ (¬ ∃ k, 5 = 2 ^ k) ∧ ¬ ∃ k, 0 = 2 ^ k := by
  refine ⟨(C44_accepts 0 cols (by norm_num) seed es).2 (Or.inl rfl), (C44_accepts 5 cols (by norm_num) seed es).2 (Or.inr ?_), ?_, ?_⟩
  · decide +kernel
  · rintro ⟨k, hk⟩
    have : k < 3 := by
      by_contra hc
      have : 2 ^ 3 ≤ 2 ^ k := Nat.pow_le_pow_right (by norm_num) (by omega)
      omega
    interval_cases k <;> omega
  · rintro ⟨k, hk⟩
    have := Nat.two_pow_pos k
    omega

/-- C44: a number of rows that does not divide `p - 1` (3 rows, for example) gives the documented error. -/
theorem C44_rejects (n cols : Nat) (hn : n < 2 ^ 64) (h0 : n ≠ 0) (hd : ¬ n ∣ PF.BASE.modulus.toNat - 1) (seed : List UInt8)
    (es : List (Expr (ZMod PF.BASE.modulus.toNat))) :
    Constraints.from_expressions baseRoot n cols seed es = .error .InvalidTraceLength := by
  have := (not_congr (C44_accepts n cols hn seed es)).2 (by tauto)
  unfold Constraints.from_expressions at *
  cases h : baseRoot n with
  | none => rfl
  | some w => rw [h] at this; exact absurd ⟨_, rfl⟩ this

example : ¬ 3 ∣ PF.BASE.modulus.toNat - 1 := by decide +kernel

/-- C44: the detailed constructor accepts the same numbers of rows, takes the parameters it is given and otherwise the documented
defaults (blowup 16, 20 bits of work, 13 queries, the default layout). -/
theorem C44_detailed {F : Type} [Field F] (root : Nat → Option F) (n cols : Nat) (seed : List UInt8) (es : List (Expr F))
    (blowup pow_bits num_queries : Option Nat) (layout : Option (List Nat)) :
    (root n = none → Constraints.from_expressions_detailed root n cols seed es blowup pow_bits num_queries layout = .error .InvalidTraceLength) ∧
    (root n ≠ none → ∃ c, Constraints.from_expressions_detailed root n cols seed es blowup pow_bits num_queries layout = .ok c ∧
      c.trace_nrows = n ∧ c.trace_ncolumns = cols ∧ c.expressions = es ∧ c.channel_seed = seed ∧
      (∀ b, blowup = some b → c.blowup = b) ∧ (blowup = none → c.blowup = 16) ∧
      (∀ b, pow_bits = some b → c.pow_bits = b) ∧ (pow_bits = none → c.pow_bits = 20) ∧
      (∀ b, num_queries = some b → c.num_queries = b) ∧ (num_queries = none → c.num_queries = 13) ∧
      (∀ l, layout = some l → c.fri_layout = l) ∧ (layout = none → c.fri_layout = default_fri_layout n)) := by
  unfold Constraints.from_expressions_detailed
  constructor
  · intro h; rw [h]
  · intro h
    cases hr : root n with
    | none => exact absurd hr h
    | some w =>
      refine ⟨_, rfl, rfl, rfl, rfl, rfl, ?_, ?_, ?_, ?_, ?_, ?_, ?_, ?_⟩ <;> intros <;> simp_all

/-- C44: the default layout has steps of 1 to 3 reductions and folds `2^k` coefficients to 2^8 if there are more than that, and
to a single one otherwise. -/
theorem C44_layout (k : Nat) (hk : k < 64) :
    (∀ i ∈ default_fri_layout (2 ^ k), 1 ≤ i ∧ i ≤ 3) ∧
    2 ^ k = 2 ^ (default_fri_layout (2 ^ k)).sum * (if k > 8 then 2 ^ 8 else 1) := by
  unfold default_fri_layout
  rw [trailing_zeros_two_pow k hk]
  dsimp only
  set r := if k > 8 then k - 8 else k with hr
  constructor
  · intro i hi
    rcases List.mem_append.1 hi with h | h
    · rw [List.mem_replicate] at h; omega
    · split at h
      · simp at h; omega
      · simp at h
  · have hs : (List.replicate (r / 3) 3 ++ if r % 3 ≠ 0 then [r % 3] else []).sum = r := by
      rw [List.sum_append, List.sum_replicate]
      split
      · simp; omega
      · next h => simp at h ⊢; omega
    rw [hs, hr]
    split
    · rw [← pow_add]; congr 1; omega
    · simp

example : default_fri_layout (2 ^ 12) = [3, 1] ∧ default_fri_layout (2 ^ 8) = [3, 3, 2] := by decide +kernel

/-! ## C60 -/

/-- C60 (partial: the documented level, plus `queries / 2`): the level reported is that of a blowup twice as large. -/
theorem C60_security_partial {F : Type} (c : Constraints F) (b : Nat) (hb : b < 64) (h : c.blowup = 2 ^ b) :
    c.security_bits = (b + 1) * (c.num_queries / 2) + c.pow_bits := by
  unfold Constraints.security_bits leading_zeros
  rw [h, if_neg (by positivity), Nat.log2_two_pow]
  congr 2
  omega

/-- C60: the documented formula does not hold for the default parameters: 110 bits are reported, the formula gives 88. -/
theorem C60_violated : ∃ c : Constraints ℚ, c.blowup = 2 ^ 4 ∧ c.num_queries = 45 ∧ c.pow_bits = 0 ∧
    c.security_bits = 110 ∧ 4 * (c.num_queries / 2) + c.pow_bits = 88 :=
  ⟨sampleConstraints, rfl, rfl, rfl, by decide +kernel, rfl⟩

end Props
end OpenZKP
