import Verif.Examples.Recurrence2
import Verif.Props.Mimc
import Verif.Props.Recurrence
import Verif.Examples.Run

/-!
# C100: recurrences of any order (`Recurrance2`)
-/

namespace OpenZKP
namespace Props
open Stark FFT Polynomial Examples Stark.Accept

section
variable {F : Type} [Field F] [DecidableEq F]

namespace Rec2

/-! ## Specification -/

/-- The right side of the recurrence: the sum of the coefficients times powers of `f 0`, `f 1`, … -/
def combination (coefficients : List F) (exponents : List Nat) (f : Nat → F) : F :=
  ∑ j ∈ Finset.range coefficients.length, coefficients.getD j 0 * f j ^ exponents.getD j 0

/-- The sequence with these first values in which every other value is the combination of those before it, as many as there are first values. -/
def sequence (initial coefficients : List F) (exponents : List Nat) (i : Nat) : F :=
  if h : i < initial.length then initial[i]
  else ∑ j : Fin initial.length, coefficients.getD j 0 * sequence initial coefficients exponents (i - initial.length + j) ^ exponents.getD j 0
termination_by i
decreasing_by have := j.isLt; omega

/-! ## Lemmas -/

omit [DecidableEq F] in
theorem combination_nil (es : List Nat) (f : Nat → F) : combination [] es f = 0 := by simp [combination]

omit [DecidableEq F] in
theorem combination_cons (c : F) (cs : List F) (e : Nat) (es : List Nat) (f : Nat → F) :
    combination (c :: cs) (e :: es) f = c * f 0 ^ e + combination cs es fun j => f (j + 1) := by
  unfold combination
  rw [List.length_cons, Finset.sum_range_succ', add_comm]
  simp

omit [DecidableEq F] in
theorem combination_congr (cs : List F) (es : List Nat) (f f' : Nat → F) (h : ∀ j < cs.length, f j = f' j) : combination cs es f = combination cs es f' := by
  unfold combination
  exact Finset.sum_congr rfl fun j hj => by rw [h j (Finset.mem_range.1 hj)]

omit [DecidableEq F] in
theorem sequence_initial (initial cs : List F) (es : List Nat) (i : Nat) (h : i < initial.length) : sequence initial cs es i = initial[i] := by
  rw [sequence, dif_pos h]

omit [DecidableEq F] in
theorem sequence_next (initial cs : List F) (es : List Nat) (hc : cs.length = initial.length) (r : Nat) :
    sequence initial cs es (r + initial.length) = combination cs es fun j => sequence initial cs es (r + j) := by
  rw [sequence, dif_neg (by omega), combination, hc, Finset.sum_range]
  simp only [Nat.add_sub_cancel]

omit [DecidableEq F] in
/-- a run is determined by its first values -/
theorem run_eq (cs : List F) (es : List Nat) (n : Nat) (s : Nat → F) (h : ∀ r, r + cs.length < n → s (r + cs.length) = combination cs es fun j => s (r + j)) (r : Nat) (hr : r < n) :
    s r = sequence ((List.range cs.length).map s) cs es r := by
  induction r using Nat.strong_induction_on with
  | _ r ih =>
    by_cases h1 : r < cs.length
    · rw [sequence_initial _ _ _ _ (by simpa using h1)]
      simp
    · have e1 := sequence_next ((List.range cs.length).map s) cs es (by simp) (r - cs.length)
      have e2 := h (r - cs.length) (by omega)
      rw [List.length_map, List.length_range] at e1
      rw [Nat.sub_add_cancel (by omega)] at e1 e2
      rw [e1, e2]
      exact combination_congr _ _ _ _ fun j hj => ih _ (by omega) (by omega)

omit [DecidableEq F] in
theorem next_eq (values cs : List F) (es : List Nat) (acc : F) (h1 : cs.length = es.length) (h2 : cs.length ≤ values.length) :
    ((values.zip cs).zip es).foldl (fun next_value x => next_value + x.1.2 * x.1.1 ^ x.2) acc = acc + combination cs es fun j => values.getD j 0 := by
  induction cs generalizing values es acc with
  | nil => simp [combination_nil]
  | cons c cs ih =>
    obtain ⟨e, es, rfl⟩ : ∃ e es', es = e :: es' := by cases es with | nil => simp at h1 | cons e es => exact ⟨e, es, rfl⟩
    obtain ⟨v, values, rfl⟩ : ∃ v vs, values = v :: vs := by cases values with | nil => simp at h2 | cons v vs => exact ⟨v, vs, rfl⟩
    rw [List.zip_cons_cons, List.zip_cons_cons, List.foldl_cons, ih values es _ (by simpa using h1) (by simpa using h2), combination_cons]
    simp only [List.getD_cons_zero, List.getD_cons_succ, add_assoc]

theorem traceNext_eq (t : TraceTable F) (start : Nat) (cs : List F) (es : List Nat) (j : Nat) (acc : F) (f : Nat → F) (h1 : cs.length = es.length)
    (h2 : ∀ i < cs.length, t.get (start + (j + i)) 0 = some (f i)) :
    Recurrence2.traceNext t start j (cs.zip es) acc = some (acc + combination cs es f) := by
  induction cs generalizing es j acc f with
  | nil => simp [combination_nil, Recurrence2.traceNext]
  | cons c cs ih =>
    obtain ⟨e, es, rfl⟩ : ∃ e es', es = e :: es' := by cases es with | nil => simp at h1 | cons e es => exact ⟨e, es, rfl⟩
    have h0 := h2 0 (by simp)
    rw [Nat.add_zero] at h0
    rw [List.zip_cons_cons, Recurrence2.traceNext, h0, Option.bind_some, ih es (j + 1) _ (fun i => f (i + 1)) (by simpa using h1) ?_, combination_cons, add_assoc]
    intro i hi
    have := h2 (i + 1) (by simpa using hi)
    rwa [show j + (i + 1) = j + 1 + i by omega] at this

theorem addTerms_eq (x : F) (tr : Nat → Int → F) (cs : List F) (es : List Nat) (i : Nat) (e : Expr F) (h1 : cs.length = es.length) :
    value x tr (Recurrence2.addTerms i (cs.zip es) e) = value x tr e + combination cs es fun j => tr 0 ((i + j : Nat) : Int) := by
  induction cs generalizing es i e with
  | nil => simp [combination_nil, Recurrence2.addTerms]
  | cons c cs ih =>
    obtain ⟨k, es, rfl⟩ : ∃ e es', es = e :: es' := by cases es with | nil => simp at h1 | cons e es => exact ⟨e, es, rfl⟩
    rw [List.zip_cons_cons, Recurrence2.addTerms, ih es (i + 1) _ (by simpa using h1), combination_cons, value_add, value_mul, value_pow, value_const, add_assoc]
    simp only [value, add_zero, mul_comm c, Nat.add_assoc, Nat.add_comm 1]

theorem addTerms_divFree (l : List (F × Nat)) (i : Nat) (e : Expr F) (h : DivFree e) : DivFree (Recurrence2.addTerms i l e) := by
  induction l generalizing i e with
  | nil => exact h
  | cons a l ih => exact ih _ _ ⟨h, trivial, trivial⟩

theorem addTerms_occurs (l : List (F × Nat)) (i : Nat) (e : Expr F) (h : ∀ a, Occurs a e → a.1 < 1 ∧ 0 ≤ a.2) : ∀ a, Occurs a (Recurrence2.addTerms i l e) → a.1 < 1 ∧ 0 ≤ a.2 := by
  induction l generalizing i e with
  | nil => exact h
  | cons b l ih =>
    refine ih _ _ fun a ha => ?_
    rcases ha with ha | ha | ha
    · exact h a ha
    · cases ha
      exact ⟨by norm_num, by positivity⟩
    · exact ha.elim

theorem addTerms_degree (l : List (F × Nat)) (i m : Nat) (e : Expr F) (x t : Nat) (h : e.degree_impl x t = (m, 0)) :
    (Recurrence2.addTerms i l e).degree_impl x t = (l.foldl (fun m a => max m (a.2 * t)) m, 0) := by
  induction l generalizing i e m with
  | nil => exact h
  | cons b l ih =>
    rw [Recurrence2.addTerms, List.foldl_cons]
    apply ih
    simp [Expr.add, Expr.mul, Expr.pow, Expr.degree_impl, h]

theorem addTerms_substitute (ps : List (List F)) (l : List (F × Nat)) (i : Nat) (e : Expr F) (h : e.substitute_claim ps = some e) :
    (Recurrence2.addTerms i l e).substitute_claim ps = some (Recurrence2.addTerms i l e) := by
  induction l generalizing i e with
  | nil => exact h
  | cons b l ih =>
    apply ih
    unfold Expr.substitute_claim at *
    simp [Expr.add, Expr.mul, Expr.pow, Expr.map, Expr.substituteNode, h]

theorem leaveOut_substitute (ps : List (List F)) (g : F) (m i : Nat) (e : Expr F) (h : e.substitute_claim ps = some e) :
    (Recurrence2.leaveOut g m i e).substitute_claim ps = some (Recurrence2.leaveOut g m i e) := by
  induction m generalizing i e with
  | zero => exact h
  | succ m ih =>
    apply ih
    unfold Expr.substitute_claim at *
    simp [Expr.sub, Expr.add, Expr.neg, Expr.inv, Expr.mul, Expr.pow, Expr.map, Expr.substituteNode, h]

theorem leaveOut_occurs (g : F) (m i : Nat) (e : Expr F) (h : ∀ a, Occurs a e → a.1 < 1 ∧ 0 ≤ a.2) : ∀ a, Occurs a (Recurrence2.leaveOut g m i e) → a.1 < 1 ∧ 0 ≤ a.2 := by
  induction m generalizing i e with
  | zero => exact h
  | succ m ih =>
    refine ih _ _ fun a ha => ?_
    rcases ha with ha | ha | ha
    · exact h a ha
    · exact ha.elim
    · exact ha.elim

theorem leaveOut_degree (g : F) (m i : Nat) (e : Expr F) (x t a b : Nat) (h : e.degree_impl x t = (a, b)) :
    (Recurrence2.leaveOut g m i e).degree_impl x t = (a + m * x, b) := by
  induction m generalizing i e a with
  | zero => simpa [Recurrence2.leaveOut] using h
  | succ m ih =>
    rw [Recurrence2.leaveOut, ih (i + 1) _ (a + x)]
    · rw [Nat.succ_mul]; congr 1; omega
    · simp [Expr.sub, Expr.add, Expr.neg, Expr.inv, Expr.mul, Expr.pow, Expr.degree_impl, h]

/-- numerator and denominator of an expression with the last rows left out -/
theorem leaveOut_fraction (g : F) (m i : Nat) (e : Expr F) (N D : F → (Nat → Int → F) → F)
    (h : DivFree (Accept.fraction e).1 ∧ DivFree (Accept.fraction e).2 ∧
      ∀ x tr, value x tr (Accept.fraction e).1 = N x tr ∧ value x tr (Accept.fraction e).2 = D x tr) :
    DivFree (Accept.fraction (Recurrence2.leaveOut g m i e)).1 ∧ DivFree (Accept.fraction (Recurrence2.leaveOut g m i e)).2 ∧
    ∀ x tr, value x tr (Accept.fraction (Recurrence2.leaveOut g m i e)).1 = N x tr * ∏ k ∈ Finset.range m, (x * g ^ (i + k + 1) - 1) ∧
      value x tr (Accept.fraction (Recurrence2.leaveOut g m i e)).2 = D x tr * ∏ k ∈ Finset.range m, g ^ (i + k + 1) := by
  induction m generalizing i e N D with
  | zero => simpa [Recurrence2.leaveOut] using h
  | succ m ih =>
    obtain ⟨h1, h2, h3⟩ := h
    have := ih (i + 1) (Expr.mul e (Expr.sub .X (Expr.inv (Expr.pow (.Constant g) (i + 1))))) (fun x tr => N x tr * (x * g ^ (i + 1) - 1)) (fun x tr => D x tr * g ^ (i + 1)) ?_
    · rw [Recurrence2.leaveOut]
      refine ⟨this.1, this.2.1, fun x tr => ?_⟩
      rw [(this.2.2 x tr).1, (this.2.2 x tr).2, Finset.prod_range_succ', Finset.prod_range_succ']
      simp only [show ∀ k, i + 1 + k + 1 = i + (k + 1) + 1 by intro k; omega, Nat.add_zero]
      constructor <;> ring
    · refine ⟨⟨h1, ⟨trivial, trivial⟩, trivial, trivial⟩, ⟨h2, trivial, trivial⟩, fun x tr => ?_⟩
      simp only [Expr.mul, Expr.sub, Expr.add, Expr.neg, Expr.inv, Expr.pow, Accept.fraction, value, (h3 x tr).1, (h3 x tr).2]
      constructor <;> ring

/-- what a constraint says of a table, from the values of its numerator and denominator -/
theorem rows_of_fraction (c : Constraints F) (g : F) (n : Nat) (t : Nat → Nat → F) (e : Expr F) (N D : F → (Nat → Int → F) → F)
    (h : DivFree (Accept.fraction e).1 ∧ DivFree (Accept.fraction e).2 ∧
      ∀ x tr, value x tr (Accept.fraction e).1 = N x tr ∧ value x tr (Accept.fraction e).2 = D x tr) :
    (DivisionFree (Accept.fraction e).1 → DivisionFree (Accept.fraction e).2 →
      ∀ r < n, Accept.rowValue c g n t r (Accept.fraction e).2 = some 0 → Accept.rowValue c g n t r (Accept.fraction e).1 = some 0) ↔
    ∀ r < n, D (g ^ r) (fun i o => t (((r : Int) + o) % n).toNat i) = 0 → N (g ^ r) (fun i o => t (((r : Int) + o) % n).toNat i) = 0 := by
  obtain ⟨h1, h2, h3⟩ := h
  have k1 : ∀ r, Accept.rowValue c g n t r (Accept.fraction e).1 = some (N (g ^ r) (fun i o => t (((r : Int) + o) % n).toNat i)) := fun r => by
    unfold Accept.rowValue
    rw [claimValue_divFree _ _ (fun i o => t (((r : Int) + o) % n).toNat i) _ h1, (h3 _ _).1]
  have k2 : ∀ r, Accept.rowValue c g n t r (Accept.fraction e).2 = some (D (g ^ r) (fun i o => t (((r : Int) + o) % n).toNat i)) := fun r => by
    unfold Accept.rowValue
    rw [claimValue_divFree _ _ (fun i o => t (((r : Int) + o) % n).toNat i) _ h2, (h3 _ _).2]
  simp only [k1, k2, Option.some.injEq]
  exact ⟨fun h => h (divFree_divisionFree _ h1) (divFree_divisionFree _ h2), fun h _ _ => h⟩

/-- the constraint on the value -/
def valueExpr (g : F) (last : Nat) (v : F) : Expr F := Expr.mul (Expr.sub (.Trace 0 0) (.Polynomial [v] .X)) (on_row g last)

/-- the sum that vanishes in a run -/
def difference (cs : List F) (es : List Nat) : Expr F := Expr.sub (Recurrence2.addTerms 0 (cs.zip es) (.Constant 0)) (.Trace 0 cs.length)

/-- the constraint on the steps -/
def stepExpr (g : F) (n : Nat) (cs : List F) (es : List Nat) : Expr F :=
  Recurrence2.leaveOut g cs.length 0 (Expr.div (difference cs es) (Expr.sub (Expr.pow .X n) (.Constant 1)))

theorem difference_divFree (cs : List F) (es : List Nat) : DivFree (difference cs es) := ⟨addTerms_divFree _ _ _ trivial, trivial⟩

theorem difference_value (cs : List F) (es : List Nat) (h : cs.length = es.length) (x : F) (tr : Nat → Int → F) :
    value x tr (difference cs es) = combination cs es (fun j => tr 0 (j : Int)) - tr 0 cs.length := by
  unfold difference
  rw [value_sub, addTerms_eq x tr cs es 0 _ h, value_const, zero_add]
  simp only [Nat.zero_add]
  rfl

theorem built (root : Nat → Option F) (rep : F → U256) (index : Nat) (cs : List F) (es : List Nat) (v : F) (c : Constraints F)
    (h : Recurrence2.constraints root rep index cs es v = some c) :
    ∃ g, root (Recurrence2.trace_length index) = some g ∧ 0 < index ∧
      system root (Recurrence2.trace_length index) 1 (Recurrence2.seed rep index cs es v) [valueExpr g (index - 1) v, stepExpr g (Recurrence2.trace_length index) cs es] = some c := by
  unfold Recurrence2.constraints at h
  obtain ⟨g, hg, h⟩ := Option.bind_eq_some_iff.1 h
  obtain ⟨last, hl, h⟩ := Option.bind_eq_some_iff.1 h
  obtain ⟨ps, hp, h⟩ := Option.bind_eq_some_iff.1 h
  obtain ⟨xs, hx, h⟩ := Option.bind_eq_some_iff.1 h
  have hp' : ps = [[v]] := by
    unfold Recurrence2.claim_polynomials at hp
    rw [show Poly.new [v] = some [v] from if_pos (by rw [List.length_singleton]; decide +kernel)] at hp
    exact (Option.some.inj hp).symm
  subst hp'
  have hl' : 0 < index ∧ last = index - 1 := by
    unfold csub at hl
    split at hl
    · cases hl; exact ⟨by omega, rfl⟩
    · cases hl
  obtain ⟨hi, rfl⟩ := hl'
  have e1 : (Expr.mul (Expr.sub (.Trace 0 0) (.ClaimPolynomial 0 0 .X none)) (on_row g (index - 1))).substitute_claim [[v]] = some (valueExpr g (index - 1) v) := by
    unfold Expr.substitute_claim
    simp [valueExpr, on_row, Expr.sub, Expr.add, Expr.neg, Expr.inv, Expr.mul, Expr.pow, Expr.map, Expr.substituteNode, Poly.degree, Poly.degreeLoop]
  have e2 : (stepExpr g (Recurrence2.trace_length index) cs es).substitute_claim [[v]] = some (stepExpr g (Recurrence2.trace_length index) cs es) := by
    apply leaveOut_substitute
    have := addTerms_substitute [[v]] (cs.zip es) 0 (.Constant 0) rfl
    unfold Expr.substitute_claim at *
    simp [difference, Expr.div, Expr.sub, Expr.add, Expr.neg, Expr.inv, Expr.mul, Expr.pow, Expr.map, Expr.substituteNode, this]
  have hx' : xs = [valueExpr g (index - 1) v, stepExpr g (Recurrence2.trace_length index) cs es] := by
    unfold Recurrence2.expressions at hx
    change List.mapM (Expr.substitute_claim [[v]]) [_, stepExpr g (Recurrence2.trace_length index) cs es] = some xs at hx
    simp only [List.mapM_cons, List.mapM_nil, e1, e2] at hx
    exact (Option.some.inj hx).symm
  subst hx'
  exact ⟨g, hg, hi, h⟩

theorem value_fraction (g : F) (last : Nat) (v : F) :
    DivFree (Accept.fraction (valueExpr g last v)).1 ∧ DivFree (Accept.fraction (valueExpr g last v)).2 ∧
      ∀ x tr, value x tr (Accept.fraction (valueExpr g last v)).1 = tr 0 0 - v ∧ value x tr (Accept.fraction (valueExpr g last v)).2 = x - g ^ last := by
  have := quotient_fraction (valueExpr g last v) (onRow g last (Expr.sub (.Trace 0 0) (.Polynomial [v] .X))).1 (onRow g last (Expr.sub (.Trace 0 0) (.Polynomial [v] .X))).2
    (Or.inl rfl) ⟨trivial, trivial⟩ ⟨trivial, trivial⟩
  refine ⟨this.1, this.2.1, fun x tr => ?_⟩
  rw [(this.2.2 x tr).1, (this.2.2 x tr).2]
  unfold onRow
  simp [value_sub, value_pow, value_X, value_const, value, Poly.evaluate]

theorem step_fraction (g : F) (n : Nat) (cs : List F) (es : List Nat) (h : cs.length = es.length) :
    DivFree (Accept.fraction (stepExpr g n cs es)).1 ∧ DivFree (Accept.fraction (stepExpr g n cs es)).2 ∧
      ∀ x tr, value x tr (Accept.fraction (stepExpr g n cs es)).1 =
          (combination cs es (fun j => tr 0 (j : Int)) - tr 0 cs.length) * ∏ k ∈ Finset.range cs.length, (x * g ^ (0 + k + 1) - 1) ∧
        value x tr (Accept.fraction (stepExpr g n cs es)).2 = (x ^ n - 1) * ∏ k ∈ Finset.range cs.length, g ^ (0 + k + 1) := by
  apply leaveOut_fraction g cs.length 0 _ (fun x tr => combination cs es (fun j => tr 0 (j : Int)) - tr 0 cs.length) (fun x _ => x ^ n - 1)
  have := quotient_fraction (Expr.div (difference cs es) (Expr.sub (Expr.pow .X n) (.Constant 1))) (difference cs es) (Expr.sub (Expr.pow .X n) (.Constant 1))
    (Or.inl rfl) (difference_divFree cs es) ⟨trivial, trivial⟩
  refine ⟨this.1, this.2.1, fun x tr => ?_⟩
  rw [(this.2.2 x tr).1, (this.2.2 x tr).2, difference_value cs es h, value_sub, value_pow, value_X, value_const]
  exact ⟨rfl, rfl⟩

theorem row_at (r j n : Nat) (h : r + j < n) : ((((r : Int) + (j : Nat)) % n).toNat) = r + j := by
  rw [← Nat.cast_add, Int.emod_eq_of_lt (by positivity) (by exact_mod_cast h)]
  exact Int.toNat_natCast _

theorem last_rows (g : F) (n : Nat) (hn : 0 < n) (hord : orderOf g = n) (m r : Nat) (hr : r < n) :
    ∏ k ∈ Finset.range m, (g ^ r * g ^ (0 + k + 1) - 1) = 0 ↔ n ≤ r + m := by
  rw [Finset.prod_eq_zero_iff]
  constructor
  · rintro ⟨k, hk, h⟩
    rw [sub_eq_zero, ← pow_add, ← orderOf_dvd_iff_pow_eq_one, hord] at h
    have := Nat.le_of_dvd (by omega) h
    have := Finset.mem_range.1 hk
    omega
  · intro h
    refine ⟨n - 1 - r, Finset.mem_range.2 (by omega), ?_⟩
    rw [← pow_add, show r + (0 + (n - 1 - r) + 1) = n by omega, ← hord, pow_orderOf_eq_one, sub_self]

theorem rows_iff (c : Constraints F) (g : F) (n last : Nat) (hn : 0 < n) (hord : orderOf g = n) (hlast : last < n) (cs : List F) (es : List Nat) (hlen : cs.length = es.length) (v : F)
    (hc : c.expressions = [valueExpr g last v, stepExpr g n cs es]) (t : Nat → Nat → F) :
    RowsSatisfy c g n t ↔ t last 0 = v ∧ ∀ r, r + cs.length < n → t (r + cs.length) 0 = combination cs es fun j => t (r + j) 0 := by
  unfold RowsSatisfy
  rw [hc]
  simp only [List.forall_mem_cons, List.not_mem_nil, false_imp_iff, implies_true, and_true]
  rw [rows_of_fraction c g n t _ _ _ (value_fraction g last v), rows_of_fraction c g n t _ _ _ (step_fraction g n cs es hlen)]
  refine and_congr ?_ ?_
  · constructor
    · intro h
      have : t (((last : Int) + 0) % n).toNat 0 - v = 0 := h last hlast (sub_self _)
      rw [row_same last n hlast] at this
      exact sub_eq_zero.1 this
    · intro h r hr h0
      have h1 := sub_eq_zero.1 h0
      rw [pow_eq_iff g n hn hord, Nat.mod_eq_of_lt hr, Nat.mod_eq_of_lt hlast] at h1
      subst h1
      show t (((r : Int) + 0) % n).toNat 0 - v = 0
      rw [row_same r n hr, h, sub_self]
  · have hz : ∀ r < n, (combination cs es (fun j => t (((r : Int) + (j : Nat)) % n).toNat 0) - t (((r : Int) + (cs.length : Nat)) % n).toNat 0) *
        ∏ k ∈ Finset.range cs.length, (g ^ r * g ^ (0 + k + 1) - 1) = 0 ↔ (r + cs.length < n → t (r + cs.length) 0 = combination cs es fun j => t (r + j) 0) := by
      intro r hr
      rw [mul_eq_zero, last_rows g n hn hord _ r hr]
      by_cases h : r + cs.length < n
      · rw [or_iff_left (by omega), row_at r cs.length n h, sub_eq_zero, combination_congr cs es _ (fun j => t (r + j) 0) fun j hj => by rw [row_at r j n (by omega)]]
        exact ⟨fun h1 _ => h1.symm, fun h1 => (h1 h).symm⟩
      · exact ⟨fun _ h1 => absurd h1 h, fun _ => Or.inr (by omega)⟩
    constructor
    · intro h r hr
      exact (hz r (by omega)).1 (h r (by omega) (by rw [← pow_mul, Nat.mul_comm r n, pow_mul, ← hord, pow_orderOf_eq_one, one_pow, sub_self, zero_mul])) hr
    · intro h r hr _
      exact (hz r hr).2 (h r)

/-! ### Values -/

theorem initial_spec (l : List F) (i n : Nat) (vals : List F) (hv : vals.length = n) (h : i + l.length ≤ n) :
    ∃ vals', Recurrence2.writeInitial l i vals = some vals' ∧ Recurrence2.traceInitial l i ⟨n, 1, vals⟩ = some ⟨n, 1, vals'⟩ ∧ vals'.length = n ∧
      (∀ k < i, vals'[k]? = vals[k]?) ∧ ∀ k < l.length, vals'[i + k]? = l[k]? := by
  induction l generalizing i vals with
  | nil => exact ⟨vals, rfl, rfl, hv, fun _ _ => rfl, fun k hk => absurd hk (Nat.not_lt_zero k)⟩
  | cons v l ih =>
    rw [List.length_cons] at h
    obtain ⟨vals', h1, h2, h3, h4, h5⟩ := ih (i + 1) (vals.set i v) (by rw [List.length_set, hv]) (by omega)
    refine ⟨vals', ?_, ?_, h3, ?_, ?_⟩
    · rw [Recurrence2.writeInitial, if_pos (by omega), h1]
    · rw [Recurrence2.traceInitial, TraceTable.set]
      dsimp only
      rw [if_pos ⟨by omega, by norm_num, by omega⟩, Option.bind_some, Nat.mul_one]
      exact h2
    · intro k hk
      rw [h4 k (by omega), List.getElem?_set_ne (by omega)]
    · intro k hk
      cases k with
      | zero => rw [Nat.add_zero, h4 i (by omega), List.getElem?_set_self (by omega)]; rfl
      | succ k =>
        have := h5 k (by simpa using hk)
        rw [show i + (k + 1) = i + 1 + k by omega, this]
        rfl

theorem valueLoop_spec (cs : List F) (es : List Nat) (hlen : cs.length = es.length) (s : Nat → F)
    (hs : ∀ r, s (r + cs.length) = combination cs es fun j => s (r + j)) (m i n : Nat) (vals : List F) (hv : vals.length = n) (h : i + m ≤ n) (hi : cs.length ≤ i)
    (hk : ∀ k < i, vals[k]? = some (s k)) :
    ∀ k < i + m, (Recurrence2.valueLoop cs es cs.length m i vals)[k]? = some (s k) := by
  induction m generalizing i vals with
  | zero => simpa [Recurrence2.valueLoop] using hk
  | succ m ih =>
    rw [Recurrence2.valueLoop]
    intro k hk'
    refine ih (i + 1) _ (by rw [List.length_set, hv]) (by omega) (by omega) ?_ k (by omega)
    intro k hk'
    by_cases h1 : k = i
    · subst h1
      rw [List.getElem?_set_self (by omega), Recurrence2.next, next_eq _ cs es 0 hlen (by rw [List.length_drop]; omega), zero_add]
      have := hs (k - cs.length)
      rw [Nat.sub_add_cancel hi] at this
      rw [this]
      congr 1
      refine combination_congr _ _ _ _ fun j hj => ?_
      rw [List.getD_eq_getElem?_getD, List.getElem?_drop, hk _ (by omega)]
      rfl
    · rw [List.getElem?_set_ne (by omega)]
      exact hk k (by omega)

theorem traceLoop_spec (cs : List F) (es : List Nat) (hlen : cs.length = es.length) (s : Nat → F)
    (hs : ∀ r, s (r + cs.length) = combination cs es fun j => s (r + j)) (m i n : Nat) (vals : List F) (hv : vals.length = n) (h : i + m ≤ n) (hi : cs.length ≤ i)
    (hk : ∀ k < i, vals[k]? = some (s k)) :
    ∃ vals', Recurrence2.traceLoop (cs.zip es) cs.length m i ⟨n, 1, vals⟩ = some ⟨n, 1, vals'⟩ ∧ vals'.length = n ∧ ∀ k < i + m, vals'[k]? = some (s k) := by
  induction m generalizing i vals with
  | zero => exact ⟨vals, rfl, hv, hk⟩
  | succ m ih =>
    have e := hs (i - cs.length)
    rw [Nat.sub_add_cancel hi] at e
    have hget : ∀ j < cs.length, (⟨n, 1, vals⟩ : TraceTable F).get (i - cs.length + (0 + j)) 0 = some (s (i - cs.length + j)) := by
      intro j hj
      rw [TraceTable.get]
      dsimp only
      rw [if_pos ⟨by omega, by norm_num⟩, Nat.mul_one, Nat.add_zero, Nat.zero_add, hk _ (by omega)]
    obtain ⟨vals', h1, h2, h3⟩ := ih (i + 1) (vals.set i (s i)) (by rw [List.length_set, hv]) (by omega) (by omega) (by
      intro k hk'
      by_cases h1 : k = i
      · subst h1
        rw [List.getElem?_set_self (by omega)]
      · rw [List.getElem?_set_ne (by omega)]
        exact hk k (by omega))
    refine ⟨vals', ?_, h2, fun k hk' => h3 k (by omega)⟩
    rw [Recurrence2.traceLoop, traceNext_eq _ _ cs es 0 0 _ hlen hget, Option.bind_some, zero_add, ← e, TraceTable.set]
    dsimp only
    rw [if_pos ⟨by omega, by norm_num, by omega⟩, Option.bind_some, Nat.mul_one]
    exact h1

/-! ### Degrees -/

theorem foldl_max_le (l : List Nat) (m b : Nat) : l.foldl max m ≤ b ↔ m ≤ b ∧ ∀ e ∈ l, e ≤ b := by
  induction l generalizing m with
  | nil => simp
  | cons a l ih => rw [List.foldl_cons, ih, List.forall_mem_cons, max_le_iff, and_assoc]

theorem foldl_zip (cs : List F) (es : List Nat) (h : cs.length = es.length) (m t : Nat) : (cs.zip es).foldl (fun m a => max m (a.2 * t)) m = es.foldl (fun m e => max m (e * t)) m := by
  induction cs generalizing es m with
  | nil => cases es with | nil => rfl | cons e es => simp at h
  | cons c cs ih =>
    cases es with
    | nil => simp at h
    | cons e es => rw [List.zip_cons_cons, List.foldl_cons, List.foldl_cons, ih es (by simpa using h)]

theorem foldl_max_max (l : List Nat) (m k : Nat) : max (l.foldl max m) k = l.foldl max (max m k) := by
  induction l generalizing m with
  | nil => rfl
  | cons a l ih => rw [List.foldl_cons, List.foldl_cons, ih]; congr 1; omega

theorem difference_degree (cs : List F) (es : List Nat) (h : cs.length = es.length) (x t : Nat) :
    (difference cs es).degree_impl x t = (max (es.foldl (fun m e => max m (e * t)) 0) t, 0) := by
  have := addTerms_degree (cs.zip es) 0 0 (.Constant 0 : Expr F) x t rfl
  rw [foldl_zip cs es h] at this
  simp [difference, Expr.sub, Expr.add, Expr.neg, Expr.degree_impl, this]

theorem step_degree (g : F) (n : Nat) (cs : List F) (es : List Nat) (h : cs.length = es.length) (x t : Nat) :
    (stepExpr g n cs es).degree_impl x t = (max (es.foldl (fun m e => max m (e * t)) 0) t + cs.length * x, n * x) := by
  apply leaveOut_degree
  simp [Expr.div, Expr.inv, Expr.sub, Expr.add, Expr.neg, Expr.mul, Expr.pow, Expr.degree_impl, difference_degree cs es h]

theorem degree_eq (c : Constraints F) (g : F) (n last : Nat) (cs : List F) (es : List Nat) (h : cs.length = es.length) (v : F)
    (hc : c.expressions = [valueExpr g last v, stepExpr g n cs es]) : c.degree = some (es.foldl max 1) := by
  have e1 : (valueExpr g last v).trace_degree = (1, 0) := by
    simp [valueExpr, on_row, Expr.trace_degree, Expr.inv, Expr.sub, Expr.add, Expr.neg, Expr.mul, Expr.pow, Expr.degree_impl, Poly.degree, Poly.degreeLoop]
  have e2 : (stepExpr g n cs es).trace_degree = (es.foldl max 1, 0) := by
    unfold Expr.trace_degree
    rw [step_degree g n cs es h]
    simp only [Nat.mul_one, Nat.mul_zero, Nat.add_zero]
    rw [foldl_max_max]
    rfl
  have e3 : 1 ≤ es.foldl max 1 := by
    have := ((foldl_max_le es 1 _).1 le_rfl).1
    exact this
  unfold Constraints.degree
  rw [hc]
  simp [e1, e2, csub, Constraints.maxOf]
  omega

/-! ### The constraint on the steps as a quotient -/

/-- `leaveOut` with the inverses of the powers of the generator written as constants -/
def factors (g : F) : Nat → Nat → Expr F → Expr F
  | 0, _, e => e
  | m + 1, i, e => factors g m (i + 1) (Expr.mul e (Expr.sub .X (.Constant (g ^ (i + 1))⁻¹)))

theorem factors_divFree (g : F) (m i : Nat) (e : Expr F) (h : DivFree e) : DivFree (factors g m i e) := by
  induction m generalizing i e with
  | zero => exact h
  | succ m ih => exact ih _ _ ⟨h, trivial, trivial⟩

theorem factors_value (g : F) (hg : g ≠ 0) (m i : Nat) (e : Expr F) (x : F) (tr : Nat → Int → F) :
    value x tr (factors g m i e) * ∏ k ∈ Finset.range m, g ^ (i + k + 1) = value x tr e * ∏ k ∈ Finset.range m, (x * g ^ (i + k + 1) - 1) := by
  induction m generalizing i e with
  | zero => simp [factors]
  | succ m ih =>
    have := ih (i + 1) (Expr.mul e (Expr.sub .X (.Constant (g ^ (i + 1))⁻¹)))
    rw [factors, Finset.prod_range_succ', Finset.prod_range_succ']
    simp only [show ∀ k, i + 1 + k + 1 = i + (k + 1) + 1 by intro k; omega, Nat.add_zero, value_mul, value_sub, value_X, value_const] at this ⊢
    rw [← mul_assoc, this]
    have h0 : g ^ (i + 1) ≠ 0 := pow_ne_zero _ hg
    field_simp

theorem factors_degree (g : F) (m i : Nat) (e : Expr F) (x t a b : Nat) (h : e.degree_impl x t = (a, b)) : (factors g m i e).degree_impl x t = (a + m * x, b) := by
  induction m generalizing i e a with
  | zero => simpa [factors] using h
  | succ m ih =>
    rw [factors, ih (i + 1) _ (a + x)]
    · rw [Nat.succ_mul]; congr 1; omega
    · simp [Expr.sub, Expr.add, Expr.neg, Expr.mul, Expr.degree_impl, h]

theorem factors_occurs (g : F) (m i : Nat) (e : Expr F) (h : ∀ a, Occurs a e → a.1 < 1 ∧ 0 ≤ a.2) : ∀ a, Occurs a (factors g m i e) → a.1 < 1 ∧ 0 ≤ a.2 := by
  induction m generalizing i e with
  | zero => exact h
  | succ m ih =>
    refine ih _ _ fun a ha => ?_
    rcases ha with ha | ha | ha
    · exact h a ha
    · exact ha.elim
    · exact ha.elim

theorem leaveOut_claim (g : F) (hg : g ≠ 0) (m i : Nat) (e e' D : Expr F) (claims : Nat → Option F[X]) (x : F) (trace : Nat → Int → Option F)
    (h : claimValue claims x trace e = claimValue claims x trace (.Mul e' (.Inv D))) :
    claimValue claims x trace (Recurrence2.leaveOut g m i e) = claimValue claims x trace (.Mul (factors g m i e') (.Inv D)) := by
  induction m generalizing i e e' with
  | zero => exact h
  | succ m ih =>
    rw [Recurrence2.leaveOut, factors]
    apply ih
    have h0 : g ^ (i + 1) ≠ 0 := pow_ne_zero _ hg
    simp only [Expr.mul, Expr.sub, Expr.add, Expr.neg, Expr.inv, Expr.pow, claimValue, h, Option.map_some, if_neg h0]
    cases claimValue claims x trace e' <;> cases claimValue claims x trace D <;> simp
    rename_i a b
    by_cases hb : b = 0
    · simp [hb]
    · simp [hb]; ring

/-- numerators and denominators of the two constraints -/
def quotients (g : F) (n last : Nat) (cs : List F) (es : List Nat) (v : F) : List (Expr F × Expr F) :=
  [onRow g last (Expr.sub (.Trace 0 0) (.Polynomial [v] .X)), (factors g cs.length 0 (difference cs es), Expr.sub (Expr.pow .X n) (.Constant 1))]

theorem difference_occurs (cs : List F) (es : List Nat) : ∀ a, Occurs a (difference cs es) → a.1 < 1 ∧ 0 ≤ a.2 := by
  intro a ha
  rcases ha with ha | ha
  · exact addTerms_occurs _ 0 (.Constant 0) (fun a ha => ha.elim) a ha
  · cases ha
    exact ⟨by norm_num, by positivity⟩

theorem value_occurs (g : F) (last : Nat) (v : F) : ∀ a, Occurs a (valueExpr g last v) → a.1 < 1 ∧ 0 ≤ a.2 := by
  intro a ha
  rcases ha with (ha | ha) | ha | ha
  · cases ha
    exact ⟨by norm_num, le_rfl⟩
  · exact ha.elim
  · exact ha.elim
  · exact ha.elim

theorem step_occurs (g : F) (n : Nat) (cs : List F) (es : List Nat) : ∀ a, Occurs a (stepExpr g n cs es) → a.1 < 1 ∧ 0 ≤ a.2 := by
  apply leaveOut_occurs
  intro a ha
  rcases ha with ha | ha | ha
  · exact difference_occurs cs es a ha
  · exact ha.elim
  · exact ha.elim

theorem zeros (g : F) (n last : Nat) (hn : 0 < n) (hord : orderOf g = n) (cs : List F) (es : List Nat) (v : F) : ∀ q ∈ quotients g n last cs es v, SimpleZeros g n q.2 := by
  intro q hq
  simp only [quotients, List.mem_cons, List.not_mem_nil, or_false] at hq
  rcases hq with rfl | rfl
  · exact onRow_zeros g n hn hord _ _
  · exact everyRow_zeros g n hord .X

theorem satisfied (c : Constraints F) (g : F) (n last : Nat) (hn : 0 < n) (hord : orderOf g = n) (hlast : last < n) (cs : List F) (es : List Nat) (hlen : cs.length = es.length) (v : F)
    (hc : c.expressions = [valueExpr g last v, stepExpr g n cs es]) (hrows : c.trace_nrows = n) (t : Nat → Nat → F) (T : Nat → F[X])
    (hT : ∀ i < 1, (T i).natDegree ≤ n - 1 ∧ ∀ r < n, (T i).eval (g ^ r) = t r i) (h : RowsSatisfy c g n t) :
    Satisfies c g T := by
  have hg0 : g ≠ 0 := by
    rintro rfl
    have := pow_orderOf_eq_one (0 : F)
    rw [hord, zero_pow (by omega)] at this
    exact zero_ne_one this
  let step' : Expr F := .Mul (factors g cs.length 0 (difference cs es)) (.Inv (Expr.sub (Expr.pow .X n) (.Constant 1)))
  let c' : Constraints F := { c with expressions := [valueExpr g last v, step'] }
  have hq : Quotients c' (quotients g n last cs es v) :=
    .cons ⟨Or.inl rfl, ⟨trivial, trivial⟩, trivial, trivial⟩ (.cons ⟨Or.inl rfl, factors_divFree _ _ _ _ (difference_divFree cs es), trivial, trivial⟩ .nil)
  have hclaim : ∀ x, constraintValue c g T x (stepExpr g n cs es) = constraintValue c' g T x step' := fun x => leaveOut_claim g hg0 _ _ _ _ _ _ _ _ rfl
  have hold : Hold g n t (quotients g n last cs es v) := by
    unfold RowsSatisfy at h
    rw [hc] at h
    simp only [List.forall_mem_cons, List.not_mem_nil, false_imp_iff, implies_true, and_true] at h
    rw [rows_of_fraction c g n t _ _ _ (value_fraction g last v), rows_of_fraction c g n t _ _ _ (step_fraction g n cs es hlen)] at h
    unfold Hold quotients
    simp only [List.forall_mem_cons, List.not_mem_nil, false_imp_iff, implies_true, and_true]
    constructor
    · intro r hr h0
      have h1 := h.1 r hr (by simpa [onRow, value_sub, value_pow, value_X, value_const] using h0)
      simpa [onRow, value_sub, value, Poly.evaluate] using h1
    · intro r hr h0
      rw [value_sub, value_pow, value_X, value_const] at h0
      have h1 := h.2 r hr (by rw [h0, zero_mul])
      have h2 := factors_value g hg0 cs.length 0 (difference cs es) (g ^ r) (fun i o => t (((r : Int) + o) % n).toNat i)
      rw [difference_value cs es hlen, h1] at h2
      exact (mul_eq_zero.1 h2).resolve_right (Finset.prod_ne_zero_iff.2 fun k _ => pow_ne_zero _ hg0)
  have hz := zeros g n last hn hord cs es v
  have hocc : ∀ e ∈ c'.expressions, ∀ i j, Occurs (i, j) e → i < 1 := by
    intro e he i j hij
    rcases List.mem_cons.1 he with rfl | he
    · exact (value_occurs g last v (i, j) hij).1
    · rw [List.mem_singleton.1 he] at hij
      rcases hij with hij | hij | hij
      · exact (factors_occurs g _ _ _ (difference_occurs cs es) (i, j) hij).1
      · exact hij.elim
      · exact hij.elim
  have hsat : Satisfies c' g T := satisfies c' _ hq g t T (by rw [show c'.trace_nrows = n from hrows]; exact hord) (by rw [show c'.trace_nrows = n from hrows]; exact hn)
    (fun e he i j hij => by rw [show c'.trace_nrows = n from hrows]; exact hT i (hocc e he i j hij)) (by rw [show c'.trace_nrows = n from hrows]; exact hold)
    (fun q hq => by rw [show c'.trace_nrows = n from hrows]; exact (hz q hq).1)
  intro e he
  rw [hc] at he
  rcases List.mem_cons.1 he with rfl | he
  · exact hsat _ List.mem_cons_self
  · rw [List.mem_singleton.1 he]
    obtain ⟨P, p1, p2⟩ := hsat step' (List.mem_cons_of_mem _ (List.mem_singleton_self _))
    refine ⟨P, fun x w hw => p1 x w (by rw [← hclaim]; exact hw), ?_⟩
    have d1 : (stepExpr g n cs es).degree (c.trace_nrows - 1) = step'.degree (c'.trace_nrows - 1) := by
      unfold Expr.degree
      rw [step_degree g n cs es hlen]
      show _ = Expr.degree_impl 1 (c.trace_nrows - 1) (.Mul _ _)
      simp [Expr.degree_impl, factors_degree g _ _ _ _ _ _ _ (difference_degree cs es hlen 1 (c.trace_nrows - 1)), Expr.sub, Expr.add, Expr.neg, Expr.pow]
    rw [d1]
    exact p2

theorem defined (c : Constraints F) (g : F) (n last : Nat) (hn : 0 < n) (hord : orderOf g = n) (cs : List F) (es : List Nat) (v : F)
    (hc : c.expressions = [valueExpr g last v, stepExpr g n cs es]) (T : Nat → F[X]) (x : F) (hx : x ^ n ≠ 1) : ∀ e ∈ c.expressions, constraintValue c g T x e ≠ none := by
  have hg0 : g ≠ 0 := by
    rintro rfl
    have := pow_orderOf_eq_one (0 : F)
    rw [hord, zero_pow (by omega)] at this
    exact zero_ne_one this
  let step' : Expr F := .Mul (factors g cs.length 0 (difference cs es)) (.Inv (Expr.sub (Expr.pow .X n) (.Constant 1)))
  let c' : Constraints F := { c with expressions := [valueExpr g last v, step'] }
  have hq : Quotients c' (quotients g n last cs es v) :=
    .cons ⟨Or.inl rfl, ⟨trivial, trivial⟩, trivial, trivial⟩ (.cons ⟨Or.inl rfl, factors_divFree _ _ _ _ (difference_divFree cs es), trivial, trivial⟩ .nil)
  have hclaim : constraintValue c g T x (stepExpr g n cs es) = constraintValue c' g T x step' := leaveOut_claim g hg0 _ _ _ _ _ _ _ _ rfl
  have hd := Examples.defined c' _ hq g T x fun q hq tr => (zeros g n last hn hord cs es v q hq).2 x hx tr
  intro e he
  rw [hc] at he
  rcases List.mem_cons.1 he with rfl | he
  · exact hd _ List.mem_cons_self
  · rw [List.mem_singleton.1 he, hclaim]
    exact hd _ (List.mem_cons_of_mem _ (List.mem_singleton_self _))

theorem length_spec (index : Nat) : index < Recurrence2.trace_length index := (rec_length index).1

/-- the trace of a witness -/
theorem trace_spec (index : Nat) (initial cs : List F) (es : List Nat) (h1 : cs.length = initial.length) (h2 : es.length = initial.length) (h3 : initial.length ≤ index) :
    ∃ t, Recurrence2.trace index initial cs es = some t ∧ t.trace_length = Recurrence2.trace_length index ∧ t.num_columns = 1 ∧ TableOk t ∧
      ∀ r < Recurrence2.trace_length index, t.get r 0 = some (sequence initial cs es r) := by
  have hl := length_spec index
  unfold Recurrence2.trace TraceTable.new
  generalize Recurrence2.trace_length index = n at *
  obtain ⟨vals, -, a2, a3, -, a5⟩ := initial_spec initial 0 n (List.replicate (n * 1) 0) (by simp) (by omega)
  rw [a2, Option.bind_some]
  have hs : ∀ r, sequence initial cs es (r + cs.length) = combination cs es fun j => sequence initial cs es (r + j) := by
    intro r
    rw [h1]
    exact sequence_next initial cs es h1 r
  obtain ⟨vals', b1, b2, b3⟩ := traceLoop_spec cs es (by omega) _ hs (n - initial.length) initial.length n vals a3 (by omega) (by omega) (by
    intro k hk
    have := a5 k hk
    rw [Nat.zero_add] at this
    rw [this, List.getElem?_eq_getElem hk, sequence_initial initial cs es k hk])
  rw [h1] at b1
  refine ⟨_, b1, rfl, rfl, ?_, fun r hr => ?_⟩
  · show vals'.length = n * 1
    omega
  · rw [TraceTable.get]
    dsimp only
    rw [if_pos ⟨hr, by norm_num⟩, Nat.mul_one, Nat.add_zero, b3 r (by omega)]

end Rec2

open Rec2

/-! ## C100 -/

/-- C100: the value the code claims for `index` is the one before place `index` of the sequence. -/
theorem C100_value (index : Nat) (hindex : 0 < index) (initial coefficients : List F) (exponents : List Nat) (h1 : coefficients.length = initial.length)
    (h2 : exponents.length = initial.length) (h3 : initial.length ≤ index) :
    Recurrence2.index_value index initial coefficients exponents = some (sequence initial coefficients exponents (index - 1)) := by
  unfold Recurrence2.index_value
  obtain ⟨vals, a1, -, a3, -, a5⟩ := initial_spec initial 0 index (List.replicate index 0) (by simp) (by omega)
  rw [a1, Option.bind_some, show csub index 1 = some (index - 1) from if_pos hindex, Option.bind_some]
  have hs : ∀ r, sequence initial coefficients exponents (r + coefficients.length) = combination coefficients exponents fun j => sequence initial coefficients exponents (r + j) := by
    intro r
    rw [h1]
    exact sequence_next initial coefficients exponents h1 r
  have := valueLoop_spec coefficients exponents (by omega) _ hs (index - initial.length) initial.length index vals a3 (by omega) (by omega) (by
    intro k hk
    have := a5 k hk
    rw [Nat.zero_add] at this
    rw [this, List.getElem?_eq_getElem hk, sequence_initial initial coefficients exponents k hk]) (index - 1) (by omega)
  rw [h1] at this
  exact this

/-- C100: the trace of a witness is the sequence that starts with its values, and its length is the least power of two above the index. -/
theorem C100_trace (index : Nat) (initial coefficients : List F) (exponents : List Nat) (h1 : coefficients.length = initial.length) (h2 : exponents.length = initial.length)
    (h3 : initial.length ≤ index) :
    ∃ t, Recurrence2.trace index initial coefficients exponents = some t ∧ t.num_columns = 1 ∧ t.trace_length = Recurrence2.trace_length index ∧
      (∃ k, t.trace_length = 2 ^ k ∧ index < 2 ^ k ∧ ∀ j, index < 2 ^ j → k ≤ j) ∧
      ∀ r < t.trace_length, t.get r 0 = some (sequence initial coefficients exponents r) := by
  obtain ⟨t, a1, a2, a3, -, a5⟩ := trace_spec index initial coefficients exponents h1 h2 h3
  refine ⟨t, a1, a3, a2, ?_, by rw [a2]; exact a5⟩
  obtain ⟨k, hk⟩ := (rec_length index).2
  have hk' : Recurrence2.trace_length index = 2 ^ k := hk
  refine ⟨k, by rw [a2, hk'], by rw [← hk']; exact length_spec index, fun j hj => ?_⟩
  obtain ⟨e, he, h, -⟩ := next_power_of_two_spec (index + 1) j (by omega)
  rw [hk] at h
  have := Nat.pow_right_injective (le_refl 2) h
  omega

/-- C100: the system of a claim says of a table that it has the value claimed and that every cell but the first ones is the combination of the cells before it. -/
theorem C100_system (root : Nat → Option F) (hroot : RootFn root) (rep : F → U256) (index : Nat) (hindex : Recurrence2.trace_length index < 2 ^ 64) (coefficients : List F)
    (exponents : List Nat) (hlen : coefficients.length = exponents.length) (v : F) (c : Constraints F)
    (hc : Recurrence2.constraints root rep index coefficients exponents v = some c) (g : F) (hg : root c.trace_nrows = some g) (t : Nat → Nat → F) :
    RowsSatisfy c g c.trace_nrows t ↔
      t (index - 1) 0 = v ∧ ∀ r, r + coefficients.length < c.trace_nrows → t (r + coefficients.length) 0 = combination coefficients exponents fun j => t (r + j) 0 := by
  obtain ⟨g', hg', hi, hsys⟩ := built root rep index coefficients exponents v c hc
  obtain ⟨-, hcc⟩ := system_some _ _ _ _ _ _ hsys
  have hn : c.trace_nrows = Recurrence2.trace_length index := by rw [hcc]
  rw [hn] at hg ⊢
  have : g' = g := Option.some.inj (hg'.symm.trans hg)
  subst this
  have hl := length_spec index
  exact Rec2.rows_iff c g' _ (index - 1) (by omega) (hroot _ g' (by omega) hindex hg') (by omega) coefficients exponents hlen v (by rw [hcc]) t

/-- C100: an accepted proof shows that `v` is the value at place `index - 1` of the sequence that starts with the first cells of the table committed to. -/
theorem C100_accepted (env : Env F) (hroot : RootFn env.root) (hcompat : RootCompat env.root) (hsearch : SearchOk env.search) (hgen : env.generator ≠ 0)
    (rep : F → U256) (index k : Nat) (hk : k + 4 < 64) (hn : Recurrence2.trace_length index = 2 ^ k) (coefficients : List F) (exponents : List Nat)
    (hlen : coefficients.length = exponents.length) (v : F) (c : Constraints F)
    (hc : Recurrence2.constraints env.root rep index coefficients exponents v = some c) (p : Bytes) (h : Stark.verify env c p = .ok ()) :
    Shows env c k (exponents.foldl max 1) p fun t =>
      v = sequence ((List.range coefficients.length).map fun r => t r 0) coefficients exponents (index - 1) := by
  obtain ⟨g, hg, hi, hsys⟩ := built env.root rep index coefficients exponents v c hc
  obtain ⟨-, hcc⟩ := system_some _ _ _ _ _ _ hsys
  have hl := length_spec index
  refine shows_of_rows env hroot hcompat hsearch hgen k _ _ 1 hk hn _ _ c hsys (degree_eq c g _ (index - 1) coefficients exponents hlen v (by rw [hcc])) p h _ fun g' t hg' ht => ?_
  have e1 : c.trace_nrows = Recurrence2.trace_length index := by rw [hcc]
  rw [← e1] at hg' ht
  obtain ⟨h1, h2⟩ := (C100_system env.root hroot rep index (by rw [hn]; exact Nat.pow_lt_pow_right (by norm_num) (by omega)) coefficients exponents hlen v c hc g' hg' t).1 ht
  rw [← h1]
  exact run_eq coefficients exponents c.trace_nrows (fun r => t r 0) h2 (index - 1) (by rw [e1]; omega)

/-- C100: what the code claims can be proved, with the hypotheses of C50, for exponents up to 16. -/
theorem C100_prove (env : Env F) (hroot : RootFn env.root) (hcompat : RootCompat env.root) (hgen : env.generator ≠ 0)
    (hsearch : ∀ l n z, env.search l n = some z → l[z]? = some n) (o : Oracles F) (rep : F → U256) (index k : Nat) (hk : k + 4 < 64) (hn : Recurrence2.trace_length index = 2 ^ k)
    (initial coefficients : List F) (exponents : List Nat) (h1 : coefficients.length = initial.length) (h2 : exponents.length = initial.length) (h3 : initial.length ≤ index)
    (he : ∀ e ∈ exponents, e ≤ 16) (v : F) (hv : Recurrence2.index_value index initial coefficients exponents = some v) (c : Constraints F)
    (hc : Recurrence2.constraints env.root rep index coefficients exponents v = some c) (g : F) (hg : env.root (2 ^ k) = some g) :
    ∃ t, Recurrence2.trace index initial coefficients exponents = some t ∧ Provable env o c k g t := by
  obtain ⟨g', hg', hi, hsys⟩ := built env.root rep index coefficients exponents v c hc
  obtain ⟨-, hcc⟩ := system_some _ _ _ _ _ _ hsys
  have hl := length_spec index
  have hlen : coefficients.length = exponents.length := by omega
  have hd := degree_eq c g' _ (index - 1) coefficients exponents hlen v (by rw [hcc])
  obtain ⟨t, t1, t2, t3, t4, t5⟩ := trace_spec index initial coefficients exponents h1 h2 h3
  refine ⟨t, t1, ?_⟩
  rw [C100_value index hi initial coefficients exponents h1 h2 h3] at hv
  have e1 : c.trace_nrows = 2 ^ k := by rw [hcc]; exact hn
  have e2 : c.blowup = 16 := by rw [hcc]
  have e4 : c.fri_layout = default_fri_layout (2 ^ k) := by rw [hcc, ← hn]
  rw [hn] at hl hg' t2 t5
  have : g' = g := Option.some.inj (hg'.symm.trans hg)
  subst this
  have hord := hroot _ g' (Nat.two_pow_pos _) (Nat.pow_lt_pow_right (by norm_num) (by omega)) hg
  have hexp : c.expressions = [valueExpr g' (index - 1) v, stepExpr g' (2 ^ k) coefficients exponents] := by rw [hcc, ← hn]
  have hrows : RowsSatisfy c g' (2 ^ k) (fun r i => (t.get r i).getD 0) := by
    rw [Rec2.rows_iff c g' _ (index - 1) (Nat.two_pow_pos _) hord (by omega) coefficients exponents hlen v hexp]
    constructor
    · simp only [t5 (index - 1) (by omega), Option.getD_some]
      exact Option.some.inj hv
    · intro r hr
      rw [t5 _ hr, Option.getD_some, h1, sequence_next initial coefficients exponents h1 r]
      refine combination_congr _ _ _ _ fun j hj => ?_
      rw [t5 _ (by omega), Option.getD_some]
  rintro hr ⟨w, hw⟩ hcoset T hT hgraph hood
  have hsat := satisfied c g' (2 ^ k) (index - 1) (Nat.two_pow_pos _) hord (by omega) coefficients exponents hlen v hexp e1 _ T (by
    intro i hi
    obtain ⟨u1, u2⟩ := hT i (by omega)
    rw [← t2]
    refine ⟨?_, fun r hr => by rw [u2 r hr]; rfl⟩
    by_cases h0 : T i = 0
    · rw [h0]; simp
    · have := (natDegree_lt_iff_degree_lt h0).2 u1
      omega) hrows
  have hk1 : 0 < k := by
    rcases Nat.eq_zero_or_pos k with rfl | h
    · rw [pow_zero] at hl; omega
    · exact h
  refine C50_total env hroot hcompat hgen hsearch o c t ?_ hr w (by rw [e1, e2]; exact hw) g' (by rw [t2]; exact hg) T hT hsat
    (fun x hx => Rec2.defined c g' (2 ^ k) (index - 1) (Nat.two_pow_pos _) hord coefficients exponents v hexp T x (hcoset x hx)) hgraph hood
  refine ⟨t4, by omega, by rw [e1, t2], by rw [hcc]; exact t3.symm, ⟨k, 4, e1, e2, hk, by rw [e4]; exact layout_le k (by omega)⟩,
    ⟨_, hd, by rw [e2]; exact (foldl_max_le exponents 1 16).2 ⟨by norm_num, he⟩⟩, ?_, ?_, by rw [hcc]; show 45 < 2 ^ 64; norm_num, ?_⟩
  · intro n hn
    rw [e4] at hn
    have := (C44_layout k (by omega)).1 n hn
    omega
  · left
    rw [e4]
    intro h
    have := default_layout_sum k (by omega)
    rw [h] at this
    simp only [List.sum_nil] at this
    split at this <;> omega
  · intro e he i j hij
    rw [hexp] at he
    have : i < 1 ∧ 0 ≤ j := by
      rcases List.mem_cons.1 he with rfl | he
      · exact value_occurs g' (index - 1) v (i, j) hij
      · rw [List.mem_singleton.1 he] at hij
        exact step_occurs g' (2 ^ k) coefficients exponents (i, j) hij
    exact ⟨by omega, by have := this.2; positivity⟩

end

/-! ## A run

The sequence 1, 2, 8, 32, … (twice the square of the value before the last one plus three times the last one), with the claim that the value at place 2 is 8, over the
field of 65537 elements. -/

namespace Rec2Run
open OpenZKP.Props.Small (Z K rep_toNat)
open Examples.Run
open OpenZKP.Props.Size (draws draw h0 randomField_eq)

def c : Constraints Z := (Recurrence2.constraints (fun _ => some 65281) rep 3 [2, 3] [2, 1] (8 : Z)).getD ⟨[], 0, 0, [], 0, 0, 0, [], []⟩

theorem some_of_isSome {α : Type} (a : Option α) (d : α) (h : a.isSome = true) : a = some (a.getD d) := by
  cases a with
  | none => cases h
  | some _ => rfl

theorem root4 : root 4 = some 65281 := by
  unfold root
  rw [if_pos (by norm_num), show 65536 / 4 = 128 * 128 by norm_num, pow_mul, show (3 : Z) ^ 128 = 15028 by decide +kernel]
  decide +kernel

theorem system_eq : Recurrence2.constraints root rep 3 [2, 3] [2, 1] (8 : Z) = some c := by
  have : Recurrence2.constraints root rep 3 [2, 3] [2, 1] (8 : Z) = Recurrence2.constraints (fun _ => some 65281) rep 3 [2, 3] [2, 1] (8 : Z) := by
    unfold Recurrence2.constraints system Constraints.from_expressions
    rw [show Recurrence2.trace_length 3 = 4 by decide +kernel, root4]
  rw [this]
  exact some_of_isSome _ _ (by decide +kernel)

example : Recurrence2.index_value 3 [1, 2] [2, 3] [2, 1] = some (8 : Z) := by decide +kernel
example : (List.range 4).map (Rec2.sequence [1, 2] [2, 3] [2, 1]) = [(1 : Z), 2, 8, 32] := by decide +kernel

def E : Expr Z := (c.combine (List.replicate (2 * c.expressions.length) 28784)).getD .X

def simpAdd (a b : Expr Z) : Expr Z := if a = .Constant 0 then b else .Add a b

def simpInv : Expr Z → Expr Z
  | .Constant a => if a = 0 then .Inv (.Constant a) else .Constant a⁻¹
  | a => .Inv a

/-- constants multiplied out and inverted, zeros left out of sums -/
def simplify : Expr Z → Expr Z
  | .Exp a k => normExp k (simplify a)
  | .Neg a => normNeg (simplify a)
  | .Mul a b => normMul (simplify a) (simplify b)
  | .Add a b => simpAdd (simplify a) (simplify b)
  | .Inv a => simpInv (simplify a)
  | .Polynomial p a => .Polynomial p (simplify a)
  | .X => .X
  | .Constant a => .Constant a
  | .Trace i j => .Trace i j
  | .ClaimPolynomial i n a s => .ClaimPolynomial i n a s

theorem simplify_evaluate (x : Z) (tr : Nat → Int → Option Z) (e : Expr Z) : (simplify e).evaluate x tr = e.evaluate x tr := by
  induction e with
  | X => rfl
  | Constant c => rfl
  | Trace i j => rfl
  | ClaimPolynomial i n a s _ => rfl
  | Polynomial p a ih => simp only [simplify, Expr.evaluate, ih]
  | Inv a ih =>
    rw [simplify, Expr.evaluate, ← ih]
    unfold simpInv
    split
    · rename_i heq
      rw [heq]
      split
      · rfl
      · rename_i h
        simp [Expr.evaluate, finv, h]
    · rfl
  | Neg a ih =>
    rw [simplify, Expr.evaluate, ← ih]
    unfold normNeg
    split
    · simp_all [Expr.evaluate]
    · rfl
  | Exp a k ih => rw [simplify, normExp_evaluate, Expr.evaluate, Expr.evaluate, ih]
  | Add a b iha ihb =>
    rw [simplify, Expr.evaluate, ← iha, ← ihb]
    unfold simpAdd
    split
    · rename_i h
      rw [h]
      simp [Expr.evaluate]
    · rfl
  | Mul a b iha ihb =>
    rw [simplify, Expr.evaluate, ← iha, ← ihb]
    unfold normMul
    split
    · rename_i h
      rw [h]
      simp [Expr.evaluate]
    · rfl

theorem combined : c.combine (List.replicate (2 * c.expressions.length) 28784) = some E := some_of_isSome _ _ (by decide +kernel)

theorem marks : ∀ p ∈ (Expr.Constant 0 :: Expr.Constant 1 :: subexpressions E).map fun a => (mark 77 o.traceHash a, simplify a),
    ∀ p' ∈ (Expr.Constant 0 :: Expr.Constant 1 :: subexpressions E).map fun a => (mark 77 o.traceHash a, simplify a), p.1 = p'.1 → p.2 = p'.2 := by decide +kernel

theorem points : (28784 : Z) ^ 2 ^ 2 ≠ 1 ∧ (28784 : Z) ^ 2 ^ (2 + 4) ≠ 3 ^ 2 ^ (2 + 4) ∧ ((28784 : Z) ^ 2) ^ 2 ^ (2 + 4) ≠ 3 ^ 2 ^ (2 + 4) ∧ (3 : Z) ^ 2 ^ (2 + 4) ≠ 1 := by decide +kernel

theorem parts : c.trace_nrows = 2 ^ 2 ∧ c.blowup = 16 ∧ c.pow_bits = 0 ∧ c.claim_polynomials = [] ∧ c.degree = some 2 := by decide +kernel

theorem run_ok : RunOk env o c where
  draws := draws
  size := by
    rw [parts.1, parts.2.1]
    norm_num
  degree := by
    intro d' hd
    rw [parts.2.2.2.2] at hd
    cases hd
    rw [parts.1]
    exact ⟨by norm_num, by decide +kernel⟩
  pow_bits := by rw [parts.2.2.1]; norm_num
  constraints := by decide +kernel
  arguments := by
    intro c' args d' h1 h2 h3
    rw [parts.2.2.2.2] at h3
    cases h3
    have : ((c.substitute.bind (fun c' => c'.trace_arguments)).map fun l => decide (l.length + Merkle.next_power_of_two 2 < 2 ^ 32)) = some true := by decide +kernel
    rw [h1, Option.bind_some, h2, Option.map_some] at this
    exact of_decide_eq_true (Option.some.inj this)
  nonce := by
    intro ch n h
    cases h
    norm_num
  solve := by
    intro seed ch h
    refine ⟨0, rfl, ?_⟩
    unfold with_difficulty at h
    rw [parts.2.2.1, if_pos (by decide)] at h
    cases h
    unfold Challenge.verify
    obtain ⟨u, _, h1, -⟩ := draw
    rw [show ∀ x, env.K.hash x = h0 from fun _ => rfl, h1]
    exact decide_eq_true (Nat.zero_le _)

theorem graph_ok (T : Nat → Z[X]) (g : Z) : GraphOk env o c g T (List.replicate (2 * c.expressions.length) 28784) := by
  intro d E0 E' _ hE hE'
  rw [combined] at hE
  cases hE
  rw [parts.2.2.2.1, show E.substitute_claim [] = some E by decide +kernel] at hE'
  cases hE'
  refine ⟨by show mark 77 _ _ ≠ none; decide +kernel, ?_⟩
  intro a ha a' ha' hm x _
  have := marks _ (List.mem_map_of_mem ha) _ (List.mem_map_of_mem ha') hm
  rw [← simplify_evaluate, show simplify a = simplify a' from this, simplify_evaluate]

theorem point_ne (x : Z) (h : EvalPoint env c x) : x ^ 2 ^ (2 + 4) = 3 ^ 2 ^ (2 + 4) := by
  obtain ⟨y, h1, rfl⟩ := h
  rw [parts.1, parts.2.1] at h1
  show (3 * y) ^ 2 ^ (2 + 4) = _
  rw [mul_pow, show 2 ^ (2 + 4) = 2 ^ 2 * 16 by norm_num, h1, mul_one]

theorem order4 : orderOf (65281 : Z) = 2 ^ 2 := root_ok _ _ (by norm_num) (by norm_num) root4

theorem out_of_domain (T : Nat → Z[X]) : OutOfDomain env c 65281 T 28784 := by
  obtain ⟨p1, p2, p3, p4⟩ := points
  refine ⟨fun x hx => ⟨fun e he i j hij => ?_, fun d' hd => ?_⟩, ?_⟩
  · have hx := point_ne x hx
    rintro rfl
    have h4 : ((65281 : Z) ^ j) ^ 2 ^ (2 + 4) = 1 := by
      rw [← zpow_natCast, ← zpow_mul, mul_comm, zpow_mul, zpow_natCast, pow_add, pow_mul, ← order4, pow_orderOf_eq_one, one_pow, one_zpow]
    rw [mul_pow, h4, mul_one] at hx
    exact p2 hx
  · have hx := point_ne x hx
    rw [parts.2.2.2.2] at hd
    cases hd
    rintro rfl
    exact p3 hx
  · obtain ⟨g', hg', hi, hsys⟩ := Rec2.built root rep 3 [2, 3] [2, 1] (8 : Z) c system_eq
    obtain ⟨-, hcc⟩ := system_some _ _ _ _ _ _ hsys
    rw [show Recurrence2.trace_length 3 = 4 by decide +kernel] at hg' hcc
    have : g' = 65281 := Option.some.inj (hg'.symm.trans root4)
    subst this
    exact Rec2.defined c 65281 4 2 (by norm_num) order4 [2, 3] [2, 1] 8 (by rw [hcc]) T 28784 p1

/-- the hypotheses of C100_prove, and with it those of C100_accepted, can be met: the proof of the claim is accepted -/
theorem proved : ∃ p, Stark.verify env c p = .ok () := by
  have hl : Recurrence2.trace_length 3 = 2 ^ 2 := by decide +kernel
  obtain ⟨t, t1, t2, t3, t4, t5⟩ := Rec2.trace_spec 3 [1, 2] [2, 3] [2, 1] (F := Z) rfl rfl (by decide)
  rw [hl] at t2
  obtain ⟨t', t1', hp⟩ := C100_prove env root_ok root_compat gen_ne search_some o rep 3 2 (by norm_num) hl [1, 2] [2, 3] [2, 1] rfl rfl (by decide) (by decide) 8 (by decide +kernel) c
    system_eq 65281 root4
  have : t' = t := Option.some.inj (t1'.symm.trans t1)
  subst this
  obtain ⟨ps, i1, i2, i3⟩ := C46_interpolate root root_ok t' t4 2 (by norm_num) t2 65281 (by
    unfold TraceTable.generator
    rw [t2]
    exact root4)
  have hw : env.root (2 ^ 2 * 16) = some (3 ^ (65536 / (2 ^ 2 * 16))) := by
    rw [show env.root = root from rfl]
    unfold root
    exact if_pos (by norm_num)
  obtain ⟨p, -, h⟩ := hp run_ok ⟨_, hw⟩ (by
      intro x hx h0
      have hx := point_ne x hx
      rw [pow_add, pow_mul, h0, one_pow] at hx
      exact points.2.2.2 (by rw [pow_add]; exact hx.symm)) (fun j => toPoly (ps.getD j [])) (by
    intro j hj
    obtain ⟨q, q1, q2, q3⟩ := i3 j hj
    have : ps.getD j [] = q := by rw [List.getD, q1]; rfl
    simp only [this]
    refine ⟨?_, ?_⟩
    · have := toPoly_degree_lt q
      rw [q2] at this
      rw [t2]
      exact this
    · intro i hi
      rw [t2] at hi
      exact q3 i hi) (fun co hco => by rw [drawn t' co hco]; exact graph_ok _ _) (fun s ch hh => by rw [oods_point t' s ch hh]; exact out_of_domain _)
  exact ⟨p, h⟩

example : ∃ p, Shows env c 2 ([2, 1].foldl max 1) p fun t => (8 : Z) = Rec2.sequence ((List.range 2).map fun r => t r 0) [2, 3] [2, 1] (3 - 1) := by
  obtain ⟨p, h⟩ := proved
  exact ⟨p, C100_accepted env root_ok root_compat search_ok gen_ne rep 3 2 (by norm_num) (by decide +kernel) [2, 3] [2, 1] rfl 8 c system_eq p h⟩

end Rec2Run
end Props
end OpenZKP
