import Verif.Props.Constraints

/-!
# C41 and C43: what the degrees reported for expressions and systems are
-/

namespace OpenZKP
namespace Props
namespace Degree
open Stark

section
variable {F : Type} [Field F] [DecidableEq F]

/-- C41: `trace_degree` is the rate at which the degrees grow with the degree `m` of the columns: the two degrees are `m` times the two trace degrees, up to the degrees that are
reported for constant columns. -/
theorem C41_trace_degree (e : Expr F) (m : Nat) :
    (m * e.trace_degree.1 ≤ (e.degree m).1 ∧ (e.degree m).1 ≤ m * e.trace_degree.1 + (e.degree 0).1) ∧
    (m * e.trace_degree.2 ≤ (e.degree m).2 ∧ (e.degree m).2 ≤ m * e.trace_degree.2 + (e.degree 0).2) := by
  have hs : ∀ k a b c : Nat, (m * b ≤ a ∧ a ≤ m * b + c) → (m * (k * b) ≤ k * a ∧ k * a ≤ m * (k * b) + k * c) := by
    intro k a b c h
    rw [Nat.mul_left_comm, ← Nat.mul_add]
    exact ⟨Nat.mul_le_mul_left k h.1, Nat.mul_le_mul_left k h.2⟩
  unfold Expr.trace_degree Expr.degree
  induction e with
  | X => simp [Expr.degree_impl]
  | Constant c => simp [Expr.degree_impl]
  | Trace i j => simp [Expr.degree_impl]
  | Polynomial p a ih => exact ⟨hs _ _ _ _ ih.1, hs _ _ _ _ ih.2⟩
  | ClaimPolynomial i n a _ ih => exact ⟨hs _ _ _ _ ih.1, hs _ _ _ _ ih.2⟩
  | Add a b iha ihb =>
    simp only [Expr.degree_impl]
    obtain ⟨⟨a1, a2⟩, a3, a4⟩ := iha
    obtain ⟨⟨b1, b2⟩, b3, b4⟩ := ihb
    refine ⟨⟨?_, ?_⟩, by rw [Nat.mul_add]; omega, by rw [Nat.mul_add]; omega⟩
    · rw [← Nat.mul_max_mul_left, Nat.mul_add, Nat.mul_add]
      omega
    · rw [← Nat.mul_max_mul_left, Nat.mul_add, Nat.mul_add]
      omega
  | Neg a ih => exact ih
  | Mul a b iha ihb =>
    simp only [Expr.degree_impl, Nat.mul_add]
    omega
  | Inv a ih => exact ⟨ih.2, ih.1⟩
  | Exp a k ih => exact ⟨hs _ _ _ _ ih.1, hs _ _ _ _ ih.2⟩

theorem degree_mono (e : Expr F) (m : Nat) : (e.degree 0).1 ≤ (e.degree m).1 ∧ (e.degree 0).2 ≤ (e.degree m).2 := by
  unfold Expr.degree
  induction e with
  | X => simp [Expr.degree_impl]
  | Constant c => simp [Expr.degree_impl]
  | Trace i j => simp [Expr.degree_impl]
  | Polynomial p a ih => exact ⟨Nat.mul_le_mul_left _ ih.1, Nat.mul_le_mul_left _ ih.2⟩
  | ClaimPolynomial i n a _ ih => exact ⟨Nat.mul_le_mul_left _ ih.1, Nat.mul_le_mul_left _ ih.2⟩
  | Add a b iha ihb => simp only [Expr.degree_impl]; omega
  | Neg a ih => exact ih
  | Mul a b iha ihb => simp only [Expr.degree_impl]; omega
  | Inv a ih => exact ⟨ih.2, ih.1⟩
  | Exp a k ih => exact ⟨Nat.mul_le_mul_left _ ih.1, Nat.mul_le_mul_left _ ih.2⟩

theorem mapM_mem {α β : Type} (f : α → Option β) : ∀ (l : List α) (r : List β), l.mapM f = some r → ∀ a ∈ l, ∃ b ∈ r, f a = some b := by
  intro l
  induction l with
  | nil => intro r _ a ha; cases ha
  | cons x l ih =>
    intro r h a ha
    rw [List.mapM_cons] at h
    obtain ⟨b, hb, h⟩ := Option.bind_eq_some_iff.1 h
    obtain ⟨bs, hbs, h⟩ := Option.bind_eq_some_iff.1 h
    obtain rfl := Option.some.inj h
    rcases List.mem_cons.1 ha with rfl | ha
    · exact ⟨b, List.mem_cons_self, hb⟩
    · obtain ⟨b', h1, h2⟩ := ih bs hbs a ha
      exact ⟨b', List.mem_cons_of_mem _ h1, h2⟩

theorem maxOf_spec (l : List Nat) (d : Nat) : Constraints.maxOf l = some d ↔ d ∈ l ∧ ∀ x ∈ l, x ≤ d := by
  cases l with
  | nil => simp [Constraints.maxOf]
  | cons a l =>
    have key : ∀ (l : List Nat) (a : Nat), (l.foldl max a = a ∨ l.foldl max a ∈ l) ∧ a ≤ l.foldl max a ∧ ∀ x ∈ l, x ≤ l.foldl max a := by
      intro l
      induction l with
      | nil => intro a; simp
      | cons b l ih =>
        intro a
        obtain ⟨h1, h2, h3⟩ := ih (max a b)
        rw [List.foldl_cons]
        refine ⟨?_, le_trans (le_max_left _ _) h2, fun x hx => ?_⟩
        · rcases h1 with h1 | h1
          · rcases max_choice a b with h | h
            · left; rw [h1, h]
            · right; rw [h1, h]; exact List.mem_cons_self
          · right; exact List.mem_cons_of_mem _ h1
        · rcases List.mem_cons.1 hx with rfl | hx
          · exact le_trans (le_max_right _ _) h2
          · exact h3 x hx
    obtain ⟨h1, h2, h3⟩ := key l a
    unfold Constraints.maxOf
    rw [Option.some.injEq]
    constructor
    · rintro rfl
      refine ⟨?_, fun x hx => ?_⟩
      · rcases h1 with h1 | h1
        · rw [h1]; exact List.mem_cons_self
        · exact List.mem_cons_of_mem _ h1
      · rcases List.mem_cons.1 hx with rfl | hx
        · exact h2
        · exact h3 x hx
    · rintro ⟨h4, h5⟩
      refine le_antisymm ?_ ?_
      · rcases h1 with h1 | h1
        · rw [h1]; exact h5 a List.mem_cons_self
        · exact h5 _ (List.mem_cons_of_mem _ h1)
      · rcases List.mem_cons.1 h4 with rfl | h4
        · exact h2
        · exact h3 d h4

/-- C43: the degree of a system is the largest difference of the trace degrees of its constraints; it is defined if there is a constraint, and none has a larger degree below than above. -/
theorem C43_degree_is (c : Constraints F) (d : Nat) : c.degree = some d ↔
    (∀ e ∈ c.expressions, e.trace_degree.2 ≤ e.trace_degree.1 ∧ e.trace_degree.1 ≤ d + e.trace_degree.2) ∧ ∃ e ∈ c.expressions, e.trace_degree.1 = d + e.trace_degree.2 := by
  unfold Constraints.degree
  generalize c.expressions = es
  by_cases hall : ∀ e ∈ es, e.trace_degree.2 ≤ e.trace_degree.1
  · rw [mapM_some _ (fun e => e.trace_degree.1 - e.trace_degree.2) es (fun e he => by unfold csub; rw [if_pos (hall e he)]), Option.bind_some, maxOf_spec]
    constructor
    · rintro ⟨h1, h2⟩
      obtain ⟨e, he, rfl⟩ := List.mem_map.1 h1
      refine ⟨fun e' he' => ⟨hall e' he', ?_⟩, e, he, ?_⟩
      · have := h2 _ (List.mem_map.2 ⟨e', he', rfl⟩)
        omega
      · have := hall e he
        omega
    · rintro ⟨h1, e, he, h2⟩
      refine ⟨List.mem_map.2 ⟨e, he, by omega⟩, fun x hx => ?_⟩
      obtain ⟨e', he', rfl⟩ := List.mem_map.1 hx
      have := h1 e' he'
      omega
  · refine iff_of_false (fun h => ?_) (fun h => hall fun e he => (h.1 e he).1)
    obtain ⟨ds, h1, -⟩ := Option.bind_eq_some_iff.1 h
    refine hall fun e he => ?_
    obtain ⟨v, -, hv⟩ := mapM_mem _ es ds h1 e he
    unfold csub at hv
    by_contra hn
    rw [if_neg hn] at hv
    cases hv

/-- C43: The degree of a system is enough for every number of rows: if no denominator contains a cell of the trace, and the degrees reported for constant columns, without the trace,
differ by less than the degree of the system, then with the right number of coefficients the combination exists. -/
theorem C43_enough (c : Constraints F) (coeffs : List F) (d : Nat) (hd : c.degree = some d) (hd0 : d ≠ 0) (hn : c.trace_nrows ≠ 0) (hl : coeffs.length = 2 * c.expressions.length)
    (hden : ∀ e ∈ c.expressions, e.trace_degree.2 = 0) (hx : ∀ e ∈ c.expressions, (e.degree 0).1 < (e.degree 0).2 + d) : (c.combine coeffs).isSome = true := by
  obtain ⟨h1, -⟩ := (C43_degree_is c d).1 hd
  obtain ⟨n, hn⟩ := Nat.exists_eq_succ_of_ne_zero hn
  have hdn : d * c.trace_nrows = n * d + d := by rw [hn, Nat.succ_eq_add_one, Nat.mul_add, Nat.mul_one, Nat.mul_comm]
  refine C43_defined c coeffs d (n * d + d - 1) hd (by omega) hl fun e he => ?_
  rw [hn, Nat.succ_sub_one]
  obtain ⟨⟨-, a2⟩, a3, -⟩ := C41_trace_degree e n
  have hmono : (e.degree 0).2 ≤ (e.degree n).2 := (degree_mono e n).2
  have := (h1 e he).2
  rw [hden e he, Nat.add_zero] at this
  have := Nat.mul_le_mul_left n this
  have := hx e he
  omega

end

-- a transition and a boundary constraint on `n` rows: the degree is that of the transition, whatever `n`, and the combination exists
def quotients (n : Nat) : Constraints ℚ :=
  ⟨[], n, 1, [.Mul (.Mul (.Add (.Trace 0 1) (.Neg (.Exp (.Trace 0 0) 2))) (.Inv (.Add (.Exp .X n) (.Neg (.Constant 1))))) (.Add .X (.Neg (.Constant 1))),
    .Mul (.Add (.Trace 0 0) (.Neg (.Constant 3))) (.Inv (.Add .X (.Neg (.Constant 1))))], 16, 0, 45, [2], []⟩

example (n : Nat) (hn : n ≠ 0) : (quotients n).degree = some 2 ∧ ((quotients n).combine [1, 2, 3, 4]).isSome = true := by
  have h : (quotients n).degree = some 2 := by
    rw [C43_degree_is]
    simp [quotients, Expr.trace_degree, Expr.degree_impl]
  refine ⟨h, C43_enough _ _ 2 h (by norm_num) hn rfl ?_ ?_⟩
  · simp [quotients, Expr.trace_degree, Expr.degree_impl]
  · simp [quotients, Expr.degree, Expr.degree_impl]

-- the condition is not idle: `X^3 T` on one row has degree 1 and target degree 0
example : (⟨[], 1, 1, [.Mul (.Exp .X 3) (.Trace 0 0)], 16, 0, 45, [], []⟩ : Constraints ℚ).degree = some 1 ∧
    ((⟨[], 1, 1, [.Mul (.Exp .X 3) (.Trace 0 0)], 16, 0, 45, [], []⟩ : Constraints ℚ).combine [1, 2]).isSome = false := by decide +kernel

end Degree
end Props
end OpenZKP
