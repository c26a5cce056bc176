import Verif.Stark.Expr
import Verif.Props.Polynomial
import Mathlib.FieldTheory.RatFunc.AsPolynomial
import Mathlib.Algebra.BigOperators.Field

/-!
# Algebraic expressions: C41, C42
-/

namespace OpenZKP
namespace Props
open Stark Polynomial

section
variable {F : Type} [Field F] [DecidableEq F]

/-! ## Specification: the rational function of an expression -/

/-- The rational function an expression stands for.  `T i j` is the polynomial of `Trace(i, j)` (column `i` shifted by `j`
rows) and `claims i` the `i`-th claim polynomial. -/
noncomputable def denote (T : Nat → Int → F[X]) (claims : Nat → F[X]) : Expr F → RatFunc F
  | .X => RatFunc.X
  | .Constant c => RatFunc.C c
  | .Trace i j => algebraMap F[X] (RatFunc F) (T i j)
  | .Polynomial p a => aeval (denote T claims a) (toPoly p)
  | .ClaimPolynomial i _ a _ => aeval (denote T claims a) (claims i)
  | .Add a b => denote T claims a + denote T claims b
  | .Neg a => -denote T claims a
  | .Mul a b => denote T claims a * denote T claims b
  | .Inv a => (denote T claims a)⁻¹
  | .Exp a e => denote T claims a ^ e

/-- Every claim polynomial that occurs keeps to its degree bound (`substitute_claim` asserts this). -/
def ClaimsOk (claims : Nat → F[X]) : Expr F → Prop
  | .ClaimPolynomial i n a _ => (claims i).natDegree ≤ n ∧ ClaimsOk claims a
  | .Polynomial _ a | .Neg a | .Inv a | .Exp a _ => ClaimsOk claims a
  | .Add a b | .Mul a b => ClaimsOk claims a ∧ ClaimsOk claims b
  | _ => True

/-- A polynomial is only ever applied to an argument whose reported denominator degree does not exceed its numerator degree
(in particular, to polynomial arguments). -/
def PolyArgs (xd td : Nat) : Expr F → Prop
  | .ClaimPolynomial _ _ a _ | .Polynomial _ a => (Expr.degree_impl xd td a).2 ≤ (Expr.degree_impl xd td a).1 ∧ PolyArgs xd td a
  | .Neg a | .Inv a | .Exp a _ => PolyArgs xd td a
  | .Add a b | .Mul a b => PolyArgs xd td a ∧ PolyArgs xd td b
  | _ => True

/-- `r` is the quotient of two polynomials of the given degrees -/
def HasDegrees (r : RatFunc F) (d : Nat × Nat) : Prop :=
  ∃ N D : F[X], D ≠ 0 ∧ r = algebraMap F[X] (RatFunc F) N / algebraMap F[X] (RatFunc F) D ∧ N.natDegree ≤ d.1 ∧ D.natDegree ≤ d.2

local notation "ι" => algebraMap F[X] (RatFunc F)

omit [DecidableEq F] in
theorem iota_ne {D : F[X]} (h : D ≠ 0) : ι D ≠ 0 := by
  rw [Ne, FaithfulSMul.algebraMap_eq_zero_iff]; exact h

omit [DecidableEq F] in
/-- a polynomial of degree at most `k` applied to a quotient -/
theorem aeval_hasDegrees (P : F[X]) (k : Nat) (hk : P.natDegree ≤ k) (r : RatFunc F) (n d : Nat) (hnd : d ≤ n) (h : HasDegrees r (n, d)) :
    HasDegrees (aeval r P) (k * n, k * d) := by
  obtain ⟨N, D, hD, rfl, h1, h2⟩ := h
  refine ⟨∑ i ∈ Finset.range (k + 1), C (P.coeff i) * (N ^ i * D ^ (k - i)), D ^ k, pow_ne_zero _ hD, ?_, ?_, ?_⟩
  · rw [aeval_eq_sum_range' (show P.natDegree < k + 1 by omega), map_sum, Finset.sum_div]
    apply Finset.sum_congr rfl
    intro i hi
    rw [Finset.mem_range] at hi
    rw [Algebra.smul_def, map_mul, map_mul, map_pow, map_pow, map_pow, div_pow]
    have e : k = i + (k - i) := by omega
    have hDi : ι D ≠ 0 := iota_ne hD
    conv_rhs => rw [show (ι D) ^ k = (ι D) ^ i * (ι D) ^ (k - i) by rw [← pow_add]; congr 1]
    rw [show algebraMap F (RatFunc F) (P.coeff i) = ι (C (P.coeff i)) by
      rw [IsScalarTower.algebraMap_apply F F[X] (RatFunc F)]; rfl]
    field_simp
  · apply natDegree_sum_le_of_forall_le
    intro i hi
    rw [Finset.mem_range] at hi
    refine (natDegree_C_mul_le _ _).trans (natDegree_mul_le.trans ?_)
    have a1 := natDegree_pow_le (p := N) (n := i)
    have a2 := natDegree_pow_le (p := D) (n := k - i)
    have b1 : i * N.natDegree ≤ i * n := Nat.mul_le_mul_left _ h1
    have b2 : (k - i) * D.natDegree ≤ (k - i) * n := Nat.mul_le_mul_left _ (h2.trans hnd)
    have b3 : i * n + (k - i) * n = k * n := by rw [← Nat.add_mul]; congr 1; omega
    show _ ≤ k * n
    omega
  · exact (natDegree_pow_le).trans (Nat.mul_le_mul_left _ h2)

/-- C41 (partial: polynomials applied to arguments with a denominator of larger degree than the numerator are left out, see
`C41_violated`): for trace polynomials of degree at most `td`, the reported degrees bound the degrees of a numerator and a
denominator of the expression. -/
theorem C41_degree_partial (T : Nat → Int → F[X]) (claims : Nat → F[X]) (td : Nat) (hT : ∀ i j, (T i j).natDegree ≤ td) (e : Expr F)
    (hc : ClaimsOk claims e) (hp : PolyArgs 1 td e) : HasDegrees (denote T claims e) (Expr.degree td e) := by
  unfold Expr.degree
  induction e with
  | X => exact ⟨X, 1, one_ne_zero, by simp [denote], by simp [Expr.degree_impl], by simp⟩
  | Constant c => exact ⟨C c, 1, one_ne_zero, by simp [denote], by simp, by simp⟩
  | Trace i j => exact ⟨T i j, 1, one_ne_zero, by simp [denote], hT i j, by simp⟩
  | Polynomial p a ih =>
    exact aeval_hasDegrees (toPoly p) (Poly.degree p) (by rw [C37_degree]) _ _ _ hp.1 (ih hc hp.2)
  | ClaimPolynomial i n a _ ih =>
    exact aeval_hasDegrees (claims i) n hc.1 _ _ _ hp.1 (ih hc.2 hp.2)
  | Add a b iha ihb =>
    obtain ⟨N, D, hD, e1, n1, d1⟩ := iha hc.1 hp.1
    obtain ⟨M, E, hE, e2, n2, d2⟩ := ihb hc.2 hp.2
    refine ⟨N * E + M * D, D * E, mul_ne_zero hD hE, ?_, ?_, ?_⟩
    · rw [denote, e1, e2, map_add, map_mul, map_mul, map_mul]
      have := iota_ne hD; have := iota_ne hE
      field_simp
    · refine (natDegree_add_le _ _).trans ?_
      have := natDegree_mul_le (p := N) (q := E)
      have := natDegree_mul_le (p := M) (q := D)
      simp only [Expr.degree_impl]
      omega
    · have := natDegree_mul_le (p := D) (q := E)
      simp only [Expr.degree_impl]
      omega
  | Neg a ih =>
    obtain ⟨N, D, hD, e1, n1, d1⟩ := ih hc hp
    exact ⟨-N, D, hD, by rw [denote, e1, map_neg, neg_div], by rwa [natDegree_neg], d1⟩
  | Mul a b iha ihb =>
    obtain ⟨N, D, hD, e1, n1, d1⟩ := iha hc.1 hp.1
    obtain ⟨M, E, hE, e2, n2, d2⟩ := ihb hc.2 hp.2
    refine ⟨N * M, D * E, mul_ne_zero hD hE, ?_, ?_, ?_⟩
    · rw [denote, e1, e2, map_mul, map_mul, div_mul_div_comm]
    · have := natDegree_mul_le (p := N) (q := M)
      simp only [Expr.degree_impl]; omega
    · have := natDegree_mul_le (p := D) (q := E)
      simp only [Expr.degree_impl]; omega
  | Inv a ih =>
    obtain ⟨N, D, hD, e1, n1, d1⟩ := ih hc hp
    by_cases hN : N = 0
    · refine ⟨0, 1, one_ne_zero, ?_, by simp, by simp⟩
      rw [denote, e1, hN]; simp
    · refine ⟨D, N, hN, ?_, d1, n1⟩
      rw [denote, e1, inv_div]
  | Exp a k ih =>
    obtain ⟨N, D, hD, e1, n1, d1⟩ := ih hc hp
    refine ⟨N ^ k, D ^ k, pow_ne_zero _ hD, ?_, ?_, ?_⟩
    · rw [denote, e1, map_pow, map_pow, div_pow]
    · exact natDegree_pow_le.trans (Nat.mul_le_mul_left _ n1)
    · exact natDegree_pow_le.trans (Nat.mul_le_mul_left _ d1)

end

/-- C41: for `1 + Y` applied to `1/X` the reported degrees are (0, 1), but `1 + 1/X = (X + 1)/X` has no numerator of degree 0. -/
theorem C41_violated (T : Nat → Int → ℚ[X]) (claims : Nat → ℚ[X]) :
    ¬ HasDegrees (denote T claims (.Polynomial [1, 1] (.Inv .X))) (Expr.degree 1 (.Polynomial [1, 1] (.Inv .X) : Expr ℚ)) := by
  have e : Expr.degree 1 (.Polynomial [1, 1] (.Inv .X) : Expr ℚ) = (0, 1) := by decide +kernel
  rw [e]
  rintro ⟨N, D, hD, h, h1, h2⟩
  have hX : (RatFunc.X : RatFunc ℚ) ≠ 0 := RatFunc.X_ne_zero
  have hD' := iota_ne hD
  have hv : denote T claims (.Polynomial [1, 1] (.Inv .X) : Expr ℚ) = 1 + (RatFunc.X)⁻¹ := by
    simp [denote, toPoly_cons, toPoly_nil]
  rw [hv, eq_div_iff hD', ← RatFunc.algebraMap_X] at h
  rw [← RatFunc.algebraMap_X] at hX
  have h' : algebraMap ℚ[X] (RatFunc ℚ) ((X + 1) * D) = algebraMap ℚ[X] (RatFunc ℚ) (X * N) := by
    rw [map_mul, map_mul, map_add, map_one, ← h]
    field_simp
  have h3 : (X + 1) * D = X * N := (FaithfulSMul.algebraMap_injective ℚ[X] (RatFunc ℚ)) h'
  have h4 := congrArg natDegree h3
  have hX1 : (X + 1 : ℚ[X]).natDegree = 1 := by
    have := natDegree_X_add_C (1 : ℚ); simpa using this
  have hX1' : (X + 1 : ℚ[X]) ≠ 0 := by intro h; rw [h] at hX1; simp at hX1
  have hN : N ≠ 0 := by
    rintro rfl
    rw [mul_zero] at h3
    exact (mul_ne_zero hX1' hD) h3
  rw [natDegree_mul hX1' hD, natDegree_mul X_ne_zero hN, hX1, natDegree_X] at h4
  have hN0 : N = C (N.coeff 0) := eq_C_of_natDegree_le_zero h1
  have hD0 : D = C (D.coeff 0) := eq_C_of_natDegree_le_zero (by simp only at h1; omega)
  have h5 := congrArg (coeff · 0) h3
  rw [hN0, hD0] at h5
  simp at h5
  rw [h5] at hD0
  exact hD (by rw [hD0, C_0])

-- a quotient with a claim polynomial and a shifted trace column meets the conditions
example : PolyArgs 1 7 (.Mul (.Add (.Trace 0 1) (.Polynomial [1, 2, 3] (.Exp .X 2))) (.Inv (.Add (.Exp .X 8) (.Neg (.Constant 1)))) : Expr ℚ) ∧
    Expr.degree 7 (.Mul (.Add (.Trace 0 1) (.Polynomial [1, 2, 3] (.Exp .X 2))) (.Inv (.Add (.Exp .X 8) (.Neg (.Constant 1)))) : Expr ℚ)
      = (7, 8) := by
  constructor
  · simp only [PolyArgs, Expr.degree_impl]; decide
  · decide +kernel

section
variable {F : Type} [Field F] [DecidableEq F]

/-! ## C42 -/

/-- C42: a rewriting that keeps the value of every node keeps the value of the expression, at every point and for every trace
(including whether the evaluation panics). -/
theorem C42_map (x : F) (trace : Nat → Int → Option F) (f : Expr F → Option (Expr F))
    (hf : ∀ e e', f e = some e' → e'.evaluate x trace = e.evaluate x trace) (e e' : Expr F) (h : e.map f = some e') :
    e'.evaluate x trace = e.evaluate x trace := by
  induction e generalizing e' with
  | X => exact hf _ _ h
  | Constant c => exact hf _ _ h
  | Trace i j => exact hf _ _ h
  | Polynomial p a ih =>
    obtain ⟨a', h1, h2⟩ := Option.bind_eq_some_iff.1 h
    rw [hf _ _ h2, Expr.evaluate, Expr.evaluate, ih _ h1]
  | ClaimPolynomial i n a name ih =>
    obtain ⟨a', h1, h2⟩ := Option.bind_eq_some_iff.1 h
    rw [hf _ _ h2]; rfl
  | Add a b iha ihb =>
    obtain ⟨a', h1, h2⟩ := Option.bind_eq_some_iff.1 h
    obtain ⟨b', h3, h4⟩ := Option.bind_eq_some_iff.1 h2
    rw [hf _ _ h4, Expr.evaluate, Expr.evaluate, iha _ h1, ihb _ h3]
  | Neg a ih =>
    obtain ⟨a', h1, h2⟩ := Option.bind_eq_some_iff.1 h
    rw [hf _ _ h2, Expr.evaluate, Expr.evaluate, ih _ h1]
  | Mul a b iha ihb =>
    obtain ⟨a', h1, h2⟩ := Option.bind_eq_some_iff.1 h
    obtain ⟨b', h3, h4⟩ := Option.bind_eq_some_iff.1 h2
    rw [hf _ _ h4, Expr.evaluate, Expr.evaluate, iha _ h1, ihb _ h3]
  | Inv a ih =>
    obtain ⟨a', h1, h2⟩ := Option.bind_eq_some_iff.1 h
    rw [hf _ _ h2, Expr.evaluate, Expr.evaluate, ih _ h1]
  | Exp a k ih =>
    obtain ⟨a', h1, h2⟩ := Option.bind_eq_some_iff.1 h
    rw [hf _ _ h2, Expr.evaluate, Expr.evaluate, ih _ h1]

/-- C42: `map` with a function that never panics and applies to every node, in particular the identity, does not panic. -/
theorem C42_map_total (f : Expr F → Option (Expr F)) (hf : ∀ e, (f e).isSome = true) (e : Expr F) : (e.map f).isSome = true := by
  have bind_ok : ∀ {α β : Type} (o : Option α) (g : α → Option β), o.isSome = true → (∀ a, (g a).isSome = true) → (o.bind g).isSome = true := by
    intro α β o g h1 h2
    cases o with
    | none => simp at h1
    | some a => exact h2 a
  induction e with
  | X => exact hf _
  | Constant c => exact hf _
  | Trace i j => exact hf _
  | Polynomial p a ih => exact bind_ok _ _ ih fun _ => hf _
  | ClaimPolynomial i n a name ih => exact bind_ok _ _ ih fun _ => hf _
  | Add a b iha ihb => exact bind_ok _ _ iha fun _ => bind_ok _ _ ihb fun _ => hf _
  | Neg a ih => exact bind_ok _ _ ih fun _ => hf _
  | Mul a b iha ihb => exact bind_ok _ _ iha fun _ => bind_ok _ _ ihb fun _ => hf _
  | Inv a ih => exact bind_ok _ _ ih fun _ => hf _
  | Exp a k ih => exact bind_ok _ _ ih fun _ => hf _

/-- Specification: the value of an expression in which claim polynomial `i` stands for `claims i`.  `none` when some
inverse does not exist, a trace value is missing, or a claim polynomial is missing or above its degree bound. -/
noncomputable def claimValue (claims : Nat → Option F[X]) (x : F) (trace : Nat → Int → Option F) : Expr F → Option F
  | .X => some x
  | .Constant c => some c
  | .Trace i j => trace i j
  | .Polynomial p a => (claimValue claims x trace a).map fun v => (toPoly p).eval v
  | .ClaimPolynomial i n a _ =>
    match claims i, claimValue claims x trace a with
    | some P, some v => if P.natDegree ≤ n then some (P.eval v) else none
    | _, _ => none
  | .Add a b => match claimValue claims x trace a, claimValue claims x trace b with
    | some v, some w => some (v + w)
    | _, _ => none
  | .Neg a => (claimValue claims x trace a).map fun v => -v
  | .Mul a b => match claimValue claims x trace a, claimValue claims x trace b with
    | some v, some w => some (v * w)
    | _, _ => none
  | .Inv a => match claimValue claims x trace a with
    | some v => if v = 0 then none else some v⁻¹
    | none => none
  | .Exp a k => (claimValue claims x trace a).map fun v => v ^ k

/-- C42: substituting the claim polynomials gives an expression without claim polynomials that has, at every point, the value of
the expression with each claim polynomial standing for the polynomial given. -/
theorem C42_substitute (polys : List (List F)) (e e' : Expr F) (h : e.substitute_claim polys = some e') (x : F)
    (trace : Nat → Int → Option F) :
    e'.evaluate x trace = claimValue (fun i => (polys[i]?).map toPoly) x trace e := by
  unfold Expr.substitute_claim at h
  induction e generalizing e' with
  | X => cases h; rfl
  | Constant c => cases h; rfl
  | Trace i j => cases h; rfl
  | Polynomial p a ih =>
    obtain ⟨a', h1, h2⟩ := Option.bind_eq_some_iff.1 h
    cases h2
    rw [Expr.evaluate, claimValue, ih _ h1]
    congr 1; funext v; exact C37_evaluate p v
  | ClaimPolynomial i n a name ih =>
    obtain ⟨a', h1, h2⟩ := Option.bind_eq_some_iff.1 h
    rw [Expr.substituteNode] at h2
    obtain ⟨p, h3, h4⟩ := Option.bind_eq_some_iff.1 h2
    split at h4
    · next hd =>
      cases h4
      rw [Expr.evaluate, claimValue, ih _ h1, h3, Option.map_some]
      rw [C37_degree] at hd
      cases claimValue (fun i => (polys[i]?).map toPoly) x trace a with
      | none => rfl
      | some v => simp only [Option.map_some]; rw [if_pos hd, C37_evaluate]
    · simp at h4
  | Add a b iha ihb =>
    obtain ⟨a', h1, h2⟩ := Option.bind_eq_some_iff.1 h
    obtain ⟨b', h3, h4⟩ := Option.bind_eq_some_iff.1 h2
    cases h4
    rw [Expr.evaluate, claimValue, iha _ h1, ihb _ h3]
    generalize claimValue _ x trace a = u
    generalize claimValue _ x trace b = v
    cases u <;> cases v <;> rfl
  | Neg a ih =>
    obtain ⟨a', h1, h2⟩ := Option.bind_eq_some_iff.1 h
    cases h2
    rw [Expr.evaluate, claimValue, ih _ h1]
  | Mul a b iha ihb =>
    obtain ⟨a', h1, h2⟩ := Option.bind_eq_some_iff.1 h
    obtain ⟨b', h3, h4⟩ := Option.bind_eq_some_iff.1 h2
    cases h4
    rw [Expr.evaluate, claimValue, iha _ h1, ihb _ h3]
    generalize claimValue _ x trace a = u
    generalize claimValue _ x trace b = v
    cases u <;> cases v <;> rfl
  | Inv a ih =>
    obtain ⟨a', h1, h2⟩ := Option.bind_eq_some_iff.1 h
    cases h2
    rw [Expr.evaluate, claimValue, ih _ h1]
    generalize claimValue _ x trace a = u
    cases u <;> rfl
  | Exp a k ih =>
    obtain ⟨a', h1, h2⟩ := Option.bind_eq_some_iff.1 h
    cases h2
    rw [Expr.evaluate, claimValue, ih _ h1]

/-- All claim polynomials of the expression are among those given and keep to their bounds. -/
def ClaimsFit (polys : List (List F)) : Expr F → Prop
  | .ClaimPolynomial i n a _ => (∃ p, polys[i]? = some p ∧ (toPoly p).natDegree ≤ n) ∧ ClaimsFit polys a
  | .Polynomial _ a | .Neg a | .Inv a | .Exp a _ => ClaimsFit polys a
  | .Add a b | .Mul a b => ClaimsFit polys a ∧ ClaimsFit polys b
  | _ => True

/-- C42: `substitute_claim` succeeds exactly when every claim polynomial is given and keeps to its degree bound. -/
theorem C42_substitute_defined (polys : List (List F)) (e : Expr F) :
    (e.substitute_claim polys).isSome = true ↔ ClaimsFit polys e := by
  unfold Expr.substitute_claim
  induction e with
  | X => exact iff_of_true rfl trivial
  | Constant c => exact iff_of_true rfl trivial
  | Trace i j => exact iff_of_true rfl trivial
  | Polynomial p a ih =>
    rw [Expr.map, ClaimsFit, ← ih]
    cases Expr.map (Expr.substituteNode polys) a <;> simp [Expr.substituteNode]
  | ClaimPolynomial i n a name ih =>
    rw [Expr.map, ClaimsFit, ← ih]
    cases Expr.map (Expr.substituteNode polys) a with
    | none => simp
    | some a' =>
      simp only [Option.bind_some, Expr.substituteNode, Option.isSome_some, and_true]
      cases polys[i]? with
      | none => simp
      | some p =>
        rw [Option.bind_some, C37_degree]
        constructor
        · intro h; refine ⟨p, rfl, ?_⟩; by_contra hc; rw [if_neg hc] at h; simp at h
        · rintro ⟨q, hq, hd⟩; cases hq; rw [if_pos hd]; rfl
  | Add a b iha ihb =>
    rw [Expr.map, ClaimsFit, ← iha, ← ihb]
    cases Expr.map (Expr.substituteNode polys) a <;> cases Expr.map (Expr.substituteNode polys) b <;> simp [Expr.substituteNode]
  | Neg a ih =>
    rw [Expr.map, ClaimsFit, ← ih]
    cases Expr.map (Expr.substituteNode polys) a <;> simp [Expr.substituteNode]
  | Mul a b iha ihb =>
    rw [Expr.map, ClaimsFit, ← iha, ← ihb]
    cases Expr.map (Expr.substituteNode polys) a <;> cases Expr.map (Expr.substituteNode polys) b <;> simp [Expr.substituteNode]
  | Inv a ih =>
    rw [Expr.map, ClaimsFit, ← ih]
    cases Expr.map (Expr.substituteNode polys) a <;> simp [Expr.substituteNode]
  | Exp a k ih =>
    rw [Expr.map, ClaimsFit, ← ih]
    cases Expr.map (Expr.substituteNode polys) a <;> simp [Expr.substituteNode]

theorem argLt_trans {a b c : Nat × Int} (h1 : argLt a b = true) (h2 : argLt b c = true) : argLt a c = true := by
  unfold argLt at *
  simp only [Bool.or_eq_true, Bool.and_eq_true, decide_eq_true_eq] at *
  omega

theorem argLt_total {a b : Nat × Int} (h1 : argLt a b ≠ true) (h2 : a ≠ b) : argLt b a = true := by
  unfold argLt at *
  simp only [ne_eq, Bool.or_eq_true, Bool.and_eq_true, decide_eq_true_eq] at *
  have : ¬ (a.1 = b.1 ∧ a.2 = b.2) := fun h => h2 (Prod.ext h.1 h.2)
  omega

theorem mem_argInsert (a b : Nat × Int) (l : List (Nat × Int)) : b ∈ argInsert a l ↔ b = a ∨ b ∈ l := by
  induction l with
  | nil => simp [argInsert]
  | cons c l ih =>
    rw [argInsert]
    split
    · simp
    · split
      · next h => subst h; simp
      · rw [List.mem_cons, ih, List.mem_cons]; tauto

theorem argInsert_sorted (a : Nat × Int) (l : List (Nat × Int)) (h : l.Pairwise (fun a b => argLt a b = true)) :
    (argInsert a l).Pairwise (fun a b => argLt a b = true) := by
  induction l with
  | nil => simp [argInsert]
  | cons c l ih =>
    rw [argInsert]
    rw [List.pairwise_cons] at h
    split
    · next hlt =>
      rw [List.pairwise_cons]
      refine ⟨?_, by rw [List.pairwise_cons]; exact h⟩
      intro d hd
      rcases List.mem_cons.1 hd with rfl | hd
      · exact hlt
      · exact argLt_trans hlt (h.1 d hd)
    · next hlt =>
      split
      · rw [List.pairwise_cons]; exact h
      · next hne =>
        rw [List.pairwise_cons]
        refine ⟨?_, ih h.2⟩
        intro d hd
        rcases (mem_argInsert a d l).1 hd with rfl | hd
        · exact argLt_total hlt hne
        · exact h.1 d hd

/-- Specification: the trace cell `(i, j)` occurs in the expression. -/
def Occurs (a : Nat × Int) : Expr F → Prop
  | .Trace i j => a = (i, j)
  | .ClaimPolynomial _ _ e _ | .Polynomial _ e | .Neg e | .Inv e | .Exp e _ => Occurs a e
  | .Add e f | .Mul e f => Occurs a e ∨ Occurs a f
  | _ => False

/-- Specification: the expression has no claim polynomial. -/
def NoClaim : Expr F → Prop
  | .ClaimPolynomial _ _ _ _ => False
  | .Polynomial _ e | .Neg e | .Inv e | .Exp e _ => NoClaim e
  | .Add e f | .Mul e f => NoClaim e ∧ NoClaim f
  | _ => True

omit [Field F] [DecidableEq F] in
theorem traceArgs_spec (e : Expr F) (s : List (Nat × Int)) (hs : s.Pairwise (fun a b => argLt a b = true)) :
    (NoClaim e → ∃ t, Expr.traceArgumentsImpl e s = some t ∧ t.Pairwise (fun a b => argLt a b = true) ∧
      ∀ a, a ∈ t ↔ (Occurs a e ∨ a ∈ s)) ∧
    (¬ NoClaim e → Expr.traceArgumentsImpl e s = none) := by
  induction e generalizing s with
  | X => exact ⟨fun _ => ⟨s, rfl, hs, fun a => by simp [Occurs]⟩, fun h => absurd trivial h⟩
  | Constant c => exact ⟨fun _ => ⟨s, rfl, hs, fun a => by simp [Occurs]⟩, fun h => absurd trivial h⟩
  | Trace i j =>
    exact ⟨fun _ => ⟨_, rfl, argInsert_sorted _ _ hs, fun a => by rw [mem_argInsert, Occurs]⟩, fun h => absurd trivial h⟩
  | ClaimPolynomial i n a name ih => exact ⟨fun h => h.elim, fun _ => rfl⟩
  | Polynomial p a ih => exact ih s hs
  | Neg a ih => exact ih s hs
  | Inv a ih => exact ih s hs
  | Exp a k ih => exact ih s hs
  | Add a b iha ihb =>
    constructor
    · rintro ⟨ha, hb⟩
      obtain ⟨t, h1, h2, h3⟩ := (iha s hs).1 ha
      obtain ⟨u, h4, h5, h6⟩ := (ihb t h2).1 hb
      refine ⟨u, by rw [Expr.traceArgumentsImpl, h1, Option.bind_some, h4], h5, ?_⟩
      intro a; rw [h6, h3, Occurs]; tauto
    · intro h
      by_cases ha : NoClaim a
      · obtain ⟨t, h1, h2, h3⟩ := (iha s hs).1 ha
        rw [Expr.traceArgumentsImpl, h1, Option.bind_some]
        exact (ihb t h2).2 fun hb => h ⟨ha, hb⟩
      · rw [Expr.traceArgumentsImpl, (iha s hs).2 ha]; rfl
  | Mul a b iha ihb =>
    constructor
    · rintro ⟨ha, hb⟩
      obtain ⟨t, h1, h2, h3⟩ := (iha s hs).1 ha
      obtain ⟨u, h4, h5, h6⟩ := (ihb t h2).1 hb
      refine ⟨u, by rw [Expr.traceArgumentsImpl, h1, Option.bind_some, h4], h5, ?_⟩
      intro a; rw [h6, h3, Occurs]; tauto
    · intro h
      by_cases ha : NoClaim a
      · obtain ⟨t, h1, h2, h3⟩ := (iha s hs).1 ha
        rw [Expr.traceArgumentsImpl, h1, Option.bind_some]
        exact (ihb t h2).2 fun hb => h ⟨ha, hb⟩
      · rw [Expr.traceArgumentsImpl, (iha s hs).2 ha]; rfl

omit [Field F] [DecidableEq F] in
/-- C42: for an expression without claim polynomials, `trace_arguments` lists the trace cells that occur in it, each once, in
ascending order. -/
theorem C42_arguments (e : Expr F) (he : NoClaim e) :
    ∃ t, e.trace_arguments = some t ∧ t.Pairwise (fun a b => argLt a b = true) ∧ ∀ a, a ∈ t ↔ Occurs a e := by
  obtain ⟨t, h1, h2, h3⟩ := (traceArgs_spec e [] List.Pairwise.nil).1 he
  exact ⟨t, h1, h2, fun a => by rw [h3]; simp⟩

/-- C42: the evaluation depends on no other cells: traces that agree on the listed arguments give the same result. -/
theorem C42_arguments_suffice (e : Expr F) (t : List (Nat × Int)) (h : e.trace_arguments = some t) (x : F)
    (trace trace' : Nat → Int → Option F) (hag : ∀ a ∈ t, trace a.1 a.2 = trace' a.1 a.2) :
    e.evaluate x trace = e.evaluate x trace' := by
  have hn : NoClaim e := by
    by_contra hc
    have := (traceArgs_spec e [] List.Pairwise.nil).2 hc
    unfold Expr.trace_arguments at h
    rw [this] at h; simp at h
  obtain ⟨t', h1, _, h3⟩ := C42_arguments e hn
  rw [h] at h1; cases h1
  have hag' : ∀ a, Occurs a e → trace a.1 a.2 = trace' a.1 a.2 := fun a ha => hag a ((h3 a).2 ha)
  clear h h3 hag
  induction e with
  | X => rfl
  | Constant c => rfl
  | Trace i j => exact hag' (i, j) rfl
  | ClaimPolynomial i n a name ih => rfl
  | Polynomial p a ih => rw [Expr.evaluate, Expr.evaluate, ih hn hag']
  | Neg a ih => rw [Expr.evaluate, Expr.evaluate, ih hn hag']
  | Inv a ih => rw [Expr.evaluate, Expr.evaluate, ih hn hag']
  | Exp a k ih => rw [Expr.evaluate, Expr.evaluate, ih hn hag']
  | Add a b iha ihb =>
    rw [Expr.evaluate, Expr.evaluate, iha hn.1 (fun a h => hag' a (Or.inl h)), ihb hn.2 (fun a h => hag' a (Or.inr h))]
  | Mul a b iha ihb =>
    rw [Expr.evaluate, Expr.evaluate, iha hn.1 (fun a h => hag' a (Or.inl h)), ihb hn.2 (fun a h => hag' a (Or.inr h))]

/-- C42: the evaluation asks for each listed argument: if one is not available it does not return a value. -/
theorem C42_arguments_needed (e : Expr F) (t : List (Nat × Int)) (h : e.trace_arguments = some t) (x v : F)
    (trace : Nat → Int → Option F) (hv : e.evaluate x trace = some v) : ∀ a ∈ t, (trace a.1 a.2).isSome = true := by
  have hn : NoClaim e := by
    by_contra hc
    have := (traceArgs_spec e [] List.Pairwise.nil).2 hc
    unfold Expr.trace_arguments at h
    rw [this] at h; simp at h
  obtain ⟨t', h1, _, h3⟩ := C42_arguments e hn
  rw [h] at h1; cases h1
  intro a ha
  replace ha := (h3 a).1 ha
  clear h h3
  induction e generalizing v with
  | X => exact ha.elim
  | Constant c => exact ha.elim
  | Trace i j => rw [Occurs] at ha; subst ha; rw [Expr.evaluate] at hv; simp [hv]
  | ClaimPolynomial i n a name ih => exact hn.elim
  | Polynomial p a ih => obtain ⟨w, hw, _⟩ := Option.map_eq_some_iff.1 hv; exact ih w hw hn ha
  | Neg a ih => obtain ⟨w, hw, _⟩ := Option.map_eq_some_iff.1 hv; exact ih w hw hn ha
  | Inv a ih => obtain ⟨w, hw, _⟩ := Option.bind_eq_some_iff.1 hv; exact ih w hw hn ha
  | Exp a k ih => obtain ⟨w, hw, _⟩ := Option.map_eq_some_iff.1 hv; exact ih w hw hn ha
  | Add a b iha ihb =>
    obtain ⟨w, hw, h⟩ := Option.bind_eq_some_iff.1 hv
    obtain ⟨w', hw', _⟩ := Option.map_eq_some_iff.1 h
    rcases ha with ha | ha
    · exact iha w hw hn.1 ha
    · exact ihb w' hw' hn.2 ha
  | Mul a b iha ihb =>
    obtain ⟨w, hw, h⟩ := Option.bind_eq_some_iff.1 hv
    obtain ⟨w', hw', _⟩ := Option.map_eq_some_iff.1 h
    rcases ha with ha | ha
    · exact iha w hw hn.1 ha
    · exact ihb w' hw' hn.2 ha

end

-- substitution and trace arguments on an expression with a claim polynomial
example : Expr.substitute_claim [[1, 2], [3, 4]] (.Mul (.ClaimPolynomial 1 1 .X none) (.Trace 0 (-1)) : Expr ℚ)
    = some (.Mul (.Polynomial [3, 4] .X) (.Trace 0 (-1))) := by decide +kernel
example : Expr.trace_arguments (.Add (.Mul (.Trace 1 2) (.Trace 0 (-1))) (.Inv (.Trace 1 2)) : Expr ℚ) = some [(0, -1), (1, 2)] := by
  decide +kernel
-- a rewriting as in C42_map: x - x ↦ 0 at the root of every subtraction does not change values
example : Expr.map (fun e => match e with | .Neg (.Neg a) => some a | e => some e) (.Add .X (.Neg (.Neg (.Trace 0 1))) : Expr ℚ)
    = some (.Add .X (.Trace 0 1)) := by decide +kernel

end Props
end OpenZKP
