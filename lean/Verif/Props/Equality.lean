import Verif.Stark.Equality
import Verif.Stark.ChannelLemmas
import Verif.Props.Expr
import Mathlib.Algebra.MvPolynomial.SchwartzZippel
import Mathlib.Algebra.MvPolynomial.Supported
import Mathlib.RingTheory.Localization.FractionRing

/-!
# The probabilistic comparison of expressions: C89
-/

namespace OpenZKP
namespace Props
namespace Equality
open Stark MvPolynomial

section
variable {F : Type} [Field F] [DecidableEq F]

/-! ## Specification: expressions as rational functions of `X` and the trace cells -/

/-- the variables: `none` is `X`, `some (i, j)` is the trace cell of column `i` at offset `j` -/
abbrev Var := Option (Nat × Int)

/-- The rational function an expression stands for.  `none`: the expression divides by the zero function (so it has no value
anywhere) or contains a claim polynomial. -/
noncomputable def meaning : Expr F → Option (FractionRing (MvPolynomial Var F))
  | .X => some (algebraMap (MvPolynomial Var F) _ (X none))
  | .Constant c => some (algebraMap (MvPolynomial Var F) _ (C c))
  | .Trace i j => some (algebraMap (MvPolynomial Var F) _ (X (some (i, j))))
  | .Polynomial p a => (meaning a).map fun r => Polynomial.aeval r (toPoly p)
  | .ClaimPolynomial _ _ _ _ => none
  | .Add a b => (meaning a).bind fun r => (meaning b).map fun s => r + s
  | .Neg a => (meaning a).map fun r => -r
  | .Mul a b => (meaning a).bind fun r => (meaning b).map fun s => r * s
  | .Inv a => (meaning a).bind fun r => open Classical in if r = 0 then none else some r⁻¹
  | .Exp a e => (meaning a).map fun r => r ^ e

/-- the trace cells of an expression are all in `cells` -/
def CellsIn (cells : Finset (Nat × Int)) : Expr F → Prop
  | .Trace i j => (i, j) ∈ cells
  | .Polynomial _ a | .Neg a | .Inv a | .Exp a _ | .ClaimPolynomial _ _ a _ => CellsIn cells a
  | .Add a b | .Mul a b => CellsIn cells a ∧ CellsIn cells b
  | _ => True

/-- Degrees of a numerator and a denominator of an expression, where `X` and every trace cell count one: those of `degree(1)`, except that
a polynomial of degree `k` applied to `N / D` has a numerator of degree up to `k * deg D` too (`degree` leaves this out, see `C41_violated`). -/
def degreeBound : Expr F → Nat × Nat
  | .X | .Trace _ _ => (1, 0)
  | .Constant _ => (0, 0)
  | .Polynomial p a => (Poly.degree p * max (degreeBound a).1 (degreeBound a).2, Poly.degree p * (degreeBound a).2)
  | .ClaimPolynomial _ k a _ => (k * max (degreeBound a).1 (degreeBound a).2, k * (degreeBound a).2)
  | .Add a b => (max ((degreeBound a).1 + (degreeBound b).2) ((degreeBound b).1 + (degreeBound a).2), (degreeBound a).2 + (degreeBound b).2)
  | .Neg a => degreeBound a
  | .Mul a b => ((degreeBound a).1 + (degreeBound b).1, (degreeBound a).2 + (degreeBound b).2)
  | .Inv a => ((degreeBound a).2, (degreeBound a).1)
  | .Exp a e => (e * (degreeBound a).1, e * (degreeBound a).2)

/-- the degrees of the numerators of everything that is inverted, added up (with multiplicity) -/
def invertedDegree : Expr F → Nat
  | .Inv a => invertedDegree a + (degreeBound a).1
  | .Polynomial _ a | .Neg a | .Exp a _ | .ClaimPolynomial _ _ a _ => invertedDegree a
  | .Add a b | .Mul a b => invertedDegree a + invertedDegree b
  | _ => 0

/-- the values of the trace cells: those given for `cells`, zero elsewhere -/
def valuesOf {cells : Finset (Nat × Int)} (t : cells → F) (i : Nat) (j : Int) : F :=
  if h : (i, j) ∈ cells then t ⟨(i, j), h⟩ else 0

/-! ## Numerators and denominators -/

/-- the point of the variables -/
def point (x : F) (trace : Nat → Int → F) : Var → F
  | none => x
  | some c => trace c.1 c.2

local notation "P" => MvPolynomial Var F
local notation "ι" => algebraMap (MvPolynomial Var F) (FractionRing (MvPolynomial Var F))

/-- the variables of an expression with the cells `cells` -/
def varsOf (cells : Finset (Nat × Int)) : Set Var := {v | ∀ c, v = some c → c ∈ cells}

/-- `N / D` is `r`, with the degrees and the variables given, and its values are the values of `e` -/
structure Frac (cells : Finset (Nat × Int)) (e : Expr F) (r : FractionRing P) (n d k : Nat) (N D B : P) : Prop where
  den : D ≠ 0
  eq : r * ι D = ι N
  num_le : N.totalDegree ≤ n
  den_le : D.totalDegree ≤ d
  num_in : CellsIn cells e → N ∈ supported F (varsOf cells)
  den_in : CellsIn cells e → D ∈ supported F (varsOf cells)
  bad_ne : B ≠ 0
  bad_le : B.totalDegree ≤ k
  bad_in : CellsIn cells e → B ∈ supported F (varsOf cells)
  value : ∀ x t v, e.evaluate x (fun i j => some (t i j)) = some v → eval (point x t) D ≠ 0 ∧ v * eval (point x t) D = eval (point x t) N
  total : ∀ x t, eval (point x t) B ≠ 0 → (e.evaluate x fun i j => some (t i j)).isSome = true

omit [DecidableEq F] in
theorem iota_inj {p q : P} : ι p = ι q ↔ p = q := (IsFractionRing.injective P (FractionRing P)).eq_iff

omit [DecidableEq F] in
theorem iota_ne {p : P} (h : p ≠ 0) : ι p ≠ 0 := by
  rw [← map_zero ι]; exact fun e => h (iota_inj.1 e)

theorem frac_poly (cells : Finset (Nat × Int)) (p : List F) (a : Expr F) {r : FractionRing P} {k : Nat} {N D B : P}
    (h : Frac cells a r (degreeBound a).1 (degreeBound a).2 k N D B) :
    Frac cells (.Polynomial p a) (Polynomial.aeval r (toPoly p)) (Poly.degree p * max (degreeBound a).1 (degreeBound a).2) (Poly.degree p * (degreeBound a).2) k
      (∑ i ∈ Finset.range (Poly.degree p + 1), C ((toPoly p).coeff i) * (N ^ i * D ^ (Poly.degree p - i))) (D ^ Poly.degree p) B := by
  have hk : (toPoly p).natDegree = Poly.degree p := (C37_degree p).symm
  generalize Poly.degree p = m at hk ⊢
  have hD := iota_ne h.den
  have hr : r = ι N / ι D := by rw [eq_div_iff hD, h.eq]
  refine ⟨pow_ne_zero _ h.den, ?_, ?_, ?_, ?_, ?_, h.bad_ne, h.bad_le, h.bad_in, ?_, ?_⟩
  · rw [Polynomial.aeval_eq_sum_range, hk, map_sum, Finset.sum_mul, hr]
    apply Finset.sum_congr rfl
    intro i hi
    rw [Finset.mem_range] at hi
    rw [Algebra.smul_def, map_mul, map_mul, map_pow, map_pow, map_pow, div_pow]
    have e : (ι D) ^ m = (ι D) ^ i * (ι D) ^ (m - i) := by rw [← pow_add]; congr 1; omega
    rw [e, show algebraMap F (FractionRing P) ((toPoly p).coeff i) = ι (C ((toPoly p).coeff i)) by
      rw [IsScalarTower.algebraMap_apply F P (FractionRing P)]; rfl]
    field_simp
  · apply totalDegree_finsetSum_le
    intro i hi
    rw [Finset.mem_range] at hi
    refine (totalDegree_mul _ _).trans ?_
    have a0 := totalDegree_mul (N ^ i) (D ^ (m - i))
    have a1 := totalDegree_pow N i
    have a2 := totalDegree_pow D (m - i)
    have b1 : i * N.totalDegree ≤ i * max (degreeBound a).1 (degreeBound a).2 := Nat.mul_le_mul_left _ (h.num_le.trans (Nat.le_max_left _ _))
    have b2 : (m - i) * D.totalDegree ≤ (m - i) * max (degreeBound a).1 (degreeBound a).2 := Nat.mul_le_mul_left _ (h.den_le.trans (Nat.le_max_right _ _))
    have b3 : i * max (degreeBound a).1 (degreeBound a).2 + (m - i) * max (degreeBound a).1 (degreeBound a).2 = m * max (degreeBound a).1 (degreeBound a).2 := by rw [← Nat.add_mul]; congr 1; omega
    rw [totalDegree_C]
    omega
  · exact (totalDegree_pow _ _).trans (Nat.mul_le_mul_left _ h.den_le)
  · exact fun hc => Subalgebra.sum_mem _ fun i _ => Subalgebra.mul_mem _ (Subalgebra.algebraMap_mem _ _)
      (Subalgebra.mul_mem _ (Subalgebra.pow_mem _ (h.num_in hc) _) (Subalgebra.pow_mem _ (h.den_in hc) _))
  · exact fun hc => Subalgebra.pow_mem _ (h.den_in hc) _
  · intro x t v hv
    rw [Expr.evaluate, Option.map_eq_some_iff] at hv
    obtain ⟨u, hu, rfl⟩ := hv
    obtain ⟨h1, h2⟩ := h.value x t u hu
    refine ⟨by rw [map_pow]; exact pow_ne_zero _ h1, ?_⟩
    rw [C37_evaluate, Polynomial.eval_eq_sum_range, hk, map_sum, Finset.sum_mul]
    apply Finset.sum_congr rfl
    intro i hi
    rw [Finset.mem_range] at hi
    rw [map_mul, map_mul, map_pow, map_pow, map_pow, eval_C, ← h2, mul_pow]
    have e : m = i + (m - i) := by omega
    conv_lhs => rw [e, pow_add]
    ring
  · intro x t hB
    have := h.total x t hB
    rw [Option.isSome_iff_exists] at this
    obtain ⟨u, hu⟩ := this
    rw [Expr.evaluate, hu]; rfl

/-- every expression with a meaning is a quotient of polynomials, at every point where it has a value -/
theorem exists_frac (cells : Finset (Nat × Int)) (e : Expr F) (r : FractionRing P)
    (hr : meaning e = some r) :
    ∃ N D B, Frac cells e r (degreeBound e).1 (degreeBound e).2 (invertedDegree e) N D B := by
  induction e generalizing r with
  | X =>
    cases hr
    refine ⟨X none, 1, 1, one_ne_zero, by simp, ?_, by simp, ?_, fun _ => Subalgebra.one_mem _, one_ne_zero, by simp, fun _ => Subalgebra.one_mem _, ?_, ?_⟩
    · rw [totalDegree_X]; exact le_refl _
    · intro _; rw [X_mem_supported]; intro c hc; cases hc
    · intro x t v hv; cases hv; simp [point]
    · intro x t _; rfl
  | Constant c =>
    cases hr
    refine ⟨C c, 1, 1, one_ne_zero, by simp, by simp, by simp, fun _ => Subalgebra.algebraMap_mem _ _, fun _ => Subalgebra.one_mem _, one_ne_zero, by simp,
      fun _ => Subalgebra.one_mem _, ?_, ?_⟩
    · intro x t v hv; cases hv; simp
    · intro x t _; rfl
  | Trace i j =>
    cases hr
    refine ⟨X (some (i, j)), 1, 1, one_ne_zero, by simp, ?_, by simp, ?_, fun _ => Subalgebra.one_mem _, one_ne_zero, by simp, fun _ => Subalgebra.one_mem _, ?_, ?_⟩
    · rw [totalDegree_X]; exact le_refl _
    · intro hc; rw [X_mem_supported]; intro c hc'; cases hc'; exact hc
    · intro x t v hv; cases hv; simp [point]
    · intro x t _; rfl
  | Polynomial p a ih =>
    rw [meaning, Option.map_eq_some_iff] at hr
    obtain ⟨s, hs, rfl⟩ := hr
    obtain ⟨N, D, B, h⟩ := ih s hs
    exact ⟨_, _, B, frac_poly _ p a h⟩
  | ClaimPolynomial i n a _ ih => cases hr
  | Add a b iha ihb =>
    rw [meaning, Option.bind_eq_some_iff] at hr
    obtain ⟨s, hs, hr⟩ := hr
    obtain ⟨u, hu, rfl⟩ := Option.map_eq_some_iff.1 hr
    obtain ⟨N, D, B, h⟩ := iha s hs
    obtain ⟨M, E, B', h'⟩ := ihb u hu
    refine ⟨N * E + M * D, D * E, B * B', mul_ne_zero h.den h'.den, ?_, ?_, ?_, ?_, ?_, mul_ne_zero h.bad_ne h'.bad_ne, ?_, ?_, ?_, ?_⟩
    · rw [map_add, map_mul, map_mul, map_mul, ← h.eq, ← h'.eq]; ring
    · refine (totalDegree_add _ _).trans ?_
      have := totalDegree_mul N E
      have := totalDegree_mul M D
      have := h.num_le; have := h.den_le; have := h'.num_le; have := h'.den_le
      simp only [degreeBound]
      omega
    · refine (totalDegree_mul _ _).trans ?_
      have := h.den_le; have := h'.den_le
      simp only [degreeBound]
      omega
    · exact fun hc => Subalgebra.add_mem _ (Subalgebra.mul_mem _ (h.num_in hc.1) (h'.den_in hc.2)) (Subalgebra.mul_mem _ (h'.num_in hc.2) (h.den_in hc.1))
    · exact fun hc => Subalgebra.mul_mem _ (h.den_in hc.1) (h'.den_in hc.2)
    · refine (totalDegree_mul _ _).trans ?_
      have := h.bad_le; have := h'.bad_le
      simp only [invertedDegree]
      omega
    · exact fun hc => Subalgebra.mul_mem _ (h.bad_in hc.1) (h'.bad_in hc.2)
    · intro x t v hv
      rw [Expr.evaluate, Option.bind_eq_some_iff] at hv
      obtain ⟨y, hy, hv⟩ := hv
      obtain ⟨z, hz, rfl⟩ := Option.map_eq_some_iff.1 hv
      obtain ⟨h1, h2⟩ := h.value x t y hy
      obtain ⟨h3, h4⟩ := h'.value x t z hz
      refine ⟨by rw [map_mul]; exact mul_ne_zero h1 h3, ?_⟩
      rw [map_add, map_mul, map_mul, map_mul, ← h2, ← h4]; ring
    · intro x t hB
      rw [map_mul] at hB
      obtain ⟨y, hy⟩ := Option.isSome_iff_exists.1 (h.total x t (left_ne_zero_of_mul hB))
      obtain ⟨z, hz⟩ := Option.isSome_iff_exists.1 (h'.total x t (right_ne_zero_of_mul hB))
      rw [Expr.evaluate, hy, hz]; rfl
  | Neg a ih =>
    rw [meaning, Option.map_eq_some_iff] at hr
    obtain ⟨s, hs, rfl⟩ := hr
    obtain ⟨N, D, B, h⟩ := ih s hs
    refine ⟨-N, D, B, h.den, ?_, ?_, h.den_le, fun hc => Subalgebra.neg_mem _ (h.num_in hc), h.den_in, h.bad_ne, h.bad_le, h.bad_in, ?_, ?_⟩
    · rw [map_neg, ← h.eq]; ring
    · rw [totalDegree_neg]; exact h.num_le
    · intro x t v hv
      rw [Expr.evaluate, Option.map_eq_some_iff] at hv
      obtain ⟨y, hy, rfl⟩ := hv
      obtain ⟨h1, h2⟩ := h.value x t y hy
      exact ⟨h1, by rw [map_neg, ← h2]; ring⟩
    · intro x t hB
      obtain ⟨y, hy⟩ := Option.isSome_iff_exists.1 (h.total x t hB)
      rw [Expr.evaluate, hy]; rfl
  | Mul a b iha ihb =>
    rw [meaning, Option.bind_eq_some_iff] at hr
    obtain ⟨s, hs, hr⟩ := hr
    obtain ⟨u, hu, rfl⟩ := Option.map_eq_some_iff.1 hr
    obtain ⟨N, D, B, h⟩ := iha s hs
    obtain ⟨M, E, B', h'⟩ := ihb u hu
    refine ⟨N * M, D * E, B * B', mul_ne_zero h.den h'.den, ?_, ?_, ?_, ?_, ?_, mul_ne_zero h.bad_ne h'.bad_ne, ?_, ?_, ?_, ?_⟩
    · rw [map_mul, map_mul, ← h.eq, ← h'.eq]; ring
    · refine (totalDegree_mul _ _).trans ?_
      have := h.num_le; have := h'.num_le
      simp only [degreeBound]
      omega
    · refine (totalDegree_mul _ _).trans ?_
      have := h.den_le; have := h'.den_le
      simp only [degreeBound]
      omega
    · exact fun hc => Subalgebra.mul_mem _ (h.num_in hc.1) (h'.num_in hc.2)
    · exact fun hc => Subalgebra.mul_mem _ (h.den_in hc.1) (h'.den_in hc.2)
    · refine (totalDegree_mul _ _).trans ?_
      have := h.bad_le; have := h'.bad_le
      simp only [invertedDegree]
      omega
    · exact fun hc => Subalgebra.mul_mem _ (h.bad_in hc.1) (h'.bad_in hc.2)
    · intro x t v hv
      rw [Expr.evaluate, Option.bind_eq_some_iff] at hv
      obtain ⟨y, hy, hv⟩ := hv
      obtain ⟨z, hz, rfl⟩ := Option.map_eq_some_iff.1 hv
      obtain ⟨h1, h2⟩ := h.value x t y hy
      obtain ⟨h3, h4⟩ := h'.value x t z hz
      refine ⟨by rw [map_mul]; exact mul_ne_zero h1 h3, ?_⟩
      rw [map_mul, map_mul, ← h2, ← h4]; ring
    · intro x t hB
      rw [map_mul] at hB
      obtain ⟨y, hy⟩ := Option.isSome_iff_exists.1 (h.total x t (left_ne_zero_of_mul hB))
      obtain ⟨z, hz⟩ := Option.isSome_iff_exists.1 (h'.total x t (right_ne_zero_of_mul hB))
      rw [Expr.evaluate, hy, hz]; rfl
  | Inv a ih =>
    rw [meaning, Option.bind_eq_some_iff] at hr
    obtain ⟨s, hs, hr⟩ := hr
    obtain ⟨N, D, B, h⟩ := ih s hs
    split at hr
    · cases hr
    · next hs0 =>
      cases hr
      have hN : N ≠ 0 := by
        rintro rfl
        have := h.eq
        rw [map_zero] at this
        exact (mul_ne_zero hs0 (iota_ne h.den)) this
      refine ⟨D, N, B * N, hN, ?_, h.den_le, h.num_le, h.den_in, h.num_in, mul_ne_zero h.bad_ne hN, ?_, fun hc => Subalgebra.mul_mem _ (h.bad_in hc) (h.num_in hc),
        ?_, ?_⟩
      · rw [← h.eq]; field_simp
      · refine (totalDegree_mul _ _).trans ?_
        have := h.bad_le; have := h.num_le
        simp only [invertedDegree]
        omega
      · intro x t v hv
        rw [Expr.evaluate, Option.bind_eq_some_iff] at hv
        obtain ⟨y, hy, hv⟩ := hv
        unfold finv at hv
        split at hv
        · cases hv
        · next hy0 =>
          cases hv
          obtain ⟨h1, h2⟩ := h.value x t y hy
          rw [← h2]
          exact ⟨mul_ne_zero hy0 h1, by field_simp⟩
      · intro x t hB
        rw [map_mul] at hB
        obtain ⟨y, hy⟩ := Option.isSome_iff_exists.1 (h.total x t (left_ne_zero_of_mul hB))
        have h3 := right_ne_zero_of_mul hB
        have h2 := (h.value x t y hy).2
        have hy0 : y ≠ 0 := by rintro rfl; rw [zero_mul] at h2; exact h3 h2.symm
        rw [Expr.evaluate, hy, Option.bind_some, finv, if_neg hy0]; rfl
  | Exp a k ih =>
    rw [meaning, Option.map_eq_some_iff] at hr
    obtain ⟨s, hs, rfl⟩ := hr
    obtain ⟨N, D, B, h⟩ := ih s hs
    refine ⟨N ^ k, D ^ k, B, pow_ne_zero _ h.den, ?_, ?_, ?_, fun hc => Subalgebra.pow_mem _ (h.num_in hc) _, fun hc => Subalgebra.pow_mem _ (h.den_in hc) _, h.bad_ne,
      h.bad_le, h.bad_in, ?_, ?_⟩
    · rw [map_pow, map_pow, ← h.eq, mul_pow]
    · exact (totalDegree_pow _ _).trans (Nat.mul_le_mul_left _ h.num_le)
    · exact (totalDegree_pow _ _).trans (Nat.mul_le_mul_left _ h.den_le)
    · intro x t v hv
      rw [Expr.evaluate, Option.map_eq_some_iff] at hv
      obtain ⟨y, hy, rfl⟩ := hv
      obtain ⟨h1, h2⟩ := h.value x t y hy
      exact ⟨by rw [map_pow]; exact pow_ne_zero _ h1, by rw [map_pow, map_pow, ← h2, mul_pow]⟩
    · intro x t hB
      obtain ⟨y, hy⟩ := Option.isSome_iff_exists.1 (h.total x t hB)
      rw [Expr.evaluate, hy]; rfl

/-- an expression without a meaning has no value anywhere -/
theorem no_value (e : Expr F) (h : meaning e = none) (x : F) (t : Nat → Int → F) : (e.evaluate x fun i j => some (t i j)) = none := by
  induction e with
  | X => cases h
  | Constant c => cases h
  | Trace i j => cases h
  | Polynomial p a ih =>
    rw [meaning, Option.map_eq_none_iff] at h
    rw [Expr.evaluate, ih h]; rfl
  | ClaimPolynomial i n a _ ih => rfl
  | Add a b iha ihb =>
    rw [meaning] at h
    cases ha : meaning a with
    | none => rw [Expr.evaluate, iha ha]; rfl
    | some r =>
      rw [ha, Option.bind_some, Option.map_eq_none_iff] at h
      rw [Expr.evaluate, ihb h]
      exact Option.bind_eq_none_iff.2 fun _ _ => rfl
  | Neg a ih =>
    rw [meaning, Option.map_eq_none_iff] at h
    rw [Expr.evaluate, ih h]; rfl
  | Mul a b iha ihb =>
    rw [meaning] at h
    cases ha : meaning a with
    | none => rw [Expr.evaluate, iha ha]; rfl
    | some r =>
      rw [ha, Option.bind_some, Option.map_eq_none_iff] at h
      rw [Expr.evaluate, ihb h]
      exact Option.bind_eq_none_iff.2 fun _ _ => rfl
  | Inv a ih =>
    rw [meaning] at h
    cases ha : meaning a with
    | none => rw [Expr.evaluate, ih ha]; rfl
    | some r =>
      rw [ha, Option.bind_some] at h
      split at h
      · next hr =>
        subst hr
        obtain ⟨N, D, B, hf⟩ := exists_frac ∅ a 0 ha
        have hN : N = 0 := by
          have := hf.eq
          rw [zero_mul, ← map_zero ι] at this
          exact (iota_inj.1 this).symm
        rw [Expr.evaluate]
        apply Option.bind_eq_none_iff.2
        intro v hv
        obtain ⟨h1, h2⟩ := hf.value x t v hv
        rw [hN, map_zero] at h2
        rw [finv, if_pos ((mul_eq_zero.1 h2).resolve_right h1)]
      · cases h
  | Exp a k ih =>
    rw [meaning, Option.map_eq_none_iff] at h
    rw [Expr.evaluate, ih h]; rfl

/-- at a point where two expressions with values disagree with the difference of their functions, a polynomial vanishes -/
theorem equalsAt_some {x : F} {t : Nat → Int → F} {a b : Expr F} {r : Bool} (h : Expr.equalsAt x t a b = some r) :
    ∃ v w, a.evaluate x (fun i j => some (t i j)) = some v ∧ b.evaluate x (fun i j => some (t i j)) = some w ∧ r = decide (v = w) := by
  unfold Expr.equalsAt at h
  obtain ⟨v, hv, h⟩ := Option.bind_eq_some_iff.1 h
  obtain ⟨w, hw, h⟩ := Option.map_eq_some_iff.1 h
  exact ⟨v, w, hv, hw, h.symm⟩

/-! ## The theorems -/

/-- C89: expressions that are the same rational function are never reported different: whatever the point and the values of the trace
cells, `equals` answers `true` or panics. -/
theorem C89_equal (a b : Expr F) (r : FractionRing P) (ha : meaning a = some r) (hb : meaning b = some r) (x : F) (t : Nat → Int → F) :
    Expr.equalsAt x t a b ≠ some false := by
  intro h
  obtain ⟨v, w, hv, hw, hvw⟩ := equalsAt_some h
  obtain ⟨N, D, B, hf⟩ := exists_frac ∅ a r ha
  obtain ⟨M, E, B', hg⟩ := exists_frac ∅ b r hb
  obtain ⟨h1, h2⟩ := hf.value x t v hv
  obtain ⟨h3, h4⟩ := hg.value x t w hw
  have hNE : N * E = M * D := by
    rw [← iota_inj, map_mul, map_mul, ← hf.eq, ← hg.eq]; ring
  have e := congrArg (eval (point x t)) hNE
  rw [map_mul, map_mul, ← h2, ← h4] at e
  have : v = w := by
    have : v * (eval (point x t) D * eval (point x t) E) = w * (eval (point x t) D * eval (point x t) E) := by linear_combination e
    exact mul_right_cancel₀ (mul_ne_zero h1 h3) this
  simp [this] at hvw

/-- C89: an expression that divides by the zero function (or has a claim polynomial left) is never reported equal to anything. -/
theorem C89_no_meaning (a b : Expr F) (h : meaning a = none ∨ meaning b = none) (x : F) (t : Nat → Int → F) :
    Expr.equalsAt x t a b = none := by
  unfold Expr.equalsAt
  rcases h with h | h
  · rw [no_value a h]; rfl
  · rw [no_value b h]
    exact Option.bind_eq_none_iff.2 fun _ _ => rfl

/-! ### Counting -/

variable [Fintype F]

/-- the zeros of a polynomial of degree `d` in `X` and the cells are at most the fraction `d / |F|` of all points -/
theorem zeros_le (cells : Finset (Nat × Int)) (p : P) (hp : p ≠ 0) (hs : p ∈ supported F (varsOf cells)) :
    (Finset.univ.filter fun q : F × (cells → F) => eval (point q.1 (valuesOf q.2)) p = 0).card ≤ p.totalDegree * Fintype.card F ^ cells.card := by
  classical
  -- the variables, as a finite type
  let j : Option cells → Var := fun o => o.map Subtype.val
  have hj : Function.Injective j := Option.map_injective Subtype.val_injective
  obtain ⟨q, rfl⟩ := exists_rename_eq_of_vars_subset_range p j hj (by
    rw [mem_supported] at hs
    intro v hv
    cases v with
    | none => exact ⟨none, rfl⟩
    | some c => exact ⟨some ⟨c, hs hv c rfl⟩, rfl⟩)
  have hq : q ≠ 0 := by rintro rfl; exact hp (map_zero _)
  have hdeg : q.totalDegree ≤ (rename j q).totalDegree := by
    have := totalDegree_rename_le (Function.invFun j) (rename j q)
    rwa [rename_rename, Function.invFun_comp hj, rename_id_apply] at this
  obtain ⟨n, ⟨e⟩⟩ := Finite.exists_equiv_fin (Option cells)
  have hn : n = cells.card + 1 := by
    have := Fintype.card_congr e
    simpa using this.symm
  have hq' : rename e q ≠ 0 := by
    rw [Ne, ← map_zero (rename e), (rename_injective _ e.injective).eq_iff]; exact hq
  have hsz := schwartz_zippel_totalDegree hq' (Finset.univ : Finset F)
  have hde : (rename e q).totalDegree = q.totalDegree := totalDegree_renameEquiv e q
  rw [hde, Finset.card_univ] at hsz
  have hF : (0 : ℚ≥0) < Fintype.card F := by exact_mod_cast Fintype.card_pos
  have hcard : (Finset.univ.filter fun q' : F × (cells → F) => eval (point q'.1 (valuesOf q'.2)) (rename j q) = 0).card ≤
      ({f ∈ Fintype.piFinset fun _ : Fin n => (Finset.univ : Finset F) | eval f (rename e q) = 0} : Finset (Fin n → F)).card := by
    refine Finset.card_le_card_of_injOn (fun q' k => match e.symm k with | none => q'.1 | some c => q'.2 c) ?_ ?_
    · intro q' h
      simp only [Finset.coe_filter, Set.mem_setOf_eq, Finset.mem_univ, true_and] at h
      simp only [Finset.coe_filter, Set.mem_setOf_eq, Fintype.mem_piFinset, Finset.mem_univ, implies_true, true_and]
      rw [eval_rename] at h ⊢
      rw [← h]
      congr 2
      funext o
      simp only [Function.comp_apply, Equiv.symm_apply_apply]
      cases o with
      | none => rfl
      | some c =>
        show q'.2 c = valuesOf q'.2 c.1.1 c.1.2
        rw [valuesOf, dif_pos c.2]
    · intro q1 _ q2 _ h
      have h1 := congrFun h (e none)
      simp only [Equiv.symm_apply_apply] at h1
      refine Prod.ext h1 (funext fun c => ?_)
      have h2 := congrFun h (e (some c))
      simpa only [Equiv.symm_apply_apply] using h2
  refine hcard.trans (le_trans ?_ (Nat.mul_le_mul_right _ hdeg))
  rw [div_le_div_iff₀ (by positivity) hF] at hsz
  have h3 : ({f ∈ Fintype.piFinset fun _ : Fin n => (Finset.univ : Finset F) | eval f (rename e q) = 0} : Finset (Fin n → F)).card * Fintype.card F ≤
      q.totalDegree * Fintype.card F ^ n := by exact_mod_cast hsz
  rw [show Fintype.card F ^ n = Fintype.card F ^ (cells.card + 1) by rw [hn]] at h3
  rw [pow_succ, ← mul_assoc] at h3
  exact Nat.le_of_mul_le_mul_right h3 Fintype.card_pos

/-- C89: expressions that are different rational functions are reported equal at no more than the fraction `d / |F|` of all points
and values of the trace cells, where `d` is the degree of the numerator of their difference
(the one that the library reports, see `C89_degree`). -/
theorem C89_different (cells : Finset (Nat × Int)) (a b : Expr F) (ca : CellsIn cells a) (cb : CellsIn cells b)
    (h : meaning a ≠ meaning b) :
    (Finset.univ.filter fun q : F × (cells → F) => Expr.equalsAt q.1 (valuesOf q.2) a b = some true).card ≤
      (degreeBound (a.sub b)).1 * Fintype.card F ^ cells.card := by
  cases ha : meaning a with
  | none =>
    rw [Finset.filter_false_of_mem]
    · simp
    · intro q _ e; rw [C89_no_meaning a b (Or.inl ha)] at e; cases e
  | some r =>
    cases hb : meaning b with
    | none =>
      rw [Finset.filter_false_of_mem]
      · simp
      · intro q _ e; rw [C89_no_meaning a b (Or.inr hb)] at e; cases e
    | some s =>
      obtain ⟨N, D, B, hf⟩ := exists_frac cells a r ha
      obtain ⟨M, E, B', hg⟩ := exists_frac cells b s hb
      have hne : N * E + -M * D ≠ 0 := by
        intro e
        apply h
        rw [ha, hb]
        congr 1
        have e' := congrArg ι e
        rw [map_add, map_mul, map_mul, map_neg, map_zero, ← hf.eq, ← hg.eq] at e'
        have : (r - s) * (ι D * ι E) = 0 := by linear_combination e'
        exact sub_eq_zero.1 ((mul_eq_zero.1 this).resolve_right (mul_ne_zero (iota_ne hf.den) (iota_ne hg.den)))
      have hin : N * E + -M * D ∈ supported F (varsOf cells) :=
        Subalgebra.add_mem _ (Subalgebra.mul_mem _ (hf.num_in ca) (hg.den_in cb)) (Subalgebra.mul_mem _ (Subalgebra.neg_mem _ (hg.num_in cb)) (hf.den_in ca))
      have hdeg : (N * E + -M * D).totalDegree ≤ (degreeBound (a.sub b)).1 := by
        refine (totalDegree_add _ _).trans ?_
        have h1 := totalDegree_mul N E
        have h2 := totalDegree_mul (-M) D
        rw [totalDegree_neg] at h2
        have := hf.num_le; have := hf.den_le; have := hg.num_le; have := hg.den_le
        simp only [Expr.sub, Expr.add, Expr.neg, degreeBound] at *
        omega
      refine (Finset.card_le_card ?_).trans ((zeros_le cells _ hne hin).trans (Nat.mul_le_mul_right _ hdeg))
      intro q hq
      rw [Finset.mem_filter] at hq ⊢
      refine ⟨hq.1, ?_⟩
      obtain ⟨v, w, hv, hw, hvw⟩ := equalsAt_some hq.2
      have hvw : v = w := by simpa using hvw
      subst hvw
      obtain ⟨h1, h2⟩ := hf.value _ _ v hv
      obtain ⟨h3, h4⟩ := hg.value _ _ v hw
      rw [map_add, map_mul, map_mul, map_neg, ← h2, ← h4]; ring

/-- C89: the bound is the degree the library reports, wherever polynomials are applied to arguments whose numerator has at least the degree
of the denominator. -/
theorem C89_degree (e : Expr F) (h : PolyArgs 1 1 e) : degreeBound e = e.degree 1 := by
  unfold Expr.degree
  induction e with
  | X => rfl
  | Constant c => rfl
  | Trace i j => rfl
  | Polynomial p a ih => rw [degreeBound, Expr.degree_impl, ih h.2, max_eq_left h.1]
  | ClaimPolynomial i n a _ ih => rw [degreeBound, Expr.degree_impl, ih h.2, max_eq_left h.1]
  | Add a b iha ihb => rw [degreeBound, Expr.degree_impl, iha h.1, ihb h.2]
  | Neg a ih => rw [degreeBound, Expr.degree_impl, ih h]
  | Mul a b iha ihb => rw [degreeBound, Expr.degree_impl, iha h.1, ihb h.2]
  | Inv a ih => rw [degreeBound, Expr.degree_impl, ih h]
  | Exp a k ih => rw [degreeBound, Expr.degree_impl, ih h]

/-- C89: `equals` panics on expressions with a meaning (because it divides by zero) at no more than the fraction `k / |F|` of all points
and values of the trace cells, where `k` adds up the degrees of everything the two expressions invert. -/
theorem C89_returns (cells : Finset (Nat × Int)) (a b : Expr F) (ca : CellsIn cells a) (cb : CellsIn cells b)
    (ha : (meaning a).isSome = true) (hb : (meaning b).isSome = true) :
    (Finset.univ.filter fun q : F × (cells → F) => Expr.equalsAt q.1 (valuesOf q.2) a b = none).card ≤
      (invertedDegree a + invertedDegree b) * Fintype.card F ^ cells.card := by
  obtain ⟨r, ha⟩ := Option.isSome_iff_exists.1 ha
  obtain ⟨s, hb⟩ := Option.isSome_iff_exists.1 hb
  obtain ⟨N, D, B, hf⟩ := exists_frac cells a r ha
  obtain ⟨M, E, B', hg⟩ := exists_frac cells b s hb
  have hdeg : (B * B').totalDegree ≤ invertedDegree a + invertedDegree b := by
    refine (totalDegree_mul _ _).trans ?_
    have := hf.bad_le; have := hg.bad_le
    omega
  refine (Finset.card_le_card ?_).trans ((zeros_le cells _ (mul_ne_zero hf.bad_ne hg.bad_ne)
    (Subalgebra.mul_mem _ (hf.bad_in ca) (hg.bad_in cb))).trans (Nat.mul_le_mul_right _ hdeg))
  intro q hq
  rw [Finset.mem_filter] at hq ⊢
  refine ⟨hq.1, ?_⟩
  by_contra hB
  rw [map_mul] at hB
  obtain ⟨y, hy⟩ := Option.isSome_iff_exists.1 (hf.total _ _ (left_ne_zero_of_mul hB))
  obtain ⟨z, hz⟩ := Option.isSome_iff_exists.1 (hg.total _ _ (right_ne_zero_of_mul hB))
  have := hq.2
  rw [Expr.equalsAt, hy, hz] at this
  cases this

omit [Fintype F] in
theorem evaluate_no_cells (e : Expr F) (h : CellsIn ∅ e) (x : F) (t t' : Nat → Int → Option F) : e.evaluate x t = e.evaluate x t' := by
  induction e with
  | X => rfl
  | Constant c => rfl
  | Trace i j => simp [CellsIn] at h
  | Polynomial p a ih => rw [Expr.evaluate, Expr.evaluate, ih h]
  | ClaimPolynomial i n a _ ih => rfl
  | Add a b iha ihb => rw [Expr.evaluate, Expr.evaluate, iha h.1, ihb h.2]
  | Neg a ih => rw [Expr.evaluate, Expr.evaluate, ih h]
  | Mul a b iha ihb => rw [Expr.evaluate, Expr.evaluate, iha h.1, ihb h.2]
  | Inv a ih => rw [Expr.evaluate, Expr.evaluate, ih h]
  | Exp a k ih => rw [Expr.evaluate, Expr.evaluate, ih h]

/-- C89: for expressions in `X` alone no assumption about the hash function is needed: `equals` as written answers `true` for different
rational functions on at most `d` of the field elements it may draw. -/
theorem C89_different_no_trace (K : Keccak) (bytes : F → Bytes) (toField : Bytes → F) (a b : Expr F) (ca : CellsIn ∅ a) (cb : CellsIn ∅ b)
    (h : meaning a ≠ meaning b) :
    (Finset.univ.filter fun x : F => Expr.equals K bytes toField x a b = some true).card ≤ (degreeBound (a.sub b)).1 := by
  have h1 := C89_different ∅ a b ca cb h
  rw [Finset.card_empty, pow_zero, mul_one] at h1
  refine le_trans (Finset.card_le_card_of_injOn (fun x => (x, fun _ => 0)) ?_ ?_) h1
  · intro x hx
    simp only [Finset.coe_filter, Set.mem_setOf_eq, Finset.mem_univ, true_and] at hx ⊢
    rw [← hx]
    unfold Expr.equals Expr.equalsAt
    rw [evaluate_no_cells a ca x _ (fun i j => some (cellValue K bytes toField x i j)),
      evaluate_no_cells b cb x _ (fun i j => some (cellValue K bytes toField x i j))]
  · intro x _ y _ e
    exact congrArg Prod.fst e

omit [Fintype F] in
/-- C89: the same rational function is never reported different by `equals` as written, whatever the hash function and the point. -/
theorem C89_equal_hash (K : Keccak) (bytes : F → Bytes) (toField : Bytes → F) (a b : Expr F) (r : FractionRing P) (ha : meaning a = some r)
    (hb : meaning b = some r) (x : F) : Expr.equals K bytes toField x a b ≠ some false :=
  C89_equal a b r ha hb x _

end

theorem to_be_bytes_inj (k n m : Nat) (h1 : n < 256 ^ k) (h2 : m < 256 ^ k) (h : to_be_bytes k n = to_be_bytes k m) : n = m := by
  have := congrArg beValue h
  rwa [to_be_bytes_value, to_be_bytes_value, Nat.mod_eq_of_lt h1, Nat.mod_eq_of_lt h2] at this

/-- C89: the hash inputs of two cells (a column that is a `usize`, an offset that is an `isize`) differ unless the point and the cell are
the same, so that an ideal hash function gives the cells independent values. -/
theorem C89_cells_distinct {F : Type} (bytes : F → Bytes) (hb : ∀ x, (bytes x).length = 32) (hi : Function.Injective bytes) (x x' : F)
    (i i' : Nat) (j j' : Int) (h1 : i < 2 ^ 64) (h2 : i' < 2 ^ 64) (h3 : -2 ^ 63 ≤ j) (h4 : j < 2 ^ 63) (h5 : -2 ^ 63 ≤ j') (h6 : j' < 2 ^ 63)
    (h : cellPreimage bytes x i j = cellPreimage bytes x' i' j') : x = x' ∧ i = i' ∧ j = j' := by
  unfold cellPreimage at h
  obtain ⟨h7, h8⟩ := List.append_inj h (by simp [to_be_bytes_length, hb])
  obtain ⟨h9, h10⟩ := List.append_inj h7 (by rw [hb, hb])
  refine ⟨hi h9, to_be_bytes_inj 8 _ _ (by omega) (by omega) h10, ?_⟩
  have := to_be_bytes_inj 8 _ _ (by omega) (by omega) h8
  omega

/-! ## Examples -/

section
variable {F : Type} [Field F] [DecidableEq F]

/-- `test_equal` of the library: `X` and `X^2 / X` are the same function; `X^3 / X` is another -/
theorem meaning_pow_div (n : Nat) : meaning (.Mul (.Exp .X (n + 1)) (.Inv .X) : Expr F) =
    some (algebraMap (MvPolynomial Var F) (FractionRing (MvPolynomial Var F)) (X none ^ n)) := by
  have hX : algebraMap (MvPolynomial Var F) (FractionRing (MvPolynomial Var F)) (X none) ≠ 0 := iota_ne (X_ne_zero _)
  simp only [meaning, Option.map_some, Option.bind_some, if_neg hX, map_pow]
  congr 1
  rw [pow_succ, mul_assoc, mul_inv_cancel₀ hX, mul_one]

example : meaning (.X : Expr F) = meaning (.Mul (.Exp .X 2) (.Inv .X)) := by
  rw [meaning_pow_div 1, pow_one]; rfl

example : meaning (.X : Expr F) ≠ meaning (.Mul (.Exp .X 3) (.Inv .X)) := by
  rw [meaning_pow_div 2]
  intro h
  have h := iota_inj.1 (Option.some.inj h)
  have := congrArg totalDegree h
  rw [totalDegree_X, totalDegree_X_pow] at this
  omega

-- the bounds for this pair: at most 3 points where it is reported equal, at most 1 where it panics
example : (degreeBound ((.X : Expr ℚ).sub (.Mul (.Exp .X 3) (.Inv .X)))).1 = 3 ∧
    invertedDegree (.X : Expr ℚ) + invertedDegree (.Mul (.Exp .X 3) (.Inv .X) : Expr ℚ) = 1 ∧
    PolyArgs 1 1 (.Mul (.Exp .X 3) (.Inv .X) : Expr ℚ) ∧ CellsIn ∅ (.Mul (.Exp .X 3) (.Inv .X) : Expr ℚ) :=
  ⟨by decide +kernel, by decide +kernel, ⟨trivial, trivial⟩, ⟨trivial, trivial⟩⟩

-- it does answer `true` at the points 0 ≠ x = x^2, and panics at 0
example : Expr.equalsAt (1 : ℚ) (fun _ _ => 0) .X (.Mul (.Exp .X 3) (.Inv .X)) = some true ∧
    Expr.equalsAt (2 : ℚ) (fun _ _ => 0) .X (.Mul (.Exp .X 3) (.Inv .X)) = some false ∧
    Expr.equalsAt (0 : ℚ) (fun _ _ => 0) .X (.Mul (.Exp .X 3) (.Inv .X)) = none ∧
    Expr.equalsAt (2 : ℚ) (fun _ _ => 0) .X (.Mul (.Exp .X 2) (.Inv .X)) = some true := by decide +kernel

-- cells: a product of two cells is not their sum
example : meaning (.Mul (.Trace 0 0) (.Trace 0 1) : Expr F) ≠ meaning (.Add (.Trace 0 0) (.Trace 0 1)) := by
  intro h
  have h := Option.some.inj h
  beta_reduce at h
  rw [← map_mul, ← map_add] at h
  have h := congrArg (eval fun v : Var => if v = some (0, 0) then (1 : F) else 0) (iota_inj.1 h)
  simp at h

end
end Equality
end Props
end OpenZKP
