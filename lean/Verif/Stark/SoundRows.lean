import Verif.Stark.SoundMain

/-!
Lemmas: constraints without poles hold in the rows of a table.
-/

namespace OpenZKP
namespace Stark
namespace Accept
open FFT U256 Props Polynomial

section
variable {F : Type} [Field F] [DecidableEq F]

local notation "ι" => algebraMap F[X] (RatFunc F)

theorem rowValue_eq (c : Constraints F) (g : F) (k : Nat) (hg : orderOf g = 2 ^ k) (T : Nat → F[X]) (r : Nat) (e : Expr F) :
    rowValue c g (2 ^ k) (fun r i => (T i).eval (g ^ r)) r e = constraintValue c g T (g ^ r) e := by
  unfold rowValue constraintValue
  apply claimValue_congr
  intro i j _
  congr 2
  have hg0 : g ≠ 0 := orderOf_ne_zero hg
  have hpos : (0 : Int) < (2 ^ k : Nat) := by exact_mod_cast Nat.two_pow_pos k
  have h1 : (0 : Int) ≤ ((r : Int) + j) % (2 ^ k : Nat) := Int.emod_nonneg _ (by omega)
  have h2 : g ^ ((((r : Int) + j) % (2 ^ k : Nat)).toNat : Int) = g ^ ((r : Int) + j) := by
    rw [Int.toNat_of_nonneg h1]
    have h3 : ((r : Int) + j) = ((r : Int) + j) % (2 ^ k : Nat) + ((2 ^ k : Nat) : Int) * (((r : Int) + j) / (2 ^ k : Nat)) := (Int.emod_add_mul_ediv _ _).symm
    conv_rhs => rw [h3]
    rw [zpow_add₀ hg0, zpow_mul, zpow_natCast, ← hg, pow_orderOf_eq_one, one_zpow, mul_one]
  show eval (g ^ (((r : Int) + j) % (2 ^ k : Nat)).toNat) (T i) = _
  rw [← zpow_natCast, h2, zpow_add₀ hg0, zpow_natCast]

omit [DecidableEq F] in
theorem aeval_iota (A P : F[X]) : aeval (ι A) P = ι (P.comp A) := by
  have h1 : P.comp A = aeval A P := comp_eq_aeval
  rw [h1]
  exact (aeval_algebraMap_apply (RatFunc F) A P)

/-- expressions without inverses are polynomials -/
theorem free_poly (c : Constraints F) (g : F) (T : Nat → F[X]) (z : F) (e : Expr F) (he : DivisionFree e) (hz : constraintValue c g T z e ≠ none) :
    ∃ A : F[X], constraintFunction c g T e = ι A ∧ ∀ x, constraintValue c g T x e = some (A.eval x) := by
  unfold constraintValue at hz ⊢
  unfold constraintFunction
  induction e with
  | X => exact ⟨X, by simp [denote], fun x => by simp [claimValue]⟩
  | Constant a => exact ⟨C a, by simp [denote], fun x => by simp [claimValue]⟩
  | Trace i j => exact ⟨(T i).comp (C (g ^ j) * X), rfl, fun x => by
    rw [eval_comp, eval_mul, eval_C, eval_X, mul_comm]; rfl⟩
  | Polynomial p a ih =>
    obtain ⟨A, h1, h2⟩ := ih he (fun h => hz (by simp [claimValue, h]))
    refine ⟨(toPoly p).comp A, ?_, fun x => by simp [claimValue, h2 x]⟩
    simp only [denote, h1]
    exact aeval_iota A (toPoly p)
  | ClaimPolynomial i d a nm ih =>
    simp only [claimValue] at hz
    split at hz
    · rename_i P u h1 h2
      split at hz
      · rename_i h3
        obtain ⟨A, h4, h5⟩ := ih he (by rw [h2]; simp)
        obtain ⟨l, hl, rfl⟩ := Option.map_eq_some_iff.1 h1
        have e1 : c.claim_polynomials.getD i [] = l := by rw [List.getD, hl]; rfl
        refine ⟨(toPoly l).comp A, ?_, fun x => ?_⟩
        · simp only [denote, h4, e1]
          exact aeval_iota A (toPoly l)
        · simp only [claimValue, h5 x, h1]
          rw [if_pos h3, eval_comp]
      · exact absurd rfl hz
    · exact absurd rfl hz
  | Add a b iha ihb =>
    simp only [claimValue] at hz
    split at hz
    · rename_i u u' h1 h2
      obtain ⟨A, a1, a2⟩ := iha he.1 (by rw [h1]; simp)
      obtain ⟨B, b1, b2⟩ := ihb he.2 (by rw [h2]; simp)
      exact ⟨A + B, by simp only [denote, a1, b1, map_add], fun x => by simp only [claimValue, a2 x, b2 x, eval_add]⟩
    · exact absurd rfl hz
  | Neg a ih =>
    obtain ⟨A, h1, h2⟩ := ih he (fun h => hz (by simp [claimValue, h]))
    exact ⟨-A, by simp only [denote, h1, map_neg], fun x => by simp only [claimValue, h2 x, eval_neg, Option.map_some]⟩
  | Mul a b iha ihb =>
    simp only [claimValue] at hz
    split at hz
    · rename_i u u' h1 h2
      obtain ⟨A, a1, a2⟩ := iha he.1 (by rw [h1]; simp)
      obtain ⟨B, b1, b2⟩ := ihb he.2 (by rw [h2]; simp)
      exact ⟨A * B, by simp only [denote, a1, b1, map_mul], fun x => by simp only [claimValue, a2 x, b2 x, eval_mul]⟩
    · exact absurd rfl hz
  | Inv a => exact he.elim
  | Exp a n ih =>
    obtain ⟨A, h1, h2⟩ := ih he (fun h => hz (by simp [claimValue, h]))
    exact ⟨A ^ n, by simp only [denote, h1, map_pow], fun x => by simp only [claimValue, h2 x, eval_pow, Option.map_some]⟩

/-- an expression is its numerator divided by its denominator -/
theorem fraction_spec (c : Constraints F) (g : F) (T : Nat → F[X]) (n0 : Nat) (hT : ∀ i, (T i).natDegree ≤ n0) (z : F) (e : Expr F) :
    ∀ v, constraintValue c g T z e = some v → ∃ n m, constraintValue c g T z (fraction e).1 = some n ∧ constraintValue c g T z (fraction e).2 = some m ∧
      m ≠ 0 ∧ v = n / m ∧ constraintFunction c g T (fraction e).2 ≠ 0 ∧
      constraintFunction c g T e = constraintFunction c g T (fraction e).1 / constraintFunction c g T (fraction e).2 := by
  have leaf : ∀ e v, constraintValue c g T z e = some v → ∃ n m, constraintValue c g T z e = some n ∧ constraintValue c g T z (.Constant 1) = some m ∧
      m ≠ 0 ∧ v = n / m ∧ constraintFunction c g T (.Constant 1) ≠ 0 ∧
      constraintFunction c g T e = constraintFunction c g T e / constraintFunction c g T (.Constant 1) := by
    intro e v h
    have h1 : constraintFunction c g T (.Constant 1) = 1 := by simp [constraintFunction, denote]
    exact ⟨v, 1, h, rfl, one_ne_zero, by rw [div_one], by rw [h1]; exact one_ne_zero, by rw [h1, div_one]⟩
  induction e with
  | X => exact leaf _
  | Constant a => exact leaf _
  | Trace i j => exact leaf _
  | Polynomial p a ih => exact leaf _
  | ClaimPolynomial i d a nm ih => exact leaf _
  | Add a b iha ihb =>
    intro v h
    unfold constraintValue at h iha ihb ⊢
    simp only [claimValue] at h
    split at h
    · rename_i u u' h1 h2
      cases h
      obtain ⟨n, m, a1, a2, a3, a4, a5, a6⟩ := iha u h1
      obtain ⟨n', m', b1, b2, b3, b4, b5, b6⟩ := ihb u' h2
      refine ⟨n * m' + n' * m, m * m', ?_, ?_, mul_ne_zero a3 b3, ?_, mul_ne_zero a5 b5, ?_⟩
      · simp [fraction, claimValue, a1, a2, b1, b2]
      · simp [fraction, claimValue, a2, b2]
      · rw [a4, b4, div_add_div _ _ a3 b3, mul_comm m n']
      · show constraintFunction c g T a + constraintFunction c g T b = _
        rw [a6, b6, div_add_div _ _ a5 b5, mul_comm (constraintFunction c g T (fraction a).2) _]
        rfl
    · cases h
  | Neg a ih =>
    intro v h
    obtain ⟨u, h1, rfl⟩ := Option.map_eq_some_iff.1 h
    obtain ⟨n, m, a1, a2, a3, a4, a5, a6⟩ := ih u h1
    unfold constraintValue at a1 a2 ⊢
    refine ⟨-n, m, by simp [fraction, claimValue, a1], a2, a3, by rw [a4, neg_div], a5, ?_⟩
    show -constraintFunction c g T a = _
    rw [a6, ← neg_div]
    rfl
  | Mul a b iha ihb =>
    intro v h
    unfold constraintValue at h iha ihb ⊢
    simp only [claimValue] at h
    split at h
    · rename_i u u' h1 h2
      cases h
      obtain ⟨n, m, a1, a2, a3, a4, a5, a6⟩ := iha u h1
      obtain ⟨n', m', b1, b2, b3, b4, b5, b6⟩ := ihb u' h2
      refine ⟨n * n', m * m', ?_, ?_, mul_ne_zero a3 b3, ?_, mul_ne_zero a5 b5, ?_⟩
      · simp [fraction, claimValue, a1, b1]
      · simp [fraction, claimValue, a2, b2]
      · rw [a4, b4, div_mul_div_comm]
      · show constraintFunction c g T a * constraintFunction c g T b = _
        rw [a6, b6, div_mul_div_comm]
        rfl
    · cases h
  | Inv a ih =>
    intro v h
    unfold constraintValue at h
    simp only [claimValue] at h
    split at h
    · rename_i u h1
      split at h
      · cases h
      · rename_i h2
        cases h
        obtain ⟨n, m, a1, a2, a3, a4, a5, a6⟩ := ih u h1
        have hn : n ≠ 0 := by
          rintro rfl
          rw [zero_div] at a4
          exact h2 a4
        have hne : constraintFunction c g T (fraction a).1 ≠ 0 := by
          intro h0
          -- the value of a fraction with numerator zero is zero
          obtain ⟨N, D, f1, f2, f3, -⟩ := frac_constraint c g T n0 hT z _ _ a1
          rw [h0] at f2
          have hN : N = 0 := by
            have := f2.symm
            rw [div_eq_zero_iff] at this
            exact (map_eq_zero_iff _ (RatFunc.algebraMap_injective F)).1 (this.resolve_right (ne_of_eval f1))
          rw [hN, eval_zero, mul_eq_zero] at f3
          exact f3.elim hn f1
        refine ⟨m, n, a2, a1, hn, by rw [a4, inv_div], hne, ?_⟩
        show (constraintFunction c g T a)⁻¹ = _
        rw [a6, inv_div]
        rfl
    · cases h
  | Exp a k ih =>
    intro v h
    obtain ⟨u, h1, rfl⟩ := Option.map_eq_some_iff.1 h
    obtain ⟨n, m, a1, a2, a3, a4, a5, a6⟩ := ih u h1
    unfold constraintValue at a1 a2 ⊢
    refine ⟨n ^ k, m ^ k, by simp [fraction, claimValue, a1], by simp [fraction, claimValue, a2], pow_ne_zero _ a3, by rw [a4, div_pow], pow_ne_zero _ a5, ?_⟩
    show constraintFunction c g T a ^ k = _
    rw [a6, div_pow]
    rfl

theorem rows_satisfy (c : Constraints F) (g : F) (k : Nat) (hg : orderOf g = 2 ^ k) (T : Nat → F[X]) (n0 : Nat) (hT : ∀ i, (T i).natDegree ≤ n0) (z : F)
    (h : ∀ a ∈ c.expressions, constraintValue c g T z a ≠ none ∧ IsPoly (constraintFunction c g T a)) :
    RowsSatisfy c g (2 ^ k) fun r i => (T i).eval (g ^ r) := by
  intro e he hN hD r _ h0
  rw [rowValue_eq c g k hg] at h0 ⊢
  obtain ⟨hz, Q, hQ⟩ := h e he
  obtain ⟨v, hv⟩ := Option.ne_none_iff_exists'.1 hz
  obtain ⟨n, m, a1, a2, a3, a4, a5, a6⟩ := fraction_spec c g T n0 hT z e v hv
  obtain ⟨A, b1, b2⟩ := free_poly c g T z _ hN (by rw [a1]; simp)
  obtain ⟨B, d1, d2⟩ := free_poly c g T z _ hD (by rw [a2]; simp)
  rw [hQ, b1, d1, eq_div_iff (by rw [← d1]; exact a5), ← map_mul] at a6
  have := RatFunc.algebraMap_injective F a6
  rw [d2] at h0
  rw [b2, ← this, eval_mul, Option.some.inj h0, mul_zero]

end
end Accept
end Stark
end OpenZKP
