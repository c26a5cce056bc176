import Verif.Stark.SoundRows

/-!
# C64: soundness of the proof system

Specification: `Stark/BadSpec.lean`.
-/

namespace OpenZKP
namespace Props
open FFT U256 Stark Stark.Accept Polynomial

section
variable {F : Type} [Field F] [DecidableEq F]

/-- C64: Suppose that `verify` accepts the bytes `p`.  Whatever tables `R`, `C` and `Ls` the roots in `p` are those of, and for every number `e` small enough:
there is a hash collision (`SomeCollision`), or a challenge is bad (`Lucky`; the theorems below bound the number of bad challenges), or the columns
of the committed trace are close to polynomials for which the constraints have no poles, and whose values at the powers of `g` are a table that
satisfies the constraints row by row. -/
theorem C64_sound (env : Env F) (hroot : RootFn env.root) (hcompat : RootCompat env.root) (hsearch : SearchOk env.search) (hgen : env.generator ≠ 0)
    (c : Constraints F) (k b d : Nat) (hkb : k + b < 64) (hk : c.trace_nrows = 2 ^ k) (hb : c.blowup = 2 ^ b) (hlayout : c.fri_layout.sum ≤ k)
    (hq : c.num_queries < 2 ^ 64) (hd : c.degree = some d) (p : Bytes) (h : Stark.verify env c p = .ok ()) :
    ∃ w g args P x, env.root (2 ^ (k + b)) = some w ∧ env.root (2 ^ k) = some g ∧ Accepts env c k b w g p args P x ∧
    ∀ R C Ls e, Tables env c (k + b) P R C Ls → 2 ^ k + 2 * (e * 2 ^ c.fri_layout.sum) < 2 ^ (k + b) →
      SomeCollision env c (k + b) P x R C Ls ∨ Lucky env c k b d w g args P x R C Ls e ∨
      ∃ T, Fits (Used c) (2 ^ k) (e * 2 ^ c.fri_layout.sum) (2 ^ (k + b)) (cosetPoint env w (k + b)) R T ∧
        (∀ a ∈ c.expressions, IsPoly (constraintFunction c g T a)) ∧ RowsSatisfy c g (2 ^ k) fun r i => (T i).eval (g ^ r) := by
  obtain ⟨w, g, args, P, x, hw, hg, hacc⟩ := C63_accepts env hroot hcompat hsearch c k b hkb hk hb (by omega) hq p h
  refine ⟨w, g, args, P, x, hw, hg, hacc, fun R C Ls e ht he => ?_⟩
  rcases sound env hroot hgen c k b d e hkb hk hlayout hd he w g hw p args P x hacc R C Ls ht with h1 | h1 | ⟨T, h1, h2⟩
  · exact Or.inl h1
  · exact Or.inr (Or.inl h1)
  · refine Or.inr (Or.inr ⟨T, h1, fun a ha => (h2 a ha).2, ?_⟩)
    exact rows_satisfy c g k (hroot _ g (Nat.two_pow_pos _) (Nat.pow_lt_pow_right (by norm_num) (by omega)) hg) T (2 ^ k) (fits_degree h1) x.point h2

/-- C64: the number of bad folding coefficients of a layer is at most `(2^n - 1)(e + 1)`; the layer is committed to before the coefficient is drawn. -/
theorem C64_bad_fold (n m : Nat) (w : F) (D e : Nat) (L : Nat → F) (hn : n ≤ m) (ho : orderOf w = 2 ^ m) (hD : D + (2 ^ n + 1) * e ≤ 2 ^ (m - n))
    (S : Finset F) (hS : ∀ a ∈ S, a ∈ BadFold n m w D e L) : S.card ≤ (2 ^ n - 1) * (e + 1) :=
  badFold_card n m w D e L hn ho hD S hS

/-- C64: the number of bad values for a coefficient of the combination of the quotients, given the coefficients before, is at most `e + 1`. -/
theorem C64_bad_mix (m : Nat) (w : F) (D e : Nat) (u h : Nat → F) (ho : orderOf w = 2 ^ m) (hD : D + 3 * e ≤ 2 ^ m)
    (S : Finset F) (hS : ∀ a ∈ S, a ∈ BadMix m w D e u h) : S.card ≤ e + 1 :=
  badMix_card m w D e u h ho hD S hS

/-- C64: there is at most one bad value for a coefficient of the combination of the constraints, given the coefficients before. -/
theorem C64_bad_coefficient (env : Env F) (hgen : env.generator ≠ 0) (c : Constraints F) (g w : F) (target e m : Nat) (ho : orderOf w = 2 ^ m)
    (hsize : c.trace_nrows + 2 * e < 2 ^ m) (R : Nat → List F) (before : List F) (S : Finset F)
    (hS : ∀ a ∈ S, a ∈ BadCoefficient c g target e (2 ^ m) (cosetPoint env w m) R before) : S.card ≤ 1 :=
  badCoefficient_card c g target e (2 ^ m) _ (cosetPoint_injOn env hgen m w ho) hsize R before S hS

/-- C64: the number of bad out-of-domain points is at most the degree of the combination of the constraints, as a fraction. -/
theorem C64_bad_point (env : Env F) (hgen : env.generator ≠ 0) (c : Constraints F) (g w : F) (target width e m : Nat) (ho : orderOf w = 2 ^ m)
    (hsize : c.trace_nrows + 2 * e < 2 ^ m) (R C : Nat → List F) (coefficients : List F) (S : Finset F)
    (hS : ∀ z ∈ S, z ∈ BadPoint c g target width e (2 ^ m) (cosetPoint env w m) R C coefficients) :
    S.card ≤ ∑ i ∈ Finset.range c.expressions.length, (2 * fractionSize c.trace_nrows (c.expressions.getD i .X) +
      adjustment c.trace_nrows target (c.expressions.getD i .X)) + (c.trace_nrows * width + width) :=
  badPoint_card c g target width e (2 ^ m) _ (cosetPoint_injOn env hgen m w ho) hsize R C coefficients S hS

open Classical in
/-- C64: if more than `E` of `2^m` positions fail, at most `(2^m - E - 1)^n` of the `(2^m)^n` lists of `n` queries have none of these. -/
theorem C64_bad_queries (m n E : Nat) (Pass : Nat → Prop) (hE : E < ((Finset.range (2 ^ m)).filter fun q => ¬ Pass q).card)
    (S : Finset (List Nat)) (hS : ∀ l ∈ S, l.length = n ∧ ∀ q ∈ l, q < 2 ^ m ∧ Pass q) : S.card ≤ (2 ^ m - E - 1) ^ n := by
  let J := (Finset.range (2 ^ m)).filter fun q => Pass q
  have hJ : J.card ≤ 2 ^ m - E - 1 := by
    have h1 := Finset.card_filter_add_card_filter_not (s := Finset.range (2 ^ m)) (fun q => Pass q)
    rw [Finset.card_range] at h1
    have : J.card = (Finset.filter (fun q => Pass q) (Finset.range (2 ^ m))).card := rfl
    omega
  calc S.card ≤ (Finset.univ : Finset (Fin n → J)).card := by
        refine Finset.card_le_card_of_surjOn (fun f => List.ofFn fun i => (f i : Nat)) ?_
        intro l hl
        obtain ⟨h1, h2⟩ := hS l hl
        subst h1
        refine ⟨fun i => ⟨l[i], ?_⟩, Finset.mem_coe.2 (Finset.mem_univ _), ?_⟩
        · have := h2 l[i] (List.getElem_mem _)
          exact Finset.mem_filter.2 ⟨Finset.mem_range.2 this.1, this.2⟩
        · exact List.ofFn_getElem
    _ = J.card ^ n := by simp
    _ ≤ _ := Nat.pow_le_pow_left hJ n

end

/-! ## Examples -/

section

-- C64: the fold of `x^3` with the coefficient 0 is 0, although `x^3` is not a polynomial of degree less than 2
example : (0 : ZMod 5) ∈ BadFold 1 2 2 1 0 (fun q => ((2 : ZMod 5) ^ rev 2 q) ^ 3) := by
  have hf : ∀ q < 2, foldMany 1 (2 : ZMod 5) 2 0 (fun q => ((2 : ZMod 5) ^ rev 2 q) ^ 3) q = 0 := by
    intro q hq
    rw [foldMany, foldMany, foldOnce, zero_mul, zero_mul, add_zero]
    revert q
    decide
  refine ⟨0, ⟨by simp, ?_⟩, ?_⟩
  · rw [Nat.le_zero, Finset.card_eq_zero, Finset.filter_eq_empty_iff]
    intro q hq
    rw [eval_zero, not_not]
    exact hf q (Finset.mem_range.1 hq)
  · rintro ⟨P, hP, h⟩
    have key : ∀ q < 4, ((2 : ZMod 5) ^ rev 2 q) ^ 3 = P.eval ((2 : ZMod 5) ^ rev 2 q) := by
      intro q hq
      refine h q hq ?_
      rw [eval_zero]
      exact hf _ (by omega)
    have hX : P = X := by
      refine Polynomial.eq_of_degrees_lt_of_eval_index_eq (s := Finset.range 2) (v := fun q => (2 : ZMod 5) ^ rev 2 q) ?_ hP ?_ ?_
      · intro a ha b hb
        have ha := Finset.mem_range.1 ha
        have hb := Finset.mem_range.1 hb
        revert a b
        decide
      · rw [degree_X]; norm_num
      · intro i hi
        rw [← key i (by have := Finset.mem_range.1 hi; omega), eval_X]
        have := Finset.mem_range.1 hi
        revert i
        decide
    have := key 2 (by norm_num)
    rw [hX, eval_X] at this
    revert this
    decide

example : orderOf (2 : ZMod 5) = 2 ^ 2 := by
  refine orderOf_eq_prime_pow (p := 2) (n := 1) ?_ ?_ <;> decide

end

namespace Small
open OpenZKP.Props.Small

-- C64: an accepted proof, with tables for its roots
example : ∃ p w g args P x, Stark.verify env c p = .ok () ∧ Accepts env c 1 1 w g p args P x ∧
    (∃ R C L, Tables env c (1 + 1) P R C [L]) ∧ c.degree = some 1 ∧ 2 ^ 1 + 2 * (0 * 2 ^ c.fri_layout.sum) < 2 ^ (1 + 1) := by
  obtain ⟨p, w, g, args, P, x, h, h1, h2, h3, h4⟩ := any_tables (fun _ => List.replicate c.trace_ncolumns 7) (fun _ => [5]) fun _ => 3
  have hd : c.degree = some 1 := by decide +kernel
  obtain ⟨d, hd', hs⟩ := h1.sized
  rw [hd] at hd'
  cases hd'
  refine ⟨p, w, g, args, P, x, h, h1, ⟨_, _, _, ⟨fun i => List.length_replicate, fun i => ?_, h2, h3, h4⟩⟩, hd, by norm_num⟩
  rw [hs.constraint_values.1]
  rfl

end Small
end Props
end OpenZKP
