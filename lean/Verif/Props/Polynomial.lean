import Verif.Stark.Poly
import Verif.Props.FFT
import Mathlib.Algebra.Polynomial.Eval.Degree
import Mathlib.Algebra.Polynomial.Div
import Mathlib.Algebra.Polynomial.Roots

/-!
# Polynomials: C37, C38, C52
-/

namespace OpenZKP
namespace Props
open FFT Stark Polynomial U256 PF

section
variable {F : Type} [Field F] [DecidableEq F]

/-- Specification: the polynomial with the given coefficients, lowest first -/
noncomputable def toPoly (l : List F) : F[X] := ∑ i ∈ Finset.range l.length, C (l.getD i 0) * X ^ i

omit [DecidableEq F] in
theorem toPoly_nil : toPoly ([] : List F) = 0 := by simp [toPoly]

omit [DecidableEq F] in
theorem toPoly_cons (c : F) (l : List F) : toPoly (c :: l) = C c + X * toPoly l := by
  unfold toPoly
  rw [List.length_cons, Finset.sum_range_succ', Finset.mul_sum, add_comm]
  congr 1
  · simp
  · apply Finset.sum_congr rfl
    intro i _
    rw [List.getD_cons_succ]
    ring

omit [DecidableEq F] in
theorem toPoly_append (l m : List F) : toPoly (l ++ m) = toPoly l + X ^ l.length * toPoly m := by
  induction l with
  | nil => simp [toPoly_nil]
  | cons c l ih => rw [List.cons_append, toPoly_cons, ih, toPoly_cons, List.length_cons]; ring

omit [DecidableEq F] in
theorem toPoly_coeff (l : List F) (i : Nat) : (toPoly l).coeff i = l.getD i 0 := by
  induction l generalizing i with
  | nil => simp [toPoly_nil]
  | cons c l ih =>
    rw [toPoly_cons, coeff_add]
    cases i with
    | zero => simp
    | succ i => rw [coeff_X_mul, ih, coeff_C_succ, zero_add, List.getD_cons_succ]

omit [DecidableEq F] in
theorem toPoly_degree_lt (l : List F) : (toPoly l).degree < l.length := by
  rw [degree_lt_iff_coeff_zero]
  intro m hm
  rw [toPoly_coeff]; simp [List.getD, List.getElem?_eq_none hm]

theorem evaluate_eq (l : List F) (x : F) : Poly.evaluate l x = (toPoly l).eval x := by
  unfold Poly.evaluate
  rw [List.foldl_reverse]
  induction l with
  | nil => simp [toPoly_nil]
  | cons c l ih => rw [List.foldr_cons, ih, toPoly_cons]; simp; ring

/-! ## C37 -/

/-- C37: `evaluate` returns the value of the polynomial. -/
theorem C37_evaluate (l : List F) (x : F) : Poly.evaluate l x = (toPoly l).eval x := evaluate_eq l x

theorem degreeLoop_spec (l : List F) (d : Nat) :
    Poly.degreeLoop l d ≤ d ∧ (∀ i, Poly.degreeLoop l d < i → i ≤ d → l.getD i 0 = 0) ∧
    (Poly.degreeLoop l d = 0 ∨ l.getD (Poly.degreeLoop l d) 0 ≠ 0) := by
  induction d with
  | zero => exact ⟨le_rfl, fun i h1 h2 => by rw [Poly.degreeLoop] at h1; omega, Or.inl rfl⟩
  | succ d ih =>
    rw [Poly.degreeLoop]
    split
    · next h =>
      refine ⟨by omega, ?_, ih.2.2⟩
      intro i h1 h2
      by_cases e : i = d + 1
      · rw [e]; exact h
      · exact ih.2.1 i h1 (by omega)
    · next h => exact ⟨le_rfl, fun i h1 h2 => by omega, Or.inr h⟩

/-- C37: `degree` is the degree of the polynomial (0 for the zero polynomial). -/
theorem C37_degree (l : List F) : Poly.degree l = (toPoly l).natDegree := by
  obtain ⟨h1, h2, h3⟩ := degreeLoop_spec l (l.length - 1)
  symm
  unfold Poly.degree
  apply le_antisymm
  · rw [natDegree_le_iff_coeff_eq_zero]
    intro i hi
    rw [toPoly_coeff]
    by_cases hl : i ≤ l.length - 1
    · exact h2 i hi hl
    · simp [List.getD, List.getElem?_eq_none (show l.length ≤ i by omega)]
  · rcases h3 with h3 | h3
    · omega
    · exact le_natDegree_of_ne_zero (by rwa [toPoly_coeff])

/-- the rows of a synthetic division from the top: with `d` the polynomial of the remaining lower coefficients -/
theorem divideLoop_spec (z c : F) (r : F) (cs ts : List F) (h : cs.length = ts.length) :
    (Poly.divideLoop z c r cs ts).length = ts.length ∧
    ∃ q : F[X], toPoly (Poly.divideLoop z c r cs ts).reverse = toPoly ts.reverse + C c * q ∧
      (X - C z) * q = toPoly cs.reverse + C r * X ^ cs.length - C ((toPoly cs.reverse).eval z + r * z ^ cs.length) := by
  induction cs generalizing r ts with
  | nil =>
    have : ts = [] := by simpa using h.symm
    subst this
    exact ⟨rfl, 0, by simp [Poly.divideLoop], by simp [toPoly_nil]⟩
  | cons a cs ih =>
    cases ts with
    | nil => simp at h
    | cons t ts =>
      obtain ⟨h1, q, h2, h3⟩ := ih (r * z + a) ts (by simpa using h)
      rw [Poly.divideLoop]
      refine ⟨by simp [h1], q + C r * X ^ cs.length, ?_, ?_⟩
      · have hl : cs.length = ts.length := by simpa using h
        rw [List.reverse_cons, List.reverse_cons, toPoly_append, toPoly_append, h2, toPoly_cons, toPoly_cons, toPoly_nil,
          List.length_reverse, List.length_reverse, h1, hl]
        simp only [C_add, C_mul]
        ring
      · rw [mul_add, h3, List.reverse_cons, toPoly_append, toPoly_cons, toPoly_nil, List.length_reverse, List.length_cons]
        simp only [C_add, C_mul, eval_add, eval_mul, eval_pow, eval_X, eval_C, C_pow, pow_succ, mul_zero, add_zero]
        ring

/-- C37 (partial: only for a target of the same length as the polynomial, which is how the library calls it):
`divide_out_point_into` adds `c · (P(X) - P(z)) / (X - z)`. -/
theorem C37_divide_out_partial (p target : List F) (z c : F) (h : p.length = target.length) :
    (Poly.divide_out_point_into p z c target).length = target.length ∧
    ∃ q : F[X], (X - C z) * q = toPoly p - C ((toPoly p).eval z) ∧
      toPoly (Poly.divide_out_point_into p z c target) = toPoly target + C c * q := by
  obtain ⟨h1, q, h2, h3⟩ := divideLoop_spec z c 0 p.reverse target.reverse (by simpa using h)
  refine ⟨by unfold Poly.divide_out_point_into; simpa using h1, q, ?_, ?_⟩
  · simpa using h3
  · unfold Poly.divide_out_point_into
    simpa using h2

/-- C37: into a longer target the quotient is added with a wrong shift. -/
theorem C37_divide_out_violated : ∃ (p target : List ℚ) (z c : ℚ) (q : ℚ[X]),
    (X - C z) * q = toPoly p - C ((toPoly p).eval z) ∧
    toPoly (Poly.divide_out_point_into p z c target) ≠ toPoly target + C c * q := by
  refine ⟨[0, 1], [0, 0, 0, 0], 0, 1, 1, ?_, ?_⟩
  · simp [toPoly_cons, toPoly_nil]
  · intro h
    have := congrArg (coeff · 0) h
    simp only [toPoly_coeff, coeff_add, coeff_C_mul] at this
    have e : Poly.divide_out_point_into [0, 1] (0 : ℚ) 1 [0, 0, 0, 0] = [0, 0, 1, 0] := by decide +kernel
    rw [e] at this
    norm_num at this

theorem divideLoop_append (z c r : F) (cs ts us : List F) (h : cs.length = ts.length) :
    Poly.divideLoop z c r cs (ts ++ us) = Poly.divideLoop z c r cs ts ++ us := by
  induction cs generalizing r ts with
  | nil =>
    have : ts = [] := by simpa using h.symm
    subst this
    simp [Poly.divideLoop]
  | cons a cs ih =>
    cases ts with
    | nil => simp at h
    | cons t ts => simp only [List.cons_append, Poly.divideLoop]; rw [ih _ ts (by simpa using h)]

theorem divideLoop_drop (z c r : F) (cs ds ts : List F) (h : cs.length = ts.length) :
    Poly.divideLoop z c r (cs ++ ds) ts = Poly.divideLoop z c r cs ts := by
  induction cs generalizing r ts with
  | nil =>
    have : ts = [] := by simpa using h.symm
    subst this
    cases ds <;> simp [Poly.divideLoop]
  | cons a cs ih =>
    cases ts with
    | nil => simp at h
    | cons t ts => simp only [List.cons_append, Poly.divideLoop]; rw [ih _ ts (by simpa using h)]

/-- C37: into a target with `k` further coefficients, `divide_out_point_into` adds `c · X^k · (P(X) - P(z)) / (X - z)`: the
quotient is multiplied by `X^k`. -/
theorem C37_divide_out_longer (p target : List F) (z c : F) (k : Nat) (h : target.length = p.length + k) :
    (Poly.divide_out_point_into p z c target).length = target.length ∧
    ∃ q : F[X], (X - C z) * q = toPoly p - C ((toPoly p).eval z) ∧
      toPoly (Poly.divide_out_point_into p z c target) = toPoly target + C c * X ^ k * q := by
  obtain ⟨low, high, rfl, hk⟩ : ∃ low high, target = low ++ high ∧ low.length = k :=
    ⟨target.take k, target.drop k, (List.take_append_drop k target).symm, by simp; omega⟩
  have hh : p.length = high.length := by simp at h; omega
  have e : Poly.divide_out_point_into p z c (low ++ high) = low ++ Poly.divide_out_point_into p z c high := by
    unfold Poly.divide_out_point_into
    rw [List.reverse_append, divideLoop_append _ _ _ _ _ _ (by simpa using hh), List.reverse_append, List.reverse_reverse]
  obtain ⟨h1, q, h2, h3⟩ := C37_divide_out_partial p high z c hh
  refine ⟨by rw [e]; simp [h1], q, h2, ?_⟩
  rw [e, toPoly_append, toPoly_append, h3, hk]
  ring

/-- C37: into a target with `k` coefficients fewer, the `k` lowest coefficients of the polynomial are ignored: what is added is
the quotient of the polynomial whose coefficients are the others. -/
theorem C37_divide_out_shorter (low high target : List F) (z c : F) (h : high.length = target.length) :
    Poly.divide_out_point_into (low ++ high) z c target = Poly.divide_out_point_into high z c target := by
  unfold Poly.divide_out_point_into
  rw [List.reverse_append, divideLoop_drop _ _ _ _ _ _ (by simpa using h)]

example : Poly.divide_out_point_into [1, 0, 0, 2] (3 : ℚ) 5 [7, 8, 1, 1, 1, 1] = [7, 8, 91, 31, 11, 1] ∧
    Poly.divide_out_point_into [1, 0, 0, 2] (3 : ℚ) 5 [1, 1] = [11, 1] := by decide +kernel
example : Poly.divide_out_point_into [1, 0, 0, 2] (3 : ℚ) 5 [1, 1, 1, 1] = [91, 31, 11, 1] := by decide +kernel
example : Poly.evaluate [1, 0, 0, 2] (2 : ℚ) = 17 ∧ Poly.degree [1, 0, (3 : ℚ), 0] = 2 := by decide +kernel

/-! ## C38 -/

/-- what the extension needs besides C15: the roots of orders that are powers of two are powers of each other -/
def RootCompat (root : Nat → Option F) : Prop :=
  ∀ a b w, a + b < 64 → root (2 ^ (a + b)) = some w → root (2 ^ a) = some (w ^ 2 ^ b)

omit [DecidableEq F] in
theorem sum_toPoly (l : List F) (x : F) : ∑ j ∈ Finset.range l.length, l.getD j 0 * x ^ j = (toPoly l).eval x := by
  unfold toPoly
  rw [eval_finset_sum]
  apply Finset.sum_congr rfl
  intro i _
  simp

theorem mapM_some {α β : Type} (f : α → Option β) (g : α → β) (l : List α) (h : ∀ x ∈ l, f x = some (g x)) :
    l.mapM f = some (l.map g) := by
  induction l with
  | nil => rfl
  | cons a l ih =>
    rw [List.mapM_cons, h a (by simp), ih (fun x hx => h x (by simp [hx]))]
    rfl

theorem flatten_getElem? {α : Type} (n : Nat) (L : List (List α)) (h : ∀ l ∈ L, l.length = n) (i j : Nat) (hj : j < n) :
    L.flatten[i * n + j]? = (L[i]?).bind (·[j]?) := by
  induction L generalizing i with
  | nil => simp
  | cons a L ih =>
    have ha := h a (by simp)
    rw [List.flatten_cons]
    cases i with
    | zero =>
      rw [Nat.zero_mul, Nat.zero_add, List.getElem?_append_left (by omega)]
      simp
    | succ i =>
      rw [List.getElem?_append_right (by rw [ha]; nlinarith), ha,
        show (i + 1) * n + j - n = i * n + j by rw [Nat.add_mul]; omega, ih (fun l hl => h l (by simp [hl]))]
      simp

/-- C38: for a polynomial with `2^k` coefficients and a blowup `2^b`, the low degree extension lists the values at all
points of the coset `generator · ⟨w⟩` of size `2^(k+b)`, in bit-reversed order. -/
theorem C38_low_degree_extension (root : Nat → Option F) (hroot : RootFn root) (hcompat : RootCompat root) (generator : F)
    (k b : Nat) (hkb : k + b < 64) (p : List F) (hp : p.length = 2 ^ k) (w : F) (hw : root (2 ^ (k + b)) = some w) :
    ∃ r, Poly.low_degree_extension root generator p (2 ^ b) = some r ∧ r.length = 2 ^ (k + b) ∧
      ∀ i f, i < 2 ^ (k + b) → IsBitRev (k + b) i f → r[i]? = some ((toPoly p).eval (generator * w ^ f)) := by
  have hw' := hcompat k b w hkb hw
  -- each chunk
  have chunk : ∀ i ∈ List.range (2 ^ b),
      (fft root p.length (clone_shifted p.length (fun _ => 0) (sl p) (generator * w ^ permute_index (2 ^ b) i))).map (unsl p.length)
        = some ((List.range (2 ^ k)).map fun j => (toPoly p).eval (generator * w ^ rev (k + b) (i * 2 ^ k + j))) := by
    intro i hi
    rw [List.mem_range] at hi
    rw [hp, permute_index_eq b i (by omega) hi]
    obtain ⟨r, h1, h2, _⟩ := C20_fft root hroot k (by omega) _ hw' (clone_shifted (2 ^ k) (fun _ => 0) (sl p) (generator * w ^ rev b i))
    rw [h1, Option.map_some]
    congr 1
    unfold unsl
    apply List.map_congr_left
    intro j hj
    rw [List.mem_range] at hj
    rw [h2 j (rev k j) hj ((isBitRev_iff _ _ _).2 rfl), ← sum_toPoly, hp]
    apply Finset.sum_congr rfl
    intro m hm
    rw [Finset.mem_range] at hm
    rw [(C20_clone_shifted (2 ^ k) 1 (by norm_num) _ (sl p) _ m).1, if_pos hm, sl, mul_assoc, ← mul_pow]
    congr 2
    rw [mul_assoc, ← pow_mul, ← pow_add, Nat.add_comm k b, rev_concat k b i j hj]
    congr 2
    ring
  refine ⟨((List.range (2 ^ b)).map fun i => (List.range (2 ^ k)).map fun j =>
      (toPoly p).eval (generator * w ^ rev (k + b) (i * 2 ^ k + j))).flatten, ?_, ?_, ?_⟩
  · unfold Poly.low_degree_extension
    rw [hp, ← pow_add, hw, Option.bind_some]
    dsimp only
    rw [hp] at chunk
    rw [mapM_some _ _ _ chunk]
    rfl
  · rw [List.length_flatten, List.map_map]
    have : (List.length ∘ fun i => (List.range (2 ^ k)).map fun j =>
      (toPoly p).eval (generator * w ^ rev (k + b) (i * 2 ^ k + j))) = fun _ => 2 ^ k := by
      funext i; simp
    rw [this]
    simp [pow_add, Nat.mul_comm]
  · intro i f hi hf
    rw [(isBitRev_iff _ _ _).1 hf]
    have hk : 0 < 2 ^ k := Nat.two_pow_pos k
    have e : i = i / 2 ^ k * 2 ^ k + i % 2 ^ k := by rw [Nat.mul_comm]; exact (Nat.div_add_mod i (2 ^ k)).symm
    have h1 : i / 2 ^ k < 2 ^ b := by
      rw [Nat.div_lt_iff_lt_mul hk, ← pow_add, Nat.add_comm]; exact hi
    have h2 : i % 2 ^ k < 2 ^ k := Nat.mod_lt _ hk
    rw [e, flatten_getElem? (2 ^ k) _ (by simp) _ _ h2, List.getElem?_map, List.getElem?_range h1, Option.map_some,
      Option.bind_some, List.getElem?_map, List.getElem?_range h2, Option.map_some, ← e]

/-! ## C52 -/

/-- C52 (partial: only one direction): equal polynomials compare equal. -/
theorem C52_eq_partial (x : F) (p q : List F) (h : toPoly p = toPoly q) : Poly.eq x p q = true := by
  unfold Poly.eq
  rw [evaluate_eq, evaluate_eq, h, beq_self_eq_true]

/-- C52: the comparison says whether the polynomials agree at the point `x`. -/
theorem C52_eq_iff (x : F) (p q : List F) : Poly.eq x p q = true ↔ (toPoly p - toPoly q).eval x = 0 := by
  unfold Poly.eq
  rw [evaluate_eq, evaluate_eq, beq_iff_eq, eval_sub, sub_eq_zero]

/-- C52: whatever the point of comparison is, there are different polynomials that compare equal. -/
theorem C52_violated (x : F) : ∃ p q : List F, toPoly p ≠ toPoly q ∧ Poly.eq x p q = true := by
  refine ⟨[-x, 1], [0, 0], ?_, ?_⟩
  · intro h
    have := congrArg (coeff · 1) h
    simp only [toPoly_coeff] at this
    simp at this
  · rw [C52_eq_iff]
    simp [toPoly_cons, toPoly_nil]

end

theorem baseRoot_eq (k : Nat) (hk : k < 64) :
    baseRoot (2 ^ k) = some ((PF.V PF.BASE PF.BASE.generator) ^ ((PF.BASE.modulus.toNat - 1) / 2 ^ k)) := by
  have hto : (UInt64.ofNat (2 ^ k)).toNat = 2 ^ k := by
    rw [UInt64.toNat_ofNat']; exact Nat.mod_eq_of_lt (Nat.pow_lt_pow_right (by norm_num) hk)
  obtain ⟨q, r, e, e1, hr⟩ := div_rem_u64_spec PF.BASE.order (UInt64.ofNat (2 ^ k)) (by rw [hto]; exact Nat.two_pow_pos k)
  rw [base_ok.order, hto] at e1 hr
  have hd : 2 ^ k ∣ PF.BASE.modulus.toNat - 1 := by
    have h1 : 2 ^ 192 ∣ PF.BASE.modulus.toNat - 1 := by decide +kernel
    exact dvd_trans (pow_dvd_pow 2 (by omega)) h1
  have hr0 : r = 0 := by
    rw [← UInt64.toNat_inj, hr, Nat.mod_eq_zero_of_dvd hd]; rfl
  obtain ⟨p1, p2⟩ := powU_spec base_ok.consts base_ok.gen q
  unfold baseRoot PF.root
  rw [e]
  simp only [hr0, beq_self_eq_true, if_true, Option.map_some]
  rw [← V_eq, p2, e1]

/-- C38 applies to the base field of the library. -/
theorem C38_base_field : RootCompat baseRoot := by
  intro a b w hab h
  rw [baseRoot_eq _ hab, Option.some.injEq] at h
  rw [baseRoot_eq a (by omega), ← h, ← pow_mul]
  congr 2
  have hd : 2 ^ (a + b) ∣ PF.BASE.modulus.toNat - 1 := by
    have h1 : 2 ^ 192 ∣ PF.BASE.modulus.toNat - 1 := by decide +kernel
    exact dvd_trans (pow_dvd_pow 2 (by omega)) h1
  generalize PF.BASE.modulus.toNat - 1 = n at hd
  obtain ⟨c, rfl⟩ := hd
  rw [Nat.mul_div_cancel_left _ (Nat.two_pow_pos _), pow_add, Nat.mul_assoc, Nat.mul_div_cancel_left _ (Nat.two_pow_pos _), Nat.mul_comm]

-- a polynomial with 4 coefficients over the base field, extended 4 times
example : ∃ r, Poly.low_degree_extension baseRoot (PF.V PF.BASE PF.BASE.generator) [1, 2, 3, 4] (2 ^ 2) = some r ∧ r.length = 16 := by
  obtain ⟨w, hw⟩ := C20_base_field.2 4 (by norm_num)
  obtain ⟨r, h1, h2, _⟩ := C38_low_degree_extension baseRoot C20_base_field.1 C38_base_field (PF.V PF.BASE PF.BASE.generator) 2 2
    (by norm_num) [1, 2, 3, 4] rfl w hw
  exact ⟨r, h1, h2⟩

end Props
end OpenZKP
