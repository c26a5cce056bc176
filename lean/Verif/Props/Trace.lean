import Verif.Stark.TraceTable
import Verif.Props.Constraints

/-!
# The trace table and the constraint checker: C46, C48
-/

namespace OpenZKP
namespace Props
open Stark Polynomial FFT

section
variable {F : Type} [Field F] [DecidableEq F]

/-! ## C46 -/

/-- A table as the library makes it: one value per cell. -/
def TableOk (t : TraceTable F) : Prop := t.values.length = t.trace_length * t.num_columns

omit [Field F] [DecidableEq F] in
theorem cell_lt (t : TraceTable F) {i j : Nat} (hi : i < t.trace_length) (hj : j < t.num_columns) :
    i * t.num_columns + j < t.trace_length * t.num_columns := by
  calc i * t.num_columns + j < i * t.num_columns + t.num_columns := by omega
    _ = (i + 1) * t.num_columns := by ring
    _ ≤ _ := Nat.mul_le_mul_right _ hi

theorem cell_inj {n i j i' j' : Nat} (hj : j < n) (hj' : j' < n) (h : i * n + j = i' * n + j') : i = i' ∧ j = j' := by
  have hn : 0 < n := by omega
  have e1 := congrArg (· / n) h
  have e2 := congrArg (· % n) h
  simp only [Nat.mul_comm i n, Nat.mul_comm i' n, Nat.mul_add_div hn, Nat.mul_add_mod, Nat.div_eq_of_lt hj, Nat.div_eq_of_lt hj',
    Nat.mod_eq_of_lt hj, Nat.mod_eq_of_lt hj'] at e1 e2
  omega

/-- Specification: the content of a table with `rows × cols` cells after a sequence of writes, from all zeros. -/
def written (writes : List (Nat × Nat × F)) : Nat → Nat → F :=
  writes.foldl (fun m w => fun i j => if i = w.1 ∧ j = w.2.1 then w.2.2 else m i j) fun _ _ => 0

/-- C46: a fresh table accepts every sequence of writes inside it; afterwards each cell holds the last value written to it (zero
if there was none), cells outside do not exist, and a row or column read out gives its cells in order. -/
theorem C46_cells (rows cols : Nat) (writes : List (Nat × Nat × F)) (hw : ∀ w ∈ writes, w.1 < rows ∧ w.2.1 < cols) :
    ∃ t : TraceTable F, writes.foldlM (fun t w => t.set w.1 w.2.1 w.2.2) (TraceTable.new rows cols) = some t ∧
      t.trace_length = rows ∧ t.num_columns = cols ∧ TableOk t ∧
      (∀ i j, i < rows → j < cols → t.get i j = some (written writes i j)) ∧
      (∀ i j, ¬ (i < rows ∧ j < cols) → t.get i j = none) := by
  induction writes using List.reverseRecOn with
  | nil =>
    refine ⟨TraceTable.new rows cols, rfl, rfl, rfl, by simp [TableOk, TraceTable.new], ?_, ?_⟩
    · intro i j hi hj
      unfold TraceTable.get TraceTable.new
      have := cell_lt (⟨rows, cols, []⟩ : TraceTable F) hi hj
      simp only at this
      rw [if_pos ⟨hi, hj⟩, List.getElem?_replicate, if_pos this]; rfl
    · intro i j h
      unfold TraceTable.get
      exact if_neg h
  | append_singleton ws w ih =>
    obtain ⟨t, h1, h2, h3, h4, h5, h6⟩ := ih (fun w' hw' => hw w' (by simp [hw']))
    obtain ⟨b1, b2⟩ := hw w (by simp)
    have hlt : w.1 * t.num_columns + w.2.1 < t.values.length := by
      rw [h4]; exact cell_lt t (by rw [h2]; exact b1) (by rw [h3]; exact b2)
    refine ⟨{ t with values := t.values.set (w.1 * t.num_columns + w.2.1) w.2.2 }, ?_, h2, h3, by simpa [TableOk] using h4, ?_, ?_⟩
    · rw [List.foldlM_append, h1]
      show (t.set w.1 w.2.1 w.2.2).bind _ = _
      unfold TraceTable.set
      rw [if_pos ⟨by rw [h2]; exact b1, by rw [h3]; exact b2, hlt⟩]
      rfl
    · intro i j hi hj
      have := h5 i j hi hj
      unfold TraceTable.get at this ⊢
      rw [if_pos ⟨by rw [h2]; exact hi, by rw [h3]; exact hj⟩] at this ⊢
      dsimp only
      have e : written (ws ++ [w]) i j = if i = w.1 ∧ j = w.2.1 then w.2.2 else written ws i j := by
        unfold written; rw [List.foldl_append]; rfl
      rw [e, List.getElem?_set]
      by_cases hij : i = w.1 ∧ j = w.2.1
      · rw [if_pos (by rw [hij.1, hij.2]), if_pos hlt, if_pos hij]
      · rw [if_neg hij, if_neg ?_, this]
        intro hc
        have := cell_inj (by rw [h3]; exact b2) (by rw [h3]; exact hj) hc
        exact hij ⟨this.1.symm, this.2.symm⟩
    · intro i j h
      unfold TraceTable.get
      rw [if_neg (by rw [h2, h3]; exact h)]

omit [Field F] [DecidableEq F] in
theorem stepBy_get {α : Type} (n : Nat) (hn : 0 < n) (l : List α) : ∃ r, stepBy n l = some r ∧ r.length = (l.length + n - 1) / n ∧
    ∀ k, r[k]? = l[k * n]? := by
  refine ⟨_, by unfold stepBy; rw [if_neg (by omega)], ?_⟩
  have key : ∀ m ≤ (l.length + n - 1) / n, ∃ r, (List.range m).filterMap (fun k => l[k * n]?) = r ∧ r.length = m ∧ ∀ k < m, r[k]? = l[k * n]? := by
    intro m
    induction m with
    | zero => intro _; exact ⟨[], rfl, rfl, by intro k hk; omega⟩
    | succ m ih =>
      intro hm
      obtain ⟨r, h1, h2, h3⟩ := ih (by omega)
      have hlt : m * n < l.length := by
        have : (m + 1) * n ≤ l.length + n - 1 := by
          calc (m + 1) * n ≤ (l.length + n - 1) / n * n := Nat.mul_le_mul_right _ hm
            _ ≤ _ := Nat.div_mul_le_self _ _
        have : (m + 1) * n = m * n + n := by ring
        omega
      refine ⟨r ++ [l[m * n]], ?_, by simp [h2], ?_⟩
      · rw [List.range_succ, List.filterMap_append, h1]
        simp [List.getElem?_eq_getElem hlt]
      · intro k hk
        by_cases hkm : k < m
        · rw [List.getElem?_append_left (by omega), h3 k hkm]
        · have : k = m := by omega
          subst this
          rw [List.getElem?_append_right (by omega), h2, Nat.sub_self, List.getElem?_cons_zero, List.getElem?_eq_getElem hlt]
  obtain ⟨r, h1, h2, h3⟩ := key _ le_rfl
  rw [h1]
  refine ⟨h2, ?_⟩
  intro k
  by_cases hk : k < (l.length + n - 1) / n
  · exact h3 k hk
  · rw [List.getElem?_eq_none (by omega), List.getElem?_eq_none]
    have h4 : (l.length + n - 1) / n ≤ k := by omega
    have h5 : l.length + n - 1 < (k + 1) * n := by
      rw [← Nat.div_lt_iff_lt_mul hn]; omega
    have : (k + 1) * n = k * n + n := by ring
    omega

omit [DecidableEq F] in
/-- C46: reading out row `i` or column `j` of a non-empty table gives the cells in order. -/
theorem C46_row_column (t : TraceTable F) (ht : TableOk t) :
    (∀ i < t.trace_length, ∃ r, t.row i = some r ∧ r.length = t.num_columns ∧ ∀ j < t.num_columns, r[j]? = t.get i j) ∧
    (0 < t.trace_length → ∀ j < t.num_columns, ∃ c, t.column j = some c ∧ c.length = t.trace_length ∧ ∀ i < t.trace_length, c[i]? = t.get i j) := by
  constructor
  · intro i hi
    have hle : (i + 1) * t.num_columns ≤ t.values.length := by rw [ht]; exact Nat.mul_le_mul_right _ hi
    have hadd : (i + 1) * t.num_columns = i * t.num_columns + t.num_columns := by ring
    refine ⟨_, by unfold TraceTable.row; rw [if_pos ⟨hi, hle⟩], ?_, ?_⟩
    · rw [List.length_take, List.length_drop]; omega
    · intro j hj
      unfold TraceTable.get
      rw [List.getElem?_take, if_pos hj, List.getElem?_drop, if_pos ⟨hi, hj⟩]
  · intro h0 j hj
    obtain ⟨c, h1, h2, h3⟩ := stepBy_get t.num_columns (by omega) (t.values.drop j)
    have hjl : j ≤ t.values.length := by
      rw [ht]
      calc j ≤ t.num_columns := hj.le
        _ = 1 * t.num_columns := by ring
        _ ≤ _ := Nat.mul_le_mul_right _ (by omega)
    refine ⟨c, by unfold TraceTable.column; rw [if_pos hjl, h1], ?_, ?_⟩
    · rw [h2, List.length_drop, ht]
      obtain ⟨m, hm⟩ : ∃ m, t.trace_length = m + 1 := ⟨t.trace_length - 1, by omega⟩
      rw [hm, show (m + 1) * t.num_columns = m * t.num_columns + t.num_columns by ring,
        show m * t.num_columns + t.num_columns - j + t.num_columns - 1 = (m + 1) * t.num_columns + (t.num_columns - j - 1) by
          rw [show (m + 1) * t.num_columns = m * t.num_columns + t.num_columns by ring]; omega,
        Nat.mul_comm, Nat.mul_add_div (by omega), Nat.div_eq_of_lt (by omega)]
    · intro i hi
      rw [h3, List.getElem?_drop]
      unfold TraceTable.get
      rw [if_pos ⟨hi, hj⟩, Nat.add_comm]

/-- C46: interpolating a table with `2^k` rows gives one polynomial per column, with `2^k` coefficients, whose value at `g^i` (`g` is
the generator of the trace domain) is the entry of the column in row `i`. -/
theorem C46_interpolate (root : Nat → Option F) (hroot : RootFn root) (t : TraceTable F) (ht : TableOk t) (k : Nat) (hk : k < 64)
    (hrows : t.trace_length = 2 ^ k) (g : F) (hg : t.generator root = some g) :
    ∃ ps, t.interpolate root = some ps ∧ ps.length = t.num_columns ∧ ∀ j < t.num_columns, ∃ p, ps[j]? = some p ∧ p.length = 2 ^ k ∧
      ∀ i < 2 ^ k, t.get i j = some ((toPoly p).eval (g ^ i)) := by
  have hw : root (2 ^ k) = some g := by rw [← hrows]; exact hg
  have hpos : 0 < t.trace_length := by rw [hrows]; exact Nat.two_pow_pos k
  have key : ∀ j ∈ List.range t.num_columns, ∃ p, t.interpolateColumn root j = some p ∧ p.length = 2 ^ k ∧
      ∀ i < 2 ^ k, t.get i j = some ((toPoly p).eval (g ^ i)) := by
    intro j hj
    rw [List.mem_range] at hj
    obtain ⟨col, h1, h2, h3⟩ := (C46_row_column t ht).2 hpos j hj
    rw [hrows] at h2 h3
    obtain ⟨a, b, e1, e2, e3⟩ := C21_fft_ifft root hroot k hk g hw (sl col)
    obtain ⟨b', f1, f2, _⟩ := C20_fft root hroot k hk g hw (permute (2 ^ k) a)
    have hb : b' = b := by rw [e2] at f1; exact (Option.some.inj f1).symm
    subst hb
    refine ⟨unsl (2 ^ k) (permute (2 ^ k) a), ?_, unsl_length' _ _, ?_⟩
    · unfold TraceTable.interpolateColumn
      rw [h1, Option.bind_some, h2, e1, Option.bind_some]
      unfold Poly.new
      rw [unsl_length', Nat.log2_two_pow, if_pos rfl]
    · intro i hi
      rw [← h3 i hi]
      have hcol : col[i]? = some (sl col i) := by
        unfold sl; rw [List.getD, List.getElem?_eq_getElem (by omega)]; rfl
      rw [hcol, ← e3, permute_eq k hk, if_pos hi, f2 (rev k i) i (rev_lt k i) ((isBitRev_iff _ _ _).2 (rev_rev k i hi).symm), ← sum_toPoly,
        unsl_length']
      congr 1
      apply Finset.sum_congr rfl
      intro m hm
      rw [Finset.mem_range] at hm
      congr 1
      unfold unsl
      rw [List.getD, List.getElem?_map, List.getElem?_range hm]; rfl
  have hsome : ∀ j ∈ List.range t.num_columns, t.interpolateColumn root j = some ((t.interpolateColumn root j).getD []) := by
    intro j hj
    obtain ⟨p, h, _⟩ := key j hj
    rw [h]; rfl
  refine ⟨(List.range t.num_columns).map fun j => (t.interpolateColumn root j).getD [], mapM_some _ _ _ hsome, by simp, ?_⟩
  intro j hj
  obtain ⟨p, h1, h2, h3⟩ := key j (List.mem_range.2 hj)
  refine ⟨p, ?_, h2, h3⟩
  rw [List.getElem?_map, List.getElem?_range hj, Option.map_some, h1]; rfl
where
  unsl_length' (n : Nat) (v : Slice F) : (unsl n v).length = n := by simp [unsl]

/-! ## C48: specification -/

/-- The expression has no inverse and no claim polynomial. -/
def DivFree : Expr F → Prop
  | .X | .Constant _ | .Trace _ _ => True
  | .Polynomial _ a | .Neg a | .Exp a _ => DivFree a
  | .Add a b | .Mul a b => DivFree a ∧ DivFree b
  | .Inv _ | .ClaimPolynomial _ _ _ _ => False

/-- A product of division-free expressions and inverses of such. -/
def IsProduct : Expr F → Prop
  | .Mul a b => IsProduct a ∧ IsProduct b
  | .Neg a => IsProduct a
  | .Exp a k => IsProduct a ∧ k ≠ 0
  | .Inv a => DivFree a
  | .Add a b => DivFree a ∧ DivFree b
  | .Polynomial _ a => DivFree a
  | .ClaimPolynomial _ _ _ _ => False
  | _ => True

/-- A sum of such products. -/
def IsFractionSum : Expr F → Prop
  | .Add a b => IsFractionSum a ∧ IsFractionSum b
  | e => IsProduct e

/-- Specification: the value of a division-free expression. -/
def value (x : F) (tr : Nat → Int → F) : Expr F → F
  | .X => x
  | .Constant c => c
  | .Trace i j => tr i j
  | .Polynomial p a => Poly.evaluate p (value x tr a)
  | .Add a b => value x tr a + value x tr b
  | .Neg a => -value x tr a
  | .Mul a b => value x tr a * value x tr b
  | .Exp a k => value x tr a ^ k
  | .Inv _ | .ClaimPolynomial _ _ _ _ => 0

/-- Specification: numerator and denominator of a product, not cancelled. -/
def fraction (x : F) (tr : Nat → Int → F) : Expr F → F × F
  | .Mul a b => ((fraction x tr a).1 * (fraction x tr b).1, (fraction x tr a).2 * (fraction x tr b).2)
  | .Neg a => (-(fraction x tr a).1, (fraction x tr a).2)
  | .Exp a k => ((fraction x tr a).1 ^ k, (fraction x tr a).2 ^ k)
  | .Inv a => (1, value x tr a)
  | e => (value x tr e, 1)

/-- Specification: in no summand is a non-zero numerator divided by zero. -/
def WellDefined (x : F) (tr : Nat → Int → F) : Expr F → Prop
  | .Add a b => WellDefined x tr a ∧ WellDefined x tr b
  | e => (fraction x tr e).2 = 0 → (fraction x tr e).1 = 0

/-- Specification: the cell that row `row` sees at offset `j` of column `i`, rows counted cyclically. -/
def cellAt (t : TraceTable F) (row i : Nat) (j : Int) : F := (t.get (((row : Int) + j) % (t.trace_length : Int)).toNat i).getD 0

/-- Specification: an expression that only looks at existing columns, at offsets not below minus the length of the trace. -/
def InTable (t : TraceTable F) (e : Expr F) : Prop := ∀ a, Occurs a e → a.1 < t.num_columns ∧ -(t.trace_length : Int) ≤ a.2

/-! ## Helper lemmas -/

theorem check_divFree (x : F) (tr : Nat → Int → F) (trace : Nat → Int → Option F) (e : Expr F) (he : DivFree e)
    (htr : ∀ a, Occurs a e → trace a.1 a.2 = some (tr a.1 a.2)) : e.check x trace = some (value x tr e, true) := by
  induction e with
  | X => rfl
  | Constant c => rfl
  | Trace i j => rw [Expr.check, htr (i, j) rfl]; rfl
  | Polynomial p a ih => rw [Expr.check, ih he htr]; rfl
  | ClaimPolynomial i n a name ih => exact he.elim
  | Add a b iha ihb =>
    rw [Expr.check, iha he.1 (fun a h => htr a (Or.inl h)), ihb he.2 (fun a h => htr a (Or.inr h))]; rfl
  | Neg a ih => rw [Expr.check, ih he htr]; rfl
  | Mul a b iha ihb =>
    rw [Expr.check, iha he.1 (fun a h => htr a (Or.inl h)), ihb he.2 (fun a h => htr a (Or.inr h))]; rfl
  | Inv a ih => exact he.elim
  | Exp a k ih => rw [Expr.check, ih he htr]; rfl

theorem check_inv_divFree (x : F) (trace : Nat → Int → Option F) (a : Expr F) (ha : DivFree a) :
    (Expr.Inv a).check x trace = (a.check x trace).map fun r => if r.2 then (if r.1 = 0 then (1, false) else (r.1, true)) else (1, false) := by
  cases a <;> first | rfl | exact ha.elim

/-- what the checker finds for a product: its verdict, and whether the value is zero -/
theorem check_product (x : F) (tr : Nat → Int → F) (trace : Nat → Int → Option F) (e : Expr F) (he : IsProduct e)
    (htr : ∀ a, Occurs a e → trace a.1 a.2 = some (tr a.1 a.2)) :
    ∃ r, e.check x trace = some r ∧ (r.2 = true ↔ ((fraction x tr e).2 = 0 → (fraction x tr e).1 = 0)) ∧
      (r.2 = true → (r.1 = 0 ↔ (fraction x tr e).1 = 0)) := by
  have leaf : ∀ e : Expr F, DivFree e → (∀ a, Occurs a e → trace a.1 a.2 = some (tr a.1 a.2)) → fraction x tr e = (value x tr e, 1) →
      ∃ r, e.check x trace = some r ∧ (r.2 = true ↔ ((fraction x tr e).2 = 0 → (fraction x tr e).1 = 0)) ∧
      (r.2 = true → (r.1 = 0 ↔ (fraction x tr e).1 = 0)) := by
    intro e h1 h2 h3
    refine ⟨_, check_divFree x tr trace e h1 h2, ?_, ?_⟩
    · rw [h3]; simp
    · rw [h3]; simp
  induction e with
  | X => exact leaf _ trivial htr rfl
  | Constant c => exact leaf _ trivial htr rfl
  | Trace i j => exact leaf _ trivial htr rfl
  | Polynomial p a ih => exact leaf _ he htr rfl
  | ClaimPolynomial i n a name ih => exact he.elim
  | Add a b iha ihb => exact leaf _ he htr rfl
  | Neg a ih =>
    obtain ⟨r, h1, h2, h3⟩ := ih he htr
    refine ⟨(-r.1, r.2), by rw [Expr.check, h1]; rfl, ?_, ?_⟩
    · simp only [fraction, neg_eq_zero]; exact h2
    · simp only [fraction, neg_eq_zero]; exact h3
  | Mul a b iha ihb =>
    obtain ⟨ra, h1, h2, h3⟩ := iha he.1 (fun a h => htr a (Or.inl h))
    obtain ⟨rb, g1, g2, g3⟩ := ihb he.2 (fun a h => htr a (Or.inr h))
    refine ⟨Expr.checkMul ra rb, by rw [Expr.check, h1, g1]; rfl, ?_⟩
    simp only [fraction, mul_eq_zero]
    obtain ⟨va, oka⟩ := ra
    obtain ⟨vb, okb⟩ := rb
    simp only at h2 h3 g2 g3
    clear h1 g1 iha ihb leaf htr he
    generalize (fraction x tr a).1 = na at *
    generalize (fraction x tr a).2 = da at *
    generalize (fraction x tr b).1 = nb at *
    generalize (fraction x tr b).2 = db at *
    cases oka <;> cases okb
    · simp only [Bool.false_eq_true, false_iff, Classical.not_imp] at h2 g2
      simp only [Expr.checkMul, Bool.and_self, Bool.false_eq_true, if_false, Bool.and_false, Bool.not_false, false_iff, Bool.not_true, Bool.and_true,
        false_imp_iff, and_true]
      intro h
      rcases h (Or.inl h2.1) with h | h
      · exact h2.2 h
      · exact g2.2 h
    · simp only [Bool.false_eq_true, false_iff, Classical.not_imp] at h2
      have g3 := g3 rfl
      by_cases hv : vb = 0
      · have : nb = 0 := g3.1 hv
        simp [Expr.checkMul, hv, this]
      · have : nb ≠ 0 := fun h => hv (g3.2 h)
        simp [Expr.checkMul, hv, this, h2.1, h2.2]
    · simp only [Bool.false_eq_true, false_iff, Classical.not_imp] at g2
      have h3 := h3 rfl
      by_cases hv : va = 0
      · have : na = 0 := h3.1 hv
        simp [Expr.checkMul, hv, this]
      · have : na ≠ 0 := fun h => hv (h3.2 h)
        simp [Expr.checkMul, hv, this, g2.1, g2.2]
    · simp only [true_iff] at h2 g2
      have h3 := h3 rfl
      have g3 := g3 rfl
      simp only [Expr.checkMul, Bool.and_self, if_true, true_iff, mul_eq_zero, h3, g3, forall_const, iff_self, and_true]
      rintro (h | h)
      · exact Or.inl (h2 h)
      · exact Or.inr (g2 h)
  | Inv a ih =>
    have hc := check_divFree x tr trace a he htr
    rw [check_inv_divFree x trace a he, hc]
    by_cases hv : value x tr a = 0
    · exact ⟨(1, false), by simp [hv], by simp [fraction, hv], by simp⟩
    · exact ⟨(value x tr a, true), by simp [hv], by simp [fraction, hv], by simp [fraction, hv]⟩
  | Exp a k ih =>
    obtain ⟨r, h1, h2, h3⟩ := ih he.1 htr
    have hk := he.2
    refine ⟨if r.2 then (r.1 ^ k, true) else (1, false), by rw [Expr.check, h1]; rfl, ?_⟩
    simp only [fraction, pow_eq_zero_iff hk]
    obtain ⟨v, ok⟩ := r
    simp only at h2 h3
    cases ok
    · simp_all
    · simp only [if_true, pow_eq_zero_iff hk, true_iff]
      exact ⟨h2.1 rfl, fun _ => h3 rfl⟩

/-- C48 for one constraint (partial: sums of products of division-free expressions and their inverses): the checker says whether the
expression is well defined. -/
theorem C48_check_partial (x : F) (tr : Nat → Int → F) (trace : Nat → Int → Option F) (e : Expr F) (he : IsFractionSum e)
    (htr : ∀ a, Occurs a e → trace a.1 a.2 = some (tr a.1 a.2)) :
    ∃ r, e.check x trace = some r ∧ (r.2 = true ↔ WellDefined x tr e) := by
  induction e with
  | Add a b iha ihb =>
    obtain ⟨ra, h1, h2⟩ := iha he.1 (fun a h => htr a (Or.inl h))
    obtain ⟨rb, g1, g2⟩ := ihb he.2 (fun a h => htr a (Or.inr h))
    refine ⟨_, by rw [Expr.check, h1, g1]; rfl, ?_⟩
    rw [WellDefined, ← h2, ← g2]
    cases h : ra.2 <;> cases h' : rb.2 <;> simp [h, h']
  | X => obtain ⟨r, h1, h2, _⟩ := check_product x tr trace _ he htr; exact ⟨r, h1, h2⟩
  | Constant c => obtain ⟨r, h1, h2, _⟩ := check_product x tr trace _ he htr; exact ⟨r, h1, h2⟩
  | Trace i j => obtain ⟨r, h1, h2, _⟩ := check_product x tr trace _ he htr; exact ⟨r, h1, h2⟩
  | Polynomial p a _ => obtain ⟨r, h1, h2, _⟩ := check_product x tr trace _ he htr; exact ⟨r, h1, h2⟩
  | ClaimPolynomial i n a name _ => exact he.elim
  | Neg a _ => obtain ⟨r, h1, h2, _⟩ := check_product x tr trace _ he htr; exact ⟨r, h1, h2⟩
  | Mul a b _ _ => obtain ⟨r, h1, h2, _⟩ := check_product x tr trace _ he htr; exact ⟨r, h1, h2⟩
  | Inv a _ => obtain ⟨r, h1, h2, _⟩ := check_product x tr trace _ he htr; exact ⟨r, h1, h2⟩
  | Exp a k _ => obtain ⟨r, h1, h2, _⟩ := check_product x tr trace _ he htr; exact ⟨r, h1, h2⟩

omit [DecidableEq F] in
theorem traceAt_eq (t : TraceTable F) (ht : TableOk t) (row : Nat) (hrow : row < t.trace_length) (i : Nat) (j : Int)
    (hi : i < t.num_columns) (hj : -(t.trace_length : Int) ≤ j) : t.traceAt row i j = some (cellAt t row i j) := by
  have hget : ∀ r < t.trace_length, t.get r i = some ((t.get r i).getD 0) := by
    intro r hr
    unfold TraceTable.get
    rw [if_pos ⟨hr, hi⟩, List.getElem?_eq_getElem (by rw [ht]; exact cell_lt t hr hi)]; rfl
  unfold TraceTable.traceAt cellAt
  by_cases hp : 0 < j
  · rw [if_pos hp]
    have e : (((row : Int) + j) % (t.trace_length : Int)).toNat = (j.toNat + row) % t.trace_length := by
      have : (row : Int) + j = ((j.toNat + row : Nat) : Int) := by omega
      rw [this]
      rw [← Int.natCast_mod, Int.toNat_natCast]
    rw [e]
    exact hget _ (Nat.mod_lt _ (by omega))
  · rw [if_neg hp]
    dsimp only
    by_cases hlt : row < j.natAbs
    · rw [if_pos hlt]
      have e : (((row : Int) + j) % (t.trace_length : Int)).toNat = t.trace_length + row - j.natAbs := by
        have : (row : Int) + j = ((t.trace_length + row - j.natAbs : Nat) : Int) + (t.trace_length : Int) * (-1) := by omega
        rw [this, Int.add_mul_emod_self_left, ← Int.natCast_mod, Int.toNat_natCast, Nat.mod_eq_of_lt (by omega)]
      unfold csub
      rw [if_pos (by omega), Option.bind_some, e]
      exact hget _ (by omega)
    · rw [if_neg hlt]
      have e : (((row : Int) + j) % (t.trace_length : Int)).toNat = row - j.natAbs := by
        have : (row : Int) + j = ((row - j.natAbs : Nat) : Int) := by omega
        rw [this, ← Int.natCast_mod, Int.toNat_natCast, Nat.mod_eq_of_lt (by omega)]
      rw [e]
      exact hget _ (by omega)

/-- Constraint `which` of the list holds at row `row`. -/
def HoldsAt (t : TraceTable F) (g : F) (es : List (Expr F)) (row which : Nat) : Prop :=
  ∀ e, es[which]? = some e → WellDefined (g ^ row) (cellAt t row) e

theorem checkRow_spec (x : F) (tr : Nat → Int → F) (trace : Nat → Int → Option F) (es : List (Expr F)) (base : Nat)
    (he : ∀ e ∈ es, IsFractionSum e ∧ ∀ a, Occurs a e → trace a.1 a.2 = some (tr a.1 a.2)) :
    (∃ r, TraceTable.checkRow x trace base es = some r ∧
      (r = none → ∀ e ∈ es, WellDefined x tr e) ∧
      (∀ w, r = some w → ∃ k e, w = base + k ∧ es[k]? = some e ∧ ¬ WellDefined x tr e ∧ ∀ k' < k, ∀ e', es[k']? = some e' → WellDefined x tr e')) := by
  induction es generalizing base with
  | nil => exact ⟨none, rfl, by simp, by simp⟩
  | cons e es ih =>
    obtain ⟨r, h1, h2⟩ := C48_check_partial x tr trace e (he e (by simp)).1 (he e (by simp)).2
    rw [TraceTable.checkRow, h1, Option.bind_some]
    cases hr : r.2 with
    | false =>
      refine ⟨some base, by simp, by simp, ?_⟩
      intro w hw
      cases hw
      refine ⟨0, e, rfl, rfl, ?_, by intro k hk; omega⟩
      rw [← h2, hr]; simp
    | true =>
      obtain ⟨r', g1, g2, g3⟩ := ih (base + 1) (fun e he' => he e (by simp [he']))
      have hok : WellDefined x tr e := h2.1 hr
      refine ⟨r', by simpa using g1, ?_, ?_⟩
      · intro hn e' he'
        rcases List.mem_cons.1 he' with rfl | he'
        · exact hok
        · exact g2 hn e' he'
      · intro w hw
        obtain ⟨k, e', a1, a2, a3, a4⟩ := g3 w hw
        refine ⟨k + 1, e', by omega, by simpa using a2, a3, ?_⟩
        intro k' hk' e'' he''
        cases k' with
        | zero => simp at he''; rw [← he'']; exact hok
        | succ k' => exact a4 k' (by omega) e'' (by simpa using he'')

/-- C48 (partial: constraints that are sums of products of division-free expressions and their inverses, and look only at cells of
the table): `check_constraints` returns `Ok` exactly when every constraint is well defined at every row, and otherwise the first
row, and in it the first constraint, for which this fails. -/
theorem C48_constraints_partial (root : Nat → Option F) (c : Constraints F) (t : TraceTable F) (ht : TableOk t) (g : F)
    (hg : root t.trace_length = some g) (he : ∀ e ∈ c.expressions, IsFractionSum e ∧ InTable t e) :
    ∃ r, TraceTable.check_constraints root c t = some r ∧
      (r = .ok () ↔ ∀ row < t.trace_length, ∀ which, HoldsAt t g c.expressions row which) ∧
      (∀ row which, r = .error (row, which) → row < t.trace_length ∧ ¬ HoldsAt t g c.expressions row which ∧
        (∀ which' < which, HoldsAt t g c.expressions row which') ∧ ∀ row' < row, ∀ which', HoldsAt t g c.expressions row' which') := by
  have key : ∀ (rows row : Nat), row + rows = t.trace_length → ∃ r, TraceTable.checkRows t c.expressions g rows row (g ^ row) = some r ∧
      (r = .ok () ↔ ∀ row', row ≤ row' → row' < t.trace_length → ∀ which, HoldsAt t g c.expressions row' which) ∧
      (∀ row0 which, r = .error (row0, which) → row ≤ row0 ∧ row0 < t.trace_length ∧ ¬ HoldsAt t g c.expressions row0 which ∧
        (∀ which' < which, HoldsAt t g c.expressions row0 which') ∧
        ∀ row', row ≤ row' → row' < row0 → ∀ which', HoldsAt t g c.expressions row' which') := by
    intro rows
    induction rows with
    | zero =>
      intro row hrow
      exact ⟨.ok (), rfl, iff_of_true rfl (by intro row' h1 h2; omega), by intro a b h; cases h⟩
    | succ rows ih =>
      intro row hrow
      have hlt : row < t.trace_length := by omega
      obtain ⟨r, h1, h2, h3⟩ := checkRow_spec (g ^ row) (cellAt t row) (t.traceAt row) c.expressions 0 (by
        intro e hmem
        obtain ⟨e1, e2⟩ := he e hmem
        exact ⟨e1, fun a ha => traceAt_eq t ht row hlt a.1 a.2 (e2 a ha).1 (e2 a ha).2⟩)
      rw [TraceTable.checkRows, h1, Option.bind_some]
      cases r with
      | some which =>
        obtain ⟨k, e, rfl, a2, a3, a4⟩ := h3 which rfl
        refine ⟨_, rfl, ?_, ?_⟩
        · refine iff_of_false (by intro h; cases h) ?_
          intro h
          exact a3 (h row le_rfl hlt (0 + k) e (by simpa using a2))
        · intro row0 w h
          cases h
          refine ⟨le_rfl, hlt, ?_, ?_, by intro r' h1 h2; omega⟩
          · intro h; exact a3 (h e (by simpa using a2))
          · intro w' hw' e' he'; exact a4 w' (by omega) e' he'
      | none =>
        have hall := h2 rfl
        obtain ⟨r', g1, g2, g3⟩ := ih (row + 1) (by omega)
        have hrow' : ∀ which, HoldsAt t g c.expressions row which := fun which e he' => hall e (List.mem_of_getElem? he')
        refine ⟨r', by rw [← pow_succ]; exact g1, ?_, ?_⟩
        · rw [g2]
          constructor
          · intro h row' a b
            by_cases hr : row' = row
            · subst hr; exact hrow'
            · exact h row' (by omega) b
          · intro h row' a b
            exact h row' (by omega) b
        · intro row0 which h
          obtain ⟨a1, a2, a3, a4, a5⟩ := g3 row0 which h
          refine ⟨by omega, a2, a3, a4, ?_⟩
          intro row' b1 b2
          by_cases hr : row' = row
          · subst hr; exact hrow'
          · exact a5 row' (by omega) b2
  obtain ⟨r, h1, h2, h3⟩ := key t.trace_length 0 (by omega)
  refine ⟨r, ?_, ?_, ?_⟩
  · unfold TraceTable.check_constraints
    rw [hg, Option.bind_some]
    simpa using h1
  · rw [h2]
    exact ⟨fun h row hr => h row (by omega) hr, fun h row _ hr => h row hr⟩
  · intro row which h
    obtain ⟨_, a2, a3, a4, a5⟩ := h3 row which h
    exact ⟨a2, a3, a4, fun row' hr => a5 row' (by omega) hr⟩

/-- C48 (partial): `check_specific_constraint` says whether the constraint is well defined with the cells of that row. Row 0 is treated
right; missing: in later rows the value used for `X` is the point of the row before (see `C48_specific_violated`). -/
theorem C48_specific_partial (root : Nat → Option F) (c : Constraints F) (t : TraceTable F) (ht : TableOk t) (g : F)
    (hg : root t.trace_length = some g) (row : Nat) (hrow : row < t.trace_length) (which : Nat) (e : Expr F)
    (hw : c.expressions[which]? = some e) (he : IsFractionSum e ∧ InTable t e) :
    ∃ b, TraceTable.check_specific_constraint root c t row which = some b ∧
      (b = true ↔ WellDefined (g ^ (row - 1)) (cellAt t row) e) ∧ (row = 0 → (b = true ↔ HoldsAt t g c.expressions row which)) := by
  obtain ⟨r, h1, h2⟩ := C48_check_partial (g ^ (row - 1)) (cellAt t row) (t.traceAt row) e he.1
    (fun a ha => traceAt_eq t ht row hrow a.1 a.2 (he.2 a ha).1 (he.2 a ha).2)
  refine ⟨r.2, ?_, h2, ?_⟩
  · unfold TraceTable.check_specific_constraint
    rw [hg, Option.bind_some]
    dsimp only
    have : (if row = 0 then (1 : F) else g ^ (row - 1)) = g ^ (row - 1) := by
      split
      · rename_i h; rw [h]; simp
      · rfl
    rw [this, hw, Option.bind_some, h1]; rfl
  · intro h0
    rw [h2]
    unfold HoldsAt
    subst h0
    rw [pow_zero, hw]
    exact ⟨fun h e' he' => by cases he'; exact h, fun h => h e rfl⟩

end

/-! ### Where the checker is wrong -/

/-- C48: `(1/2 - 2) / (X - 1)` divides 1 (= 1/2 - 2 modulo 5) by zero in row 0, yet the check passes, because the checker takes 2 for
the value of `1/2`. -/
theorem C48_violated : ∃ (c : Constraints (ZMod 5)) (t : TraceTable (ZMod 5)),
    c.expressions = [.Mul (.Add (.Inv (.Constant 2)) (.Constant (-2))) (.Inv (.Add .X (.Constant (-1))))] ∧
    (2 : ZMod 5)⁻¹ - 2 ≠ 0 ∧ TableOk t ∧ t.trace_length = 4 ∧ TraceTable.check_constraints root5 c t = some (.ok ()) :=
  ⟨⟨[], 4, 1, _, 16, 0, 45, [2], []⟩, TraceTable.new 4 1, rfl, by decide +kernel, rfl, rfl, by decide +kernel⟩

/-- C48: `check_specific_constraint` evaluates at the point of the row before: `1/(X - 1)` is well defined in row 1, and
`check_constraints` only complains about row 0, but the specific check fails in row 1. -/
theorem C48_specific_violated : ∃ (c : Constraints (ZMod 5)) (t : TraceTable (ZMod 5)),
    c.expressions = [.Inv (.Add .X (.Neg (.Constant 1)))] ∧ TableOk t ∧ t.trace_length = 4 ∧ root5 4 = some 2 ∧
    HoldsAt t 2 c.expressions 1 0 ∧ TraceTable.check_specific_constraint root5 c t 1 0 = some false := by
  refine ⟨⟨[], 4, 1, _, 16, 0, 45, [2], []⟩, TraceTable.new 4 1, rfl, rfl, rfl, rfl, ?_, by decide +kernel⟩
  intro e he
  cases he
  simp only [WellDefined, fraction, value]
  intro h
  exact absurd h (by decide +kernel)

-- a table with 4 rows and 2 columns in which T(0, 1) = 2 · T(0, 0) holds in all rows but the last
def sampleTable : TraceTable (ZMod 5) := ⟨4, 2, [1, 0, 2, 0, 4, 0, 3, 0]⟩

def sampleSystem (last : ZMod 5) : Constraints (ZMod 5) :=
  ⟨[], 4, 2, [.Mul (.Mul (.Add (.Trace 0 1) (.Neg (.Mul (.Constant 2) (.Trace 0 0)))) (.Add .X (.Neg (.Constant 3))))
    (.Inv (.Add (.Exp .X 4) (.Neg (.Constant 1)))), .Mul (.Add (.Trace 0 0) (.Neg (.Constant last))) (.Inv (.Add .X (.Neg (.Constant 3))))],
    16, 0, 45, [2], []⟩

example : TableOk sampleTable ∧ ∀ e ∈ (sampleSystem 3).expressions, IsFractionSum e := by
  refine ⟨rfl, ?_⟩
  intro e he
  simp only [sampleSystem, List.mem_cons, List.not_mem_nil, or_false] at he
  rcases he with rfl | rfl <;> simp [IsFractionSum, IsProduct, DivFree]
example : ∀ e ∈ (sampleSystem 3).expressions, InTable sampleTable e := by
  intro e he a ha
  simp only [sampleSystem, List.mem_cons, List.not_mem_nil, or_false] at he
  rcases he with rfl | rfl <;> simp only [Occurs, or_false, false_or] at ha
  · rcases ha with rfl | rfl <;> simp [sampleTable]
  · subst ha; simp [sampleTable]
example : TraceTable.check_constraints root5 (sampleSystem 3) sampleTable = some (.ok ()) := by decide +kernel
example : TraceTable.check_constraints root5 (sampleSystem 2) sampleTable = some (.error (3, 1)) := by decide +kernel
example : ∃ ps, sampleTable.interpolate root5 = some ps ∧ ps = [[0, 1, 0, 0], [0, 0, 0, 0]] := ⟨_, rfl, by decide +kernel⟩

end Props
end OpenZKP
