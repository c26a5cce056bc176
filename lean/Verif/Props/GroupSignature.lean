import Verif.Props.CurveGadgets
import Verif.Props.Mimc
import Verif.Props.Division
import Verif.EC.Ecdsa

/-!
# Property C99: the signature example (group_sig)

A satisfied system is described for the table of cells `t row column` of which `RowsSatisfy` (C64) speaks.
-/

namespace OpenZKP
namespace Props
namespace GroupSignature
open Stark EC Examples Examples.GroupSig WeierstrassCurve.Affine Accept CurveGadgets

section
variable {F : Type} [Field F] [DecidableEq F] {β : F}

/-! ## Specification -/

/-- The rows `a` and `b` satisfy the equations of a step: (1, 2) of `b` is the double of (1, 2) of `a`; and (3, 4) of `b` is, for the flag 1, the sum of (1, 2) and (3, 4) of `a`, and for
the flag 0, (3, 4) of `a`.  (`C99_step_partial` says this with points.) -/
def Step (a b : Nat → F) : Prop :=
  ((3 * a 1 ^ 2 + 1) ^ 2 - (2 * a 2) ^ 2 * (2 * a 1 + b 1) = 0 ∧ (3 * a 1 ^ 2 + 1) * (a 1 - b 1) - 2 * a 2 * (a 2 + b 2) = 0) ∧
  ((a 4 - a 2) ^ 2 - (a 3 - a 1) ^ 2 * (a 1 + a 3 + b 3)) * a 0 + (1 - a 0) * (b 3 - a 3) = 0 ∧
  ((a 4 - a 2) * (a 1 - b 3) - (a 3 - a 1) * (a 2 + b 4)) * a 0 + (1 - a 0) * (b 4 - a 4) = 0

/-- A row: the flag and the two points. -/
def rowOf (flag : F) (P Q : Pt β) (c : Nat) : F :=
  match c with
  | 0 => flag
  | 1 => (coords P).1
  | 2 => (coords P).2
  | 3 => (coords Q).1
  | _ => (coords Q).2

/-! ## Lemmas -/

def sigQuotients (g : F) : List (Expr F × Expr F) :=
  let row_double := point_double (.Trace 1 0) (.Trace 2 0) (.Trace 1 1) (.Trace 2 1)
  let row_add := point_add (.Trace 1 0) (.Trace 2 0) (.Trace 3 0) (.Trace 4 0) (.Trace 3 1) (.Trace 4 1)
  [loopRows g 512 2 row_double.1, loopRows g 512 2 row_double.2,
    loopRows g 512 2 (simple_conditional row_add.1 (Expr.sub (.Trace 3 1) (.Trace 3 0)) (.Trace 0 0)),
    loopRows g 512 2 (simple_conditional row_add.2 (Expr.sub (.Trace 4 1) (.Trace 4 0)) (.Trace 0 0))]

theorem hash_rows_quotient (g : F) (N : Expr F) (hN : DivFree N) :
    IsQuotient (on_hash_loop_rows g N) (loopRows g 512 2 N).1 (loopRows g 512 2 N).2 ∧ DivFree (loopRows g 512 2 N).1 ∧ DivFree (loopRows g 512 2 N).2 :=
  ⟨Or.inl rfl, ⟨hN, trivial, trivial⟩, ⟨trivial, trivial⟩⟩

theorem sig_is (root : Nat → Option F) (hroot : RootFn root) (uint : F → U256) (hash : F) (who : F × F) (c : Constraints F)
    (hc : constraints root uint hash who = some c) (g : F) (hg : root 512 = some g) : SystemIs root c 9 5 g (sigQuotients g) 4 := by
  have hord := root_order root hroot 9 (by norm_num) g hg
  unfold constraints at hc
  rw [hg, Option.bind_some] at hc
  obtain ⟨-, hc'⟩ := system_some _ _ _ _ _ _ hc
  refine ⟨by norm_num, hord, hg, ⟨_, _, hc, ?_⟩, by norm_num, ?_, ?_, ?_, by norm_num⟩
  · intro e he i j hij
    simp only [List.mem_cons, List.not_mem_nil, or_false] at he
    rcases he with rfl | rfl | rfl | rfl <;>
      simp [Occurs, on_hash_loop_rows, point_double, point_add, simple_conditional, Expr.sub, Expr.add, Expr.neg, Expr.mul, Expr.div, Expr.inv, Expr.pow] at hij <;> omega
  · rw [hc']
    unfold Quotients sigQuotients
    refine .cons (hash_rows_quotient _ _ ?_) (.cons (hash_rows_quotient _ _ ?_) (.cons (hash_rows_quotient _ _ ?_) (.cons (hash_rows_quotient _ _ ?_) .nil))) <;>
      simp [DivFree, point_double, point_add, simple_conditional, Expr.sub, Expr.add, Expr.neg, Expr.pow, Expr.mul]
  · intro q hq
    simp only [sigQuotients, List.mem_cons, List.not_mem_nil, or_false] at hq
    rcases hq with rfl | rfl | rfl | rfl <;>
      exact ⟨loopRows_zeros g _ _ hord _, by simp [loopRows, NoZeroExp, point_double, point_add, simple_conditional, Expr.sub, Expr.add, Expr.pow, Expr.mul, Expr.neg]⟩
  · rw [hc']
    simp [Constraints.degree, Expr.trace_degree, Expr.degree_impl, on_hash_loop_rows, point_double, point_add, simple_conditional, Expr.sub, Expr.add, Expr.neg, Expr.mul,
      Expr.div, Expr.inv, Expr.pow, csub, Constraints.maxOf]

theorem hold_iff (g : F) (hord : orderOf g = 512) (t : Nat → Nat → F) :
    Hold g 512 t (sigQuotients g) ↔ ∀ r < 512, r % 2 = 0 → Step (t r) (t (r + 1)) := by
  unfold Hold sigQuotients
  simp only [List.forall_mem_cons, loopRows_iff g 512 2 (by norm_num) hord (by norm_num), point_double, point_add, simple_conditional, value_sub, value_add, value_mul, value_exp,
    value_const, value, List.not_mem_nil, false_imp_iff, implies_true, and_true]
  unfold Step
  constructor
  · rintro ⟨h1, h2, h3, h4⟩ r hr he
    have a1 := h1 r hr (by omega)
    have a2 := h2 r hr (by omega)
    have a3 := h3 r hr (by omega)
    have a4 := h4 r hr (by omega)
    rw [row_same _ _ hr, row_next _ _ (by omega)] at a1 a2 a3 a4
    exact ⟨⟨a1, a2⟩, a3, a4⟩
  · intro h
    refine ⟨fun r hr h0 => ?_, fun r hr h0 => ?_, fun r hr h0 => ?_, fun r hr h0 => ?_⟩ <;> rw [row_same _ _ hr, row_next _ _ (by omega)]
    · exact (h r hr (by omega)).1.1
    · exact (h r hr (by omega)).1.2
    · exact (h r hr (by omega)).2.1
    · exact (h r hr (by omega)).2.2

theorem coords_ofPoint {P : Pt β} (h : P ≠ 0) : ofPoint P = .Point (coords P).1 (coords P).2 := by
  cases P with
  | zero => exact absurd rfl h
  | some x y hn => rfl

theorem coords_nonsingular {P : Pt β} (h : P ≠ 0) : ∃ hn : (curve β).Nonsingular (coords P).1 (coords P).2, Point.some _ _ hn = P := by
  cases P with
  | zero => exact absurd rfl h
  | some x y hn => exact ⟨hn, rfl⟩

theorem ofPoint_eq_iff {P : Pt β} (h : P ≠ 0) (u v : F) : ofPoint P = .Point u v ↔ u = (coords P).1 ∧ v = (coords P).2 := by
  rw [coords_ofPoint h]
  constructor
  · intro e
    injection e with e1 e2
    exact ⟨e1.symm, e2.symm⟩
  · rintro ⟨rfl, rfl⟩; rfl

theorem step_congr {a b a' b' : Nat → F} (ha : ∀ c < 5, a c = a' c) (hb : ∀ c < 5, b c = b' c) (h : Step a' b') : Step a b := by
  unfold Step at h ⊢
  rw [ha 0 (by norm_num), ha 1 (by norm_num), ha 2 (by norm_num), ha 3 (by norm_num), ha 4 (by norm_num), hb 1 (by norm_num), hb 2 (by norm_num), hb 3 (by norm_num),
    hb 4 (by norm_num)]
  exact h

/-- a step with flag 0 -/
theorem step_idle (h2 : (2 : F) ≠ 0) (P Q : Pt β) (hP : P + P ≠ 0) : Step (rowOf 0 P Q) (rowOf 0 (P + P) Q) := by
  have hP0 : P ≠ 0 := by rintro rfl; exact hP (add_zero _)
  obtain ⟨n1, e1⟩ := coords_nonsingular hP0
  have hdb := (double_iff (u := (coords (P + P)).1) (v := (coords (P + P)).2) h2 n1).2 (by rw [e1, ofPoint_eq_iff hP]; exact ⟨rfl, rfl⟩)
  refine ⟨hdb, ?_, ?_⟩ <;> simp only [rowOf] <;> ring

/-! ## C99 -/

/-- C99: the system of a claim says of a table that the equations of a step hold from every row with an even number to the next, and nothing else: it says nothing about the rows with
odd numbers, nor about the claim. -/
theorem C99_system (root : Nat → Option F) (hroot : RootFn root) (uint : F → U256) (hash : F) (who : F × F) (c : Constraints F)
    (hc : constraints root uint hash who = some c) (g : F) (hg : root 512 = some g) (t : Nat → Nat → F) :
    RowsSatisfy c g 512 t ↔ ∀ r < 512, r % 2 = 0 → Step (t r) (t (r + 1)) := by
  have hs := sig_is root hroot uint hash who c hc g hg
  rw [← hold_iff g hs.order]
  exact hs.rows t

/-- C99, **partial**: if a row has two different points of the curve, of which the first does not have order two and the sum is not the point at infinity, and the flag 0 or 1, the equations of a step hold exactly when
the next row has the double of the first point, and the sum of the two or the second, by the flag. -/
theorem C99_step_partial (h2 : (2 : F) ≠ 0) (a b : Nat → F) (P Q : Pt β) (hP : P + P ≠ 0) (hQ : Q ≠ 0) (hne : P ≠ Q) (hs : P + Q ≠ 0) (flag : Bool)
    (ha : ∀ c < 5, a c = rowOf (if flag then 1 else 0) P Q c) :
    Step a b ↔ ∀ c, 1 ≤ c → c < 5 → b c = rowOf 0 (P + P) (if flag then P + Q else Q) c := by
  have hP0 : P ≠ 0 := by rintro rfl; exact hP (add_zero _)
  obtain ⟨n1, e1⟩ := coords_nonsingular hP0
  obtain ⟨n2, e2⟩ := coords_nonsingular hQ
  have hd := double_iff (u := b 1) (v := b 2) h2 n1
  have hadd := add_iff (u := b 3) (v := b 4) n1 n2 (by rw [e1, e2]; exact hne)
  rw [e1, ofPoint_eq_iff hP] at hd
  rw [e1, e2, ofPoint_eq_iff hs] at hadd
  have c5 : (∀ c, 1 ≤ c → c < 5 → b c = rowOf 0 (P + P) (if flag then P + Q else Q) c) ↔
      (b 1 = (coords (P + P)).1 ∧ b 2 = (coords (P + P)).2) ∧ b 3 = (coords (if flag then P + Q else Q)).1 ∧ b 4 = (coords (if flag then P + Q else Q)).2 := by
    constructor
    · intro h
      exact ⟨⟨h 1 (by norm_num) (by norm_num), h 2 (by norm_num) (by norm_num)⟩, h 3 (by norm_num) (by norm_num), h 4 (by norm_num) (by norm_num)⟩
    · rintro ⟨⟨h1, h2⟩, h3, h4⟩ c hc1 hc2
      interval_cases c
      exacts [h1, h2, h3, h4]
  rw [c5]
  unfold Step
  have a0 := ha 0 (by norm_num)
  have a1 := ha 1 (by norm_num)
  have a2 := ha 2 (by norm_num)
  have a3 := ha 3 (by norm_num)
  have a4 := ha 4 (by norm_num)
  simp only [rowOf] at a0 a1 a2 a3 a4
  rw [a0, a1, a2, a3, a4, hd]
  apply and_congr_right
  intro _
  cases flag with
  | true =>
    simp only [if_true]
    rw [← hadd]
    constructor
    · rintro ⟨h3, h4⟩; exact ⟨by linear_combination h3, by linear_combination h4⟩
    · rintro ⟨h3, h4⟩; exact ⟨by linear_combination h3, by linear_combination h4⟩
  | false =>
    simp only [Bool.false_eq_true, if_false]
    constructor
    · rintro ⟨h3, h4⟩; exact ⟨by linear_combination h3, by linear_combination h4⟩
    · rintro ⟨h3, h4⟩; exact ⟨by linear_combination h3, by linear_combination h4⟩

/-- the cells of the trace of a signature -/
def sigCell (S G W : Pt β) (u₁ u₂ : Nat) (r c : Nat) : F :=
  if r < 256 then rowOf (if u₁.testBit r then 1 else 0) ((2 ^ r) • G) (S + (u₁ % 2 ^ r) • G) c
  else rowOf (if u₂.testBit (r - 256) then 1 else 0) ((2 ^ (r - 256)) • W) (-S + (u₂ % 2 ^ (r - 256)) • W) c

theorem mem_rows (S P : Pt β) (k start : Nat) (w : Nat × Nat × F) :
    w ∈ (List.range 256).flatMap (rowCells S P k start 0) ↔
      ∃ i < 256, ∃ c < 5, w = (start + i, c, rowOf (if k.testBit i then 1 else 0) ((2 ^ i) • P) (S + (k % 2 ^ i) • P) c) := by
  rw [List.mem_flatMap]
  constructor
  · rintro ⟨i, hi, hw⟩
    refine ⟨i, List.mem_range.1 hi, ?_⟩
    simp only [rowCells, List.mem_cons, List.not_mem_nil, or_false] at hw
    rcases hw with rfl | rfl | rfl | rfl | rfl
    exacts [⟨1, by norm_num, rfl⟩, ⟨2, by norm_num, rfl⟩, ⟨3, by norm_num, rfl⟩, ⟨4, by norm_num, rfl⟩, ⟨0, by norm_num, rfl⟩]
  · rintro ⟨i, hi, c, hc, rfl⟩
    refine ⟨i, List.mem_range.2 hi, ?_⟩
    simp only [rowCells, List.mem_cons, List.not_mem_nil, or_false]
    interval_cases c <;> simp [rowOf]

/-- rows of the computation satisfy the equations -/
theorem step_rows (h2 : (2 : F) ≠ 0) (S P : Pt β) (k : Nat) (h : Regular S P k) (i : Nat) (hi : i + 1 < 256) :
    Step (rowOf (if k.testBit i then 1 else 0) ((2 ^ i) • P) (S + (k % 2 ^ i) • P))
      (rowOf (if k.testBit (i + 1) then 1 else 0) ((2 ^ (i + 1)) • P) (S + (k % 2 ^ (i + 1)) • P)) := by
  have hd : (2 ^ i) • P + (2 ^ i) • P = (2 ^ (i + 1)) • P := by rw [← add_smul, pow_succ, mul_two]
  have hP := h.doubles i (by omega)
  rw [← hd] at hP
  have hP0 : (2 ^ i) • P ≠ 0 := by intro e; rw [e] at hP; exact hP (add_zero _)
  have hQ := sums_ne S P k h i (by omega)
  obtain ⟨n1, e1⟩ := coords_nonsingular hP0
  obtain ⟨n2, e2⟩ := coords_nonsingular hQ
  have hdb := (double_iff (u := (coords ((2 ^ (i + 1)) • P)).1) (v := (coords ((2 ^ (i + 1)) • P)).2) h2 n1).2 (by
    rw [e1, ← hd, ofPoint_eq_iff hP]; exact ⟨rfl, rfl⟩)
  refine ⟨hdb, ?_⟩
  cases hb : k.testBit i with
  | true =>
    obtain ⟨x1, x2⟩ := h.apart i (by omega) hb
    have hs : (2 ^ i) • P + (S + (k % 2 ^ i) • P) = S + (k % 2 ^ (i + 1)) • P := by
      rw [mod_succ, if_pos hb, add_smul]; abel
    have hne := sums_ne S P k h (i + 1) (by omega)
    have hadd := (add_iff (u := (coords (S + (k % 2 ^ (i + 1)) • P)).1) (v := (coords (S + (k % 2 ^ (i + 1)) • P)).2) n1 n2 (by rw [e1, e2]; exact x1)).2 (by
      rw [e1, e2, hs, ofPoint_eq_iff hne]; exact ⟨rfl, rfl⟩)
    simp only [rowOf, if_true]
    exact ⟨by linear_combination hadd.1, by linear_combination hadd.2⟩
  | false =>
    have hs : k % 2 ^ (i + 1) = k % 2 ^ i := by rw [mod_succ, if_neg (by rw [hb]; exact Bool.false_ne_true), zero_add]
    simp only [rowOf, Bool.false_eq_true, if_false, hs]
    exact ⟨by ring, by ring⟩

theorem trace_eq (dbg : Bool) (uint : F → U256) (order : U256) (shift generator : F × F) (hash : F) (who signature : F × F) (u₁ u₂ : U256)
    (m1 : U256.mulmod dbg (uint hash) (uint signature.2) order = some u₁) (m2 : U256.mulmod dbg (uint signature.1) (uint signature.2) order = some u₂)
    (l₁ l₂ : List (Nat × Nat × F)) (t : TraceTable F) (w1 : scalar_mult shift generator u₁ 0 0 false = some l₁) (w2 : scalar_mult shift who u₂ 256 0 true = some l₂)
    (t1 : tableOf 512 5 (l₁ ++ l₂) = some t) : trace dbg uint order shift generator hash who signature = some t := by
  unfold trace
  rw [m1, Option.bind_some, m2, Option.bind_some, w1, Option.bind_some, w2, Option.bind_some, t1]

theorem sig_table (S G W : Pt β) (u₁ u₂ : Nat) :
    ∃ t, tableOf 512 5 ((List.range 256).flatMap (rowCells S G u₁ 0 0) ++ (List.range 256).flatMap (rowCells (-S) W u₂ 256 0)) = some t ∧
      t.trace_length = 512 ∧ t.num_columns = 5 ∧ TableOk t ∧ ∀ i < 512, ∀ j < 5, t.get i j = some (sigCell S G W u₁ u₂ i j) :=
  tableOf_spec 512 5 _ (sigCell S G W u₁ u₂) (by
      intro i j v hw
      rcases List.mem_append.1 hw with hw | hw
      · obtain ⟨i', hi, c, hc, e⟩ := (mem_rows _ _ _ _ _).1 hw
        obtain ⟨rfl, rfl, rfl⟩ := by simpa only [Prod.mk.injEq] using e
        refine ⟨by omega, hc, ?_⟩
        rw [sigCell, if_pos (show 0 + i' < 256 by omega), zero_add]
      · obtain ⟨i', hi, c, hc, e⟩ := (mem_rows _ _ _ _ _).1 hw
        obtain ⟨rfl, rfl, rfl⟩ := by simpa only [Prod.mk.injEq] using e
        refine ⟨by omega, hc, ?_⟩
        rw [sigCell, if_neg (show ¬ 256 + i' < 256 by omega), Nat.add_sub_cancel_left]) (by
      intro i hi j hj
      rw [List.mem_append]
      by_cases h : i < 256
      · refine Or.inl ((mem_rows _ _ _ _ _).2 ⟨i, h, j, hj, ?_⟩)
        rw [sigCell, if_pos h, zero_add]
      · refine Or.inr ((mem_rows _ _ _ _ _).2 ⟨i - 256, by omega, j, hj, ?_⟩)
        rw [sigCell, if_neg h, show 256 + (i - 256) = i by omega])

theorem sig_steps (h2 : (2 : F) ≠ 0) (S G W : Pt β) (u₁ u₂ : Nat) (h1 : Regular S G u₁) (h3 : Regular (-S) W u₂) (i : Nat) (hi : i < 512) (he : i % 2 = 0) :
    Step (sigCell S G W u₁ u₂ i) (sigCell S G W u₁ u₂ (i + 1)) := by
  by_cases h : i < 256
  · have e := step_rows h2 S G u₁ h1 i (by omega)
    have e1 : sigCell S G W u₁ u₂ i = _ := funext fun c => if_pos h
    have e2 : sigCell S G W u₁ u₂ (i + 1) = _ := funext fun c => if_pos (by omega)
    rw [e1, e2]
    exact e
  · have e := step_rows h2 (-S) W u₂ h3 (i - 256) (by omega)
    have e1 : sigCell S G W u₁ u₂ i = _ := funext fun c => if_neg h
    have e2 : sigCell S G W u₁ u₂ (i + 1) = _ := funext fun c => if_neg (by omega)
    rw [e1, e2, show i + 1 - 256 = i - 256 + 1 by omega]
    exact e

/-- C99, **partial**: unless the computation meets the point at infinity or an addition of a point to itself, the trace of a signature exists, it has the multiples of the generator by the
digits of the hash over `s` and of the key by the digits of `r` over `s`, it passes the check and can be proved. -/
theorem C99_trace_partial (env : Env F) (hroot : RootFn env.root) (hcompat : RootCompat env.root) (hgen : env.generator ≠ 0)
    (hsearch : ∀ l n z, env.search l n = some z → l[z]? = some n) (o : Oracles F) (h2 : (2 : F) ≠ 0) (hβ : β ≠ 0) (dbg : Bool) (uint : F → U256) (order : U256) (S G W : Pt β)
    (hash r s : F) (horder : order.toNat ≠ 0)
    (hs1 : SafeDiv 9 ((uint hash).toNat * (uint s).toNat) order.toNat) (hs2 : SafeDiv 9 ((uint r).toNat * (uint s).toNat) order.toNat)
    (h1 : Regular S G ((uint hash).toNat * (uint s).toNat % order.toNat)) (h3 : Regular (-S) W ((uint r).toNat * (uint s).toNat % order.toNat))
    (c : Constraints F) (hc : constraints env.root uint hash (coords W) = some c) (g : F) (hg : env.root 512 = some g) :
    ∃ t, trace dbg uint order (coords S) (coords G) hash (coords W) (r, s) = some t ∧
      (∀ i < 512, ∀ j < 5, t.get i j = some (sigCell S G W ((uint hash).toNat * (uint s).toNat % order.toNat) ((uint r).toNat * (uint s).toNat % order.toNat) i j)) ∧
      TraceTable.check_constraints env.root c t = some (.ok ()) ∧ Provable env o c 9 g t := by
  obtain ⟨u₁, m1, v1⟩ := (C04_mulmod_partial dbg (uint hash) (uint s) order).2.1 horder hs1
  obtain ⟨u₂, m2, v2⟩ := (C04_mulmod_partial dbg (uint r) (uint s) order).2.1 horder hs2
  rw [← v1] at h1 ⊢
  rw [← v2] at h3 ⊢
  have w1 := C98_scalar_mult_partial h2 hβ S G u₁ 0 0 false h1
  have w2 := C98_scalar_mult_partial h2 hβ S W u₂ 256 0 true h3
  simp only [Bool.false_eq_true, if_false] at w1
  simp only [if_true] at w2
  obtain ⟨t, t1, t2, t3, t4, t5⟩ := sig_table S G W u₁.toNat u₂.toNat
  have hsys := sig_is env.root hroot uint hash (coords W) c hc g hg
  have hhold : Hold g (2 ^ 9) (fun r i => (t.get r i).getD 0) (sigQuotients g) := by
    refine (hold_iff g hsys.order _).2 fun i hi he => ?_
    have hrow : ∀ j, j < 512 → ∀ a < 5, (t.get j a).getD 0 = sigCell S G W u₁.toNat u₂.toNat j a := fun j hj a ha => by rw [t5 j hj a ha]; rfl
    exact step_congr (hrow i hi) (hrow (i + 1) (by omega)) (sig_steps h2 S G W _ _ h1 h3 i hi he)
  refine ⟨t, ?_, t5, (hsys.check t t4 t2 t3).2 hhold, system_provable env hroot hcompat hgen hsearch o c 9 5 g _ 4 hsys (by norm_num) (by norm_num) t t4 t2 t3 hhold⟩
  exact trace_eq dbg uint order _ _ hash _ (r, s) u₁ u₂ m1 m2 _ _ t w1 w2 t1

/-- the table with the same two rows again and again -/
def idle (P Q : Pt β) (r : Nat) : Nat → F := if r % 2 = 0 then rowOf 0 P Q else rowOf 0 (P + P) Q

theorem idle_table (P Q : Pt β) : ∃ t : TraceTable F, t.trace_length = 512 ∧ t.num_columns = 5 ∧ TableOk t ∧ ∀ i < 512, ∀ j < 5, t.get i j = some (idle P Q i j) := by
  obtain ⟨t, -, t2, t3, t4, t5⟩ := tableOf_spec 512 5 ((List.range 512).flatMap fun i => (List.range 5).map fun j => (i, j, idle P Q i j)) (idle P Q) (by
      intro i j v hw
      obtain ⟨i', hi, hw⟩ := List.mem_flatMap.1 hw
      obtain ⟨j', hj, e⟩ := List.mem_map.1 hw
      obtain ⟨rfl, rfl, rfl⟩ := by simpa only [Prod.mk.injEq] using e
      exact ⟨List.mem_range.1 hi, List.mem_range.1 hj, rfl⟩) (by
      intro i hi j hj
      exact List.mem_flatMap.2 ⟨i, List.mem_range.2 hi, List.mem_map.2 ⟨j, List.mem_range.2 hj, rfl⟩⟩)
  exact ⟨t, t2, t3, t4, t5⟩

theorem idle_hold (h2 : (2 : F) ≠ 0) (P Q : Pt β) (hP : P + P ≠ 0) (g : F) (hord : orderOf g = 512) (t : TraceTable F) (t5 : ∀ i < 512, ∀ j < 5, t.get i j = some (idle P Q i j)) :
    Hold g 512 (fun r i => (t.get r i).getD 0) (sigQuotients g) := by
  refine (hold_iff g hord _).2 fun i hi he => ?_
  have hrow : ∀ j, j < 512 → ∀ a < 5, (t.get j a).getD 0 = idle P Q j a := fun j hj a ha => by rw [t5 j hj a ha]; rfl
  refine step_congr (hrow i hi) (hrow (i + 1) (by omega)) ?_
  have i1 : idle P Q i = rowOf 0 P Q := if_pos he
  have i2 : idle P Q (i + 1) = rowOf 0 (P + P) Q := if_neg (by omega)
  rw [i1, i2]
  exact step_idle h2 P Q hP

/-- C99 is violated: one table, of which no point has to do with a claim, passes the check and can be proved for **every** claim: whatever the hash and the key, a proof of a signature that does
not exist is accepted. -/
theorem C99_violated (env : Env F) (hroot : RootFn env.root) (hcompat : RootCompat env.root) (hgen : env.generator ≠ 0)
    (hsearch : ∀ l n z, env.search l n = some z → l[z]? = some n) (o : Oracles F) (h2 : (2 : F) ≠ 0) (P Q : Pt β) (hP : P + P ≠ 0) (g : F) (hg : env.root 512 = some g) :
    ∃ t, (∀ i < 512, ∀ j < 5, t.get i j = some (idle P Q i j)) ∧
      ∀ (uint : F → U256) (hash : F) (who : F × F) (c : Constraints F), constraints env.root uint hash who = some c →
        TraceTable.check_constraints env.root c t = some (.ok ()) ∧ Provable env o c 9 g t := by
  obtain ⟨t, t2, t3, t4, t5⟩ := idle_table P Q
  refine ⟨t, t5, fun uint hash who c hc => ?_⟩
  have hsys := sig_is env.root hroot uint hash who c hc g hg
  have hhold := idle_hold h2 P Q hP g hsys.order t t5
  exact ⟨(hsys.check t t4 t2 t3).2 hhold, system_provable env hroot hcompat hgen hsearch o c 9 5 g _ 4 hsys (by norm_num) (by norm_num) t t4 t2 t3 hhold⟩

end

/-! ## Concrete cases -/

theorem products : (toUint (6 : Fp)).toNat * (toUint (1 : Fp)).toNat % PF.SCALAR.modulus.toNat = 6 ∧ (toUint (3 : Fp)).toNat * (toUint (1 : Fp)).toNat % PF.SCALAR.modulus.toNat = 3 ∧
    (toUint (6 : Fp)).toNat * (toUint (1 : Fp)).toNat < 7 ∧ (toUint (3 : Fp)).toNat * (toUint (1 : Fp)).toNat < 7 := by decide +kernel

-- C99_trace_partial: the generator, the shift point 7 G, the key 5 G, the hash 6 and the signature (3, 1)
example (env : Env Fp) (hroot : RootFn env.root) (hcompat : RootCompat env.root) (hgen : env.generator ≠ 0) (hsearch : ∀ l n z, env.search l n = some z → l[z]? = some n) (o : Oracles Fp)
    (c : Constraints Fp) (hc : constraints env.root toUint 6 (coords (5 • EC.G)) = some c) (g : Fp) (hg : env.root 512 = some g) :
    ∃ t, trace true toUint PF.SCALAR.modulus (coords (7 • EC.G)) (coords EC.G) 6 (coords (5 • EC.G)) (3, 1) = some t ∧ Provable env o c 9 g t := by
  obtain ⟨e1, e2, l1, l2⟩ := products
  have hs : ∀ a, a < 7 → SafeDiv 9 a PF.SCALAR.modulus.toNat := by
    intro a ha
    have hs : Nat.size PF.SCALAR.modulus.toNat = 252 := U256.size_eq (by decide +kernel) (by decide +kernel)
    have hn : numLimbs PF.SCALAR.modulus.toNat = 4 := by unfold numLimbs; rw [hs]
    right
    rw [hn, hs]
    intro j hj
    interval_cases a <;> interval_cases j <;> decide +kernel
  have r1 : Regular (7 • EC.G) EC.G 6 := by
    have := regular_of 7 1 6 (by decide +kernel) (by decide +kernel) (by decide +kernel)
    rwa [one_smul] at this
  have r2 : Regular (-(7 • EC.G)) (5 • EC.G) 3 := by
    have := regular_of (PF.SCALAR.modulus.toNat - 7) 5 3 (by decide +kernel) (by decide +kernel) (by decide +kernel)
    have e : (PF.SCALAR.modulus.toNat - 7) • EC.G = -(7 • EC.G) := by
      rw [eq_neg_iff_add_eq_zero, ← add_smul, Nat.sub_add_cancel (by decide +kernel), order_smul_G]
    rwa [e] at this
  obtain ⟨t, h1, -, -, h2⟩ := C99_trace_partial env hroot hcompat hgen hsearch o two_ne BETA_ne true toUint PF.SCALAR.modulus (7 • EC.G) EC.G (5 • EC.G) 6 3 1 (by decide +kernel)
    (hs _ l1) (hs _ l2) (by rw [e1]; exact r1) (by rw [e2]; exact r2) c hc g hg
  exact ⟨t, h1, h2⟩

/-! A run over the field of 65537 elements, with the curve `y^2 = x^3 + x - 1` and the point (1, 1). -/

namespace SigRun
open OpenZKP.Props.Small (Z)
open Run
open Merkle (next_power_of_two)

theorem nonsingular : (curve (-1 : Z)).Nonsingular 1 1 := by
  refine (nonsingular_iff' _ _).2 ⟨?_, Or.inr ?_⟩
  · rw [equation_iff]; decide +kernel
  · decide +kernel

def P : Pt (-1 : Z) := Point.some 1 1 nonsingular

theorem two_ne_zero' : (2 : Z) ≠ 0 := by decide +kernel

theorem double_ne : P + P ≠ 0 := by
  have e := double_coords nonsingular (show (1 : Z) + 1 ≠ 0 by decide +kernel) 2 (by decide +kernel)
  intro h
  rw [show Point.some 1 1 nonsingular + Point.some 1 1 nonsingular = (0 : Pt (-1 : Z)) from h, ofPoint_zero] at e
  cases e

def rows (a : Expr Z) : Expr Z := Expr.div (Expr.mul a (Expr.sub (Expr.pow .X 256) (.Constant 65536))) (Expr.sub (Expr.pow .X 512) (.Constant 1))

def c0 : Option (Constraints Z) :=
  let row_double := point_double (.Trace 1 0) (.Trace 2 0) (.Trace 1 1) (.Trace 2 1)
  let row_add := point_add (.Trace 1 0) (.Trace 2 0) (.Trace 3 0) (.Trace 4 0) (.Trace 3 1) (.Trace 4 1)
  system root 512 5 (claimBytes rep 3 (5, 6)) [rows row_double.1, rows row_double.2,
    rows (simple_conditional row_add.1 (Expr.sub (.Trace 3 1) (.Trace 3 0)) (.Trace 0 0)), rows (simple_conditional row_add.2 (Expr.sub (.Trace 4 1) (.Trace 4 0)) (.Trace 0 0))]
def c : Constraints Z := c0.getD ⟨[], 0, 0, [], 0, 0, 0, [], []⟩

theorem some_c : c0 = some c := by
  unfold c
  cases h : c0 with
  | some c0 => rfl
  | none =>
    have : c0.isSome = true := by decide +kernel
    rw [h] at this
    cases this

theorem rows_eq (a : Expr Z) : on_hash_loop_rows 15028 a = rows a := by
  unfold on_hash_loop_rows rows
  rw [pow_mul, show (15028 : Z) ^ 256 = 65536 by decide +kernel, show (65536 : Z) ^ (512 - 1) = 65536 by decide +kernel]

theorem system_eq : constraints root rep 3 (5, 6) = some c := by
  rw [← some_c]
  unfold constraints
  rw [show root 512 = some 15028 by decide +kernel, Option.bind_some]
  simp only [rows_eq]
  rfl

def E : Expr Z := (c.combine (List.replicate (2 * c.expressions.length) 28784)).getD .X

theorem computed : Computed c 9 4 E where
  combine := by
    unfold E
    cases h : c.combine (List.replicate (2 * c.expressions.length) 28784) with
    | some c0 => rfl
    | none =>
      have : (c.combine (List.replicate (2 * c.expressions.length) 28784)).isSome = true := by decide +kernel
      rw [h] at this
      cases this
  claims := by decide +kernel
  mark := by decide +kernel
  marks := by decide +kernel
  degree_pos := by norm_num
  degrees := by decide +kernel
  constraints := by decide +kernel
  arguments := by decide +kernel
  points := by
    rw [show 2 ^ (9 + 4) = 64 * 128 by norm_num, show next_power_of_two 4 = 4 by decide +kernel, ← pow_mul, show 4 * (64 * 128) = 64 * (128 * 4) by norm_num, pow_mul _ 64 128, pow_mul _ 64 128, pow_mul _ 64 (128 * 4), show (28784 : Z) ^ 64 = 10492 by decide +kernel, show (3 : Z) ^ 64 = 19139 by decide +kernel]
    decide +kernel

/-- a proof of a signature of 3 by the key (5, 6), which is not a point of the curve, is accepted -/
theorem forged : ∃ p, Stark.verify env c p = .ok () := by
  have hg : root 512 = some 15028 := by decide +kernel
  have hs := sig_is root root_ok rep 3 (5, 6) c system_eq 15028 hg
  obtain ⟨t, t2, t3, t4, t5⟩ := idle_table P P
  exact Run.proved hs computed (by norm_num) (by norm_num) t t4 t2 t3 (idle_hold two_ne_zero' P P double_ne 15028 hs.order t t5)

end SigRun

end GroupSignature
end Props
end OpenZKP
