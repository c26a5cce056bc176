import Verif.Props.EvmGenerate

/-!
# C80: runs of the generator and of generated contracts
-/

namespace OpenZKP
namespace Props
namespace EvmGenerate
open Evm Evm.PrimeField Evm.Generate Stark Polynomial

/-- the direct parts -/
def step : E → List E
  | .X | .Constant _ | .Trace _ _ => []
  | .Polynomial _ a | .ClaimPolynomial _ _ a _ | .Neg a | .Inv a => [a]
  | .Add a b | .Mul a b => [a, b]
  | .Exp (.Exp a m) n => [.Exp a m, .Exp a (n * m)]
  | .Exp a _ => [a]

/-- with an expression the list has its parts -/
def closed (L : List E) : Bool := L.all fun e => (step e).all fun f => decide (f ∈ L)

theorem part_mem (L : List E) (hL : closed L = true) (e f : E) (he : e ∈ L) (h : Part e f) : f ∈ L := by
  have hL' : ∀ a ∈ L, ∀ b ∈ step a, b ∈ L := by
    intro a ha b hb
    unfold closed at hL
    rw [List.all_eq_true] at hL
    have := hL a ha
    rw [List.all_eq_true] at this
    simpa using this b hb
  induction h with
  | self => exact he
  | exp _ ih =>
    rename_i a n _
    refine hL' _ ih a ?_
    cases a <;> simp [step]
  | _ =>
    rename_i ih
    refine hL' _ ih _ ?_
    simp [step]

/-- a system with a claim polynomial, a periodic column, powers of powers, and two denominators -/
def first : E := .Mul (.Add (.Trace 0 0) (.Neg (.ClaimPolynomial 0 0 .X none))) (.Inv (.Add .X (.Neg (.Constant 1))))
def second : E :=
  .Mul (.Add (.Trace 0 1) (.Neg (.Mul (.Exp (.Trace 0 0) 2) (.Polynomial [2, 1] (.Exp .X 2))))) (.Inv (.Add (.Exp (.Exp .X 2) 2) (.Neg (.Constant 1))))
def sample : Constraints Z := ⟨[], 4, 1, [first, second], 16, 0, 20, [], []⟩

/-- the expressions that matter, and a hash of them: the place in this list -/
def order : List E :=
  [.X, .Constant 1, .Trace 0 0, .Trace 0 1, .ClaimPolynomial 0 0 .X none, .Neg (.ClaimPolynomial 0 0 .X none), .Add (.Trace 0 0) (.Neg (.ClaimPolynomial 0 0 .X none)),
    .Neg (.Constant 1), .Add .X (.Neg (.Constant 1)), .Inv (.Add .X (.Neg (.Constant 1))), first, .Exp (.Trace 0 0) 2, .Exp .X 2, .Exp .X 4, .Exp (.Exp .X 2) 2,
    .Polynomial [2, 1] (.Exp .X 2), .Mul (.Exp (.Trace 0 0) 2) (.Polynomial [2, 1] (.Exp .X 2)), .Neg (.Mul (.Exp (.Trace 0 0) 2) (.Polynomial [2, 1] (.Exp .X 2))),
    .Add (.Trace 0 1) (.Neg (.Mul (.Exp (.Trace 0 0) 2) (.Polynomial [2, 1] (.Exp .X 2)))), .Add (.Exp (.Exp .X 2) 2) (.Neg (.Constant 1)),
    .Inv (.Add (.Exp (.Exp .X 2) 2) (.Neg (.Constant 1))), second, .Exp .X 5, .Exp .X 3]
def place (e : E) : Nat := order.idxOf e

theorem order_closed : closed order = true := by decide +kernel

theorem sample_degree : sample.degree = some 2 := by decide +kernel
theorem sample_generated : (generate place List.length sample).isSome = true := by decide +kernel

theorem sample_inputs : (generate place List.length sample).map (fun g => (g.wrapper.public_inputs, g.oods_poly.batch_inverted.length)) = some ([.ClaimPolynomial 0 0 .X none], 2) := by decide +kernel

theorem one_ne : (1 : Z) ≠ 0 := by decide +kernel
theorem fifteen_ne : (15 : Z) ≠ 0 := by decide +kernel

theorem order_place (e f : E) (he : e ∈ order) (_ : f ∈ order) (h : place e = place f) : e = f := by
  unfold place at h
  exact (List.idxOf_inj he).1 h

theorem sample_in (e : E) (he : e ∈ sample.expressions) : e ∈ order := by
  simp only [sample, List.mem_cons, List.not_mem_nil, or_false] at he
  rcases he with rfl | rfl <;> decide +kernel

theorem sample_relevant (f : E) (h : Relevant sample.expressions (sample.expressions.map (adjustment sample.trace_nrows (2 * sample.trace_nrows - 1))) f) : f ∈ order := by
  rcases h with ⟨e, he, h⟩ | rfl | ⟨n, hn, rfl⟩
  · exact part_mem order order_closed e f (sample_in e he) h
  · decide +kernel
  · have : n = 5 ∨ n = 3 := by
      have h5 : sample.expressions.map (adjustment sample.trace_nrows (2 * sample.trace_nrows - 1)) = [5, 3] := by decide +kernel
      rw [h5] at hn
      simpa using hn
    rcases this with rfl | rfl <;> decide +kernel

/-- the parts of the denominators -/
def denominators : List E := [.X, .Constant 1, .Neg (.Constant 1), .Add .X (.Neg (.Constant 1)), .Exp .X 2, .Exp .X 4, .Exp (.Exp .X 2) 2, .Add (.Exp (.Exp .X 2) 2) (.Neg (.Constant 1))]

theorem sample_flat : Flat sample.expressions := by
  intro e he a b h1 h2
  have ha : Expr.Inv a ∈ order := part_mem order order_closed e _ (sample_in e he) h1
  have ha' : a ∈ denominators := by
    simp only [order, first, second, List.mem_cons, reduceCtorEq, Expr.Inv.injEq, List.not_mem_nil, false_or, or_false] at ha
    rcases ha with rfl | rfl <;> simp [denominators]
  have := part_mem denominators (by decide +kernel) a _ ha' h2
  simp [denominators] at this

/-- the values at the point 2 -/
def sampleTrace (i : Nat) (j : Int) : Option Z := if i = 0 ∧ j = 0 then some 5 else if i = 0 ∧ j = 1 then some 7 else none
noncomputable def sampleClaims (i : Nat) : Option Z[X] := if i = 0 then some (Polynomial.C 3) else none

theorem sample_values (e : E) (he : e ∈ sample.expressions) : ∃ v, claimValue sampleClaims 2 sampleTrace e = some v := by
  simp only [sample, List.mem_cons, List.not_mem_nil, or_false] at he
  rcases he with rfl | rfl
  · refine ⟨(5 + -3) * (2 + -1)⁻¹, ?_⟩
    simp only [first, claimValue, sampleTrace, sampleClaims, and_self, if_true, natDegree_C, le_refl, eval_C, Option.map_some]
    rw [if_neg]
    rw [show (2 + -1 : Z) = 1 by ring]
    exact one_ne
  · refine ⟨(7 + -(5 ^ 2 * (toPoly [2, 1]).eval (2 ^ 2))) * ((2 ^ 2) ^ 2 + -1)⁻¹, ?_⟩
    simp only [second, claimValue, sampleTrace, and_self, and_false, zero_ne_one, one_ne_zero, if_false, if_true, Option.map_some]
    rw [if_neg]
    rw [show ((2 ^ 2) ^ 2 + -1 : Z) = 15 by ring]
    exact fifteen_ne

theorem sample_cells (q : Nat × Int) : q ∈ [((0 : Nat), (0 : Int)), (0, 1)] ↔ ∃ e ∈ sample.expressions, Occurs q e := by
  simp only [sample, List.mem_cons, List.not_mem_nil, or_false, exists_eq_or_imp, exists_eq_left, first, second, Occurs, false_or, or_self]
  tauto

/-- the hypotheses hold of the system above at the point 2 -/
example : ∃ g : Generated, generate place List.length sample = some g ∧ ∃ data w C, g.wrapper.callContext (repNat 2) [3] [repNat 1, repNat 2, repNat 3, repNat 4] [repNat 5, repNat 7] = some data ∧
    g.oods_poly.call 3 0 data = some w ∧ w < MODULUS ∧ sample.combine [1, 2, 3, 4] = some C ∧ claimValue sampleClaims 2 sampleTrace C = some (mont w) := by
  obtain ⟨g, hg⟩ := Option.isSome_iff_exists.1 sample_generated
  have hin := sample_inputs
  rw [hg, Option.map_some] at hin
  have h1 : g.wrapper.public_inputs = [.ClaimPolynomial 0 0 .X none] := congrArg Prod.fst (Option.some.inj hin)
  have h2 : g.oods_poly.batch_inverted.length = 2 := congrArg Prod.snd (Option.some.inj hin)
  refine ⟨g, hg, ?_⟩
  have := C80_evaluates_partial place List.length sample g hg 2 sample_degree (fun e f he hf h => order_place e f (sample_relevant e he) (sample_relevant f hf) h)
    (by
      intro e he f hf p a q b h1 h2 _
      have key : ∀ e ∈ sample.expressions, ∀ p a, Part e (.Polynomial p a) → p = [2, 1] := by
        intro e he p a h
        have := sample_relevant _ (Or.inl ⟨e, he, h⟩)
        simp only [order, first, second, List.mem_cons, reduceCtorEq, Expr.Polynomial.injEq, List.not_mem_nil, false_or, or_false] at this
        exact this.1
      rw [key e he p a h1, key f hf q b h2])
    sample_flat sampleClaims sampleTrace (repNat 2) (fun e he => by rw [mont_repNat]; exact sample_values e he) [(0, 0), (0, 1)] (by simp) sample_cells [repNat 5, repNat 7] (by simp)
    (by
      intro i q hq
      match i with
      | 0 => cases hq; rw [List.getD_cons_zero, mont_repNat]; rfl
      | 1 => cases hq; rw [List.getD_cons_succ, List.getD_cons_zero, mont_repNat]; rfl
      | i + 2 => simp at hq)
    [3] (by
      rw [h1, mont_repNat]
      refine List.Forall₂.cons ⟨by decide +kernel, ?_⟩ .nil
      simp only [claimValue, sampleClaims, if_true, natDegree_C, le_refl, eval_C]
      rw [Nat.cast_ofNat])
    [repNat 1, repNat 2, repNat 3, repNat 4] (by simp [sample]) (by
      intro w hw
      simp only [List.mem_cons, List.not_mem_nil, or_false] at hw
      rcases hw with h | h | h | h <;> (rw [h]; exact repNat_lt _)) 3 (by rw [h2]; norm_num)
  simp only [mont_repNat, List.map_cons, List.map_nil] at this
  exact this

/-! ## What the generator gets wrong -/

theorem mont_r : mont MONTGOMERY_R = 1 := by
  unfold mont
  rw [montgomery_r]
  exact mul_inv_cancel₀ r_ne

theorem mont_zero : mont 0 = 0 := by
  unfold mont
  rw [Nat.cast_zero, zero_mul]

/-- a denominator in a denominator -/
def nestedExpr : E := .Mul (.Mul (.Trace 0 0) (.Inv .X)) (.Inv (.Add (.Inv .X) (.Constant 1)))
def nested : Constraints Z := ⟨[], 2, 1, [nestedExpr], 16, 0, 20, [], []⟩
def nestedOrder : List E := [.X, .Constant 1, .Trace 0 0, .Inv .X, .Mul (.Trace 0 0) (.Inv .X), .Add (.Inv .X) (.Constant 1), .Inv (.Add (.Inv .X) (.Constant 1)), nestedExpr, .Exp .X 1]

theorem nested_run : ((generate nestedOrder.idxOf List.length nested).bind fun g => (g.wrapper.callContext MONTGOMERY_R [] [MONTGOMERY_R, 0] [MONTGOMERY_R]).bind fun data => g.oods_poly.call 3 0 data) =
    some MONTGOMERY_R := by decide +kernel

theorem nested_relevant (f : E) (h : Relevant nested.expressions (nested.expressions.map (adjustment nested.trace_nrows (1 * nested.trace_nrows - 1))) f) : f ∈ nestedOrder := by
  rcases h with ⟨e, he, h⟩ | rfl | ⟨n, hn, rfl⟩
  · refine part_mem nestedOrder (by decide +kernel) e f ?_ h
    simp only [nested, List.mem_cons, List.not_mem_nil, or_false] at he
    rw [he]
    decide +kernel
  · decide +kernel
  · have h5 : nested.expressions.map (adjustment nested.trace_nrows (1 * nested.trace_nrows - 1)) = [1] := by decide +kernel
    rw [h5, List.mem_singleton] at hn
    rw [hn]
    decide +kernel

theorem two_ne : (1 + 1 : Z) ≠ 0 := by decide +kernel
theorem half_ne : (1 + 1 : Z)⁻¹ ≠ 1 := by
  intro h
  rw [inv_eq_one] at h
  revert h
  decide +kernel

/-- C80 is violated where a denominator has a denominator: the place of the inner inverse is read before the inverses are computed, so that the contract takes it for zero.  Here it computes 1
where the value of the constraint is 1/2.  (With the two hashes in the other order the generator panics.) -/
theorem C80_violated_nested : ∃ (key : E → Nat) (c : Constraints Z) (g : Generated) (data : List Nat) (w : Nat) (C : E) (claims : Nat → Option Z[X]) (trace : Nat → Int → Option Z),
    generate key List.length c = some g ∧ c.degree = some 1 ∧ NoClash key (Relevant c.expressions (c.expressions.map (adjustment c.trace_nrows (1 * c.trace_nrows - 1)))) ∧
    trace 0 0 = some (mont MONTGOMERY_R) ∧ (∀ e ∈ c.expressions, ∃ v, claimValue claims (mont MONTGOMERY_R) trace e = some v) ∧ g.wrapper.public_inputs = [] ∧
    g.wrapper.callContext MONTGOMERY_R [] [MONTGOMERY_R, 0] [MONTGOMERY_R] = some data ∧ g.oods_poly.call 3 0 data = some w ∧
    c.combine ([MONTGOMERY_R, 0].map mont) = some C ∧ claimValue claims (mont MONTGOMERY_R) trace C ≠ some (mont w) := by
  obtain ⟨g, hg, hrun⟩ := Option.bind_eq_some_iff.1 nested_run
  obtain ⟨data, hdata, hcall⟩ := Option.bind_eq_some_iff.1 hrun
  have hpub : (generate nestedOrder.idxOf List.length nested).map (fun g => g.wrapper.public_inputs) = some [] := by decide +kernel
  rw [hg, Option.map_some] at hpub
  have hval : claimValue (fun _ => none) 1 (fun _ _ => some 1) nestedExpr = some ((1 * 1⁻¹) * (1⁻¹ + 1)⁻¹ : Z) := by
    simp only [nestedExpr, claimValue]
    rw [if_neg one_ne]
    simp only
    rw [if_neg (by rw [inv_one]; exact two_ne)]
  have hd : nested.degree = some 1 := by decide +kernel
  obtain ⟨C, hC1, hC2⟩ := combine_value nested ([MONTGOMERY_R, 0].map mont) 1 1 1 hd (by decide +kernel) (by decide +kernel) (by
    intro e he
    simp only [nested, List.mem_cons, List.not_mem_nil, or_false] at he
    subst he
    exact ⟨1, by decide +kernel⟩) (by simp [nested]) (fun _ => none) 1 (fun _ _ => some 1) (fun _ => (1 * 1⁻¹) * (1⁻¹ + 1)⁻¹) (by
    intro e he
    simp only [nested, List.mem_cons, List.not_mem_nil, or_false] at he
    rw [he]
    exact hval)
  refine ⟨nestedOrder.idxOf, nested, g, data, MONTGOMERY_R, C, fun _ => none, fun _ _ => some 1, hg, hd, ?_, by rw [mont_r], ?_, Option.some.inj hpub, hdata, hcall, hC1, ?_⟩
  · intro e f he hf h
    exact (List.idxOf_inj (nested_relevant e he)).1 h
  · intro e he
    simp only [nested, List.mem_cons, List.not_mem_nil, or_false] at he
    rw [he, mont_r]
    exact ⟨_, hval⟩
  · rw [mont_r, hC2]
    simp only [List.map_cons, List.map_nil, mont_r, mont_zero, nested, List.length_cons, List.length_nil, zero_add, Finset.sum_range_one, mul_zero, List.getD_cons_zero, List.getD_cons_succ, zero_mul,
      add_zero, inv_one, one_mul, ne_eq, Option.some.injEq]
    exact half_ne

/-- the point at which polynomials are evaluated for their hash — rational_expression.rs:355-358 -/
def hashPoint : Z := 0x754ed488ec9208d1c552bb254c0890042078a9e1f7e36072ebff1bf4e193d11b

/-- two different polynomials with the same value at that point -/
def left : E := .Polynomial [hashPoint, 0] .X
def right : E := .Polynomial [0, 1] .X
def clashExpr : E := .Mul (.Mul (.Trace 0 0) (.Add left (.Neg right))) (.Inv .X)
def clash : Constraints Z := ⟨[], 2, 1, [clashExpr], 16, 0, 20, [], []⟩
def clashOrder : List E := [.X, .Trace 0 0, .Neg right, .Add left (.Neg right), .Mul (.Trace 0 0) (.Add left (.Neg right)), .Inv .X, clashExpr, .Exp .X 0]

/-- a hash that takes of a polynomial its value at the point -/
def valueKey : E → Nat
  | .Polynomial p a => 16 + (match (Expr.Polynomial p a).evaluate hashPoint (fun _ _ => none) with | some v => ZMod.val v | none => 0)
  | e => clashOrder.idxOf e

theorem clash_run : ((generate valueKey List.length clash).bind fun g => (g.wrapper.callContext MONTGOMERY_R [] [MONTGOMERY_R, 0] [MONTGOMERY_R]).bind fun data => g.oods_poly.call 3 0 data) =
    some 0 := by decide +kernel

theorem hashPoint_ne : hashPoint + -1 ≠ 0 := by decide +kernel

/-- C80 is violated by the hash of the expressions, which for a polynomial depends only on its value at one point: a constraint that says that two such polynomials differ by zero
(times a trace cell, over `X`) is taken for satisfied everywhere by the generated contract, and the value of the constraint is not zero. -/
theorem C80_violated_hash : ∃ (key : E → Nat) (c : Constraints Z) (g : Generated) (data : List Nat) (C : E) (claims : Nat → Option Z[X]) (trace : Nat → Int → Option Z),
    (∀ p a q b, (Expr.Polynomial p a).evaluate hashPoint (fun _ _ => none) = (Expr.Polynomial q b).evaluate hashPoint (fun _ _ => none) → key (.Polynomial p a) = key (.Polynomial q b)) ∧
    generate key List.length c = some g ∧ c.degree = some 1 ∧ Flat c.expressions ∧
    trace 0 0 = some (mont MONTGOMERY_R) ∧ g.wrapper.public_inputs = [] ∧
    g.wrapper.callContext MONTGOMERY_R [] [MONTGOMERY_R, 0] [MONTGOMERY_R] = some data ∧ g.oods_poly.call 3 0 data = some 0 ∧
    c.combine ([MONTGOMERY_R, 0].map mont) = some C ∧ claimValue claims (mont MONTGOMERY_R) trace C ≠ some (mont 0) := by
  obtain ⟨g, hg, hrun⟩ := Option.bind_eq_some_iff.1 clash_run
  obtain ⟨data, hdata, hcall⟩ := Option.bind_eq_some_iff.1 hrun
  have hpub : (generate valueKey List.length clash).map (fun g => g.wrapper.public_inputs) = some [] := by decide +kernel
  rw [hg, Option.map_some] at hpub
  have hval : claimValue (fun _ => none) 1 (fun _ _ => some 1) clashExpr = some (1 * (hashPoint + -1) * 1⁻¹ : Z) := by
    have h1 : (toPoly [hashPoint, 0]).eval 1 = hashPoint := by
      rw [toPoly_cons, toPoly_cons, toPoly_nil]
      simp only [eval_add, eval_mul, eval_C, eval_X, eval_zero, mul_zero, add_zero]
    have h2 : (toPoly [(0 : Z), 1]).eval 1 = 1 := by
      rw [toPoly_cons, toPoly_cons, toPoly_nil]
      simp only [eval_add, eval_mul, eval_C, eval_X, eval_zero, mul_zero, add_zero, zero_add, mul_one]
    simp only [clashExpr, left, right, claimValue, Option.map_some]
    rw [if_neg one_ne, h1, h2]
  have hd : clash.degree = some 1 := by decide +kernel
  obtain ⟨C, hC1, hC2⟩ := combine_value clash ([MONTGOMERY_R, 0].map mont) 1 1 1 hd (by decide +kernel) (by decide +kernel) (by
    intro e he
    simp only [clash, List.mem_cons, List.not_mem_nil, or_false] at he
    subst he
    exact ⟨0, by decide +kernel⟩) (by simp [clash]) (fun _ => none) 1 (fun _ _ => some 1) (fun _ => 1 * (hashPoint + -1) * 1⁻¹) (by
    intro e he
    simp only [clash, List.mem_cons, List.not_mem_nil, or_false] at he
    rw [he]
    exact hval)
  refine ⟨valueKey, clash, g, data, C, fun _ => none, fun _ _ => some 1, ?_, hg, hd, ?_, by rw [mont_r], Option.some.inj hpub, hdata, hcall, hC1, ?_⟩
  · intro p a q b h
    show 16 + _ = 16 + _
    rw [h]
  · intro e he a b h1 h2
    simp only [clash, List.mem_cons, List.not_mem_nil, or_false] at he
    subst he
    have := part_mem (left :: right :: clashOrder) (by decide +kernel) clashExpr _ (by decide +kernel) h1
    simp only [left, right, clashOrder, clashExpr, List.mem_cons, reduceCtorEq, Expr.Inv.injEq, List.not_mem_nil, false_or, or_false] at this
    subst this
    have := part_mem [.X] (by decide +kernel) _ _ (by simp) h2
    simp at this
  · rw [mont_r, hC2]
    simp only [List.map_cons, List.map_nil, mont_r, mont_zero, clash, List.length_cons, List.length_nil, zero_add, Finset.sum_range_one, mul_zero, List.getD_cons_zero, List.getD_cons_succ, zero_mul,
      add_zero, one_mul, inv_one, mul_one, ne_eq, Option.some.injEq]
    exact hashPoint_ne

/-- C80 is violated where the degree of the constraints is not a power of two: the generated contract expects as many columns of constraint values as the degree, the prover commits to as many
as the next power of two (prover.rs). -/
theorem C80_violated_degree : ∃ (key : E → Nat) (c : Constraints Z) (g : Generated), generate key List.length c = some g ∧
    c.degree = some 3 ∧ g.trace.constraint_degree = 3 ∧ Merkle.next_power_of_two 3 = 4 := by
  have h : (generate [Expr.X, .Trace 0 0, .Exp (.Trace 0 0) 3, .Exp .X 1].idxOf List.length ⟨[], 2, 1, [.Exp (.Trace 0 0) 3], 16, 0, 20, [], []⟩).map (fun g => g.trace.constraint_degree) = some 3 := by
    decide +kernel
  obtain ⟨g, hg, h3⟩ := Option.map_eq_some_iff.1 h
  exact ⟨_, _, g, hg, by decide +kernel, h3, by decide +kernel⟩

/-- C80: a system with a negative offset, which the prover supports, has no generated contracts: the generator panics -/
theorem C80_panics (key : E → Nat) (pkey : List Z → Nat) (c : Constraints Z) (hkey : NoClash key fun f => ∃ e ∈ c.expressions, Part e f)
    (cells : List (Nat × Int)) (hsort : cells.Pairwise fun a b => a.1 < b.1 ∨ a.1 = b.1 ∧ a.2 < b.2) (hcells : ∀ q, q ∈ cells ↔ ∃ e ∈ c.expressions, Occurs q e)
    (hisize : ∀ q ∈ cells, q.2 < 2 ^ 63) (q : Nat × Int) (hq : q ∈ cells) (hneg : q.2 < 0) : generate key pkey c = none := by
  by_contra h
  obtain ⟨g, hg⟩ := Option.ne_none_iff_exists'.1 h
  have := (C80_layout_partial key pkey c g hg hkey cells hsort hcells hisize).1 q hq
  omega

/-- the layout of the system above is described, by any generator -/
example : ∃ g : Generated, generate place List.length sample = some g ∧ ∀ γ : Z, EvmDefaultCs.Describes g.trace [(0, 0), (0, 1)] γ := by
  obtain ⟨g, hg⟩ := Option.isSome_iff_exists.1 sample_generated
  have hoff : (generate place List.length sample).map (fun g => g.trace.num_offsets) = some 2 := by decide +kernel
  rw [hg, Option.map_some] at hoff
  refine ⟨g, hg, ?_⟩
  refine (C80_layout_partial place List.length sample g hg (fun e f ⟨e', he', he⟩ ⟨f', hf', hf⟩ h => order_place e f (part_mem order order_closed e' e (sample_in e' he') he)
    (part_mem order order_closed f' f (sample_in f' hf') hf) h) [(0, 0), (0, 1)] (by simp) sample_cells (by simp)).2.2.2.2 ?_ (by simp [sample])
  rw [Option.some.inj hoff]
  norm_num

/-- and a system with a negative offset -/
example : generate [Expr.Trace 0 (-1)].idxOf List.length ⟨[], 2, 1, [.Trace 0 (-1)], 16, 0, 20, [], []⟩ = none :=
  C80_panics _ _ _ (by
    rintro e f ⟨e', he', he⟩ ⟨f', hf', hf⟩ h
    simp only [List.mem_cons, List.not_mem_nil, or_false] at he' hf'
    subst he' hf'
    have h1 := part_mem [.Trace 0 (-1)] (by decide +kernel) _ _ (by simp) he
    have h2 := part_mem [.Trace 0 (-1)] (by decide +kernel) _ _ (by simp) hf
    rw [List.mem_singleton] at h1 h2
    rw [h1, h2]) [(0, -1)] (by simp) (by intro q; simp [Occurs]) (by simp) (0, -1) (by simp) (by norm_num)

end EvmGenerate
end Props
end OpenZKP
