import Verif.Stark.CompleteMain
import Verif.Props.Verifier
import Mathlib.LinearAlgebra.Lagrange
import Mathlib.Algebra.Field.ZMod
import Mathlib.Tactic.NormNum.Prime
import Mathlib.Tactic.IntervalCases

/-!
# Completeness of the proof system: C50

Specification.  The columns of the trace are polynomials (`ColumnPolys`); a constraint has a value at every point at which its denominators do
not vanish (`constraintValue`); the trace satisfies the constraint when these values are those of a polynomial, of no larger degree than the
degrees the expression reports (`Satisfies`; for quotients see `C50_quotient`).  `SystemOk` are the requirements on sizes.
-/

namespace OpenZKP
namespace Props
open Stark FFT U256 Merkle Polynomial

section
variable {F : Type} [Field F] [DecidableEq F]

/-- the points at which trace and constraints are committed: the coset of the roots of unity of order `trace_nrows * blowup` -/
def EvalPoint (env : Env F) (c : Constraints F) (x : F) : Prop := ∃ y : F, y ^ (c.trace_nrows * c.blowup) = 1 ∧ x = env.generator * y

/-- `T j` is the polynomial of column `j`: it takes the values of the column at the powers of `g` -/
def ColumnPolys (t : TraceTable F) (g : F) (T : Nat → F[X]) : Prop :=
  ∀ j < t.num_columns, (T j).degree < (t.trace_length : Nat) ∧ ∀ i < t.trace_length, t.get i j = some ((T j).eval (g ^ i))

/-- the value of a constraint at a point; `none` when a denominator vanishes -/
noncomputable def constraintValue (c : Constraints F) (g : F) (T : Nat → F[X]) (x : F) (e : Expr F) : Option F :=
  claimValue (fun i => (c.claim_polynomials[i]?).map toPoly) x (fun i o => some ((T i).eval (x * g ^ o))) e

/-- the trace satisfies the constraints: their values are those of a polynomial of the degree reported -/
def Satisfies (c : Constraints F) (g : F) (T : Nat → F[X]) : Prop :=
  ∀ e ∈ c.expressions, ∃ P : F[X], (∀ x v, constraintValue c g T x e = some v → v = P.eval x) ∧
    (P = 0 ∨ P.natDegree + (e.degree (c.trace_nrows - 1)).2 ≤ (e.degree (c.trace_nrows - 1)).1)

/-- sizes: powers of two, a degree below the blowup, FRI reductions down to at least one coefficient, references to existing columns at most
one trace length back, at least one FRI reduction if anything is queried -/
structure SystemOk (c : Constraints F) (t : TraceTable F) : Prop where
  table : TableOk t
  columns : 0 < t.num_columns
  rows_eq : c.trace_nrows = t.trace_length
  columns_eq : c.trace_ncolumns = t.num_columns
  pow2 : ∃ k b, c.trace_nrows = 2 ^ k ∧ c.blowup = 2 ^ b ∧ k + b < 64 ∧ c.fri_layout.sum ≤ k
  degree : ∃ d, c.degree = some d ∧ d ≤ c.blowup
  layout : ∀ n ∈ c.fri_layout, 1 ≤ n ∧ n ≤ 4
  layout_ne : c.fri_layout ≠ [] ∨ c.num_queries = 0
  queries : c.num_queries < 2 ^ 64
  references : ∀ e ∈ c.expressions, ∀ i j, Occurs (i, j) e → i < t.num_columns ∧ 0 ≤ (c.trace_nrows : Int) + j

/-- the evaluation graph identifies two parts of the combined constraint only if they have the same values -/
def GraphOk (env : Env F) (o : Oracles F) (c : Constraints F) (g : F) (T : Nat → F[X]) (coefficients : List F) : Prop :=
  ∀ d E E', c.degree = some d → c.combine coefficients = some E → E.substitute_claim c.claim_polynomials = some E' →
    mark (o.seedHash env.generator (c.trace_nrows * next_power_of_two d)) o.traceHash E' ≠ none ∧
    ∀ a ∈ .Constant 0 :: .Constant 1 :: subexpressions E', ∀ a' ∈ .Constant 0 :: .Constant 1 :: subexpressions E',
      mark (o.seedHash env.generator (c.trace_nrows * next_power_of_two d)) o.traceHash a =
        mark (o.seedHash env.generator (c.trace_nrows * next_power_of_two d)) o.traceHash a' →
      ∀ x, EvalPoint env c x → a.evaluate x (fun i j => some ((T i).eval (x * g ^ j))) = a'.evaluate x (fun i j => some ((T i).eval (x * g ^ j)))

/-- the out-of-domain point is out of the domain -/
def OutOfDomain (env : Env F) (c : Constraints F) (g : F) (T : Nat → F[X]) (z : F) : Prop :=
  (∀ x, EvalPoint env c x → (∀ e ∈ c.expressions, ∀ i j, Occurs (i, j) e → x ≠ z * g ^ j) ∧ ∀ d, c.degree = some d → x ≠ z ^ next_power_of_two d) ∧
  ∀ e ∈ c.expressions, constraintValue c g T z e ≠ none

theorem claimValue_congr (claims : Nat → Option F[X]) (x : F) (tr tr' : Nat → Int → Option F) (e : Expr F)
    (h : ∀ i j, Occurs (i, j) e → tr i j = tr' i j) : claimValue claims x tr e = claimValue claims x tr' e := by
  induction e with
  | X => rfl
  | Constant c => rfl
  | Trace i j => exact h i j rfl
  | Polynomial p a ih => simp only [claimValue, ih h]
  | ClaimPolynomial i n a nm ih => simp only [claimValue, ih h]
  | Add a b iha ihb => simp only [claimValue, iha fun i j hij => h i j (Or.inl hij), ihb fun i j hij => h i j (Or.inr hij)]
  | Neg a ih => simp only [claimValue, ih h]
  | Mul a b iha ihb => simp only [claimValue, iha fun i j hij => h i j (Or.inl hij), ihb fun i j hij => h i j (Or.inr hij)]
  | Inv a ih => simp only [claimValue, ih h]
  | Exp a n ih => simp only [claimValue, ih h]

/-- the facts about sizes, columns and values that `complete_core` and `commit_core` need -/
theorem setup (env : Env F) (hroot : RootFn env.root) (hcompat : RootCompat env.root) (o : Oracles F)
    (c : Constraints F) (t : TraceTable F) (hc : SystemOk c t) (w : F) (hw : env.root (c.trace_nrows * c.blowup) = some w) (g : F)
    (hg : env.root t.trace_length = some g) (T : Nat → F[X]) (hT : ColumnPolys t g T) (hsat : Satisfies c g T)
    (hdef : ∀ x, EvalPoint env c x → ∀ e ∈ c.expressions, constraintValue c g T x e ≠ none) :
    ∃ k b e d polys wc, ∃ P : Expr F → F[X], e ≤ b ∧ k + b < 64 ∧ env.root (2 ^ (k + b)) = some w ∧ env.root (2 ^ (k + e)) = some wc ∧ env.root (2 ^ k) = some g ∧
      t.interpolate env.root = some polys ∧ polys ≠ [] ∧ (∀ p ∈ polys, p.length = 2 ^ k) ∧ c.trace_nrows = 2 ^ k ∧ t.trace_length = 2 ^ k ∧
      c.trace_ncolumns = polys.length ∧ c.blowup = 2 ^ b ∧ c.degree = some d ∧ next_power_of_two d = 2 ^ e ∧ d ≤ 2 ^ e ∧ c.fri_layout.sum ≤ k ∧
      (∀ a ∈ c.expressions, P a = 0 ∨ (P a).natDegree + (a.degree (c.trace_nrows - 1)).2 ≤ (a.degree (c.trace_nrows - 1)).1) ∧
      (∀ r < 2 ^ (k + e), ∀ a ∈ c.expressions, claimValue (claimsOf c) (env.generator * wc ^ r)
        (traceAt g (fun i => (polys.map toPoly).getD i 0) (env.generator * wc ^ r)) a = some ((P a).eval (env.generator * wc ^ r))) ∧
      (∀ a ∈ c.expressions, ∀ i j, Occurs (i, j) a → i < polys.length ∧ 0 ≤ (2 ^ k : Int) + j) ∧
      (∀ n, EvalPoint env c (env.generator * w ^ n)) ∧
      (∀ x, ∀ a ∈ c.expressions, constraintValue c g T x a ≠ none →
        claimValue (claimsOf c) x (traceAt g (fun i => (polys.map toPoly).getD i 0) x) a = some ((P a).eval x)) ∧
      ∀ co, GraphOk env o c g T co → ∀ E E', c.combine co = some E → E.substitute_claim c.claim_polynomials = some E' →
        mark (o.seedHash env.generator (2 ^ (k + e))) o.traceHash E' ≠ none ∧
        ∀ a ∈ .Constant 0 :: .Constant 1 :: subexpressions E', ∀ a' ∈ .Constant 0 :: .Constant 1 :: subexpressions E',
          mark (o.seedHash env.generator (2 ^ (k + e))) o.traceHash a = mark (o.seedHash env.generator (2 ^ (k + e))) o.traceHash a' →
          ∀ r < 2 ^ (k + e), a.evaluate (env.generator * wc ^ r) (traceAt g (fun i => (polys.map toPoly).getD i 0) (env.generator * wc ^ r)) =
            a'.evaluate (env.generator * wc ^ r) (traceAt g (fun i => (polys.map toPoly).getD i 0) (env.generator * wc ^ r)) := by
  obtain ⟨k, b, hk, hb, hkb, hsum⟩ := hc.pow2
  obtain ⟨d, hd, hdb⟩ := hc.degree
  rw [hb] at hdb
  obtain ⟨e, heb, hpow, hde⟩ := next_power_of_two_spec d b hdb
  have htl : t.trace_length = 2 ^ k := by rw [← hc.rows_eq, hk]
  have hg' : env.root (2 ^ k) = some g := by rw [← htl]; exact hg
  obtain ⟨polys, p1, p2, p3⟩ := C46_interpolate env.root hroot t hc.table k (by omega) htl g hg
  have hord := hroot _ g (Nat.two_pow_pos k) (Nat.pow_lt_pow_right (by norm_num) (by omega)) hg'
  have hne : polys ≠ [] := by
    intro h0
    rw [h0] at p2
    have := hc.columns
    simp at p2
    omega
  have hlen : ∀ p ∈ polys, p.length = 2 ^ k := by
    intro p hp
    obtain ⟨i, hi, h0⟩ := List.getElem_of_mem hp
    obtain ⟨q, q1, q2, -⟩ := p3 i (by omega)
    rw [List.getElem?_eq_getElem hi, h0] at q1
    cases q1
    exact q2
  -- the columns are determined by their values
  have huniq : ∀ i < t.num_columns, (polys.map toPoly).getD i 0 = T i := by
    intro i hi
    obtain ⟨p, q1, q2, q3⟩ := p3 i hi
    obtain ⟨t1, t2⟩ := hT i hi
    rw [List.getD, List.getElem?_map, q1]
    show toPoly p = T i
    refine Polynomial.eq_of_degrees_lt_of_eval_index_eq (s := Finset.range (2 ^ k)) (v := fun i => g ^ i) ?_ ?_ ?_ ?_
    · intro a ha b hb hab
      have ha := Finset.mem_range.1 ha
      have hb := Finset.mem_range.1 hb
      rw [← hord] at ha hb
      exact pow_injOn_Iio_orderOf ha hb hab
    · rw [Finset.card_range, ← q2]; exact toPoly_degree_lt p
    · rw [Finset.card_range, ← htl]; exact t1
    · intro i hi
      have hi := Finset.mem_range.1 hi
      have h1 := q3 i hi
      rw [t2 i (by omega)] at h1
      exact (Option.some.inj h1).symm
  have hocc : ∀ a ∈ c.expressions, ∀ i j, Occurs (i, j) a → i < polys.length ∧ 0 ≤ (2 ^ k : Int) + j := by
    intro a ha i j hij
    have := hc.references a ha i j hij
    rw [hk] at this
    rw [p2]
    exact_mod_cast this
  have hval0 : ∀ x, ∀ a ∈ c.expressions, claimValue (claimsOf c) x (traceAt g (fun i => (polys.map toPoly).getD i 0) x) a = constraintValue c g T x a := by
    intro x a ha
    apply claimValue_congr
    intro i j hij
    have := (hocc a ha i j hij).1
    unfold traceAt
    show some (eval _ ((polys.map toPoly).getD i 0)) = _
    rw [huniq i (by omega)]
  -- the points
  have hsize : c.trace_nrows * c.blowup = 2 ^ (k + b) := by rw [hk, hb, pow_add]
  rw [hsize] at hw
  have hwb := hcompat (k + e) (b - e) w (by omega) (by rw [show k + e + (b - e) = k + b by omega]; exact hw)
  have hw1 : w ^ 2 ^ (k + b) = 1 := Dag.root_rep hroot (k + b) hkb w hw
  have hpoint : ∀ n, EvalPoint env c (env.generator * w ^ n) := by
    intro n
    refine ⟨w ^ n, ?_, rfl⟩
    rw [hsize, ← pow_mul, mul_comm, pow_mul, hw1, one_pow]
  have hpointc : ∀ n, EvalPoint env c (env.generator * (w ^ 2 ^ (b - e)) ^ n) := by
    intro n
    rw [← pow_mul]
    exact hpoint _
  choose! P hP using hsat
  have hvalue : ∀ x, ∀ a ∈ c.expressions, constraintValue c g T x a ≠ none →
      claimValue (claimsOf c) x (traceAt g (fun i => (polys.map toPoly).getD i 0) x) a = some ((P a).eval x) := by
    intro x a ha hx
    rw [hval0 x a ha]
    obtain ⟨v, hv⟩ := Option.ne_none_iff_exists'.1 hx
    rw [hv, (hP a ha).1 x v hv]
  refine ⟨k, b, e, d, polys, w ^ 2 ^ (b - e), P, heb, hkb, hw, hwb, hg', p1, hne, hlen, hk, htl, by rw [hc.columns_eq, p2], hb, hd, hpow, hde, hsum,
    fun a ha => (hP a ha).2, fun r _ a ha => hvalue _ a ha (hdef _ (hpointc r) a ha), hocc, hpoint, hvalue, ?_⟩
  intro co hgraph E E' hE hE'
  obtain ⟨g1, g2⟩ := hgraph d E E' hd hE hE'
  rw [hpow, hk, ← pow_add] at g1 g2
  refine ⟨g1, fun a ha a' ha' hm r _ => ?_⟩
  have hcong : ∀ a ∈ .Constant 0 :: .Constant 1 :: subexpressions E', ∀ x, a.evaluate x (traceAt g (fun i => (polys.map toPoly).getD i 0) x) =
      a.evaluate x (fun i j => some ((T i).eval (x * g ^ j))) := by
    intro a ha x
    apply evaluate_congr
    intro i j hij
    have hoc : Occurs (i, j) E' := by
      rcases List.mem_cons.1 ha with rfl | ha
      · exact hij.elim
      · rcases List.mem_cons.1 ha with rfl | ha
        · exact hij.elim
        · exact occurs_sub E' a ha _ hij
    rw [occurs_substitute _ _ _ hE'] at hoc
    obtain ⟨y, hy, hoc⟩ := occurs_combine c _ E hE _ hoc
    have := (hocc y hy i j hoc).1
    show some (eval _ ((polys.map toPoly).getD i 0)) = _
    rw [huniq i (by omega)]
  rw [hcong a ha, hcong a' ha']
  exact g2 a ha a' ha' hm _ (hpointc r)

/-- C50: if the trace satisfies the constraints and the prover gets as far as the queries, with an out-of-domain point out of the domain, then
it produces a proof, and the verifier accepts it. -/
theorem C50_complete (env : Env F) (hroot : RootFn env.root) (hcompat : RootCompat env.root) (hgen : env.generator ≠ 0)
    (hsearch : ∀ l n z, env.search l n = some z → l[z]? = some n) (o : Oracles F) (hsolve : ∀ ch n, o.solve ch = some n → n < 2 ^ 64)
    (c : Constraints F) (t : TraceTable F) (hc : SystemOk c t) (w : F) (hw : env.root (c.trace_nrows * c.blowup) = some w) (g : F) (hg : env.root t.trace_length = some g) (T : Nat → F[X]) (hT : ColumnPolys t g T)
    (hsat : Satisfies c g T) (hdef : ∀ x, EvalPoint env c x → ∀ e ∈ c.expressions, constraintValue c g T x e ≠ none)
    (s : Committed F) (ch : ProverChannel) (hrun : commitPhase env o c t = .ok (s, ch)) (hgraph : GraphOk env o c g T s.constraint_coefficients)
    (hz : OutOfDomain env c g T s.oods_point) : ∃ p, prove env o c t = .ok p ∧ verify env c p = .ok () := by
  obtain ⟨k, b, e, d, polys, wc, P, heb, hkb, hw', hwc, hg', hpolys, hne, hlen, hk, htl, hcols, hb, hd, hpow, hde, hsum, hP, hval, hocc, hpoint, hvalue, hgr⟩ :=
    setup env hroot hcompat o c t hc w hw g hg T hT hsat hdef
  exact complete_core env hroot hcompat hgen hsearch o hsolve k e b heb hkb w wc g hw' hwc hg' c t polys hpolys hne hlen hk htl
    hcols hb d hd hpow hde hc.layout hsum hc.layout_ne hc.queries P hP hval hocc s ch hrun (hgr _ hgraph)
    (fun r _ a ha i j hij => (hz.1 _ (hpoint r)).1 a ha i j hij) (fun r _ => by rw [← hpow]; exact (hz.1 _ (hpoint r)).2 d hd)
    (fun a ha => hvalue _ a ha (hz.2 a ha))

/-- C50, the literal reading: what `prove` returns is accepted. -/
theorem C50_accepted (env : Env F) (o : Oracles F) (c : Constraints F) (t : TraceTable F) (p : Bytes) (h : prove env o c t = .ok p) :
    verify env c p = .ok () := by
  unfold prove at h
  obtain ⟨s, h1, h⟩ := bind_ok_inv h
  obtain ⟨ch, h2, h⟩ := bind_ok_inv h
  split at h
  · rename_i u hv
    cases h
    exact hv
  · cases h
  · cases h

theorem orPanic_inv {α : Type} {x : Option α} {a : α} (h : orPanic x = .ok a) : x = some a := by
  cases x with
  | none => cases h
  | some b => cases h; rfl

/-- C50, a limit: without a FRI reduction (the default for a trace of one row) the verifier accepts nothing, so that the prover, which verifies
its own proofs, produces nothing. -/
theorem C50_no_reduction (env : Env F) (o : Oracles F) (c : Constraints F) (t : TraceTable F) (hl : c.fri_layout = []) (hq : 0 < c.num_queries)
    (hq' : c.num_queries < 2 ^ 64) (hs : Merkle.trailing_zeros (c.trace_nrows * c.blowup) < 64) (p : Bytes) :
    verify env c p ≠ .ok () ∧ prove env o c t ≠ .ok p := by
  have hv : verify env c p ≠ .ok () := by
    intro h
    unfold Stark.verify at h
    obtain ⟨w, _, h⟩ := bind_ok_inv h
    obtain ⟨⟨T, ch⟩, h1, h⟩ := bind_ok_inv h
    have hqueries : T.queries ≠ [] := by
      unfold readTranscript at h1
      obtain ⟨_, _, h1⟩ := bind_ok_inv h1
      obtain ⟨_, _, h1⟩ := bind_ok_inv h1
      obtain ⟨_, _, h1⟩ := bind_ok_inv h1
      obtain ⟨_, _, h1⟩ := bind_ok_inv h1
      obtain ⟨_, _, h1⟩ := bind_ok_inv h1
      obtain ⟨_, _, h1⟩ := bind_ok_inv h1
      obtain ⟨_, _, h1⟩ := bind_ok_inv h1
      obtain ⟨_, _, h1⟩ := bind_ok_inv h1
      obtain ⟨_, _, h1⟩ := bind_ok_inv h1
      obtain ⟨_, _, h1⟩ := bind_ok_inv h1
      obtain ⟨_, _, h1⟩ := bind_ok_inv h1
      obtain ⟨_, _, h1⟩ := bind_ok_inv h1
      obtain ⟨_, _, h1⟩ := bind_ok_inv h1
      split at h1
      · cases h1
      obtain ⟨_, _, h1⟩ := bind_ok_inv h1
      obtain ⟨_, _, h1⟩ := bind_ok_inv h1
      obtain ⟨_, _, h1⟩ := bind_ok_inv h1
      obtain ⟨r, hr, h1⟩ := bind_ok_inv h1
      split at h1
      · cases h1
      obtain ⟨q, hq1, h1⟩ := map_ok_inv h1
      cases h1
      have hr0 : r.2.coin.counter = 0 := by
        have hr := orPanic_inv hr
        unfold VerifierChannel.replayResponse VerifierChannel.read at hr
        obtain ⟨s, hs1, hs2⟩ := Option.map_eq_some_iff.1 hr
        split at hs1
        · cases hs1; cases hs2; rfl
        · cases hs1
      obtain ⟨l, coin, -, j2, j3, -⟩ := C40_indices env.K true c.num_queries _ hs ⟨r.2.coin, []⟩ r.2 rfl (by rw [hr0]; omega)
      rw [j2] at hq1
      cases hq1
      intro h0
      dsimp only at h0
      rw [h0] at j3
      simp at j3
      omega
    unfold checkTranscript at h
    obtain ⟨_, _, h⟩ := bind_ok_inv h
    obtain ⟨_, _, h⟩ := bind_ok_inv h
    obtain ⟨_, _, h⟩ := bind_ok_inv h
    obtain ⟨_, _, h⟩ := bind_ok_inv h
    rw [if_pos ⟨hl, hqueries⟩] at h
    cases h
  exact ⟨hv, fun h => hv (C50_accepted env o c t p h)⟩

-- a trace of one row has no reduction
example : default_fri_layout 1 = [] := by decide

/-! ## Quotients -/

/-- the expression contains no inverse -/
def DivisionFree : Expr F → Prop
  | .Inv _ => False
  | .ClaimPolynomial _ _ e _ | .Polynomial _ e | .Neg e | .Exp e _ => DivisionFree e
  | .Add e f | .Mul e f => DivisionFree e ∧ DivisionFree f
  | _ => True

/-- the polynomial of an expression without inverses -/
noncomputable def polyOf (c : Constraints F) (g : F) (T : Nat → F[X]) : Expr F → F[X]
  | .X => X
  | .Constant a => C a
  | .Trace i j => (T i).comp (C (g ^ j) * X)
  | .Polynomial p a => (toPoly p).comp (polyOf c g T a)
  | .ClaimPolynomial i n a _ => match (c.claim_polynomials[i]?).map toPoly with
    | some P => if P.natDegree ≤ n then P.comp (polyOf c g T a) else 0
    | none => 0
  | .Add a b => polyOf c g T a + polyOf c g T b
  | .Neg a => -polyOf c g T a
  | .Mul a b => polyOf c g T a * polyOf c g T b
  | .Inv _ => 0
  | .Exp a n => polyOf c g T a ^ n

theorem polyOf_value (c : Constraints F) (g : F) (T : Nat → F[X]) (x : F) (e : Expr F) (he : DivisionFree e) (v : F)
    (h : constraintValue c g T x e = some v) : (polyOf c g T e).eval x = v := by
  unfold constraintValue at h
  induction e generalizing v with
  | X => cases h; simp [polyOf]
  | Constant a => cases h; simp [polyOf]
  | Trace i j => cases h; rw [polyOf, eval_comp, eval_mul, eval_C, eval_X, mul_comm]
  | Polynomial p a ih =>
    obtain ⟨u, h1, rfl⟩ := Option.map_eq_some_iff.1 h
    simp [polyOf, ih he u h1]
  | ClaimPolynomial i n a nm ih =>
    simp only [claimValue] at h
    split at h
    · rename_i P u h1 h2
      split at h
      · rename_i h3
        cases h
        simp only [polyOf]
        rw [h1]
        simp only
        rw [if_pos h3, eval_comp, ih he u h2]
      · cases h
    · cases h
  | Add a b iha ihb =>
    simp only [claimValue] at h
    split at h
    · rename_i u u' h1 h2
      cases h
      simp [polyOf, iha he.1 u h1, ihb he.2 u' h2]
    · cases h
  | Neg a ih =>
    obtain ⟨u, h1, rfl⟩ := Option.map_eq_some_iff.1 h
    simp [polyOf, ih he u h1]
  | Mul a b iha ihb =>
    simp only [claimValue] at h
    split at h
    · rename_i u u' h1 h2
      cases h
      simp [polyOf, iha he.1 u h1, ihb he.2 u' h2]
    · cases h
  | Inv a => exact he.elim
  | Exp a n ih =>
    obtain ⟨u, h1, rfl⟩ := Option.map_eq_some_iff.1 h
    simp [polyOf, ih he u h1]

theorem polyOf_degree (c : Constraints F) (g : F) (T : Nat → F[X]) (td : Nat) (e : Expr F) (he : DivisionFree e)
    (hT : ∀ i j, Occurs (i, j) e → (T i).natDegree ≤ td) : (polyOf c g T e).natDegree ≤ (e.degree td).1 ∧ (e.degree td).2 = 0 := by
  unfold Expr.degree
  induction e with
  | X => exact ⟨natDegree_X_le, rfl⟩
  | Constant a => exact ⟨by simp [polyOf], rfl⟩
  | Trace i j =>
    refine ⟨?_, rfl⟩
    show ((T i).comp (C (g ^ j) * X)).natDegree ≤ td
    refine le_trans natDegree_comp_le ?_
    have h1 : (C (g ^ j) * X : F[X]).natDegree ≤ 1 := (natDegree_C_mul_le _ _).trans natDegree_X_le
    calc _ ≤ (T i).natDegree * 1 := Nat.mul_le_mul_left _ h1
      _ ≤ td := by rw [mul_one]; exact hT i j rfl
  | Polynomial p a ih =>
    obtain ⟨h1, h2⟩ := ih he hT
    simp only [Expr.degree_impl, polyOf]
    rw [h2, C37_degree]
    exact ⟨le_trans natDegree_comp_le (Nat.mul_le_mul_left _ h1), by simp⟩
  | ClaimPolynomial i n a nm ih =>
    obtain ⟨h1, h2⟩ := ih he hT
    simp only [Expr.degree_impl, polyOf]
    rw [h2]
    refine ⟨?_, by simp⟩
    split
    · split
      · rename_i P _ h3
        exact le_trans natDegree_comp_le (Nat.mul_le_mul h3 h1)
      · simp
    · simp
  | Add a b iha ihb =>
    obtain ⟨h1, h2⟩ := iha he.1 fun i j h => hT i j (Or.inl h)
    obtain ⟨h3, h4⟩ := ihb he.2 fun i j h => hT i j (Or.inr h)
    simp only [Expr.degree_impl, polyOf]
    rw [h2, h4]
    exact ⟨le_trans (natDegree_add_le _ _) (by simpa using max_le_max h1 h3), rfl⟩
  | Neg a ih =>
    simp only [Expr.degree_impl, polyOf]
    rw [natDegree_neg]
    exact ih he hT
  | Mul a b iha ihb =>
    obtain ⟨h1, h2⟩ := iha he.1 fun i j h => hT i j (Or.inl h)
    obtain ⟨h3, h4⟩ := ihb he.2 fun i j h => hT i j (Or.inr h)
    simp only [Expr.degree_impl, polyOf]
    rw [h2, h4]
    exact ⟨le_trans natDegree_mul_le (Nat.add_le_add h1 h3), rfl⟩
  | Inv a => exact he.elim
  | Exp a n ih =>
    obtain ⟨h1, h2⟩ := ih he hT
    simp only [Expr.degree_impl, polyOf]
    rw [h2]
    exact ⟨le_trans natDegree_pow_le (Nat.mul_le_mul_left _ h1), by simp⟩

/-- C50: a quotient is satisfied (in the sense of `Satisfies`) when its numerator vanishes wherever its denominator does, provided that the
denominator has as many zeros as its degree. -/
theorem C50_quotient (c : Constraints F) (g : F) (T : Nat → F[X]) (N D : Expr F) (hN : DivisionFree N) (hD : DivisionFree D)
    (hT : ∀ i j, Occurs (i, j) N ∨ Occurs (i, j) D → (T i).natDegree ≤ c.trace_nrows - 1) (S : Finset F)
    (hS : S.card = (D.degree (c.trace_nrows - 1)).1) (hzero : ∀ x ∈ S, constraintValue c g T x D = some 0 ∧ constraintValue c g T x N = some 0) :
    ∃ P : F[X], (∀ x v, constraintValue c g T x (.Mul N (.Inv D)) = some v → v = P.eval x) ∧
      (P = 0 ∨ P.natDegree + ((Expr.Mul N (.Inv D)).degree (c.trace_nrows - 1)).2 ≤ ((Expr.Mul N (.Inv D)).degree (c.trace_nrows - 1)).1) := by
  obtain ⟨n1, n2⟩ := polyOf_degree c g T (c.trace_nrows - 1) N hN fun i j h => hT i j (Or.inl h)
  obtain ⟨d1, d2⟩ := polyOf_degree c g T (c.trace_nrows - 1) D hD fun i j h => hT i j (Or.inr h)
  have hvalue : ∀ x v, constraintValue c g T x (.Mul N (.Inv D)) = some v →
      (polyOf c g T D).eval x ≠ 0 ∧ v = (polyOf c g T N).eval x * ((polyOf c g T D).eval x)⁻¹ := by
    intro x v h
    unfold constraintValue at h
    simp only [claimValue] at h
    split at h
    · rename_i u u' h1 h2
      cases h
      split at h2
      · rename_i y h3
        split at h2
        · cases h2
        · rename_i h4
          cases h2
          rw [polyOf_value c g T x N hN u h1, polyOf_value c g T x D hD y h3]
          exact ⟨h4, rfl⟩
      · cases h2
    · cases h
  by_cases hD0 : polyOf c g T D = 0
  · refine ⟨0, fun x v h => ?_, Or.inl rfl⟩
    have := (hvalue x v h).1
    rw [hD0] at this
    simp at this
  set Z : F[X] := ∏ x ∈ S, (X - C x) with hZ
  have hdvd : ∀ Q : F[X], (∀ x ∈ S, Q.eval x = 0) → Z ∣ Q := by
    intro Q hQ
    apply Finset.prod_dvd_of_coprime
    · intro x _ y _ hxy
      exact isCoprime_X_sub_C_of_isUnit_sub (sub_ne_zero.2 hxy).isUnit
    · intro x hx
      exact dvd_iff_isRoot.2 (hQ x hx)
  obtain ⟨q, hq⟩ := hdvd (polyOf c g T D) fun x hx => polyOf_value c g T x D hD 0 (hzero x hx).1
  obtain ⟨r, hr⟩ := hdvd (polyOf c g T N) fun x hx => polyOf_value c g T x N hN 0 (hzero x hx).2
  have hZd : Z.natDegree = S.card := by rw [hZ, natDegree_prod_of_monic _ _ (fun x _ => monic_X_sub_C x)]; simp
  have hZm : Z.Monic := monic_prod_of_monic _ _ fun x _ => monic_X_sub_C x
  have hq0 : q ≠ 0 := by rintro rfl; simp at hq; exact hD0 hq
  have hqd : q.natDegree = 0 := by
    have := hZm.natDegree_mul' hq0
    rw [← hq, hZd, hS] at this
    omega
  obtain ⟨a, rfl⟩ := natDegree_eq_zero.1 hqd
  have ha : a ≠ 0 := by rintro rfl; simp at hq0
  refine ⟨C a⁻¹ * r, fun x v h => ?_, ?_⟩
  · obtain ⟨h1, h2⟩ := hvalue x v h
    rw [hq, eval_mul, eval_C] at h1
    rw [h2, hq, hr, eval_mul, eval_mul, eval_mul, eval_C, eval_C]
    have hz : Z.eval x ≠ 0 := left_ne_zero_of_mul h1
    field_simp
  · by_cases hr0 : r = 0
    · left; rw [hr0, mul_zero]
    · right
      have h1 : (C a⁻¹ * r).natDegree ≤ r.natDegree := natDegree_C_mul_le _ _
      have h2 := hZm.natDegree_mul' hr0
      rw [← hr, hZd, hS] at h2
      unfold Expr.degree at *
      simp only [Expr.degree_impl]
      omega

end

/-! ## A proof

A run of the prover over the field of 65537 elements: the column 5, 9, starting with 5 and growing by 4. -/

namespace Small

instance : Fact (Nat.Prime 65537) := ⟨by norm_num⟩
abbrev Z := ZMod 65537

/-- some function with results of 32 bytes -/
def K : Keccak := ⟨fun _ => (List.range 32).map fun i => UInt8.ofNat (i * 7 + 1), fun _ => by simp⟩
def root (n : Nat) : Option Z := if n = 1 then some 1 else if n = 2 then some 65536 else if n = 4 then some 256 else none

theorem root_ok : RootFn root := by
  intro n w _ _ h
  unfold root at h
  split at h
  · cases h; rename_i h; rw [h]; exact orderOf_one
  · split at h
    · cases h; rename_i h; rw [h]; exact orderOf_eq_prime (p := 2) (by decide +kernel) (by decide +kernel)
    · split at h
      · cases h; rename_i h; rw [h]; exact orderOf_eq_prime_pow (p := 2) (n := 1) (by decide +kernel) (by decide +kernel)
      · cases h

theorem root_compat : RootCompat root := by
  intro a b w _ h
  have hle : a + b ≤ 2 := by
    by_contra hc
    have : 2 ^ 3 ≤ 2 ^ (a + b) := Nat.pow_le_pow_right (by norm_num) (by omega)
    generalize 2 ^ (a + b) = n at *
    unfold root at h
    rw [if_neg (by omega), if_neg (by omega), if_neg (by omega)] at h
    cases h
  have ha : a ≤ 2 := by omega
  have hb : b ≤ 2 := by omega
  interval_cases a <;> interval_cases b <;> first | omega | (cases h; decide +kernel)

theorem rep_toNat (x : Z) : (⟨UInt64.ofNat x.val, 0, 0, 0⟩ : U256).toNat = x.val := by
  have h := ZMod.val_lt x
  have h1 : (UInt64.ofNat x.val).toNat = x.val := by
    rw [UInt64.toNat_ofNat']
    exact Nat.mod_eq_of_lt (lt_trans h (by norm_num))
  simp [U256.toNat, h1]

def env : Env Z :=
  ⟨K, ⟨fun x => ⟨UInt64.ofNat x.val, 0, 0, 0⟩, fun u => (u.toNat : Z), fun x => by
      rw [rep_toNat]
      exact lt_trans (ZMod.val_lt x) (by decide +kernel),
    fun x => by rw [rep_toNat]; exact ZMod.natCast_zmod_val x⟩, root, 3, fun l n => l.findIdx? (· = n)⟩
def o : Oracles Z := ⟨fun _ _ => 77, fun s i j => s ^ 3 + i * 5 + j * 11, fun _ => some 0⟩
def tr : TraceTable Z := ⟨2, 1, [5, 9]⟩
/-- the first row is 5 -/
def e1 : Expr Z := .Mul (.Add (.Trace 0 0) (.Neg (.Constant 5))) (.Inv (.Add .X (.Neg (.Constant 1))))
/-- the next row is 4 more -/
def e2 : Expr Z := .Mul (.Mul (.Add (.Add (.Trace 0 1) (.Neg (.Trace 0 0))) (.Neg (.Constant 4))) (.Add .X (.Constant 1)))
  (.Inv (.Add (.Exp .X 2) (.Neg (.Constant 1))))
def c : Constraints Z := ⟨[1], 2, 1, [e1, e2], 2, 0, 2, [1], []⟩

/-- the column as a polynomial -/
noncomputable def T (_ : Nat) : Z[X] := toPoly [7, 65535]

theorem system_ok : SystemOk c tr where
  table := rfl
  columns := by decide
  rows_eq := rfl
  columns_eq := rfl
  pow2 := ⟨1, 1, rfl, rfl, by norm_num, by decide⟩
  degree := ⟨1, by decide +kernel, by decide⟩
  layout := by decide
  layout_ne := Or.inl (by decide)
  queries := by decide
  references := by
    intro e he i j h
    simp only [c, List.mem_cons, List.not_mem_nil, or_false] at he
    rcases he with rfl | rfl <;> simp [e1, e2, Occurs] at h
    · obtain ⟨rfl, rfl⟩ := h; decide
    · rcases h with ⟨rfl, rfl⟩ | ⟨rfl, rfl⟩ <;> decide

theorem columns : ColumnPolys tr 65536 T := by
  intro j hj
  have hj : j < 1 := hj
  interval_cases j
  refine ⟨toPoly_degree_lt [7, 65535], fun i hi => ?_⟩
  have hi : i < 2 := hi
  unfold T
  rw [← C37_evaluate]
  interval_cases i <;> decide +kernel

theorem T_eval (x : Z) (i : Nat) : (T i).eval x = 7 - 2 * x := by
  unfold T
  rw [← C37_evaluate]
  have : (65535 : Z) = -2 := by decide +kernel
  simp [Poly.evaluate, this]
  ring

theorem value1 (x : Z) : constraintValue c 65536 T x e1 = if x - 1 = 0 then none else some (-2) := by
  unfold constraintValue e1
  simp only [claimValue, T_eval, Option.map_some, ← sub_eq_add_neg]
  by_cases h : x - 1 = 0
  · rw [if_pos h, if_pos h]
  · rw [if_neg h, if_neg h]
    show some _ = some _
    rw [zpow_zero, mul_one, show 7 - 2 * x - 5 = -2 * (x - 1) by ring, mul_assoc, mul_inv_cancel₀ h, mul_one]

theorem value2 (x : Z) : constraintValue c 65536 T x e2 = if x ^ 2 - 1 = 0 then none else some 4 := by
  unfold constraintValue e2
  simp only [claimValue, T_eval, Option.map_some, ← sub_eq_add_neg]
  by_cases h : x ^ 2 - 1 = 0
  · rw [if_pos h, if_pos h]
  · rw [if_neg h, if_neg h]
    show some _ = some _
    rw [zpow_zero, mul_one, zpow_one, show (65536 : Z) = -1 by decide +kernel,
      show (7 - 2 * (x * -1) - (7 - 2 * x) - 4) * (x + 1) = 4 * (x ^ 2 - 1) by ring, mul_assoc, mul_inv_cancel₀ h, mul_one]

theorem satisfies : Satisfies c 65536 T := by
  intro e he
  simp only [c, List.mem_cons, List.not_mem_nil, or_false] at he
  rcases he with rfl | rfl
  · refine ⟨C (-2), fun x v h => ?_, Or.inr ?_⟩
    · rw [value1] at h
      split at h
      · cases h
      · cases h; simp
    · rw [natDegree_C]; decide +kernel
  · refine ⟨C 4, fun x v h => ?_, Or.inr ?_⟩
    · rw [value2] at h
      split at h
      · cases h
      · cases h; simp
    · rw [natDegree_C]; decide +kernel

theorem point_ne (x : Z) (h : EvalPoint env c x) : x ^ 4 = 81 := by
  obtain ⟨y, h1, rfl⟩ := h
  have h1 : y ^ 4 = 1 := h1
  show (3 * y) ^ 4 = 81
  rw [mul_pow, h1]
  decide +kernel

/-- the combined constraint -/
def E : Expr Z := .Add
  (.Mul (.Add (.Constant 28784) (.Mul (.Constant 28784) (.Exp .X 1))) e1)
  (.Mul (.Add (.Constant 28784) (.Mul (.Constant 28784) (.Exp .X 1))) e2)

theorem graph_ok : GraphOk env o c 65536 T [28784, 28784, 28784, 28784] := by
  intro d E0 E' _ hE hE'
  have h1 : c.combine [28784, 28784, 28784, 28784] = some E := by decide +kernel
  have h2 : E.substitute_claim [] = some E := by decide +kernel
  rw [h1] at hE
  cases hE
  rw [show c.claim_polynomials = [] from rfl, h2] at hE'
  cases hE'
  refine ⟨by show mark 77 _ _ ≠ none; decide +kernel, ?_⟩
  have key : ∀ a ∈ Expr.Constant 0 :: Expr.Constant 1 :: subexpressions E, ∀ a' ∈ Expr.Constant 0 :: Expr.Constant 1 :: subexpressions E,
      mark 77 o.traceHash a = mark 77 o.traceHash a' → a = a' ∨ (a ∈ [Expr.X, Expr.Exp .X 1] ∧ a' ∈ [Expr.X, Expr.Exp .X 1]) := by decide +kernel
  intro a ha a' ha' hm x _
  rcases key a ha a' ha' hm with h | ⟨h, h'⟩
  · rw [h]
  · simp only [List.mem_cons, List.not_mem_nil, or_false] at h h'
    rcases h with rfl | rfl <;> rcases h' with rfl | rfl <;> simp [Expr.evaluate]

theorem run : (match commitPhase env o c tr with
    | .ok s => decide (s.1.constraint_coefficients = [28784, 28784, 28784, 28784] ∧ s.1.oods_point = 28784)
    | .error _ => false) = true := by decide +kernel

-- the prover gets to the queries, and the theorem applies
theorem proved : ∃ p, prove env o c tr = .ok p ∧ verify env c p = .ok () := by
  have hr := run
  cases h : commitPhase env o c tr with
  | error e => rw [h] at hr; cases hr
  | ok s =>
    rw [h] at hr
    obtain ⟨h1, h2⟩ := of_decide_eq_true hr
    refine C50_complete env root_ok root_compat (by decide +kernel) ?_ o ?_ c tr system_ok 256 (by decide +kernel) 65536 (by decide +kernel) T columns satisfies ?_ s.1 s.2 h
      (by rw [h1]; exact graph_ok) ?_
    · intro l n z hz
      obtain ⟨h3, h4, -⟩ := List.findIdx?_eq_some_iff_getElem.1 hz
      rw [List.getElem?_eq_getElem h3]
      simpa using h4
    · intro ch n hn
      cases hn
      norm_num
    · intro x hx e he
      have hx := point_ne x hx
      simp only [c, List.mem_cons, List.not_mem_nil, or_false] at he
      rcases he with rfl | rfl
      · rw [value1, if_neg]
        · simp
        · intro h0
          rw [sub_eq_zero.1 h0] at hx
          revert hx
          decide +kernel
      · rw [value2, if_neg]
        · simp
        · intro h0
          rw [show x ^ 4 = (x ^ 2) ^ 2 by ring, sub_eq_zero.1 h0] at hx
          revert hx
          decide +kernel
    · rw [h2]
      refine ⟨fun x hx => ⟨fun e he i j hij => ?_, fun d hd => ?_⟩, fun e he => ?_⟩
      · have hx := point_ne x hx
        rintro rfl
        have hj : j = 0 ∨ j = 1 := by
          simp only [c, List.mem_cons, List.not_mem_nil, or_false] at he
          rcases he with rfl | rfl <;> simp [e1, e2, Occurs] at hij <;> omega
        rcases hj with rfl | rfl
        · revert hx; decide +kernel
        · revert hx; decide +kernel
      · have hx := point_ne x hx
        have : c.degree = some 1 := by decide +kernel
        rw [this] at hd
        cases hd
        rintro rfl
        revert hx
        decide +kernel
      · simp only [c, List.mem_cons, List.not_mem_nil, or_false] at he
        rcases he with rfl | rfl
        · rw [value1, if_neg (by decide +kernel)]; simp
        · rw [value2, if_neg (by decide +kernel)]; simp

-- what is returned is accepted
example : ∃ p, prove env o c tr = .ok p ∧ verify env c p = .ok () := by
  obtain ⟨p, h, _⟩ := proved
  exact ⟨p, h, C50_accepted env o c tr p h⟩

-- C51: with one more byte it is too long, with one less the verifier panics
example : ∃ p, verify env c p = .ok () ∧ verify env c (p ++ [0]) = .error .ProofTooLong ∧ verify env c (p.take (p.length - 1)) = .error .Panic := by
  obtain ⟨p, _, h⟩ := proved
  have h0 : p.length ≠ 0 := by
    intro h0
    rw [C51_violated env c p (by omega)] at h
    cases h
  exact ⟨p, h, (C51_whole_partial env c p h).1 [0] (by simp), (C51_whole_partial env c p h).2 _ (by omega)⟩

-- the first constraint is a quotient whose numerator vanishes at 1, the only zero of the denominator
example : ∃ P : Z[X], (∀ x v, constraintValue c 65536 T x e1 = some v → v = P.eval x) ∧
    (P = 0 ∨ P.natDegree + (e1.degree (c.trace_nrows - 1)).2 ≤ (e1.degree (c.trace_nrows - 1)).1) := by
  refine C50_quotient c 65536 T _ _ (by simp [DivisionFree]) (by simp [DivisionFree]) ?_ {1} (by decide +kernel) ?_
  · intro i j _
    have := toPoly_degree_lt ([7, 65535] : List Z)
    have h0 : T i ≠ 0 := by
      intro h
      have := T_eval 0 i
      rw [h] at this
      revert this
      simp
      decide +kernel
    have := (natDegree_lt_iff_degree_lt h0).2 this
    show _ ≤ 1
    simp at this
    omega
  · intro x hx
    rw [Finset.mem_singleton.1 hx]
    simp [constraintValue, claimValue, T_eval]
    decide +kernel

end Small

end Props
end OpenZKP
