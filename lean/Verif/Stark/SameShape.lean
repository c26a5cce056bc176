import Verif.Stark.ForwardChecks
import Verif.Stark.AcceptMain

/-!
Lemmas: two constraint systems whose expressions differ only in their constants are read in the same way; what the verifier computes for them differs only in
the comparison at the out-of-domain point.
-/

namespace OpenZKP
namespace Stark

/-- an expression without the values of its constants -/
def Expr.shape {F : Type} [Zero F] : Expr F → Expr F
  | .X => .X
  | .Constant _ => .Constant 0
  | .Trace i j => .Trace i j
  | .Polynomial p a => .Polynomial p a.shape
  | .ClaimPolynomial i n a name => .ClaimPolynomial i n a.shape name
  | .Add a b => .Add a.shape b.shape
  | .Neg a => .Neg a.shape
  | .Mul a b => .Mul a.shape b.shape
  | .Inv a => .Inv a.shape
  | .Exp a e => .Exp a.shape e

/-- two systems with the same parameters, without claim polynomials, whose expressions differ only in constants -/
structure Alike {F : Type} [Field F] (c c' : Constraints F) : Prop where
  seed : c'.channel_seed = c.channel_seed
  rows : c'.trace_nrows = c.trace_nrows
  columns : c'.trace_ncolumns = c.trace_ncolumns
  blowup : c'.blowup = c.blowup
  pow_bits : c'.pow_bits = c.pow_bits
  num_queries : c'.num_queries = c.num_queries
  layout : c'.fri_layout = c.fri_layout
  no_claims : c.claim_polynomials = [] ∧ c'.claim_polynomials = []
  shapes : c'.expressions.map Expr.shape = c.expressions.map Expr.shape

section
variable {F : Type} [Field F] [DecidableEq F]

theorem degree_shape (x t : Nat) (e : Expr F) : Expr.degree_impl x t e.shape = Expr.degree_impl x t e := by
  induction e with
  | X => rfl
  | Constant c => rfl
  | Trace i j => rfl
  | Polynomial p a ih => simp only [Expr.shape, Expr.degree_impl, ih]
  | ClaimPolynomial i n a name ih => simp only [Expr.shape, Expr.degree_impl, ih]
  | Add a b iha ihb => simp only [Expr.shape, Expr.degree_impl, iha, ihb]
  | Neg a ih => simp only [Expr.shape, Expr.degree_impl, ih]
  | Mul a b iha ihb => simp only [Expr.shape, Expr.degree_impl, iha, ihb]
  | Inv a ih => simp only [Expr.shape, Expr.degree_impl, ih]
  | Exp a e ih => simp only [Expr.shape, Expr.degree_impl, ih]

theorem arguments_shape (e : Expr F) : ∀ s, Expr.traceArgumentsImpl e.shape s = Expr.traceArgumentsImpl e s := by
  induction e with
  | X => intro s; rfl
  | Constant c => intro s; rfl
  | Trace i j => intro s; rfl
  | Polynomial p a ih => intro s; simp only [Expr.shape, Expr.traceArgumentsImpl, ih]
  | ClaimPolynomial i n a name ih => intro s; rfl
  | Add a b iha ihb => intro s; simp only [Expr.shape, Expr.traceArgumentsImpl, iha, ihb]
  | Neg a ih => intro s; simp only [Expr.shape, Expr.traceArgumentsImpl, ih]
  | Mul a b iha ihb => intro s; simp only [Expr.shape, Expr.traceArgumentsImpl, iha, ihb]
  | Inv a ih => intro s; simp only [Expr.shape, Expr.traceArgumentsImpl, ih]
  | Exp a e ih => intro s; simp only [Expr.shape, Expr.traceArgumentsImpl, ih]

theorem mapM_shape {β : Type} (f : Expr F → Option β) (hf : ∀ e, f e.shape = f e) (l : List (Expr F)) : (l.map Expr.shape).mapM f = l.mapM f := by
  induction l with
  | nil => rfl
  | cons e l ih => rw [List.map_cons, List.mapM_cons, List.mapM_cons, ih, hf]

namespace Alike
variable {c c' : Constraints F}

theorem length (h : Alike c c') : c'.expressions.length = c.expressions.length := by
  have := congrArg List.length h.shapes
  rwa [List.length_map, List.length_map] at this

theorem degree (h : Alike c c') : c'.degree = c.degree := by
  have hf : ∀ e : Expr F, csub e.shape.trace_degree.1 e.shape.trace_degree.2 = csub e.trace_degree.1 e.trace_degree.2 := by
    intro e
    unfold Expr.trace_degree
    rw [degree_shape]
  unfold Constraints.degree
  rw [← mapM_shape _ hf c'.expressions, ← mapM_shape _ hf c.expressions, h.shapes]

theorem trace_arguments (h : Alike c c') : c'.trace_arguments = c.trace_arguments := by
  have hf : ∀ e : Expr F, e.shape.trace_arguments = e.trace_arguments := fun e => arguments_shape e []
  unfold Constraints.trace_arguments
  rw [← mapM_shape _ hf c'.expressions, ← mapM_shape _ hf c.expressions, h.shapes]

theorem substitute (h : c.claim_polynomials = []) : c.substitute = some c := by
  unfold Constraints.substitute
  rw [h]
  rfl

theorem readTranscript (env : Env F) (h : Alike c c') (ch : VerifierChannel) : Stark.readTranscript env c' ch = Stark.readTranscript env c ch := by
  unfold Stark.readTranscript
  simp only [h.rows, h.blowup, h.length, substitute h.no_claims.1, substitute h.no_claims.2, h.degree, h.layout, h.pow_bits, h.num_queries,
    orPanic, Except.bind, h.trace_arguments]

/-- the second part of the verifier passes for both systems, or fails in the comparison at the out-of-domain point -/
theorem checkTranscript (env : Env F) (h : Alike c c') (eval_x : List F) (t : Transcript F) (ch : VerifierChannel)
    (hok : Stark.checkTranscript env c eval_x t ch = .ok ()) :
    Stark.checkTranscript env c' eval_x t ch = .ok () ↔ oods_value_from_trace_values c' t.constraint_coefficients t.trace_map t.oods_point =
      some (oods_value_from_constraint_values t.constraint_values t.oods_point) := by
  unfold Stark.checkTranscript at hok ⊢
  have hknown : ∀ lv cv, knownFirst env c' t eval_x lv cv = knownFirst env c t eval_x lv cv := by
    intro lv cv
    unfold knownFirst
    rw [h.rows, h.blowup]
  simp only [hknown]
  rw [h.columns, h.layout, h.rows, h.blowup]
  obtain ⟨lv, h3, hok⟩ := Merkle.bind_ok_inv hok
  obtain ⟨ch1, h4, hok⟩ := Merkle.bind_ok_inv hok
  obtain ⟨cvv, h5, hok⟩ := Merkle.bind_ok_inv hok
  obtain ⟨ch2, h6, hok⟩ := Merkle.bind_ok_inv hok
  rw [h3]
  simp only [Except.bind]
  rw [h4]
  simp only []
  rw [h5]
  simp only []
  rw [h6]
  simp only []
  split at hok
  · cases hok
  next hempty =>
  rw [if_neg hempty]
  obtain ⟨r, h7, hok⟩ := Merkle.bind_ok_inv hok
  rw [h7]
  simp only []
  split at hok
  · cases hok
  next hend =>
  rw [if_neg hend]
  obtain ⟨u, h8, hok⟩ := Merkle.bind_ok_inv hok
  rw [h8]
  simp only []
  cases hv : oods_value_from_trace_values c' t.constraint_coefficients t.trace_map t.oods_point with
  | none => simp [orPanic]
  | some v => simp [orPanic]

end Alike

end
end Stark
end OpenZKP
