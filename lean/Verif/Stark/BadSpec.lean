import Verif.Stark.SoundSpec
import Verif.Props.Prover

/-!
# Specification: soundness

What can make the verifier accept although no trace satisfies the constraints: a hash collision (`Stark/SoundSpec.lean`), a challenge in a small set that was
determined before the challenge was drawn (`BadCoefficient`, `BadPoint`, `BadMix`, `BadFold`), or queries that miss a large set of positions that was
determined before the queries were drawn (`Passes`).

The sets are defined from the tables committed to and from the challenges drawn before.  `e` is a number of positions.
-/

namespace OpenZKP
namespace Stark
namespace Accept
open FFT U256 Props Merkle Polynomial

section
variable {F : Type} [Field F] [DecidableEq F]

/-- `P` has degree less than `D` and differs from the word `f` at no more than `e` of the `2^m` points `w^(rev m q)` -/
def Close (m : Nat) (w : F) (D e : Nat) (f : Nat → F) (P : F[X]) : Prop :=
  P.degree < D ∧ ((Finset.range (2 ^ m)).filter fun q => f q ≠ P.eval (w ^ rev m q)).card ≤ e

/-- Folding coefficients for which the fold of `L` is close to a polynomial of degree less than `D` for no good reason: `L` does not agree with a polynomial
on the cosets where the fold agrees. -/
def BadFold (n m : Nat) (w : F) (D e : Nat) (L : Nat → F) : Set F :=
  {a | ∃ P', Close (m - n) (w ^ 2 ^ n) D e (foldMany n w m a L) P' ∧
    ¬ ∃ P : F[X], P.degree < (D * 2 ^ n : Nat) ∧
      ∀ q < 2 ^ m, foldMany n w m a L (q / 2 ^ n) = P'.eval ((w ^ 2 ^ n) ^ rev (m - n) (q / 2 ^ n)) → L q = P.eval (w ^ rev m q)}

/-- some folding coefficient is bad -/
def SomeBadFold (D e : Nat) : List Nat → List (Nat → F) → List F → F → Nat → Prop
  | n :: ns, L :: Ls, a :: as, w, m => a ∈ BadFold n m w (D * 2 ^ ns.sum) (e * 2 ^ ns.sum) L ∨ SomeBadFold D e ns Ls as (w ^ 2 ^ n) (m - n)
  | _, _, _, _, _ => False

/-- Coefficients for which `u + a h` is close to a polynomial for no good reason. -/
def BadMix (m : Nat) (w : F) (D e : Nat) (u h : Nat → F) : Set F :=
  {a | ∃ P', Close m w D e (fun q => u q + a * h q) P' ∧
    ¬ ∃ P Q : F[X], P.degree < D ∧ Q.degree < D ∧ ∀ q < 2 ^ m, u q + a * h q = P'.eval (w ^ rev m q) → u q = P.eval (w ^ rev m q) ∧ h q = Q.eval (w ^ rev m q)}

/-- the quotients `(column - claimed value) / (x - point)` that are combined: first those of the trace, then those of the constraint polynomial; `v` are
the claimed values of the trace at the points `g^offset z` and `u` those of the constraint polynomial's parts at `z^width` -/
def quotient (g : F) (args : List (Nat × Int)) (v u : List F) (z : F) (R C : Nat → List F) (y : Nat → F) (i q : Nat) : F :=
  if i < args.length then ((R q).getD (args.getD i (0, 0)).1 0 - v.getD i 0) / (y q - g ^ (args.getD i (0, 0)).2 * z)
  else ((C q).getD (i - args.length) 0 - u.getD (i - args.length) 0) / (y q - z ^ u.length)

/-- some coefficient of the combination of the quotients is bad, given those before it -/
def SomeBadMix (m : Nat) (w : F) (D e : Nat) (h : Nat → Nat → F) (coefficients : List F) : Prop :=
  ∃ i < coefficients.length, coefficients.getD i 0 ∈ BadMix m w D e (fun q => ∑ t ∈ Finset.range i, coefficients.getD t 0 * h t q) (h i)

/-- The position `q` passes the checks: the points are not among those divided by, and the layers are consistent, from the combination of the quotients `h`. -/
def Passes (g : F) (args : List (Nat × Int)) (width : Nat) (z : F) (y : Nat → F) (h : Nat → Nat → F) (coefficients : List F) (last : List F) (layout : List Nat)
    (Ls : List (Nat → F)) (folds : List F) (w : F) (m q : Nat) : Prop :=
  (∀ a ∈ args, y q ≠ g ^ a.2 * z) ∧ y q ≠ z ^ width ∧
  Chain last layout Ls folds w m (∑ i ∈ Finset.range coefficients.length, coefficients.getD i 0 * h i q) q

/-- the columns of `R` that occur in the constraints are close to the polynomials `T` of degree at most `n` -/
def Fits (columns : Nat → Prop) (n e size : Nat) (y : Nat → F) (R : Nat → List F) (T : Nat → F[X]) : Prop :=
  ∀ i, (¬ columns i → T i = 0) ∧
    (columns i → (T i).natDegree ≤ n ∧ ((Finset.range size).filter fun q => (R q).getD i 0 ≠ (T i).eval (y q)).card ≤ e)

/-- the columns that occur in the constraints -/
def Used (c : Constraints F) (i : Nat) : Prop := ∃ e ∈ c.expressions, ∃ j, Occurs (i, j) e

/-- the rational function of a constraint for the trace polynomials `T` -/
noncomputable def constraintFunction (c : Constraints F) (g : F) (T : Nat → F[X]) (e : Expr F) : RatFunc F :=
  denote (fun i j => (T i).comp (C (g ^ j) * X)) (fun i => toPoly (c.claim_polynomials.getD i [])) e

/-- a rational function without poles -/
def IsPoly (r : RatFunc F) : Prop := ∃ P : F[X], r = algebraMap F[X] (RatFunc F) P

/-- what coefficient `t` of the combination of the constraints is multiplied with -/
noncomputable def term (c : Constraints F) (g : F) (T : Nat → F[X]) (target t : Nat) : RatFunc F :=
  RatFunc.X ^ (if t % 2 = 0 then 0 else adjustment c.trace_nrows target (c.expressions.getD (t / 2) .X)) *
    constraintFunction c g T (c.expressions.getD (t / 2) .X)

/-- the combination of the constraints -/
noncomputable def combination (c : Constraints F) (g : F) (T : Nat → F[X]) (target n : Nat) (coefficients : List F) : RatFunc F :=
  ∑ t ∈ Finset.range n, RatFunc.C (coefficients.getD t 0) * term c g T target t

/-- Coefficients for which poles cancel, for trace polynomials that fit the table `R`, given the coefficients before. -/
def BadCoefficient (c : Constraints F) (g : F) (target e size : Nat) (y : Nat → F) (R : Nat → List F) (before : List F) : Set F :=
  {a | ∃ T, Fits (Used c) c.trace_nrows e size y R T ∧
    IsPoly (combination c g T target before.length before + RatFunc.C a * term c g T target before.length) ∧
    ¬ (IsPoly (combination c g T target before.length before) ∧ IsPoly (term c g T target before.length))}

/-- a bound on the degrees of a numerator and a denominator of an expression, for trace polynomials of degree `n` -/
noncomputable def fractionSize (n : Nat) : Expr F → Nat
  | .X => 1
  | .Constant _ => 0
  | .Trace _ _ => n
  | .Polynomial p a => (toPoly p).natDegree * fractionSize n a
  | .ClaimPolynomial _ d a _ => d * fractionSize n a
  | .Add a b | .Mul a b => fractionSize n a + fractionSize n b
  | .Neg a | .Inv a => fractionSize n a
  | .Exp a k => k * fractionSize n a

/-- the polynomial with the parts `H` -/
noncomputable def joined (width : Nat) (H : Nat → F[X]) : F[X] := ∑ j ∈ Finset.range width, (H j).comp (X ^ width) * X ^ j

/-- Points at which the combination of the constraints has the value of the polynomial with the parts `H` without being that polynomial, for polynomials that
fit the tables `R` and `C`. -/
def BadPoint (c : Constraints F) (g : F) (target width e size : Nat) (y : Nat → F) (R C : Nat → List F) (coefficients : List F) : Set F :=
  {z | ∃ T H vs, Fits (Used c) c.trace_nrows e size y R T ∧ Fits (· < width) c.trace_nrows e size y C H ∧
    List.Forall₂ (fun e v => constraintValue c g T z e = some v) c.expressions vs ∧
    ∑ i ∈ Finset.range c.expressions.length, (coefficients.getD (2 * i) 0 + coefficients.getD (2 * i + 1) 0 *
      z ^ adjustment c.trace_nrows target (c.expressions.getD i .X)) * vs.getD i 0 = (joined width H).eval z ∧
    combination c g T target (2 * c.expressions.length) coefficients ≠ algebraMap F[X] (RatFunc F) (joined width H)}

/-- the points of the coset on which the tables are -/
def cosetPoint (env : Env F) (w : F) (m q : Nat) : F := env.generator * w ^ rev m q

/-- the quotients of a proof with the parts `P` -/
def proofQuotient (env : Env F) (m : Nat) (w g : F) (args : List (Nat × Int)) (P : Contents) (x : Challenges F) (R C : Nat → List F) : Nat → Nat → F :=
  quotient g args (P.trace_values.map env.codec.val) (P.constraint_values.map env.codec.val) x.point R C (cosetPoint env w m)

/-- position `q` passes the checks of a proof with the parts `P` -/
def PassesProof (env : Env F) (c : Constraints F) (m : Nat) (w g : F) (args : List (Nat × Int)) (P : Contents) (x : Challenges F) (R C : Nat → List F)
    (Ls : List (Nat → F)) (q : Nat) : Prop :=
  Passes g args P.constraint_values.length x.point (cosetPoint env w m) (proofQuotient env m w g args P x R C) x.oods (P.last_layer.map env.codec.val) c.fri_layout Ls
    x.folds w m q

open Classical in
/-- all queries pass the checks although more than `E` positions do not -/
def LuckyQueries (env : Env F) (c : Constraints F) (m : Nat) (w g : F) (args : List (Nat × Int)) (P : Contents) (x : Challenges F) (R C : Nat → List F)
    (Ls : List (Nat → F)) (E : Nat) : Prop :=
  (∀ q ∈ x.queries, q < 2 ^ m ∧ PassesProof env c m w g args P x R C Ls q) ∧
  E < ((Finset.range (2 ^ m)).filter fun q => ¬ PassesProof env c m w g args P x R C Ls q).card

/-- The challenges of a proof are bad: the queries, a folding coefficient, a coefficient of the combination of the quotients, a coefficient of the combination of the
constraints, or the out-of-domain point. -/
def Lucky (env : Env F) (c : Constraints F) (k b d : Nat) (w g : F) (args : List (Nat × Int)) (P : Contents) (x : Challenges F) (R C : Nat → List F)
    (Ls : List (Nat → F)) (e : Nat) : Prop :=
  LuckyQueries env c (k + b) w g args P x R C Ls (e * 2 ^ c.fri_layout.sum) ∨
  SomeBadFold P.last_layer.length e c.fri_layout Ls x.folds w (k + b) ∨
  SomeBadMix (k + b) w (2 ^ k) (e * 2 ^ c.fri_layout.sum) (proofQuotient env (k + b) w g args P x R C) x.oods ∨
  (∃ t < x.coefficients.length, x.coefficients.getD t 0 ∈
    BadCoefficient c g (d * 2 ^ k - 1) (e * 2 ^ c.fri_layout.sum) (2 ^ (k + b)) (cosetPoint env w (k + b)) R (x.coefficients.take t)) ∨
  x.point ∈ BadPoint c g (d * 2 ^ k - 1) P.constraint_values.length (e * 2 ^ c.fri_layout.sum) (2 ^ (k + b)) (cosetPoint env w (k + b)) R C x.coefficients

/-- the tables behind the roots of a proof -/
structure Tables (env : Env F) (c : Constraints F) (m : Nat) (P : Contents) (R C : Nat → List F) (Ls : List (Nat → F)) : Prop where
  trace_width : ∀ i, (R i).length = c.trace_ncolumns
  constraint_width : ∀ i, (C i).length = P.constraint_values.length
  trace : Commits env m P.trace_root R
  constraint : Commits env m P.constraint_root C
  layers : LayersCommit env c.fri_layout P.fri Ls m

/-- a hash collision between an opening in the proof and the tables -/
def SomeCollision (env : Env F) (c : Constraints F) (m : Nat) (P : Contents) (x : Challenges F) (R C : Nat → List F) (Ls : List (Nat → F)) : Prop :=
  Collision env m P.trace_root P.trace_hashes x.queries (P.trace_rows.map (·.map env.codec.val)) R ∨
  Collision env m P.constraint_root P.constraint_hashes x.queries (P.constraint_rows.map (·.map env.codec.val)) C ∨
  LayersCollide env c.fri_layout P.fri Ls m

/-- the value of an expression in row `r` of the table `t` of `n` rows at the powers of `g`; rows continue cyclically -/
noncomputable def rowValue (c : Constraints F) (g : F) (n : Nat) (t : Nat → Nat → F) (r : Nat) (e : Expr F) : Option F :=
  claimValue (fun i => (c.claim_polynomials[i]?).map toPoly) (g ^ r) (fun i o => some (t (((r : Int) + o) % n).toNat i)) e

/-- numerator and denominator of an expression -/
def fraction : Expr F → Expr F × Expr F
  | .Add a b => (.Add (.Mul (fraction a).1 (fraction b).2) (.Mul (fraction b).1 (fraction a).2), .Mul (fraction a).2 (fraction b).2)
  | .Neg a => (.Neg (fraction a).1, (fraction a).2)
  | .Mul a b => (.Mul (fraction a).1 (fraction b).1, .Mul (fraction a).2 (fraction b).2)
  | .Inv a => ((fraction a).2, (fraction a).1)
  | .Exp a n => (.Exp (fraction a).1 n, .Exp (fraction a).2 n)
  | e => (e, .Constant 1)

/-- The table `t` of `n` rows satisfies the constraints: in every row in which the denominator of a constraint vanishes, so does its numerator.  (For a
constraint that is to hold in certain rows, the denominator is a polynomial that vanishes there.) -/
def RowsSatisfy (c : Constraints F) (g : F) (n : Nat) (t : Nat → Nat → F) : Prop :=
  ∀ e ∈ c.expressions, DivisionFree (fraction e).1 → DivisionFree (fraction e).2 →
    ∀ r < n, rowValue c g n t r (fraction e).2 = some 0 → rowValue c g n t r (fraction e).1 = some 0

end
end Accept
end Stark
end OpenZKP
