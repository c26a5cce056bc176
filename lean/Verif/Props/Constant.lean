import Verif.Examples.Constant
import Verif.Props.Mimc

/-!
# The example systems: C90 (a constant, as a number and as a claim polynomial)
-/

namespace OpenZKP
namespace Props
namespace Constant
open Stark FFT Polynomial Examples Stark.Accept

section
variable {F : Type} [Field F] [DecidableEq F]

/-! ## Lemmas -/

/-- both systems: the first cell minus an expression for the constant, over `X - 1` -/
def quotient (e : Expr F) : Expr F × Expr F := (Expr.sub (.Trace 0 0) e, Expr.sub .X (.Constant 1))

theorem quotient_zeros (g : F) (hord : orderOf g = 2 ^ 1) (e : Expr F) : SimpleZeros g (2 ^ 1) (quotient e).2 := by
  refine ⟨⟨{0}, by simp, by simp [quotient, Expr.degree, Expr.degree_impl, Expr.sub, Expr.add, Expr.neg], ?_⟩, ?_⟩
  · intro r hr tr
    rw [Finset.mem_singleton.1 hr]
    simp [quotient, value_sub, value_X, value_const]
  · intro x hx tr h
    simp only [quotient, value_sub, value_X, value_const] at h
    rw [sub_eq_zero.1 h, one_pow] at hx
    exact hx rfl

theorem system_is (root : Nat → Option F) (hroot : RootFn root) (seed : Bytes) (e : Expr F) (he : DivFree e) (hc : ∀ a, ¬ Occurs a e)
    (hd : Expr.degree_impl 0 1 e = (0, 0)) (c : Constraints F)
    (h : system root 2 1 seed [Expr.div (Expr.sub (.Trace 0 0) e) (Expr.sub .X (.Constant 1))] = some c) (g : F) (hg : root 2 = some g) :
    SystemIs root c 1 1 g [quotient e] 1 := by
  have hord := root_order root hroot 1 (by norm_num) g (by simpa using hg)
  obtain ⟨-, hcs⟩ := system_some _ _ _ _ _ _ h
  refine ⟨by norm_num, hord, by simpa using hg, ⟨_, _, h, ?_⟩, by norm_num, ?_, ?_, ?_, by norm_num⟩
  · intro e' he' i j hij
    rw [List.mem_singleton] at he'
    subst he'
    have h0 := hc (i, j)
    simp [Occurs, Expr.sub, Expr.add, Expr.neg, Expr.mul, Expr.div, Expr.inv, h0] at hij
    omega
  · rw [hcs]
    exact .cons ⟨Or.inl rfl, ⟨trivial, he⟩, ⟨trivial, trivial⟩⟩ .nil
  · intro q hq
    rw [List.mem_singleton] at hq
    subst hq
    exact ⟨quotient_zeros g hord e, by simp [quotient, NoZeroExp, Expr.sub, Expr.add]⟩
  · rw [hcs]
    simp [Constraints.degree, Expr.trace_degree, Expr.degree_impl, Expr.sub, Expr.add, Expr.neg, Expr.mul, Expr.div, Expr.inv, csub, Constraints.maxOf, hd]

theorem hold_iff (g : F) (hord : orderOf g = 2 ^ 1) (e : Expr F) (v : F) (hv : ∀ x tr, value x tr e = v) (t : Nat → Nat → F) :
    Hold g (2 ^ 1) t [quotient e] ↔ t 0 0 = v := by
  unfold Hold quotient
  simp only [List.forall_mem_cons, List.not_mem_nil, false_imp_iff, implies_true, and_true, value_sub, value_X, value_const, hv, value]
  constructor
  · intro h
    have := h 0 (by norm_num) (by simp)
    simpa [sub_eq_zero] using this
  · intro h r hr h0
    have : g ^ r = g ^ 0 := by rw [pow_zero]; exact sub_eq_zero.1 h0
    rw [pow_eq_iff g _ (by norm_num) hord] at this
    have hr0 : r = 0 := by omega
    subst hr0
    simpa [sub_eq_zero] using h

theorem concrete_eq (root : Nat → Option F) (rep : F → U256) (v : F) (c : Constraints F) (h : Examples.Constant.concrete_system root rep v = some c) :
    system root 2 1 (elementBytes rep v) [Expr.div (Expr.sub (.Trace 0 0) (.Polynomial [v] .X)) (Expr.sub .X (.Constant 1))] = some c := by
  unfold Examples.Constant.concrete_system at h
  obtain ⟨p, hp, h⟩ := Option.bind_eq_some_iff.1 h
  have hp' : p = [v] := by
    unfold Poly.new at hp
    split at hp <;> simp_all
  subst hp'
  obtain ⟨c', hc', h⟩ := Option.bind_eq_some_iff.1 h
  unfold Examples.Constant.claimConstraints at hc'
  obtain ⟨-, hcs⟩ := system_some _ _ _ _ _ _ hc'
  obtain ⟨es, hes, h⟩ := Option.bind_eq_some_iff.1 h
  rw [hcs] at hes
  have hd : Poly.degree [v] = 0 := rfl
  simp [Expr.substitute_claim, Expr.map, Expr.substituteNode, Expr.div, Expr.sub, Expr.add, Expr.neg, Expr.mul, Expr.inv, hd] at hes
  rw [← hes] at h
  exact h

theorem poly_value (v : F) (x : F) (tr : Nat → Int → F) : value x tr (.Polynomial [v] .X) = v := by
  simp [value, Poly.evaluate]

/-- what both systems say, and when they can be proved -/
theorem both (env : Env F) (hroot : RootFn env.root) (rep : F → U256) (v : F) (c : Constraints F)
    (hc : Examples.Constant.constraints env.root rep v = some c ∨ Examples.Constant.concrete_system env.root rep v = some c) :
    ∃ g q, env.root 2 = some g ∧ SystemIs env.root c 1 1 g [q] 1 ∧ ∀ t, Hold g (2 ^ 1) t [q] ↔ t 0 0 = v := by
  rcases hc with h | h
  · obtain ⟨⟨g, hg⟩, -⟩ := system_some _ _ _ _ _ _ h
    have hs := system_is env.root hroot _ (.Constant v) trivial (fun a h => h) rfl c h g hg
    exact ⟨g, _, hg, hs, hold_iff g hs.order _ v fun _ _ => rfl⟩
  · have h := concrete_eq _ _ _ _ h
    obtain ⟨⟨g, hg⟩, -⟩ := system_some _ _ _ _ _ _ h
    have hs := system_is env.root hroot _ (.Polynomial [v] .X) trivial (fun a h => h) rfl c h g hg
    exact ⟨g, _, hg, hs, hold_iff g hs.order _ v (poly_value v)⟩

theorem trace_spec (w : F) : ∃ t, Examples.Constant.trace w = some t ∧ t.trace_length = 2 ^ 1 ∧ t.num_columns = 1 ∧ TableOk t ∧
    t.get 0 0 = some w ∧ t.get 1 0 = some (w + 100) := by
  obtain ⟨t, h1, h2, h3, h4, h5⟩ := tableOf_spec 2 1 [(0, 0, w), (1, 0, w + 100)] (fun i _ => if i = 0 then w else w + 100) (by
    intro i j v h
    simp only [List.mem_cons, List.not_mem_nil, or_false, Prod.mk.injEq] at h
    rcases h with ⟨rfl, rfl, rfl⟩ | ⟨rfl, rfl, rfl⟩ <;> simp) (by
    intro i hi j hj
    obtain rfl : j = 0 := by omega
    rcases (by omega : i = 0 ∨ i = 1) with rfl | rfl <;> simp)
  exact ⟨t, h1, h2, h3, h4, h5 0 (by norm_num) 0 (by norm_num), h5 1 (by norm_num) 0 (by norm_num)⟩

/-! ## C90 -/

/-- C90: the system with the constant and the system with the claim polynomial in its place say the same of a table of two rows: that its first
cell is the constant. -/
theorem C90_system (env : Env F) (hroot : RootFn env.root) (rep : F → U256) (v : F) (c : Constraints F)
    (hc : Examples.Constant.constraints env.root rep v = some c ∨ Examples.Constant.concrete_system env.root rep v = some c)
    (g : F) (hg : env.root 2 = some g) (t : Nat → Nat → F) : RowsSatisfy c g 2 t ↔ t 0 0 = v := by
  obtain ⟨g', q, hg', hs, hh⟩ := both env hroot rep v c hc
  have : g' = g := Option.some.inj (hg'.symm.trans hg)
  subst this
  exact (hs.rows t).trans (hh t)

/-- C90: an accepted proof for either system shows that the first cell of the table committed to is the constant. -/
theorem C90_accepted (env : Env F) (hroot : RootFn env.root) (hcompat : RootCompat env.root) (hsearch : SearchOk env.search) (hgen : env.generator ≠ 0)
    (rep : F → U256) (v : F) (c : Constraints F)
    (hc : Examples.Constant.constraints env.root rep v = some c ∨ Examples.Constant.concrete_system env.root rep v = some c) (p : Bytes)
    (hp : Stark.verify env c p = .ok ()) : Shows env c 1 1 p fun t => t 0 0 = v := by
  obtain ⟨g, q, hg, hs, hh⟩ := both env hroot rep v c hc
  exact system_shows env hroot hcompat hsearch hgen c 1 1 g _ 1 hs (by norm_num) p hp _ fun t ht => (hh t).1 ((hs.rows t).1 ht)

/-- C90: the trace of a witness passes the check of either system exactly when the witness is the constant, and then it can be proved. -/
theorem C90_prove (env : Env F) (hroot : RootFn env.root) (hcompat : RootCompat env.root) (hgen : env.generator ≠ 0)
    (hsearch : ∀ l n z, env.search l n = some z → l[z]? = some n) (o : Oracles F) (rep : F → U256) (v w : F) (c : Constraints F)
    (hc : Examples.Constant.constraints env.root rep v = some c ∨ Examples.Constant.concrete_system env.root rep v = some c) :
    ∃ t g, Examples.Constant.trace w = some t ∧ env.root 2 = some g ∧ (TraceTable.check_constraints env.root c t = some (.ok ()) ↔ w = v) ∧
      (w = v → Provable env o c 1 g t) := by
  obtain ⟨g, q, hg, hs, hh⟩ := both env hroot rep v c hc
  obtain ⟨t, h1, h2, h3, h4, h5, h6⟩ := trace_spec w
  refine ⟨t, g, h1, hg, ?_, fun e => ?_⟩
  · rw [hs.check t h4 h2 h3, hh, h5]; rfl
  · refine system_provable env hroot hcompat hgen hsearch o c 1 1 g _ 1 hs (by norm_num) (by norm_num) t h4 h2 h3 ?_
    rw [hh, h5]; exact e

end

/-! ## A run over the field of 65537 elements -/

namespace ConstantRun
open OpenZKP.Props.Small (Z)
open Run

def c0 : Option (Constraints Z) := Examples.Constant.concrete_system (fun n => if n = 2 then some 65536 else root n) rep 1325
def c : Constraints Z := c0.getD ⟨[], 0, 0, [], 0, 0, 0, [], []⟩

theorem root2 : root 2 = some 65536 := by
  unfold root
  rw [if_pos (by norm_num), show 65536 / 2 = 256 * 128 by norm_num, pow_mul, show (3 : Z) ^ 256 = 282 by decide +kernel]
  decide +kernel

theorem some_c : c0 = some c := by
  unfold c
  cases h : c0 with
  | some c0 => rfl
  | none =>
    have : c0.isSome = true := by decide +kernel
    rw [h] at this
    cases this

theorem system_eq : Examples.Constant.concrete_system root rep 1325 = some c := by
  rw [← some_c]
  unfold c0
  congr 1
  funext n
  split
  · next h => rw [h]; exact root2
  · rfl

def E : Expr Z := (c.combine (List.replicate (2 * c.expressions.length) 28784)).getD .X

theorem computed : Computed c 1 1 E where
  combine := by
    unfold E
    cases h : c.combine (List.replicate (2 * c.expressions.length) 28784) with
    | some c0 => rfl
    | none =>
      have : (c.combine (List.replicate (2 * c.expressions.length) 28784)).isSome = true := by decide +kernel
      rw [h] at this
      cases this
  claims := by decide +kernel
  mark := by decide +kernel
  marks := by decide +kernel
  degree_pos := by norm_num
  degrees := by decide +kernel
  constraints := by decide +kernel
  arguments := by decide +kernel
  points := by decide +kernel

/-- The claim with the claim polynomial 1325 has a proof. -/
theorem proved : ∃ p, Stark.verify env c p = .ok () := by
  obtain ⟨g, q, hg, hs, hh⟩ := both env root_ok rep 1325 c (Or.inr system_eq)
  obtain ⟨t, h1, h2, h3, h4, h5, -⟩ := trace_spec (1325 : Z)
  refine Run.proved hs computed (by norm_num) (by norm_num) t h4 h2 h3 ?_
  rw [hh, h5]; rfl

end ConstantRun

-- the hypotheses of the theorems are met, and there are accepted proofs
example : ∃ p, Stark.verify Run.env ConstantRun.c p = .ok () ∧ Shows Run.env ConstantRun.c 1 1 p fun t => t 0 0 = 1325 := by
  obtain ⟨p, hp⟩ := ConstantRun.proved
  exact ⟨p, hp, C90_accepted Run.env Run.root_ok Run.root_compat Run.search_ok Run.gen_ne Run.rep 1325 ConstantRun.c (Or.inr ConstantRun.system_eq) p hp⟩

-- the witness 1325 passes the check, 1326 does not
example : ∃ t t', Examples.Constant.trace (1325 : Small.Z) = some t ∧ Examples.Constant.trace (1326 : Small.Z) = some t' ∧
    TraceTable.check_constraints Run.root ConstantRun.c t = some (.ok ()) ∧ TraceTable.check_constraints Run.root ConstantRun.c t' ≠ some (.ok ()) := by
  have h := fun w => C90_prove Run.env Run.root_ok Run.root_compat Run.gen_ne Run.search_some Run.o Run.rep 1325 w ConstantRun.c (Or.inr ConstantRun.system_eq)
  obtain ⟨t, g, h1, -, h2, -⟩ := h 1325
  obtain ⟨t', g', h3, -, h4, -⟩ := h 1326
  exact ⟨t, t', h1, h3, h2.2 rfl, fun e => absurd (h4.1 e) (by decide +kernel)⟩

end Constant
end Props
end OpenZKP
