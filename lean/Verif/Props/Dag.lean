import Verif.Stark.DagEval
import Verif.Props.Expr
import Verif.Props.Trace
import Verif.Props.Fri
import Verif.Merkle.IndexLemmas

/-!
# C49: the evaluation graph computes the expression on every row of the coset
-/

namespace OpenZKP
namespace Props
open Stark Stark.Dag Stark.Dag.AlgebraicGraph

variable {F : Type} [Field F] [DecidableEq F]

/-- an expression and everything inside it -/
def subexpressions : Expr F → List (Expr F)
  | .Polynomial p a => .Polynomial p a :: subexpressions a
  | .Add a b => .Add a b :: (subexpressions a ++ subexpressions b)
  | .Neg a => .Neg a :: subexpressions a
  | .Mul a b => .Mul a b :: (subexpressions a ++ subexpressions b)
  | .Inv a => .Inv a :: subexpressions a
  | .Exp a e => .Exp a e :: subexpressions a
  | e => [e]

/-- the value of an expression at row `r` of the coset `cofactor · ⟨w⟩`: a trace reference with offset `o` reads `blowup · o` rows further on,
around the end of the table -/
def rowValue (w cofactor : F) (blowup : Nat) (t : TraceTable F) (e : Expr F) (r : Nat) : Option F :=
  e.evaluate (cofactor * w ^ r) fun c o => t.get ((r + blowup * o) % t.trace_length : Int).toNat c

/-- the value by which the graph identifies an expression: its value at the random point `seed` with random trace cells -/
def mark (seed : F) (traceHash : F → Nat → Int → F) (e : Expr F) : Option F :=
  e.evaluate seed fun c o => some (traceHash seed c o)

/-- any two expressions among those given that are identified by the same value have equal values on every row -/
def MergesEqual (seed : F) (traceHash : F → Nat → Int → F) (w cofactor : F) (blowup : Nat) (t : TraceTable F) (l : List (Expr F)) : Prop :=
  ∀ a ∈ l, ∀ b ∈ l, mark seed traceHash a = mark seed traceHash b → ∀ r < t.trace_length, rowValue w cofactor blowup t a r = rowValue w cofactor blowup t b r

theorem evaluate_congr (x : F) (tr tr' : Nat → Int → Option F) (e : Expr F) (h : ∀ c o, Occurs (c, o) e → tr c o = tr' c o) :
    e.evaluate x tr = e.evaluate x tr' := by
  induction e with
  | X => rfl
  | Constant c => rfl
  | Trace i j => exact h i j rfl
  | ClaimPolynomial i n a name ih => rfl
  | Polynomial p a ih => simp only [Expr.evaluate]; rw [ih h]
  | Neg a ih => simp only [Expr.evaluate]; rw [ih h]
  | Inv a ih => simp only [Expr.evaluate]; rw [ih h]
  | Exp a k ih => simp only [Expr.evaluate]; rw [ih h]
  | Add a b iha ihb => simp only [Expr.evaluate]; rw [iha fun c o hc => h c o (.inl hc), ihb fun c o hc => h c o (.inr hc)]
  | Mul a b iha ihb => simp only [Expr.evaluate]; rw [iha fun c o hc => h c o (.inl hc), ihb fun c o hc => h c o (.inr hc)]

omit [Field F] [DecidableEq F] in
theorem self_mem_subexpressions (e : Expr F) : e ∈ subexpressions e := by cases e <;> simp [subexpressions]

omit [Field F] [DecidableEq F] in
theorem occurs_sub (e : Expr F) (a : Expr F) (ha : a ∈ subexpressions e) (p : Nat × Int) (hp : Occurs p a) : Occurs p e := by
  induction e with
  | X => simp [subexpressions] at ha; subst ha; exact hp
  | Constant c => simp [subexpressions] at ha; subst ha; exact hp
  | Trace i j => simp [subexpressions] at ha; subst ha; exact hp
  | ClaimPolynomial i n a name ih => simp [subexpressions] at ha; subst ha; exact hp
  | Polynomial q b ih =>
    rcases List.mem_cons.1 ha with rfl | h
    · exact hp
    · exact ih h
  | Neg b ih =>
    rcases List.mem_cons.1 ha with rfl | h
    · exact hp
    · exact ih h
  | Inv b ih =>
    rcases List.mem_cons.1 ha with rfl | h
    · exact hp
    · exact ih h
  | Exp b k ih =>
    rcases List.mem_cons.1 ha with rfl | h
    · exact hp
    · exact ih h
  | Add b c ihb ihc =>
    rcases List.mem_cons.1 ha with rfl | h
    · exact hp
    · rcases List.mem_append.1 h with h | h
      · exact .inl (ihb h)
      · exact .inr (ihc h)
  | Mul b c ihb ihc =>
    rcases List.mem_cons.1 ha with rfl | h
    · exact hp
    · rcases List.mem_append.1 h with h | h
      · exact .inl (ihb h)
      · exact .inr (ihc h)

theorem prefix_get {α : Type} {l l' : List α} (h : l <+: l') {i : Nat} {x : α} (hx : l[i]? = some x) : l'[i]? = some x := by
  obtain ⟨s, rfl⟩ := h
  rw [List.getElem?_append_left (get_lt hx)]; exact hx

section build
variable {root : Nat → Option F} {cell : Nat → Nat → Int → Option F} {size : Nat}

/-- a graph and its columns, with the parameters it was made with -/
structure Graph (root : Nat → Option F) (cell : Nat → Nat → Int → Option F) (size : Nat) (P : F → (Nat → F) → Prop) (cofactor seed : F) (blowup : Nat)
    (g : AlgebraicGraph F) (V : List (Nat → F)) : Prop where
  sem : Sem root cell size g.nodes V
  known : Known P g.nodes V
  seed : g.seed = seed
  cofactor : g.cofactor = cofactor
  coset_size : g.coset_size = size
  trace_blowup : g.trace_blowup = blowup

/-- what adding an expression guarantees -/
def Extends (root : Nat → Option F) (cell : Nat → Nat → Int → Option F) (size : Nat) (P : F → (Nat → F) → Prop) (cofactor seed : F) (blowup : Nat)
    (V : List (Nat → F)) (g : AlgebraicGraph F) (g' : AlgebraicGraph F) (V' : List (Nat → F)) (i : Nat) (h : F) (v : Nat → F) : Prop :=
  Graph root cell size P cofactor seed blowup g' V' ∧ g.nodes <+: g'.nodes ∧ V <+: V' ∧ V'[i]? = some v ∧ g'.hashAt i = some h

theorem hashAt_prefix {g g' : AlgebraicGraph F} (h : g.nodes <+: g'.nodes) {i : Nat} {x : F} (hx : g.hashAt i = some x) : g'.hashAt i = some x := by
  unfold AlgebraicGraph.hashAt at hx ⊢
  obtain ⟨nd, h1, h2⟩ := Option.map_eq_some_iff.1 hx
  rw [prefix_get h h1, Option.map_some, h2]

theorem expression_spec (hroot : RootFn root) (hcompat : RootCompat root) (hcell : CellRep cell size) (k : Nat) (hk : k < 64) (hpow : size = 2 ^ k) (w : F)
    (hw : root size = some w) (cofactor seed : F) (hcof : cofactor ≠ 0) (blowup : Nat) (traceHash : F → Nat → Int → F) (S : Expr F → Prop)
    (hS : ∀ a b, S a → S b → ∀ h, mark seed traceHash a = some h → mark seed traceHash b = some h →
      ∀ r, a.evaluate (cofactor * w ^ r) (cell r) = b.evaluate (cofactor * w ^ r) (cell r))
    (hS0 : S (.Constant 0)) (hS1 : S (.Constant 1)) (P : F → (Nat → F) → Prop)
    (hPdef : P = fun h v => ∃ a, S a ∧ mark seed traceHash a = some h ∧ ∀ r, a.evaluate (cofactor * w ^ r) (cell r) = some (v r))
    (e : Expr F) : ∀ (h : F) (v : Nat → F), (∀ a ∈ subexpressions e, S a) → mark seed traceHash e = some h →
      (∀ r, e.evaluate (cofactor * w ^ r) (cell r) = some (v r)) → ∀ g V, Graph root cell size P cofactor seed blowup g V →
      ∃ g' i V', g.expression traceHash e = some (g', i) ∧ Extends root cell size P cofactor seed blowup V g g' V' i h v := by
  have hP : ∀ h v v', P h v → P h v' → v = v' := by
    subst hPdef
    rintro h v v' ⟨a, a1, a2, a3⟩ ⟨b, b1, b2, b3⟩
    funext r
    have := hS a b a1 b1 h a2 b2 r
    rw [a3, b3] at this
    exact Option.some.inj this
  have hP0 : P 0 fun _ => 0 := by subst hPdef; exact ⟨_, hS0, rfl, fun _ => rfl⟩
  have hP1 : P 1 fun _ => 1 := by subst hPdef; exact ⟨_, hS1, rfl, fun _ => rfl⟩
  have hPv : ∀ e h v, (∀ a ∈ subexpressions e, S a) → mark seed traceHash e = some h →
      (∀ r, e.evaluate (cofactor * w ^ r) (cell r) = some (v r)) → P h v := by
    subst hPdef
    exact fun e h v hs hm hv => ⟨e, hs e (self_mem_subexpressions e), hm, hv⟩
  -- adding one operation
  have one : ∀ (g : AlgebraicGraph F) V, Graph root cell size P cofactor seed blowup g V → ∀ (o : Operation F) h v, OpSem root cell V o v → g.hash traceHash o = some h →
      P h v → (∀ a, o = .Exp a 0 → h = 1) → ∃ g' i V', g.op traceHash o = some (g', i) ∧ Extends root cell size P cofactor seed blowup V g g' V' i h v := by
    intro g V gr o h v ho hh hp he
    obtain ⟨g', i, V', h1, h2⟩ := op_spec hroot hcompat hcell ⟨k, hpow⟩ P hP hP0 hP1 traceHash g gr.sem gr.known gr.coset_size o v ho h hh hp he
    exact ⟨g', i, V', h1, ⟨h2.sem, h2.known, h2.seed.trans gr.seed, h2.cofactor.trans gr.cofactor, h2.coset_size.trans gr.coset_size,
      h2.trace_blowup.trans gr.trace_blowup⟩, h2.nodes, h2.cols, h2.col, h2.hash⟩
  have unary : ∀ (a : Expr F) (g : AlgebraicGraph F) V (o : Nat → Operation F) h v (ha : F) (va : Nat → F),
      (∃ g' i V', g.expression traceHash a = some (g', i) ∧ Extends root cell size P cofactor seed blowup V g g' V' i ha va) →
      (∀ g' V' i, Extends root cell size P cofactor seed blowup V g g' V' i ha va → OpSem root cell V' (o i) v ∧ g'.hash traceHash (o i) = some h) →
      P h v → (∀ i a, o i = .Exp a 0 → h = 1) →
      ∃ g' i V', ((g.expression traceHash a).bind fun (g, a) => g.op traceHash (o a)) = some (g', i) ∧ Extends root cell size P cofactor seed blowup V g g' V' i h v := by
    rintro a g V o h v ha va ⟨g1, i1, V1, e1, ex1⟩ hstep hp he
    obtain ⟨s1, s2⟩ := hstep g1 V1 i1 ex1
    obtain ⟨g2, i2, V2, e2, ex2⟩ := one g1 V1 ex1.1 (o i1) h v s1 s2 hp (he i1)
    refine ⟨g2, i2, V2, by rw [e1, Option.bind_some]; exact e2, ex2.1, ex1.2.1.trans ex2.2.1, ex1.2.2.1.trans ex2.2.2.1, ex2.2.2.2⟩
  have binary : ∀ (a b : Expr F) (g : AlgebraicGraph F) V (o : Nat → Nat → Operation F) h v (ha hb : F) (va vb : Nat → F),
      (∃ g' i V', g.expression traceHash a = some (g', i) ∧ Extends root cell size P cofactor seed blowup V g g' V' i ha va) →
      (∀ g' V', Graph root cell size P cofactor seed blowup g' V' → ∃ g'' i V'', g'.expression traceHash b = some (g'', i) ∧ Extends root cell size P cofactor seed blowup V' g' g'' V'' i hb vb) →
      (∀ (g' : AlgebraicGraph F) V' i j, V'[i]? = some va → V'[j]? = some vb → g'.hashAt i = some ha → g'.hashAt j = some hb → OpSem root cell V' (o i j) v ∧ g'.hash traceHash (o i j) = some h) →
      P h v → (∀ i j a, o i j ≠ .Exp a 0) →
      ∃ g' i V', ((g.expression traceHash a).bind fun (g, a) => (g.expression traceHash b).bind fun (g, b) => g.op traceHash (o a b)) = some (g', i) ∧
        Extends root cell size P cofactor seed blowup V g g' V' i h v := by
    rintro a b g V o h v ha hb va vb ⟨g1, i1, V1, e1, ex1⟩ hb' hstep hp he
    obtain ⟨g2, i2, V2, e2, ex2⟩ := hb' g1 V1 ex1.1
    obtain ⟨s1, s2⟩ := hstep g2 V2 i1 i2 (prefix_get ex2.2.2.1 ex1.2.2.2.1) ex2.2.2.2.1 (hashAt_prefix ex2.2.1 ex1.2.2.2.2) ex2.2.2.2.2
    obtain ⟨g3, i3, V3, e3, ex3⟩ := one g2 V2 ex2.1 (o i1 i2) h v s1 s2 hp (fun a e => absurd e (he i1 i2 a))
    refine ⟨g3, i3, V3, ?_, ex3.1, (ex1.2.1.trans ex2.2.1).trans ex3.2.1, (ex1.2.2.1.trans ex2.2.2.1).trans ex3.2.2.1, ex3.2.2.2⟩
    rw [e1, Option.bind_some]
    dsimp only
    rw [e2, Option.bind_some]
    exact e3
  -- the columns of an operand
  have split1 : ∀ (f : F → Option F) (a : Expr F) (v : Nat → F), (∀ r, (a.evaluate (cofactor * w ^ r) (cell r)).bind f = some (v r)) →
      ∃ va : Nat → F, (∀ r, a.evaluate (cofactor * w ^ r) (cell r) = some (va r)) ∧ ∀ r, f (va r) = some (v r) := by
    intro f a v hv
    have : ∀ r, ∃ x, a.evaluate (cofactor * w ^ r) (cell r) = some x ∧ f x = some (v r) := fun r => Option.bind_eq_some_iff.1 (hv r)
    choose va h1 h2 using this
    exact ⟨va, h1, h2⟩
  induction e with
  | X =>
    intro h v hs hm hv g V gr
    have hv' : ∀ r, v r = cofactor * w ^ r := fun r => (Option.some.inj (hv r)).symm
    have hp := hPv _ h v hs hm hv
    rw [expression]
    refine one g V gr _ h v ⟨k, w, by rw [gr.coset_size, hpow], hk, by rw [gr.coset_size]; exact hw, fun r => by rw [gr.cofactor, hv']⟩ ?_ hp (by simp)
    rw [AlgebraicGraph.hash, gr.coset_size, gr.cofactor, gr.seed]
    have hpos : 0 < size := by rw [hpow]; exact Nat.two_pow_pos k
    rw [if_pos ⟨hpos.ne', Nat.mod_self _⟩, Nat.div_self hpos]
    unfold finv
    rw [if_neg hcof, Option.map_some, pow_one]
    have : h = seed := (Option.some.inj hm).symm
    rw [this]
    field_simp
  | Constant c =>
    intro h v hs hm hv g V gr
    have hp := hPv _ h v hs hm hv
    rw [expression]
    exact one g V gr _ h v (fun r => (Option.some.inj (hv r)).symm) hm hp (by simp)
  | Trace c o =>
    intro h v hs hm hv g V gr
    have hp := hPv _ h v hs hm hv
    rw [expression]
    exact one g V gr _ h v hv (by rw [AlgebraicGraph.hash, gr.seed]; exact hm) hp (by simp)
  | ClaimPolynomial i n a name ih =>
    intro h v hs hm
    cases hm
  | Polynomial p a ih =>
    intro h v hs hm hv g V gr
    have hp := hPv _ h v hs hm hv
    obtain ⟨ha, hma, hh⟩ := Option.map_eq_some_iff.1 hm
    obtain ⟨va, hva, hvv⟩ := split1 (fun x => some (Poly.evaluate p x)) a v (fun r => by rw [← hv r, Expr.evaluate]; cases Expr.evaluate (cofactor * w ^ r) (cell r) a <;> rfl)
    rw [expression]
    refine unary a g V (fun a => .Poly p a) h v ha va (ih ha va (fun x hx => hs x (by simp [subexpressions, hx])) hma hva g V gr) ?_ hp (by simp)
    rintro g' V' i ⟨_, _, _, h1, h2⟩
    refine ⟨⟨va, h1, fun r => (Option.some.inj (hvv r)).symm⟩, ?_⟩
    rw [AlgebraicGraph.hash, h2, Option.map_some]; exact congrArg some hh
  | Neg a ih =>
    intro h v hs hm hv g V gr
    have hp := hPv _ h v hs hm hv
    obtain ⟨ha, hma, hh⟩ := Option.map_eq_some_iff.1 hm
    obtain ⟨va, hva, hvv⟩ := split1 (fun x => some (-x)) a v (fun r => by rw [← hv r, Expr.evaluate]; cases Expr.evaluate (cofactor * w ^ r) (cell r) a <;> rfl)
    rw [expression]
    refine unary a g V (fun a => .Neg a) h v ha va (ih ha va (fun x hx => hs x (by simp [subexpressions, hx])) hma hva g V gr) ?_ hp (by simp)
    rintro g' V' i ⟨_, _, _, h1, h2⟩
    refine ⟨⟨va, h1, fun r => (Option.some.inj (hvv r)).symm⟩, ?_⟩
    rw [AlgebraicGraph.hash, h2, Option.map_some]; exact congrArg some hh
  | Inv a ih =>
    intro h v hs hm hv g V gr
    have hp := hPv _ h v hs hm hv
    obtain ⟨ha, hma, hh⟩ := Option.bind_eq_some_iff.1 hm
    obtain ⟨va, hva, hvv⟩ := split1 finv a v (fun r => by rw [← hv r, Expr.evaluate])
    rw [expression]
    refine unary a g V (fun a => .Inv a) h v ha va (ih ha va (fun x hx => hs x (by simp [subexpressions, hx])) hma hva g V gr) ?_ hp (by simp)
    rintro g' V' i ⟨_, _, _, h1, h2⟩
    refine ⟨⟨va, h1, fun r => ?_⟩, ?_⟩
    · have := hvv r
      unfold finv at this
      split at this
      · cases this
      · rename_i hne; exact ⟨hne, (Option.some.inj this).symm⟩
    · rw [AlgebraicGraph.hash, h2, Option.bind_some]; exact hh
  | Exp a n ih =>
    intro h v hs hm hv g V gr
    have hp := hPv _ h v hs hm hv
    obtain ⟨ha, hma, hh⟩ := Option.map_eq_some_iff.1 hm
    obtain ⟨va, hva, hvv⟩ := split1 (fun x => some (x ^ n)) a v (fun r => by rw [← hv r, Expr.evaluate]; cases Expr.evaluate (cofactor * w ^ r) (cell r) a <;> rfl)
    rw [expression]
    refine unary a g V (fun a => .Exp a n) h v ha va (ih ha va (fun x hx => hs x (by simp [subexpressions, hx])) hma hva g V gr) ?_ hp ?_
    · rintro g' V' i ⟨_, _, _, h1, h2⟩
      refine ⟨⟨va, h1, fun r => (Option.some.inj (hvv r)).symm⟩, ?_⟩
      rw [AlgebraicGraph.hash, h2, Option.map_some]; exact congrArg some hh
    · intro i a' e
      injection e with _ e
      subst e
      rw [← hh, pow_zero]
  | Add a b iha ihb =>
    intro h v hs hm hv g V gr
    have hp := hPv _ h v hs hm hv
    obtain ⟨ha, hma, hm2⟩ := Option.bind_eq_some_iff.1 hm
    obtain ⟨hb, hmb, hh⟩ := Option.map_eq_some_iff.1 hm2
    have : ∀ r, ∃ x y, a.evaluate (cofactor * w ^ r) (cell r) = some x ∧ b.evaluate (cofactor * w ^ r) (cell r) = some y ∧ x + y = v r := by
      intro r
      obtain ⟨x, h1, h2⟩ := Option.bind_eq_some_iff.1 (hv r)
      obtain ⟨y, h3, h4⟩ := Option.map_eq_some_iff.1 h2
      exact ⟨x, y, h1, h3, h4⟩
    choose va vb hva hvb hvv using this
    rw [expression]
    refine binary a b g V .Add h v ha hb va vb (iha ha va (fun x hx => hs x (by simp [subexpressions, hx])) hma hva g V gr)
      (fun g' V' gr' => ihb hb vb (fun x hx => hs x (by simp [subexpressions, hx])) hmb hvb g' V' gr') ?_ hp (by simp)
    intro g' V' i j h1 h2 h3 h4
    refine ⟨⟨va, vb, h1, h2, fun r => (hvv r).symm⟩, ?_⟩
    rw [AlgebraicGraph.hash, h3, Option.bind_some, h4, Option.map_some]; exact congrArg some hh
  | Mul a b iha ihb =>
    intro h v hs hm hv g V gr
    have hp := hPv _ h v hs hm hv
    obtain ⟨ha, hma, hm2⟩ := Option.bind_eq_some_iff.1 hm
    obtain ⟨hb, hmb, hh⟩ := Option.map_eq_some_iff.1 hm2
    have : ∀ r, ∃ x y, a.evaluate (cofactor * w ^ r) (cell r) = some x ∧ b.evaluate (cofactor * w ^ r) (cell r) = some y ∧ x * y = v r := by
      intro r
      obtain ⟨x, h1, h2⟩ := Option.bind_eq_some_iff.1 (hv r)
      obtain ⟨y, h3, h4⟩ := Option.map_eq_some_iff.1 h2
      exact ⟨x, y, h1, h3, h4⟩
    choose va vb hva hvb hvv using this
    rw [expression]
    refine binary a b g V .Mul h v ha hb va vb (iha ha va (fun x hx => hs x (by simp [subexpressions, hx])) hma hva g V gr)
      (fun g' V' gr' => ihb hb vb (fun x hx => hs x (by simp [subexpressions, hx])) hmb hvb g' V' gr') ?_ hp (by simp)
    intro g' V' i j h1 h2 h3 h4
    refine ⟨⟨va, vb, h1, h2, fun r => (hvv r).symm⟩, ?_⟩
    rw [AlgebraicGraph.hash, h3, Option.bind_some, h4, Option.map_some]; exact congrArg some hh

end build

theorem chunks_flatten {α : Type} (f : Nat → α) (n c : Nat) (hc : 0 < c) :
    ((chunks n c).map fun (p : Nat × Nat) => (List.range p.2).map fun j => f (p.1 + j)).flatten = (List.range n).map f := by
  have key : ∀ m, ((List.range m).map fun i => (List.range (min c (n - i * c))).map fun j => f (i * c + j)).flatten = (List.range (min (m * c) n)).map f := by
    intro m
    induction m with
    | zero => simp
    | succ m ih =>
      rw [List.range_succ, List.map_append, List.flatten_append, ih, List.map_singleton, List.flatten_singleton]
      by_cases h : m * c ≤ n
      · rw [Nat.min_eq_left h, show min ((m + 1) * c) n = m * c + min c (n - m * c) by rw [Nat.add_mul, Nat.one_mul]; omega, List.range_add, List.map_append, List.map_map]
        rfl
      · rw [show min c (n - m * c) = 0 by omega, show min ((m + 1) * c) n = min (m * c) n by rw [Nat.add_mul, Nat.one_mul]; omega]
        simp
  unfold chunks
  rw [List.map_map]
  have := key ((n + c - 1) / c)
  rw [show min ((n + c - 1) / c * c) n = n by
    have := Nat.div_add_mod (n + c - 1) c
    have := Nat.mod_lt (n + c - 1) hc
    rw [Nat.mul_comm]
    generalize c * ((n + c - 1) / c) = q at *
    omega] at this
  rw [← this]
  rfl

theorem cellOf_eq (blowup : Nat) (t : TraceTable F) (hpos : 0 < t.trace_length) (r c : Nat) (o : Int) (ho : 0 ≤ (t.trace_length : Int) + blowup * o) :
    cellOf blowup t r c o = t.get ((r + blowup * o) % t.trace_length : Int).toNat c := by
  unfold cellOf traceRow
  have h0 : (0 : Int) ≤ t.trace_length + r + blowup * o := by
    have : (0 : Int) ≤ r := by positivity
    linarith
  have e : Int.tmod (t.trace_length + r + blowup * o) t.trace_length = (r + blowup * o) % t.trace_length := by
    rw [Int.tmod_eq_emod_of_nonneg h0, show (t.trace_length : Int) + r + blowup * o = (r + blowup * o) + t.trace_length by ring, Int.add_emod_right]
  rw [if_neg hpos.ne']
  dsimp only
  rw [e, if_pos (Int.emod_nonneg _ (by exact_mod_cast hpos.ne')), Option.bind_some]

theorem cellOf_rep (blowup : Nat) (t : TraceTable F) : CellRep (cellOf blowup t) t.trace_length := by
  intro r c o x y hx hy
  unfold cellOf traceRow at hx hy
  by_cases hpos : t.trace_length = 0
  · rw [if_pos hpos] at hx; cases hx
  · rw [if_neg hpos] at hx hy
    have tm : ∀ z : Int, 0 ≤ Int.tmod z t.trace_length → Int.tmod z t.trace_length = z % t.trace_length := by
      intro z hz
      rcases Int.le_total 0 z with h | h
      · exact Int.tmod_eq_emod_of_nonneg h
      · have hz' : Int.tmod z t.trace_length ≤ 0 := by
          have := Int.tmod_nonneg (t.trace_length : Int) (show 0 ≤ -z by omega)
          rw [Int.neg_tmod] at this
          omega
        have h0 : Int.tmod z t.trace_length = 0 := le_antisymm hz' hz
        rw [h0]
        have := Int.dvd_of_tmod_eq_zero h0
        exact (Int.emod_eq_zero_of_dvd this).symm
    dsimp only at hx hy
    split at hx
    · rename_i h1
      split at hy
      · rename_i h2
        rw [Option.bind_some, tm _ h1] at hx
        rw [Option.bind_some, tm _ h2] at hy
        rw [show (t.trace_length : Int) + ((r + t.trace_length : Nat) : Int) + blowup * o = (t.trace_length + r + blowup * o) + t.trace_length by push_cast; ring,
          Int.add_emod_right, hx] at hy
        exact (Option.some.inj hy).symm
      · cases hy
    · cases hx

/-- **C49.** The graph evaluator run on a table whose size is a power of two yields, for every row `r`, the value of the expression at
`cofactor · w^r` with trace references read `blowup · offset` rows further on, provided that expressions the graph identifies are equal on the
coset.  It never fails: offsets reaching back at most one table length and an expression defined on every row and at the random point are enough. -/
theorem C49_evaluate (root : Nat → Option F) (hroot : RootFn root) (hcompat : RootCompat root) (seedHash : F → Nat → F) (traceHash : F → Nat → Int → F)
    (cofactor : F) (hcof : cofactor ≠ 0) (blowup k : Nat) (hk : k < 64) (t : TraceTable F) (ht : t.trace_length = 2 ^ k) (w : F) (hw : root (2 ^ k) = some w) (e : Expr F)
    (hoffset : ∀ c o, Occurs (c, o) e → 0 ≤ (t.trace_length : Int) + blowup * o)
    (hdef : ∀ r < t.trace_length, rowValue w cofactor blowup t e r ≠ none)
    (hmark : mark (seedHash cofactor t.trace_length) traceHash e ≠ none)
    (hmerge : MergesEqual (seedHash cofactor t.trace_length) traceHash w cofactor blowup t (.Constant 0 :: .Constant 1 :: subexpressions e)) :
    ∃ l, evaluateOnCoset root seedHash traceHash cofactor t.trace_length blowup t e = some l ∧ l.length = t.trace_length ∧
      ∀ r < t.trace_length, l[r]? = rowValue w cofactor blowup t e r := by
  have hpos : 0 < t.trace_length := by rw [ht]; exact Nat.two_pow_pos k
  let seed := seedHash cofactor t.trace_length
  let cell := cellOf blowup t
  have hcell : CellRep cell t.trace_length := cellOf_rep blowup t
  have hwpow : w ^ t.trace_length = 1 := by rw [ht]; exact root_rep hroot k hk w hw
  -- rows repeat
  have rows : ∀ a : Expr F, ∀ r, rowValue w cofactor blowup t a r = rowValue w cofactor blowup t a (r % t.trace_length) := by
    intro a r
    unfold rowValue
    have e1 : w ^ r = w ^ (r % t.trace_length) := by
      conv_lhs => rw [← Nat.mod_add_div r t.trace_length, pow_add, pow_mul, hwpow, one_pow, mul_one]
    rw [e1]
    apply evaluate_congr
    intro c o _
    have : ((r : Int) + blowup * o) % t.trace_length = (((r % t.trace_length : Nat) : Int) + blowup * o) % t.trace_length := by
      push_cast
      rw [Int.emod_add_emod]
    rw [this]
  have same : ∀ a ∈ (.Constant 0 :: .Constant 1 :: subexpressions e : List (Expr F)), ∀ r, a.evaluate (cofactor * w ^ r) (cell r) = rowValue w cofactor blowup t a r := by
    intro a ha r
    unfold rowValue
    apply evaluate_congr
    intro c o hoc
    refine cellOf_eq blowup t hpos r c o (hoffset c o ?_)
    rcases List.mem_cons.1 ha with rfl | ha
    · cases hoc
    rcases List.mem_cons.1 ha with rfl | ha
    · cases hoc
    exact occurs_sub e a ha _ hoc
  obtain ⟨h, hh⟩ := Option.ne_none_iff_exists'.1 hmark
  have : ∀ r, ∃ x, rowValue w cofactor blowup t e r = some x := by
    intro r
    rw [rows]
    exact Option.ne_none_iff_exists'.1 (hdef _ (Nat.mod_lt _ hpos))
  choose v hv using this
  let g0 : AlgebraicGraph F := ⟨cofactor, t.trace_length, blowup, seed, [], 0⟩
  obtain ⟨g1, i, V1, e1, gr, _, _, hcol, hhash⟩ := expression_spec (root := root) (cell := cell) (size := t.trace_length) hroot hcompat hcell k hk ht w (by rw [ht]; exact hw) cofactor seed hcof blowup traceHash
    (fun a => a ∈ (.Constant 0 :: .Constant 1 :: subexpressions e : List (Expr F)))
    (by
      intro a b ha hb h h1 h2 r
      rw [same a ha, same b hb, rows a, rows b]
      exact hmerge a ha b hb (h1.trans h2.symm) _ (Nat.mod_lt _ hpos)) (by simp) (by simp) _ rfl e h v (fun a ha => by simp [ha]) hh
    (fun r => by rw [same e (by simp [self_mem_subexpressions])]; exact hv r) g0 [] ⟨⟨rfl, by simp [g0], by simp [g0]⟩, by simp [Known, g0], rfl, rfl, rfl, rfl⟩
  obtain ⟨g2, e2, sem2, c2, s2, b2⟩ := lookup_tables_spec hroot g1 gr.sem gr.coset_size hpos
  obtain ⟨nd, hnd⟩ := sem2.node hcol
  obtain ⟨g3, i3, V3, e3, sem3, hlast, _, _, c3, s3, b3⟩ := tree_shake_spec g2 sem2 i nd v hnd hcol
  have hb3 : g3.trace_blowup = blowup := by rw [b3, b2, gr.trace_blowup]
  obtain ⟨g4, e4, sem4, b4, _⟩ := init_take hroot t g3 (by rw [hb3]; exact sem3) v hlast 0 0 rfl
  refine ⟨(List.range t.trace_length).map v, ?_, by simp, fun r hr => by rw [List.getElem?_map, List.getElem?_range hr, hv]; rfl⟩
  unfold evaluateOnCoset
  rw [show AlgebraicGraph.new seedHash cofactor t.trace_length blowup = some g0 by
    unfold AlgebraicGraph.new
    rw [if_pos (by rw [ht]; exact Merkle.isPow2_two_pow k)], Option.bind_some, e1, Option.bind_some]
  dsimp only
  rw [e2, Option.bind_some, e3, Option.bind_some]
  dsimp only
  rw [e4, Option.bind_some, mapM_some _ (fun p : Nat × Nat => (List.range p.2).map fun j => v (p.1 + j)), Option.map_some, chunks_flatten v _ _ (by norm_num)]
  rintro ⟨start, count⟩ hp
  unfold chunks at hp
  obtain ⟨j, _, hj⟩ := List.mem_map.1 hp
  injection hj with hj _
  obtain ⟨g5, e5, _, _, t5⟩ := init_take hroot t g4 sem4 v hlast start count (by omega)
  dsimp only
  rw [e5, Option.bind_some, t5]

/-! A concrete case: the coset of four elements of the field of five, the expression `X + T(0, 1)`, a table of one column. -/

def toyTable : TraceTable (ZMod 5) := ⟨4, 1, [4, 2, 1, 3]⟩

example : ∃ l, evaluateOnCoset root5 (fun _ _ => 3) (fun _ _ _ => 4) 2 4 1 toyTable (.Add .X (.Trace 0 1)) = some l ∧ l.length = 4 ∧
    ∀ r < 4, l[r]? = rowValue 2 2 1 toyTable (.Add .X (.Trace 0 1)) r :=
  C49_evaluate root5 root5_ok root5_compat (fun _ _ => 3) (fun _ _ _ => 4) 2 (by decide) 1 2 (by norm_num) toyTable rfl 2 (by decide +kernel) (.Add .X (.Trace 0 1))
    (by
      intro c o h
      rcases h with h | h
      · cases h
      · cases h; decide)
    (by decide +kernel) (by decide +kernel) (by unfold MergesEqual; decide +kernel)

/-- the values computed in that case are not constant -/
example : evaluateOnCoset root5 (fun _ _ => 3) (fun _ _ _ => 4) 2 4 1 toyTable (.Add .X (.Trace 0 1)) = some [4, 0, 1, 0] := by decide +kernel

/-- The hypothesis on merged expressions is needed: an expression that names the random point itself is taken for the constant zero. -/
theorem C49_merge_needed : ∃ (seedHash : ZMod 5 → Nat → ZMod 5) (traceHash : ZMod 5 → Nat → Int → ZMod 5) (e : Expr (ZMod 5)) (l : List (ZMod 5)),
    evaluateOnCoset root5 seedHash traceHash 2 4 1 toyTable e = some l ∧ ∃ r < 4, l[r]? ≠ rowValue 2 2 1 toyTable e r :=
  ⟨fun _ _ => 3, fun _ _ _ => 4, .Add .X (.Constant 2), [0, 0, 0, 0], by decide +kernel, 0, by norm_num, by decide +kernel⟩

/-- An offset reaching further back than the table is long makes the evaluator fail although the wrapped-around cell exists. -/
theorem C49_far_offset : evaluateOnCoset root5 (fun _ _ => 3) (fun _ _ _ => 4) 2 4 1 toyTable (.Trace 0 (-5)) = none ∧
    rowValue 2 2 1 toyTable (.Trace 0 (-5)) 0 = some 3 := by decide +kernel

end Props
end OpenZKP
