import Verif.Stark.Dag
import Verif.Props.Polynomial
import Verif.Props.Generic

/-!
# What the nodes of an evaluation graph stand for
-/

namespace OpenZKP
namespace Stark
namespace Dag
open Props

variable {F : Type} [Field F] [DecidableEq F]

/-- the trace cell read at row `r` of the coset -/
def cellOf (blowup : Nat) (t : TraceTable F) (r c : Nat) (o : Int) : Option F :=
  (AlgebraicGraph.traceRow blowup t.trace_length r o).bind fun r => t.get r c

/-- the operation gives the column `v` from the columns `V` of the earlier nodes -/
def OpSem (root : Nat → Option F) (cell : Nat → Nat → Int → Option F) (V : List (Nat → F)) (op : Operation F) (v : Nat → F) : Prop :=
  match op with
  | .Constant c => ∀ r, v r = c
  | .Coset c s => ∃ a w, s = 2 ^ a ∧ a < 64 ∧ root s = some w ∧ ∀ r, v r = c * w ^ r
  | .Trace c o => ∀ r, cell r c o = some (v r)
  | .Add a b => ∃ x y, V[a]? = some x ∧ V[b]? = some y ∧ ∀ r, v r = x r + y r
  | .Neg a => ∃ x, V[a]? = some x ∧ ∀ r, v r = -x r
  | .Mul a b => ∃ x y, V[a]? = some x ∧ V[b]? = some y ∧ ∀ r, v r = x r * y r
  | .Inv a => ∃ x, V[a]? = some x ∧ ∀ r, x r ≠ 0 ∧ v r = (x r)⁻¹
  | .Exp a e => ∃ x, V[a]? = some x ∧ ∀ r, v r = x r ^ e
  | .Poly p a => ∃ x, V[a]? = some x ∧ ∀ r, v r = Poly.evaluate p (x r)
  | .Lookup t => ∃ a, t.length = 2 ^ a ∧ ∀ r, t[r % t.length]? = some (v r)

/-- the node repeats with its period, and its operands have at most its period -/
structure PeriodSem (size : Nat) (nodes : List (Node F)) (nd : Node F) (v : Nat → F) : Prop where
  pow : ∃ a, nd.period = 2 ^ a
  rep : ∀ r, v (r + nd.period) = v r
  trace : ∀ c o, nd.op = .Trace c o → nd.period = size
  children : ∀ i ∈ nd.op.children, ∀ cn, nodes[i]? = some cn → cn.period ≤ nd.period
  values : nd.values.length = 16

/-- the nodes give the columns `V` -/
structure Sem (root : Nat → Option F) (cell : Nat → Nat → Int → Option F) (size : Nat) (nodes : List (Node F)) (V : List (Nat → F)) : Prop where
  len : V.length = nodes.length
  op : ∀ (i : Nat) nd v, nodes[i]? = some nd → V[i]? = some v → OpSem root cell (V.take i) nd.op v
  period : ∀ (i : Nat) nd v, nodes[i]? = some nd → V[i]? = some v → PeriodSem size nodes nd v

variable {root : Nat → Option F} {cell : Nat → Nat → Int → Option F} {size : Nat} {nodes : List (Node F)} {V : List (Nat → F)}

theorem take_get {α : Type} {l : List α} {n i : Nat} {x : α} (h : (l.take n)[i]? = some x) : l[i]? = some x ∧ i < n := by
  rw [List.getElem?_take] at h
  split at h
  · exact ⟨h, ‹_›⟩
  · cases h

theorem OpSem.mono {V W : List (Nat → F)} {op : Operation F} {v : Nat → F} (h : OpSem root cell V op v) (hVW : ∀ (i : Nat) x, V[i]? = some x → W[i]? = some x) :
    OpSem root cell W op v := by
  cases op with
  | Constant c => exact h
  | Coset c s => exact h
  | Trace c o => exact h
  | Lookup t => exact h
  | Add a b => obtain ⟨x, y, h1, h2, h3⟩ := h; exact ⟨x, y, hVW _ _ h1, hVW _ _ h2, h3⟩
  | Mul a b => obtain ⟨x, y, h1, h2, h3⟩ := h; exact ⟨x, y, hVW _ _ h1, hVW _ _ h2, h3⟩
  | Neg a => obtain ⟨x, h1, h3⟩ := h; exact ⟨x, hVW _ _ h1, h3⟩
  | Inv a => obtain ⟨x, h1, h3⟩ := h; exact ⟨x, hVW _ _ h1, h3⟩
  | Exp a e => obtain ⟨x, h1, h3⟩ := h; exact ⟨x, hVW _ _ h1, h3⟩
  | Poly p a => obtain ⟨x, h1, h3⟩ := h; exact ⟨x, hVW _ _ h1, h3⟩

theorem OpSem.full {V : List (Nat → F)} {i : Nat} {op : Operation F} {v : Nat → F} (h : OpSem root cell (V.take i) op v) : OpSem root cell V op v :=
  h.mono fun _ _ hx => (take_get hx).1

/-- the operands of an operation are earlier nodes -/
theorem OpSem.child {op : Operation F} {v : Nat → F} (h : OpSem root cell V op v) (i : Nat) (hi : i ∈ op.children) : i < V.length := by
  have lt : ∀ {i : Nat} {x : Nat → F}, V[i]? = some x → i < V.length := fun h => (List.getElem?_eq_some_iff.1 h).1
  cases op with
  | Constant c => cases hi
  | Coset c s => cases hi
  | Trace c o => cases hi
  | Lookup t => cases hi
  | Add a b =>
    obtain ⟨x, y, h1, h2, _⟩ := h
    simp only [Operation.children, List.mem_cons, List.not_mem_nil, or_false] at hi
    rcases hi with rfl | rfl
    · exact lt h1
    · exact lt h2
  | Mul a b =>
    obtain ⟨x, y, h1, h2, _⟩ := h
    simp only [Operation.children, List.mem_cons, List.not_mem_nil, or_false] at hi
    rcases hi with rfl | rfl
    · exact lt h1
    · exact lt h2
  | Neg a => obtain ⟨x, h1, _⟩ := h; simp only [Operation.children, List.mem_singleton] at hi; subst hi; exact lt h1
  | Inv a => obtain ⟨x, h1, _⟩ := h; simp only [Operation.children, List.mem_singleton] at hi; subst hi; exact lt h1
  | Exp a e => obtain ⟨x, h1, _⟩ := h; simp only [Operation.children, List.mem_singleton] at hi; subst hi; exact lt h1
  | Poly p a => obtain ⟨x, h1, _⟩ := h; simp only [Operation.children, List.mem_singleton] at hi; subst hi; exact lt h1

/-- a column belongs to a node -/
theorem Sem.node (h : Sem root cell size nodes V) {i : Nat} {v : Nat → F} (hv : V[i]? = some v) : ∃ nd, nodes[i]? = some nd := by
  have := (List.getElem?_eq_some_iff.1 hv).1
  rw [h.len] at this
  exact ⟨_, List.getElem?_eq_getElem this⟩

theorem Sem.column (h : Sem root cell size nodes V) {i : Nat} {nd : Node F} (hv : nodes[i]? = some nd) : ∃ v, V[i]? = some v := by
  have := (List.getElem?_eq_some_iff.1 hv).1
  rw [← h.len] at this
  exact ⟨_, List.getElem?_eq_getElem this⟩

omit [DecidableEq F] in
theorem root_one (hroot : RootFn root) (w : F) (hw : root 1 = some w) : w = 1 := by
  have := hroot 1 w (by norm_num) (by norm_num) hw
  exact orderOf_eq_one_iff.1 this

omit [DecidableEq F] in
theorem root_rep (hroot : RootFn root) (a : Nat) (ha : a < 64) (w : F) (hw : root (2 ^ a) = some w) : w ^ 2 ^ a = 1 := by
  have := hroot (2 ^ a) w (Nat.two_pow_pos a) (Nat.pow_lt_pow_right (by norm_num) ha) hw
  rw [← this]; exact pow_orderOf_eq_one w

omit [DecidableEq F] in
theorem root_ne (hroot : RootFn root) (a : Nat) (ha : a < 64) (w : F) (hw : root (2 ^ a) = some w) : w ≠ 0 := by
  rintro rfl
  have := root_rep hroot a ha 0 hw
  rw [zero_pow (Nat.two_pow_pos a).ne'] at this
  exact zero_ne_one this

/-- the simplification of a product -/
theorem simplifyMul_spec (hroot : RootFn root) (hcompat : RootCompat root) (a b : Nat) (x y : Nat → F) (ha : V[a]? = some x) (hb : V[b]? = some y)
    (oa ob : Operation F) (va : OpSem root cell V oa x) (vb : OpSem root cell V ob y) (v : Nat → F) (hv : ∀ r, v r = x r * y r) :
    OpSem root cell V (AlgebraicGraph.simplifyMul a b oa ob) v := by
  have dflt : OpSem root cell V (.Mul a b) v := ⟨x, y, ha, hb, hv⟩
  cases oa with
  | Constant c =>
    cases ob with
    | Constant d => exact fun r => by rw [hv, va r, vb r]
    | Coset d s =>
      obtain ⟨k, w, h1, h2, h3, h4⟩ := vb
      exact ⟨k, w, h1, h2, h3, fun r => by rw [hv, va r, h4, mul_assoc]⟩
    | _ => exact dflt
  | Coset c s =>
    obtain ⟨k, w, h1, h2, h3, h4⟩ := va
    cases ob with
    | Constant d => exact ⟨k, w, h1, h2, h3, fun r => by rw [hv, vb r, h4]; ring⟩
    | Coset d t =>
      obtain ⟨k', w', g1, g2, g3, g4⟩ := vb
      show OpSem root cell V (if s = 1 then .Coset (c * d) t else if t = 1 then .Coset (d * c) s
        else if s = t then .Coset (c * d) (s / 2) else .Mul a b) v
      split
      · rename_i hs
        rw [hs] at h3
        have := root_one hroot w h3
        exact ⟨k', w', g1, g2, g3, fun r => by rw [hv, h4, g4, this]; ring⟩
      · split
        · rename_i hs ht
          rw [ht] at g3
          have := root_one hroot w' g3
          exact ⟨k, w, h1, h2, h3, fun r => by rw [hv, h4, g4, this]; ring⟩
        · split
          · rename_i hs ht hst
            subst hst
            rw [h3] at g3; cases g3
            cases k with
            | zero => rw [h1] at hs; exact absurd rfl hs
            | succ k =>
              refine ⟨k, w ^ 2, by rw [h1, pow_succ]; omega, by omega, ?_, fun r => by rw [hv, h4, g4, ← pow_mul, two_mul, pow_add]; ring⟩
              have := hcompat k 1 w h2 (by rw [← h1]; exact h3)
              rw [h1, pow_succ, Nat.mul_div_cancel _ (by norm_num)]
              simpa using this
          · exact dflt
    | _ => exact dflt
  | _ => exact dflt

theorem simplifyAdd_spec (a b : Nat) (x y : Nat → F) (ha : V[a]? = some x) (hb : V[b]? = some y)
    (oa ob : Operation F) (va : OpSem root cell V oa x) (vb : OpSem root cell V ob y) (v : Nat → F) (hv : ∀ r, v r = x r + y r) :
    OpSem root cell V (AlgebraicGraph.simplifyAdd a b oa ob) v := by
  have dflt : OpSem root cell V (.Add a b) v := ⟨x, y, ha, hb, hv⟩
  cases oa with
  | Constant c =>
    cases ob with
    | Constant d => exact fun r => by rw [hv, va r, vb r]
    | _ => exact dflt
  | Coset c s =>
    obtain ⟨k, w, h1, h2, h3, h4⟩ := va
    cases ob with
    | Coset d t =>
      obtain ⟨k', w', g1, g2, g3, g4⟩ := vb
      show OpSem root cell V (if s = t then .Coset (c + d) s else .Add a b) v
      split
      · rename_i hst
        subst hst
        rw [h3] at g3; cases g3
        exact ⟨k, w, h1, h2, h3, fun r => by rw [hv, h4, g4]; ring⟩
      · exact dflt
    | _ => exact dflt
  | _ => exact dflt

theorem opAt_of (g : AlgebraicGraph F) (h : Sem root cell size g.nodes V) (a : Nat) (x : Nat → F) (ha : V[a]? = some x) :
    ∃ o, g.opAt a = some o ∧ OpSem root cell V o x := by
  obtain ⟨nd, hn⟩ := h.node ha
  exact ⟨nd.op, by unfold AlgebraicGraph.opAt; rw [hn]; rfl, (h.op a nd x hn ha).full⟩

/-- `simplify` keeps the column -/
theorem simplify_spec (hroot : RootFn root) (hcompat : RootCompat root) (g : AlgebraicGraph F) (h : Sem root cell size g.nodes V) (o : Operation F)
    (v : Nat → F) (ho : OpSem root cell V o v) (he : ∀ a, o ≠ .Exp a 0) : ∃ o', g.simplify o = some o' ∧ OpSem root cell V o' v := by
  cases o with
  | Constant c => exact ⟨_, rfl, ho⟩
  | Coset c s => exact ⟨_, rfl, ho⟩
  | Trace c o => exact ⟨_, rfl, ho⟩
  | Lookup t => exact ⟨_, rfl, ho⟩
  | Add a b =>
    obtain ⟨x, y, ha, hb, hv⟩ := ho
    obtain ⟨oa, h1, h2⟩ := opAt_of g h a x ha
    obtain ⟨ob, h3, h4⟩ := opAt_of g h b y hb
    refine ⟨_, ?_, simplifyAdd_spec a b x y ha hb oa ob h2 h4 v hv⟩
    unfold AlgebraicGraph.simplify; dsimp only
    rw [h1, Option.bind_some, h3, Option.map_some]
  | Mul a b =>
    obtain ⟨x, y, ha, hb, hv⟩ := ho
    obtain ⟨oa, h1, h2⟩ := opAt_of g h a x ha
    obtain ⟨ob, h3, h4⟩ := opAt_of g h b y hb
    refine ⟨_, ?_, simplifyMul_spec hroot hcompat a b x y ha hb oa ob h2 h4 v hv⟩
    unfold AlgebraicGraph.simplify; dsimp only
    rw [h1, Option.bind_some, h3, Option.map_some]
  | Neg a =>
    obtain ⟨x, ha, hv⟩ := ho
    obtain ⟨oa, h1, h2⟩ := opAt_of g h a x ha
    unfold AlgebraicGraph.simplify; dsimp only
    rw [h1, Option.map_some]
    refine ⟨_, rfl, ?_⟩
    cases oa with
    | Constant c => exact fun r => by rw [hv, h2 r]
    | Coset c s =>
      obtain ⟨k, w, g1, g2, g3, g4⟩ := h2
      exact ⟨k, w, g1, g2, g3, fun r => by rw [hv, g4]; ring⟩
    | _ => exact ⟨x, ha, hv⟩
  | Exp a e =>
    obtain ⟨x, ha, hv⟩ := ho
    obtain ⟨oa, h1, h2⟩ := opAt_of g h a x ha
    unfold AlgebraicGraph.simplify; dsimp only
    rw [h1, Option.bind_some]
    have e0 : e ≠ 0 := fun hx => he a (by rw [hx])
    cases oa with
    | Constant c => exact ⟨_, rfl, fun r => by rw [hv, h2 r]⟩
    | Coset c s =>
      obtain ⟨k, w, g1, g2, g3, g4⟩ := h2
      dsimp only
      rw [if_neg e0]
      split
      · rename_i hd
        refine ⟨_, rfl, ?_⟩
        rw [g1] at hd
        obtain ⟨j, hj, rfl⟩ := (Nat.dvd_prime_pow Nat.prime_two).1 (Nat.dvd_of_mod_eq_zero hd)
        refine ⟨k - j, w ^ 2 ^ j, by rw [g1, Nat.pow_div hj (by norm_num)], by omega, ?_, fun r => by rw [hv, g4, mul_pow, ← pow_mul, ← pow_mul, Nat.mul_comm r]⟩
        rw [g1, Nat.pow_div hj (by norm_num)]
        exact hcompat (k - j) j w (by omega) (by rw [show k - j + j = k by omega, ← g1]; exact g3)
      · exact ⟨_, rfl, x, ha, hv⟩
    | _ => exact ⟨_, rfl, x, ha, hv⟩
  | Inv a =>
    obtain ⟨x, ha, hv⟩ := ho
    obtain ⟨oa, h1, h2⟩ := opAt_of g h a x ha
    unfold AlgebraicGraph.simplify; dsimp only
    rw [h1, Option.bind_some]
    have inv_ok : ∀ c : F, c ≠ 0 → finv c = some c⁻¹ := fun c hc => by unfold finv; rw [if_neg hc]
    split
    · rename_i c
      have hc : c ≠ 0 := by have := (hv 0).1; rwa [h2 0] at this
      rw [inv_ok c hc]
      exact ⟨_, rfl, fun r => by rw [(hv r).2, h2 r]⟩
    · rename_i c
      obtain ⟨k, w, g1, g2, g3, g4⟩ := h2
      have hw := root_one hroot w g3
      have hc : c ≠ 0 := by have := (hv 0).1; rw [g4 0, hw] at this; simpa using this
      rw [inv_ok c hc]
      exact ⟨_, rfl, k, w, g1, g2, g3, fun r => by rw [(hv r).2, g4 r, hw]; simp⟩
    · rename_i c
      obtain ⟨k, w, g1, g2, g3, g4⟩ := h2
      have hw : w ^ 2 = 1 := root_rep hroot 1 (by norm_num) w (by simpa using g3)
      have hc : c ≠ 0 := by have := (hv 0).1; rw [g4 0] at this; simpa using this
      rw [inv_ok c hc]
      refine ⟨_, rfl, k, w, g1, g2, g3, fun r => ?_⟩
      rw [(hv r).2, g4 r, mul_inv]
      congr 1
      have : w ^ r * w ^ r = 1 := by rw [← pow_add, ← two_mul, pow_mul, hw, one_pow]
      exact inv_eq_of_mul_eq_one_left this
    · exact ⟨_, rfl, x, ha, hv⟩
  | Poly p a =>
    obtain ⟨x, ha, hv⟩ := ho
    obtain ⟨oa, h1, h2⟩ := opAt_of g h a x ha
    unfold AlgebraicGraph.simplify; dsimp only
    rw [h1, Option.map_some]
    refine ⟨_, rfl, ?_⟩
    split
    · exact fun r => by rw [hv, h2 r]
    · obtain ⟨k, w, g1, g2, g3, g4⟩ := h2
      have hw := root_one hroot w g3
      exact ⟨k, w, g1, g2, g3, fun r => by rw [hv, g4 r, hw]; simp⟩
    · exact ⟨x, ha, hv⟩

omit [Field F] [DecidableEq F] in
theorem rep_mul {v : Nat → F} {p : Nat} (h : ∀ r, v (r + p) = v r) (m r : Nat) : v (r + m * p) = v r := by
  induction m with
  | zero => simp
  | succ m ih => rw [Nat.succ_mul, ← Nat.add_assoc, h, ih]

omit [Field F] [DecidableEq F] in
theorem rep_le {v : Nat → F} {a b : Nat} (h : ∀ r, v (r + 2 ^ a) = v r) (hab : 2 ^ a ≤ 2 ^ b) (r : Nat) : v (r + 2 ^ b) = v r := by
  have : a ≤ b := (Nat.pow_le_pow_iff_right (by norm_num)).1 hab
  obtain ⟨m, hm⟩ := Nat.pow_dvd_pow 2 this
  rw [hm, Nat.mul_comm]
  exact rep_mul h m r

/-- trace cells repeat with the size of the coset -/
def CellRep (cell : Nat → Nat → Int → Option F) (size : Nat) : Prop :=
  ∀ r c o x y, cell r c o = some x → cell (r + size) c o = some y → y = x

theorem period_spec (hroot : RootFn root) (hcell : CellRep cell size) (hpow : ∃ k, size = 2 ^ k) (g : AlgebraicGraph F)
    (h : Sem root cell size g.nodes V) (hsize : g.coset_size = size) (o : Operation F) (v : Nat → F) (ho : OpSem root cell V o v) :
    ∃ p, g.period o = some p ∧ (∃ a, p = 2 ^ a) ∧ (∀ r, v (r + p) = v r) ∧ (∀ c o', o = .Trace c o' → p = size) ∧
      ∀ i ∈ o.children, ∀ cn, g.nodes[i]? = some cn → cn.period ≤ p := by
  have per : ∀ a x, V[a]? = some x → ∃ nd, g.nodes[a]? = some nd ∧ g.periodAt a = some nd.period ∧ PeriodSem size g.nodes nd x := by
    intro a x ha
    obtain ⟨nd, hn⟩ := h.node ha
    exact ⟨nd, hn, by unfold AlgebraicGraph.periodAt; rw [hn]; rfl, h.period a nd x hn ha⟩
  have one : ∀ (a : Nat) (x : Nat → F), V[a]? = some x → (∀ r s, x r = x s → v r = v s) → ∀ o : Operation F, g.period o = g.periodAt a → o.children = [a] →
      (∀ c o', o ≠ .Trace c o') →
      ∃ p, g.period o = some p ∧ (∃ a, p = 2 ^ a) ∧ (∀ r, v (r + p) = v r) ∧ (∀ c o', o = .Trace c o' → p = size) ∧
      ∀ i ∈ o.children, ∀ cn, g.nodes[i]? = some cn → cn.period ≤ p := by
    intro a x ha hx o ho hc ht
    obtain ⟨nd, h1, h2, h3⟩ := per a x ha
    refine ⟨nd.period, ho.trans h2, h3.pow, fun r => hx _ _ (h3.rep r), fun c o' e => absurd e (ht c o'), fun i hi cn hcn => ?_⟩
    rw [hc, List.mem_singleton] at hi
    subst hi
    rw [h1] at hcn; cases hcn
    exact Nat.le_refl _
  have two : ∀ (a b : Nat) (x y : Nat → F), V[a]? = some x → V[b]? = some y → (∀ r s, x r = x s → y r = y s → v r = v s) → ∀ o : Operation F,
      g.period o = ((g.periodAt a).bind fun a => (g.periodAt b).map fun b => max a b) → o.children = [a, b] →
      (∀ c o', o ≠ .Trace c o') →
      ∃ p, g.period o = some p ∧ (∃ a, p = 2 ^ a) ∧ (∀ r, v (r + p) = v r) ∧ (∀ c o', o = .Trace c o' → p = size) ∧
      ∀ i ∈ o.children, ∀ cn, g.nodes[i]? = some cn → cn.period ≤ p := by
    intro a b x y ha hb hxy o ho hc ht
    obtain ⟨nd, h1, h2, h3⟩ := per a x ha
    obtain ⟨ne, g1, g2, g3⟩ := per b y hb
    obtain ⟨i, hi⟩ := h3.pow
    obtain ⟨j, hj⟩ := g3.pow
    have hx := h3.rep
    have hy := g3.rep
    rw [hi] at hx h2
    rw [hj] at hy g2
    obtain ⟨m, hm⟩ : ∃ m, max (2 ^ i) (2 ^ j) = 2 ^ m := by
      rcases Nat.le_total (2 ^ i) (2 ^ j) with hle | hle
      · exact ⟨j, Nat.max_eq_right hle⟩
      · exact ⟨i, Nat.max_eq_left hle⟩
    have l1 : 2 ^ i ≤ 2 ^ m := hm ▸ Nat.le_max_left _ _
    have l2 : 2 ^ j ≤ 2 ^ m := hm ▸ Nat.le_max_right _ _
    refine ⟨2 ^ m, by rw [ho, h2, Option.bind_some, g2, Option.map_some, hm], ⟨m, rfl⟩, fun r => hxy _ _ (rep_le hx l1 r) (rep_le hy l2 r),
      fun c o' e => absurd e (ht c o'), fun i' hi' cn hcn => ?_⟩
    rw [hc] at hi'
    simp only [List.mem_cons, List.not_mem_nil, or_false] at hi'
    rcases hi' with rfl | rfl
    · rw [h1] at hcn; cases hcn; rw [hi]; exact l1
    · rw [g1] at hcn; cases hcn; rw [hj]; exact l2
  cases o with
  | Constant c => exact ⟨1, rfl, ⟨0, rfl⟩, fun r => by rw [ho, ho], by simp, by simp [Operation.children]⟩
  | Coset c s =>
    obtain ⟨k, w, g1, g2, g3, g4⟩ := ho
    refine ⟨s, rfl, ⟨k, g1⟩, fun r => ?_, by simp, by simp [Operation.children]⟩
    rw [g1] at g3
    rw [g4, g4, pow_add, g1, root_rep hroot k g2 w g3, mul_one]
  | Trace c o =>
    exact ⟨size, by rw [← hsize]; rfl, hpow, fun r => hcell r c o _ _ (ho r) (ho (r + size)), fun _ _ _ => rfl, by simp [Operation.children]⟩
  | Lookup t =>
    obtain ⟨a, h1, h2⟩ := ho
    refine ⟨t.length, rfl, ⟨a, h1⟩, fun r => ?_, by simp, by simp [Operation.children]⟩
    have e1 := h2 r
    have e2 := h2 (r + t.length)
    rw [Nat.add_mod_right, e1] at e2
    exact (Option.some.inj e2).symm
  | Add a b => obtain ⟨x, y, ha, hb, hv⟩ := ho; exact two a b x y ha hb (fun r s e1 e2 => by rw [hv, hv, e1, e2]) _ rfl rfl (by simp)
  | Mul a b => obtain ⟨x, y, ha, hb, hv⟩ := ho; exact two a b x y ha hb (fun r s e1 e2 => by rw [hv, hv, e1, e2]) _ rfl rfl (by simp)
  | Neg a => obtain ⟨x, ha, hv⟩ := ho; exact one a x ha (fun r s e1 => by rw [hv, hv, e1]) _ rfl rfl (by simp)
  | Inv a => obtain ⟨x, ha, hv⟩ := ho; exact one a x ha (fun r s e1 => by rw [(hv r).2, (hv s).2, e1]) _ rfl rfl (by simp)
  | Exp a e => obtain ⟨x, ha, hv⟩ := ho; exact one a x ha (fun r s e1 => by rw [hv, hv, e1]) _ rfl rfl (by simp)
  | Poly p a => obtain ⟨x, ha, hv⟩ := ho; exact one a x ha (fun r s e1 => by rw [hv, hv, e1]) _ rfl rfl (by simp)

theorem get_append_some {α : Type} {l : List α} {y x : α} {i : Nat} (h : (l ++ [y])[i]? = some x) : l[i]? = some x ∨ (i = l.length ∧ x = y) := by
  by_cases hi : i < l.length
  · rw [List.getElem?_append_left hi] at h; exact .inl h
  · rw [List.getElem?_append_right (by omega)] at h
    by_cases e : i - l.length = 0
    · rw [e] at h; simp at h; exact .inr ⟨by omega, h.symm⟩
    · rw [List.getElem?_eq_none (by simp; omega)] at h; cases h

theorem get_lt {α : Type} {l : List α} {x : α} {i : Nat} (h : l[i]? = some x) : i < l.length := (List.getElem?_eq_some_iff.1 h).1

theorem Sem.append (h : Sem root cell size nodes V) (nd : Node F) (v : Nat → F) (ho : OpSem root cell V nd.op v) (hp : PeriodSem size nodes nd v) :
    Sem root cell size (nodes ++ [nd]) (V ++ [v]) := by
  have up : ∀ nd' v', PeriodSem size nodes nd' v' → (∀ i ∈ nd'.op.children, i < nodes.length) → PeriodSem size (nodes ++ [nd]) nd' v' := by
    intro nd' v' hp' hc
    refine ⟨hp'.pow, hp'.rep, hp'.trace, fun i hi cn hcn => hp'.children i hi cn ?_, hp'.values⟩
    rw [List.getElem?_append_left (hc i hi)] at hcn
    exact hcn
  refine ⟨by simp [h.len], fun i nd' v' hn hv => ?_, fun i nd' v' hn hv => ?_⟩
  · rcases get_append_some hv with hv | ⟨e, rfl⟩
    · have hi := get_lt hv
      rw [List.getElem?_append_left (by rw [← h.len]; exact hi)] at hn
      rw [List.take_append_of_le_length (by omega)]
      exact h.op i nd' v' hn hv
    · rw [e, h.len] at hn
      have : nd' = nd := by simpa using hn.symm
      subst this
      rw [e, List.take_left]
      exact ho
  · rcases get_append_some hv with hv | ⟨e, rfl⟩
    · have hi := get_lt hv
      rw [List.getElem?_append_left (by rw [← h.len]; exact hi)] at hn
      refine up nd' v' (h.period i nd' v' hn hv) fun j hj => ?_
      rw [← h.len]
      have := (h.op i nd' v' hn hv).child j hj
      rw [List.length_take] at this
      omega
    · rw [e, h.len] at hn
      have : nd' = nd := by simpa using hn.symm
      subst this
      exact up nd' v' hp fun j hj => by rw [← h.len]; exact ho.child j hj

/-- every node has a known hash and column -/
def Known (P : F → (Nat → F) → Prop) (nodes : List (Node F)) (V : List (Nat → F)) : Prop :=
  ∀ (i : Nat) nd v, nodes[i]? = some nd → V[i]? = some v → P nd.hash v

/-- what adding to a graph guarantees -/
structure Added (root : Nat → Option F) (cell : Nat → Nat → Int → Option F) (size : Nat) (P : F → (Nat → F) → Prop) (g : AlgebraicGraph F) (V : List (Nat → F)) (g' : AlgebraicGraph F) (i : Nat)
    (h : F) (v : Nat → F) (V' : List (Nat → F)) : Prop where
  sem : Sem root cell size g'.nodes V'
  known : Known P g'.nodes V'
  nodes : g.nodes <+: g'.nodes
  cols : V <+: V'
  col : V'[i]? = some v
  hash : g'.hashAt i = some h
  seed : g'.seed = g.seed
  cofactor : g'.cofactor = g.cofactor
  coset_size : g'.coset_size = g.coset_size
  trace_blowup : g'.trace_blowup = g.trace_blowup

theorem op_spec (hroot : RootFn root) (hcompat : RootCompat root) (hcell : CellRep cell size) (hpow : ∃ k, size = 2 ^ k) (P : F → (Nat → F) → Prop)
    (hP : ∀ h v v', P h v → P h v' → v = v') (hP0 : P 0 fun _ => 0) (hP1 : P 1 fun _ => 1) (traceHash : F → Nat → Int → F) (g : AlgebraicGraph F)
    (sem : Sem root cell size g.nodes V) (known : Known P g.nodes V) (hsize : g.coset_size = size) (o : Operation F) (v : Nat → F) (ho : OpSem root cell V o v)
    (hash : F) (hh : g.hash traceHash o = some hash) (hPv : P hash v) (he : ∀ a, o = .Exp a 0 → hash = 1) :
    ∃ g' i V', g.op traceHash o = some (g', i) ∧ Added root cell size P g V g' i hash v V' := by
  unfold AlgebraicGraph.op
  rw [hh, Option.bind_some]
  split
  · rename_i index hi
    obtain ⟨hlt, h1, _⟩ := List.findIdx?_eq_some_iff_getElem.1 hi
    have h2 : g.nodes[index]? = some g.nodes[index] := List.getElem?_eq_getElem hlt
    have h3 : g.nodes[index].hash = hash := by simpa using h1
    obtain ⟨v', hv'⟩ := sem.column h2
    have : v' = v := hP hash v' v (by rw [← h3]; exact known index _ v' h2 hv') hPv
    subst this
    exact ⟨g, index, V, rfl, sem, known, List.prefix_refl _, List.prefix_refl _, hv', by unfold AlgebraicGraph.hashAt; rw [h2, Option.map_some, h3], rfl, rfl, rfl, rfl⟩
  · obtain ⟨o', h1, h2⟩ : ∃ o', (if hash = 0 then some (Operation.Constant (0 : F)) else if hash = 1 then some (.Constant 1) else g.simplify o) = some o' ∧
        OpSem root cell V o' v := by
      split
      · rename_i e
        subst e
        have := hP 0 v _ hPv hP0
        exact ⟨_, rfl, fun r => by rw [this]⟩
      · split
        · rename_i e
          subst e
          have := hP 1 v _ hPv hP1
          exact ⟨_, rfl, fun r => by rw [this]⟩
        · rename_i e1
          exact simplify_spec hroot hcompat g sem o v ho fun a ha => e1 (he a ha)
    rw [h1, Option.bind_some]
    obtain ⟨p, p1, p2, p3, p4, p5⟩ := period_spec hroot hcell hpow g sem hsize o' v h2
    rw [p1, Option.map_some]
    have hs := sem.append ⟨o', hash, p, 0, List.replicate 16 0⟩ v h2 ⟨p2, p3, p4, p5, by simp⟩
    refine ⟨_, _, V ++ [v], rfl, hs, ?_, List.prefix_append _ _, List.prefix_append _ _, ?_, ?_, rfl, rfl, rfl, rfl⟩
    · intro i nd v' hn hv
      rcases get_append_some hn with hn | ⟨e, rfl⟩
      · have hi := get_lt hn
        rw [List.getElem?_append_left (by rw [sem.len]; exact hi)] at hv
        exact known i nd v' hn hv
      · rw [e, ← sem.len] at hv
        have : v' = v := by simpa using hv.symm
        rw [this]; exact hPv
    · rw [← sem.len]; simp
    · unfold AlgebraicGraph.hashAt
      simp

/-! ## Removing unused nodes -/

/-- marking only adds nodes up to `b`, of period at most `p`, whose operands are marked too -/
structure Marks (nodes : List (Node F)) (b p : Nat) (used used' : List Bool) : Prop where
  len : used'.length = used.length
  mono : ∀ j : Nat, used[j]? = some true → used'[j]? = some true
  new : ∀ j : Nat, used'[j]? = some true → used[j]? = some true ∨
    (j ≤ b ∧ ∃ nd, nodes[j]? = some nd ∧ nd.period ≤ p ∧ ∀ c ∈ nd.op.children, used'[c]? = some true)

omit [Field F] [DecidableEq F] in
theorem Marks.refl (b p : Nat) (used : List Bool) : Marks nodes b p used used := ⟨rfl, fun _ h => h, fun _ h => .inl h⟩

omit [Field F] [DecidableEq F] in
theorem Marks.trans {b p b' p' : Nat} {u v w : List Bool} (h1 : Marks nodes b p u v) (h2 : Marks nodes b p v w) (hb : b ≤ b') (hp : p ≤ p') : Marks nodes b' p' u w := by
  refine ⟨h2.len.trans h1.len, fun j h => h2.mono j (h1.mono j h), fun j h => ?_⟩
  rcases h2.new j h with h | ⟨h3, nd, h4, h5, h6⟩
  · rcases h1.new j h with h | ⟨h3, nd, h4, h5, h6⟩
    · exact .inl h
    · exact .inr ⟨by omega, nd, h4, by omega, fun c hc => h2.mono c (h6 c hc)⟩
  · exact .inr ⟨by omega, nd, h4, by omega, h6⟩

theorem recurse_spec (sem : Sem root cell size nodes V) (fuel : Nat) : ∀ (i : Nat) (nd : Node F) (used : List Bool), i < fuel → used.length = nodes.length →
    nodes[i]? = some nd → ∃ used', AlgebraicGraph.recurse nodes fuel used i = some used' ∧ Marks nodes i nd.period used used' ∧ used'[i]? = some true := by
  induction fuel with
  | zero => intro i _ _ h; omega
  | succ fuel ih =>
    intro i nd used hi hlen hn
    have hlt := get_lt hn
    obtain ⟨v, hv⟩ := sem.column hn
    have hc : ∀ c ∈ nd.op.children, c < i := fun c hc => by
      have := (sem.op i nd v hn hv).child c hc
      rw [List.length_take] at this; omega
    have hper := (sem.period i nd v hn hv).children
    have fold : ∀ (cs : List Nat) (u : List Bool), (∀ c ∈ cs, c ∈ nd.op.children) → u.length = nodes.length →
        ∃ u', cs.foldlM (AlgebraicGraph.recurse nodes fuel) u = some u' ∧ Marks nodes i nd.period u u' ∧ ∀ c ∈ cs, u'[c]? = some true := by
      intro cs
      induction cs with
      | nil => intro u _ _; exact ⟨u, rfl, Marks.refl _ _ _, by simp⟩
      | cons c cs ihc =>
        intro u hcs hu
        have h1 := hc c (hcs c (by simp))
        obtain ⟨cn, hcn⟩ : ∃ cn, nodes[c]? = some cn := ⟨_, List.getElem?_eq_getElem (by omega)⟩
        obtain ⟨u1, e1, m1, t1⟩ := ih c cn u (by omega) hu hcn
        obtain ⟨u2, e2, m2, t2⟩ := ihc u1 (fun d hd => hcs d (by simp [hd])) (by rw [m1.len, hu])
        have m1' : Marks nodes i nd.period u u1 := m1.trans (Marks.refl _ _ _) (by omega) (hper c (hcs c (by simp)) cn hcn)
        refine ⟨u2, ?_, m1'.trans m2 (Nat.le_refl _) (Nat.le_refl _), ?_⟩
        · rw [List.foldlM_cons, e1]; exact e2
        · intro d hd
          rcases List.mem_cons.1 hd with rfl | hd
          · exact m2.mono _ t1
          · exact t2 d hd
    obtain ⟨u', e, m, t⟩ := fold nd.op.children (used.set i true) (fun c hc => hc) (by simp [hlen])
    have hself : (used.set i true)[i]? = some true := by rw [List.getElem?_set_self (by omega)]
    refine ⟨u', ?_, ⟨m.len.trans (by simp), fun j hj => ?_, fun j hj => ?_⟩, m.mono i hself⟩
    · unfold AlgebraicGraph.recurse
      rw [if_pos (by omega), hn, Option.bind_some]
      exact e
    · apply m.mono
      by_cases hij : i = j
      · subst hij; exact hself
      · rw [List.getElem?_set_ne hij]; exact hj
    · rcases m.new j hj with hj | hj
      · by_cases hij : i = j
        · subst hij
          exact .inr ⟨Nat.le_refl _, nd, hn, Nat.le_refl _, t⟩
        · rw [List.getElem?_set_ne hij] at hj; exact .inl hj
      · exact .inr hj

/-- the position of a used node among the used nodes -/
def pos (used : List Bool) (i : Nat) : Nat := (used.take i).count true

theorem renumbering_length (used : List Bool) (c : Nat) : (AlgebraicGraph.renumbering used c).length = used.length := by
  induction used generalizing c with
  | nil => rfl
  | cons b used ih => cases b <;> simp [AlgebraicGraph.renumbering, ih]

theorem renumbering_get (used : List Bool) (c i : Nat) (h : used[i]? = some true) : (AlgebraicGraph.renumbering used c)[i]? = some (c + pos used i) := by
  induction used generalizing c i with
  | nil => simp at h
  | cons b used ih =>
    cases i with
    | zero =>
      rw [List.getElem?_cons_zero] at h
      cases h
      simp [AlgebraicGraph.renumbering, pos]
    | succ i =>
      rw [List.getElem?_cons_succ] at h
      cases b
      · simp only [AlgebraicGraph.renumbering, List.getElem?_cons_succ]
        rw [ih c i h]; simp [pos]
      · simp only [AlgebraicGraph.renumbering, List.getElem?_cons_succ]
        rw [ih (c + 1) i h]; simp [pos]; omega

theorem retain_get {α : Type} (used : List Bool) (l : List α) (i : Nat) (x : α) (h : used[i]? = some true) (hx : l[i]? = some x) :
    (AlgebraicGraph.retain used l)[pos used i]? = some x := by
  induction used generalizing l i with
  | nil => simp at h
  | cons b used ih =>
    cases l with
    | nil => simp at hx
    | cons y l =>
      cases i with
      | zero =>
        rw [List.getElem?_cons_zero] at h hx
        cases h; cases hx
        simp [AlgebraicGraph.retain, pos]
      | succ i =>
        rw [List.getElem?_cons_succ] at h hx
        have := ih l i h hx
        cases b
        · simpa [AlgebraicGraph.retain, pos] using this
        · simpa [AlgebraicGraph.retain, pos] using this

theorem retain_inv {α : Type} (used : List Bool) (l : List α) (j : Nat) (x : α) (h : (AlgebraicGraph.retain used l)[j]? = some x) :
    ∃ i, used[i]? = some true ∧ l[i]? = some x ∧ j = pos used i := by
  induction used generalizing l j with
  | nil => simp [AlgebraicGraph.retain] at h
  | cons b used ih =>
    cases l with
    | nil => cases b <;> simp [AlgebraicGraph.retain] at h
    | cons y l =>
      cases b with
      | false =>
        obtain ⟨i, h1, h2, h3⟩ := ih l j h
        exact ⟨i + 1, by simpa using h1, by simpa using h2, by simpa [pos] using h3⟩
      | true =>
        cases j with
        | zero => exact ⟨0, rfl, h, rfl⟩
        | succ j =>
          obtain ⟨i, h1, h2, h3⟩ := ih l j h
          exact ⟨i + 1, by simpa using h1, by simpa using h2, by simpa [pos] using h3⟩

theorem pos_lt (used : List Bool) (i j : Nat) (h : used[i]? = some true) (hij : i < j) : pos used i < pos used j := by
  unfold pos
  have h1 : used.take (i + 1) = used.take i ++ [true] := by
    obtain ⟨hlt, he⟩ := List.getElem?_eq_some_iff.1 h
    rw [List.take_succ_eq_append_getElem hlt, he]
  have h2 : (used.take (i + 1)).count true ≤ (used.take j).count true :=
    List.Sublist.count_le _ (List.take_sublist_take_left (by omega))
  rw [h1] at h2
  simp at h2
  omega

theorem pos_inj (used : List Bool) (i j : Nat) (hi : used[i]? = some true) (hj : used[j]? = some true) (h : pos used i = pos used j) : i = j := by
  rcases Nat.lt_trichotomy i j with hlt | rfl | hlt
  · have := pos_lt used i j hi hlt; omega
  · rfl
  · have := pos_lt used j i hj hlt; omega

/-- the operation with its operands renamed -/
def Operation.rename (f : Nat → Nat) : Operation F → Operation F
  | .Add a b => .Add (f a) (f b)
  | .Mul a b => .Mul (f a) (f b)
  | .Neg a => .Neg (f a)
  | .Inv a => .Inv (f a)
  | .Exp a e => .Exp (f a) e
  | .Poly p a => .Poly p (f a)
  | o => o

omit [Field F] [DecidableEq F] in
theorem renumber_eq (numbers : List Nat) (f : Nat → Nat) (o : Operation F) (h : ∀ c ∈ o.children, numbers[c]? = some (f c)) :
    o.renumber numbers = some (o.rename f) := by
  cases o <;> simp only [Operation.children, List.mem_cons, List.not_mem_nil, or_false, forall_eq_or_imp, forall_eq] at h <;>
    simp [Operation.renumber, Operation.rename, h]

omit [Field F] [DecidableEq F] in
theorem rename_children (f : Nat → Nat) (o : Operation F) : (o.rename f).children = o.children.map f := by
  cases o <;> rfl

theorem OpSem.rename {V W : List (Nat → F)} {o : Operation F} {v : Nat → F} (f : Nat → Nat) (h : OpSem root cell V o v)
    (hf : ∀ c ∈ o.children, ∀ x, V[c]? = some x → W[f c]? = some x) : OpSem root cell W (o.rename f) v := by
  cases o with
  | Constant c => exact h
  | Coset c s => exact h
  | Trace c o => exact h
  | Lookup t => exact h
  | Add a b => obtain ⟨x, y, h1, h2, h3⟩ := h; exact ⟨x, y, hf _ (by simp [Operation.children]) _ h1, hf _ (by simp [Operation.children]) _ h2, h3⟩
  | Mul a b => obtain ⟨x, y, h1, h2, h3⟩ := h; exact ⟨x, y, hf _ (by simp [Operation.children]) _ h1, hf _ (by simp [Operation.children]) _ h2, h3⟩
  | Neg a => obtain ⟨x, h1, h3⟩ := h; exact ⟨x, hf _ (by simp [Operation.children]) _ h1, h3⟩
  | Inv a => obtain ⟨x, h1, h3⟩ := h; exact ⟨x, hf _ (by simp [Operation.children]) _ h1, h3⟩
  | Exp a e => obtain ⟨x, h1, h3⟩ := h; exact ⟨x, hf _ (by simp [Operation.children]) _ h1, h3⟩
  | Poly p a => obtain ⟨x, h1, h3⟩ := h; exact ⟨x, hf _ (by simp [Operation.children]) _ h1, h3⟩

theorem retain_length {α β : Type} (used : List Bool) (l : List α) (m : List β) (h : l.length = m.length) :
    (AlgebraicGraph.retain used l).length = (AlgebraicGraph.retain used m).length := by
  induction used generalizing l m with
  | nil => rfl
  | cons b used ih =>
    cases l with
    | nil =>
      cases m with
      | nil => cases b <;> rfl
      | cons y m => simp at h
    | cons x l =>
      cases m with
      | nil => simp at h
      | cons y m =>
        have := ih l m (by simpa using h)
        cases b <;> simp [AlgebraicGraph.retain, this]

theorem getLast_of_max {α : Type} (l : List α) (n : Nat) (x : α) (h : l[n]? = some x) (hm : ∀ j y, l[j]? = some y → j ≤ n) : l.getLast? = some x := by
  have h1 := get_lt h
  obtain ⟨y, hy⟩ : ∃ y, l[l.length - 1]? = some y := ⟨_, List.getElem?_eq_getElem (by omega)⟩
  have h2 := hm _ y hy
  rw [List.getLast?_eq_getElem?, show l.length - 1 = n by omega, h]

/-- removing the nodes not needed for `tip` makes `tip` the last node -/
theorem tree_shake_spec (g : AlgebraicGraph F) (sem : Sem root cell size g.nodes V) (tip : Nat) (nd : Node F) (v : Nat → F) (hn : g.nodes[tip]? = some nd)
    (hv : V[tip]? = some v) : ∃ g' i V', g.tree_shake tip = some (g', i) ∧ Sem root cell size g'.nodes V' ∧ V'.getLast? = some v ∧
      (∀ nd' ∈ g'.nodes, nd'.period ≤ nd.period) ∧ (∃ nd', g'.nodes.getLast? = some nd') ∧ g'.cofactor = g.cofactor ∧ g'.coset_size = g.coset_size ∧ g'.trace_blowup = g.trace_blowup := by
  obtain ⟨used, hu, m, ht⟩ := recurse_spec sem (tip + 1) tip nd (List.replicate g.nodes.length false) (by omega) (by simp) hn
  have hlen : used.length = g.nodes.length := by rw [m.len]; simp
  have new : ∀ j : Nat, used[j]? = some true → j ≤ tip ∧ ∃ nd', g.nodes[j]? = some nd' ∧ nd'.period ≤ nd.period ∧ ∀ c ∈ nd'.op.children, used[c]? = some true := by
    intro j hj
    rcases m.new j hj with h | h
    · rw [List.getElem?_replicate] at h
      split at h <;> cases h
    · exact h
  let f : Nat → Nat := fun c => (AlgebraicGraph.renumbering used 0).getD c 0
  have hf : ∀ c : Nat, used[c]? = some true → f c = pos used c := by
    intro c hc
    have := renumbering_get used 0 c hc
    show (AlgebraicGraph.renumbering used 0).getD c 0 = _
    rw [List.getD_eq_getElem?_getD, this]; simp
  have hren : ∀ nd' ∈ g.nodes, (nd'.op.renumber (AlgebraicGraph.renumbering used 0)).map (fun op => { nd' with op := op }) =
      some ((fun nd' : Node F => { nd' with op := nd'.op.rename f }) nd') := by
    intro nd' hnd'
    obtain ⟨i, hi⟩ := List.mem_iff_getElem?.1 hnd'
    obtain ⟨x, hx⟩ := sem.column hi
    rw [renumber_eq _ f]
    · rfl
    · intro c hc
      have := (sem.op i nd' x hi hx).child c hc
      rw [List.length_take, sem.len] at this
      have hlt : c < (AlgebraicGraph.renumbering used 0).length := by rw [renumbering_length, hlen]; omega
      show _ = some ((AlgebraicGraph.renumbering used 0).getD c 0)
      rw [List.getD_eq_getElem?_getD, List.getElem?_eq_getElem hlt]; rfl
  have hmap := mapM_some _ _ _ hren
  have hidx := renumbering_get used 0 tip ht
  refine ⟨{ g with nodes := AlgebraicGraph.retain used (g.nodes.map fun nd' : Node F => { nd' with op := nd'.op.rename f }) }, 0 + pos used tip,
    AlgebraicGraph.retain used V, ?_, ?_, ?_, ?_, ?_, rfl, rfl, rfl⟩
  · unfold AlgebraicGraph.tree_shake
    rw [hu, Option.bind_some]
    dsimp only
    rw [hmap, Option.bind_some, hidx]
    rfl
  · have both : ∀ (j : Nat) nd' v', (AlgebraicGraph.retain used (g.nodes.map fun nd' : Node F => { nd' with op := nd'.op.rename f }))[j]? = some nd' →
        (AlgebraicGraph.retain used V)[j]? = some v' → ∃ i nd0, used[i]? = some true ∧ g.nodes[i]? = some nd0 ∧ V[i]? = some v' ∧ j = pos used i ∧
          nd' = { nd0 with op := nd0.op.rename f } := by
      intro j nd' v' h1 h2
      obtain ⟨i, a1, a2, a3⟩ := retain_inv _ _ _ _ h1
      obtain ⟨i', b1, b2, b3⟩ := retain_inv _ _ _ _ h2
      have : i = i' := pos_inj used i i' a1 b1 (by omega)
      subst this
      rw [List.getElem?_map] at a2
      obtain ⟨nd0, c1, c2⟩ := Option.map_eq_some_iff.1 a2
      exact ⟨i, nd0, a1, c1, b2, a3, c2.symm⟩
    refine ⟨?_, ?_, ?_⟩
    · exact retain_length used V _ (by simp [sem.len])
    · intro j nd' v' h1 h2
      obtain ⟨i, nd0, c1, c2, c3, rfl, rfl⟩ := both j nd' v' h1 h2
      obtain ⟨_, nd1, d1, d2, d3⟩ := new i c1
      rw [c2] at d1; cases d1
      refine (sem.op i nd0 v' c2 c3).rename f fun c hc x hx => ?_
      obtain ⟨e1, e2⟩ := take_get hx
      rw [hf c (d3 c hc), List.getElem?_take, if_pos (pos_lt used c i (d3 c hc) e2)]
      exact retain_get used V c x (d3 c hc) e1
    · intro j nd' v' h1 h2
      obtain ⟨i, nd0, c1, c2, c3, rfl, rfl⟩ := both j nd' v' h1 h2
      obtain ⟨_, nd1, d1, d2, d3⟩ := new i c1
      rw [c2] at d1; cases d1
      have hp := sem.period i nd0 v' c2 c3
      refine ⟨hp.pow, hp.rep, ?_, ?_, hp.values⟩
      · intro c o e
        refine hp.trace c o ?_
        dsimp only at e
        cases h0 : nd0.op <;> rw [h0] at e <;> simp only [Operation.rename] at e <;> first | exact e | cases e
      · intro c hc cn hcn
        dsimp only at hc
        rw [rename_children] at hc
        obtain ⟨c0, hc0, rfl⟩ := List.mem_map.1 hc
        have hu0 := d3 c0 hc0
        rw [hf c0 hu0] at hcn
        obtain ⟨i', f1, f2, f3⟩ := retain_inv _ _ _ _ hcn
        have : c0 = i' := pos_inj used c0 i' hu0 f1 f3
        subst this
        rw [List.getElem?_map] at f2
        obtain ⟨n0, f4, rfl⟩ := Option.map_eq_some_iff.1 f2
        exact hp.children c0 hc0 n0 f4
  · refine getLast_of_max _ (pos used tip) v (retain_get used V tip v ht hv) fun j y hy => ?_
    obtain ⟨i, a1, a2, rfl⟩ := retain_inv _ _ _ _ hy
    rcases Nat.lt_or_ge i tip with h | h
    · exact Nat.le_of_lt (pos_lt used i tip a1 h)
    · rw [show i = tip by have := (new i a1).1; omega]
  · intro nd' hnd'
    obtain ⟨j, hj⟩ := List.mem_iff_getElem?.1 hnd'
    obtain ⟨i, a1, a2, a3⟩ := retain_inv _ _ _ _ hj
    rw [List.getElem?_map] at a2
    obtain ⟨n0, f4, rfl⟩ := Option.map_eq_some_iff.1 a2
    obtain ⟨_, nd1, d1, d2, d3⟩ := new i a1
    rw [f4] at d1; cases d1
    exact d2
  · have h1 := retain_get used (g.nodes.map fun nd' : Node F => { nd' with op := nd'.op.rename f }) tip _ ht (by rw [List.getElem?_map, hn]; rfl)
    refine ⟨_, getLast_of_max _ (pos used tip) _ h1 fun j y hy => ?_⟩
    obtain ⟨i, a1, a2, rfl⟩ := retain_inv _ _ _ _ hy
    rcases Nat.lt_or_ge i tip with h | h
    · exact Nat.le_of_lt (pos_lt used i tip a1 h)
    · rw [show i = tip by have := (new i a1).1; omega]

end Dag
end Stark
end OpenZKP
