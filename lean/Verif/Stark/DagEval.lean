import Verif.Stark.DagLemmas

/-!
# Evaluating a graph row by row
-/

namespace OpenZKP
namespace Stark
namespace Dag
open Props AlgebraicGraph

variable {F : Type} [Field F] [DecidableEq F]
variable {root : Nat → Option F} {cell : Nat → Nat → Int → Option F} {size : Nat} {nodes : List (Node F)} {V : List (Nat → F)}

/-- sixteen rows of a column -/
def chunk (v : Nat → F) (row : Nat) : List F := (List.range 16).map fun j => v (row + j)

omit [Field F] [DecidableEq F] in
theorem chunk_length (v : Nat → F) (row : Nat) : (chunk v row).length = 16 := by simp [chunk]

omit [Field F] [DecidableEq F] in
theorem chunk_get (v : Nat → F) (row j : Nat) (hj : j < 16) : (chunk v row)[j]? = some (v (row + j)) := by
  unfold chunk
  rw [List.getElem?_map, List.getElem?_range hj]; rfl

omit [Field F] [DecidableEq F] in
theorem chunk_congr (v v' : Nat → F) (row row' : Nat) (h : ∀ j, j < 16 → v (row + j) = v' (row' + j)) : chunk v row = chunk v' row' :=
  List.map_congr_left fun j hj => h j (List.mem_range.1 hj)

/-- a node before the sixteen rows from `row` on are computed -/
def Pre (root : Nat → Option F) (nd : Node F) (v : Nat → F) (row : Nat) : Prop :=
  nd.values.length = 16 ∧
  match nd.op with
  | .Constant _ => nd.values = chunk v row
  | .Coset _ s =>
    if 16 < s then (∀ w, root s = some w → nd.note = w ^ 16) ∧ nd.values.map (· * nd.note) = chunk v row else nd.values = chunk v row
  | .Lookup t => t.length ≤ 16 → nd.values = chunk v row
  | _ => True

/-- a node after the sixteen rows from `row` on have been computed -/
def Post (root : Nat → Option F) (nd : Node F) (v : Nat → F) (row : Nat) : Prop :=
  nd.values = chunk v row ∧ ∀ c s, nd.op = .Coset c s → 16 < s → ∀ w, root s = some w → nd.note = w ^ 16

/-- the same node up to the scratch space -/
def Same (nd nd' : Node F) : Prop := nd'.op = nd.op ∧ nd'.period = nd.period ∧ nd'.values.length = 16

theorem initNode_spec (hroot : RootFn root) (nd : Node F) (v : Nat → F) (start : Nat) (ho : OpSem root cell V nd.op v) (hl : nd.values.length = 16) :
    ∃ nd', initNode root start nd = some nd' ∧ Same nd nd' ∧ Pre root nd' v start := by
  obtain ⟨op, hash, period, note, values⟩ := nd
  cases op with
  | Constant c =>
    refine ⟨_, rfl, ⟨rfl, rfl, by simp [CHUNK_SIZE]⟩, by simp [CHUNK_SIZE], ?_⟩
    apply List.ext_getElem?
    intro j
    by_cases hj : j < 16
    · rw [chunk_get _ _ _ hj, ho]; dsimp only; rw [List.getElem?_replicate, if_pos (show j < CHUNK_SIZE from hj)]
    · rw [List.getElem?_eq_none (by simp [CHUNK_SIZE]; omega), List.getElem?_eq_none (by rw [chunk_length]; omega)]
  | Coset c s =>
    obtain ⟨k, w, h1, h2, h3, h4⟩ := ho
    unfold initNode
    dsimp only
    rw [h3, Option.bind_some]
    have hw : w ≠ 0 := root_ne hroot k h2 w (by rw [← h1]; exact h3)
    have e : (List.range 16).map (fun i => c * w ^ start * w ^ i) = chunk v start := by
      apply List.map_congr_left
      intro j _
      rw [h4, pow_add, mul_assoc]
    split
    · rename_i hs
      rw [show finv (w ^ CHUNK_SIZE) = some (w ^ 16)⁻¹ by unfold finv; rw [if_neg (pow_ne_zero _ hw)]; rfl, Option.map_some]
      refine ⟨_, rfl, ⟨rfl, rfl, by simp [CHUNK_SIZE]⟩, by simp [CHUNK_SIZE], ?_⟩
      dsimp only
      rw [if_pos (show 16 < s from hs)]
      refine ⟨fun w' hw' => by rw [h3] at hw'; cases hw'; rfl, ?_⟩
      rw [List.map_map, show CHUNK_SIZE = 16 from rfl, e]
      conv_rhs => rw [← List.map_id (chunk v start)]
      apply List.map_congr_left
      intro y _
      simp only [Function.comp, id]
      rw [mul_assoc, inv_mul_cancel₀ (pow_ne_zero _ hw), mul_one]
    · rename_i hs
      refine ⟨_, rfl, ⟨rfl, rfl, by simp [CHUNK_SIZE]⟩, by simp [CHUNK_SIZE], ?_⟩
      dsimp only
      rw [if_neg (show ¬ 16 < s from hs)]
      exact e
  | Lookup t =>
    obtain ⟨a, h1, h2⟩ := ho
    unfold initNode
    dsimp only
    split
    · rename_i hle
      have : t.length ≠ 0 ∧ CHUNK_SIZE % t.length = 0 := by
        rw [h1]
        refine ⟨(Nat.two_pow_pos a).ne', ?_⟩
        rw [h1, show CHUNK_SIZE = 2 ^ 4 from rfl] at hle
        exact Nat.mod_eq_zero_of_dvd (Nat.pow_dvd_pow 2 ((Nat.pow_le_pow_iff_right (by norm_num)).1 hle))
      rw [if_pos this, mapM_some _ (fun j => v (start + j)) _ (fun j _ => h2 _), Option.map_some]
      exact ⟨_, rfl, ⟨rfl, rfl, by simp [CHUNK_SIZE]⟩, by simp [CHUNK_SIZE], fun _ => rfl⟩
    · rename_i hle
      exact ⟨_, rfl, ⟨rfl, rfl, hl⟩, hl, fun h => absurd h hle⟩
  | Trace c o => exact ⟨_, rfl, ⟨rfl, rfl, hl⟩, hl, trivial⟩
  | Add a b => exact ⟨_, rfl, ⟨rfl, rfl, hl⟩, hl, trivial⟩
  | Mul a b => exact ⟨_, rfl, ⟨rfl, rfl, hl⟩, hl, trivial⟩
  | Neg a => exact ⟨_, rfl, ⟨rfl, rfl, hl⟩, hl, trivial⟩
  | Inv a => exact ⟨_, rfl, ⟨rfl, rfl, hl⟩, hl, trivial⟩
  | Exp a e => exact ⟨_, rfl, ⟨rfl, rfl, hl⟩, hl, trivial⟩
  | Poly p a => exact ⟨_, rfl, ⟨rfl, rfl, hl⟩, hl, trivial⟩

theorem mapM_exists {α β : Type} (f : α → Option β) (l : List α) (h : ∀ x ∈ l, ∃ y, f x = some y) :
    ∃ l', l.mapM f = some l' ∧ l'.length = l.length ∧ ∀ (i : Nat) x, l[i]? = some x → ∃ y, l'[i]? = some y ∧ f x = some y := by
  induction l with
  | nil => exact ⟨[], rfl, rfl, by simp⟩
  | cons a l ih =>
    obtain ⟨y, hy⟩ := h a (by simp)
    obtain ⟨l', h1, h2, h3⟩ := ih fun x hx => h x (by simp [hx])
    refine ⟨y :: l', by rw [List.mapM_cons, hy, h1]; rfl, by simp [h2], fun i x hx => ?_⟩
    cases i with
    | zero => simp at hx; subst hx; exact ⟨y, rfl, hy⟩
    | succ i => exact h3 i x (by simpa using hx)

/-- a list of nodes with the same operations and periods gives the same columns -/
theorem Sem.same (sem : Sem root cell size nodes V) (nodes' : List (Node F)) (hl : nodes'.length = nodes.length)
    (h : ∀ (i : Nat) nd, nodes[i]? = some nd → ∃ nd', nodes'[i]? = some nd' ∧ Same nd nd') : Sem root cell size nodes' V := by
  have h' : ∀ (i : Nat) nd', nodes'[i]? = some nd' → ∃ nd, nodes[i]? = some nd ∧ Same nd nd' := by
    intro i nd' hn
    have := get_lt hn
    obtain ⟨nd, hnd⟩ : ∃ nd, nodes[i]? = some nd := ⟨_, List.getElem?_eq_getElem (by omega)⟩
    obtain ⟨nd'', h1, h2⟩ := h i nd hnd
    rw [hn] at h1; cases h1
    exact ⟨nd, hnd, h2⟩
  refine ⟨sem.len.trans hl.symm, fun i nd' v hn hv => ?_, fun i nd' v hn hv => ?_⟩
  · obtain ⟨nd, h1, h2, h3, h4⟩ := h' i nd' hn
    rw [h2]; exact sem.op i nd v h1 hv
  · obtain ⟨nd, h1, h2, h3, h4⟩ := h' i nd' hn
    have hp := sem.period i nd v h1 hv
    refine ⟨by rw [h3]; exact hp.pow, by rw [h3]; exact hp.rep, fun c o e => by rw [h3]; exact hp.trace c o (by rw [← h2]; exact e), fun j hj cn hcn => ?_, h4⟩
    obtain ⟨cn0, g1, g2, g3, g4⟩ := h' j cn hcn
    rw [g3, h3]
    exact hp.children j (by rw [← h2]; exact hj) cn0 g1

theorem init_spec (hroot : RootFn root) (g : AlgebraicGraph F) (sem : Sem root cell size g.nodes V) (start : Nat) (hs : start % 16 = 0) :
    ∃ g', g.init root start = some g' ∧ Sem root cell size g'.nodes V ∧ g'.row = start ∧ g'.trace_blowup = g.trace_blowup ∧
      g'.nodes.length = g.nodes.length ∧ ∀ (i : Nat) nd v, g'.nodes[i]? = some nd → V[i]? = some v → Pre root nd v start := by
  have h1 : ∀ (i : Nat) nd v, g.nodes[i]? = some nd → V[i]? = some v → ∃ nd', initNode root start nd = some nd' ∧ Same nd nd' ∧ Pre root nd' v start :=
    fun i nd v hn hv => initNode_spec hroot nd v start (sem.op i nd v hn hv) (sem.period i nd v hn hv).values
  obtain ⟨nodes', e1, e2, e3⟩ := mapM_exists (initNode root start) g.nodes (by
    intro nd hnd
    obtain ⟨i, hi⟩ := List.mem_iff_getElem?.1 hnd
    obtain ⟨v, hv⟩ := sem.column hi
    obtain ⟨nd', h, _⟩ := h1 i nd v hi hv
    exact ⟨nd', h⟩)
  refine ⟨{ g with row := start, nodes := nodes' }, ?_, ?_, rfl, rfl, e2, ?_⟩
  · unfold AlgebraicGraph.init
    rw [if_pos (show start % CHUNK_SIZE = 0 from hs), e1]; rfl
  · refine sem.same nodes' e2 fun i nd hi => ?_
    obtain ⟨nd', a1, a2⟩ := e3 i nd hi
    obtain ⟨v, hv⟩ := sem.column hi
    obtain ⟨nd'', b1, b2, _⟩ := h1 i nd v hi hv
    rw [a2] at b1; cases b1
    exact ⟨nd', a1, b2⟩
  · intro i nd' v hn hv
    obtain ⟨nd, hnd⟩ := sem.node hv
    obtain ⟨nd'', a1, a2⟩ := e3 i nd hnd
    dsimp only at hn
    rw [hn] at a1; cases a1
    obtain ⟨nd'', b1, _, b3⟩ := h1 i nd v hnd hv
    rw [a2] at b1; cases b1
    exact b3

theorem nextNode_spec (blowup row : Nat) (t : TraceTable F) (previous : List (Node F)) (nd : Node F) (v : Nat → F) (i : Nat)
    (ho : OpSem root (cellOf blowup t) (V.take i) nd.op v) (hpre : Pre root nd v row)
    (hprev : ∀ (j : Nat) x, (V.take i)[j]? = some x → ∃ pn, previous[j]? = some pn ∧ pn.values = chunk x row) :
    ∃ nd', nextNode blowup row t previous nd = some nd' ∧ Same nd nd' ∧ Post root nd' v row := by
  obtain ⟨op, hash, period, note, values⟩ := nd
  obtain ⟨hl, hpre⟩ := hpre
  have at' : ∀ (j : Nat) x, (V.take i)[j]? = some x → (previous[j]?).map Node.values = some (chunk x row) := by
    intro j x hx
    obtain ⟨pn, h1, h2⟩ := hprev j x hx
    rw [h1, Option.map_some, h2]
  have fin : ∀ vs : List F, (∀ c s, op ≠ .Coset c s) → vs = chunk v row →
      Same ⟨op, hash, period, note, values⟩ ⟨op, hash, period, note, vs⟩ ∧ Post root ⟨op, hash, period, note, vs⟩ v row := by
    rintro vs hc rfl
    exact ⟨⟨rfl, rfl, chunk_length _ _⟩, rfl, fun c s e => absurd e (hc c s)⟩
  have zip : ∀ (f : F → F → F) (x y : Nat → F), List.zipWith f (chunk x row) (chunk y row) = chunk (fun r => f (x r) (y r)) row := by
    intro f x y
    unfold chunk
    rw [List.zipWith_map, List.zipWith_self]
  have mp : ∀ (f : F → F) (x : Nat → F), (chunk x row).map f = chunk (fun r => f (x r)) row := by
    intro f x
    unfold chunk
    rw [List.map_map]; rfl
  cases op with
  | Constant c => exact ⟨_, rfl, fin values (by simp) hpre⟩
  | Coset c s =>
    unfold nextNode
    dsimp only at hpre ⊢
    split
    · rename_i hs
      rw [if_pos (show 16 < s from hs)] at hpre
      refine ⟨_, rfl, ⟨rfl, rfl, by simpa using hl⟩, hpre.2, fun c' s' e _ w hw => ?_⟩
      dsimp only at e ⊢
      cases e
      exact hpre.1 w hw
    · rename_i hs
      rw [if_neg (show ¬ 16 < s from hs)] at hpre
      refine ⟨_, rfl, ⟨rfl, rfl, hl⟩, hpre, fun c' s' e hs' => ?_⟩
      dsimp only at e
      cases e
      exact absurd hs' hs
  | Trace c o =>
    unfold nextNode
    dsimp only
    have : ∀ j ∈ List.range CHUNK_SIZE, ((traceRow blowup t.trace_length (row + j) o).bind fun r => t.get r c) = some (v (row + j)) := fun j _ => ho (row + j)
    rw [mapM_some _ (fun j => v (row + j)) _ this, Option.map_some]
    exact ⟨_, rfl, fin _ (by simp) rfl⟩
  | Lookup tb =>
    obtain ⟨a, h1, h2⟩ := ho
    unfold nextNode
    dsimp only at hpre ⊢
    split
    · rw [mapM_some _ (fun j => v (row + j)) _ (fun j _ => h2 _), Option.map_some]
      exact ⟨_, rfl, fin _ (by simp) rfl⟩
    · rename_i hs
      exact ⟨_, rfl, fin values (by simp) (hpre (by unfold CHUNK_SIZE at hs; omega))⟩
  | Add a b =>
    obtain ⟨x, y, ha, hb, hv⟩ := ho
    unfold nextNode
    dsimp only
    rw [at' a x ha, Option.bind_some, at' b y hb, Option.map_some]
    refine ⟨_, rfl, fin _ (by simp) ?_⟩
    rw [zip]; exact chunk_congr _ _ _ _ fun j _ => (hv _).symm
  | Mul a b =>
    obtain ⟨x, y, ha, hb, hv⟩ := ho
    unfold nextNode
    dsimp only
    rw [at' a x ha, Option.bind_some, at' b y hb, Option.map_some]
    refine ⟨_, rfl, fin _ (by simp) ?_⟩
    rw [zip]; exact chunk_congr _ _ _ _ fun j _ => (hv _).symm
  | Neg a =>
    obtain ⟨x, ha, hv⟩ := ho
    unfold nextNode
    dsimp only
    rw [at' a x ha, Option.map_some]
    refine ⟨_, rfl, fin _ (by simp) ?_⟩
    rw [mp]; exact chunk_congr _ _ _ _ fun j _ => (hv _).symm
  | Exp a e =>
    obtain ⟨x, ha, hv⟩ := ho
    unfold nextNode
    dsimp only
    rw [at' a x ha, Option.map_some]
    refine ⟨_, rfl, fin _ (by simp) ?_⟩
    rw [mp]; exact chunk_congr _ _ _ _ fun j _ => (hv _).symm
  | Poly p a =>
    obtain ⟨x, ha, hv⟩ := ho
    unfold nextNode
    dsimp only
    rw [at' a x ha, Option.map_some]
    refine ⟨_, rfl, fin _ (by simp) ?_⟩
    rw [mp]; exact chunk_congr _ _ _ _ fun j _ => (hv _).symm
  | Inv a =>
    obtain ⟨x, ha, hv⟩ := ho
    unfold nextNode
    dsimp only
    rw [at' a x ha, Option.bind_some]
    have hb := C17_invert_batch (chunk x row)
    rw [hb.2.2.1 values (by rw [chunk_length]; exact hl), hb.1, Option.map_some]
    · refine ⟨_, rfl, fin _ (by simp) ?_⟩
      rw [mp]; exact chunk_congr _ _ _ _ fun j _ => (hv _).2.symm
    · intro y hy
      obtain ⟨j, _, rfl⟩ := List.mem_map.1 hy
      exact (hv _).1

theorem nextNodes_spec (blowup row : Nat) (t : TraceTable F) (sem : Sem root (cellOf blowup t) size nodes V)
    (hpre : ∀ (i : Nat) nd v, nodes[i]? = some nd → V[i]? = some v → Pre root nd v row) (rest : List (Node F)) (previous : List (Node F))
    (hrest : rest = nodes.drop previous.length)
    (hle : previous.length ≤ nodes.length)
    (hprev : ∀ (i : Nat) nd v, nodes[i]? = some nd → V[i]? = some v → i < previous.length → ∃ nd', previous[i]? = some nd' ∧ Same nd nd' ∧ Post root nd' v row) :
    ∃ nodes', nextNodes blowup row t previous rest = some nodes' ∧ nodes'.length = nodes.length ∧
      ∀ (i : Nat) nd v, nodes[i]? = some nd → V[i]? = some v → ∃ nd', nodes'[i]? = some nd' ∧ Same nd nd' ∧ Post root nd' v row := by
  induction rest generalizing previous with
  | nil =>
    have : previous.length = nodes.length := by
      have := congrArg List.length hrest
      rw [List.length_drop] at this
      simp at this; omega
    refine ⟨previous, rfl, this, fun i nd v hn hv => hprev i nd v hn hv ?_⟩
    rw [this]; exact get_lt hn
  | cons nd rest ih =>
    have hn : nodes[previous.length]? = some nd := by
      rw [← List.head?_drop, ← hrest]; rfl
    obtain ⟨v, hv⟩ := sem.column hn
    obtain ⟨nd', h1, h2, h3⟩ := nextNode_spec blowup row t previous nd v previous.length (sem.op _ nd v hn hv) (hpre _ nd v hn hv) (by
      intro j x hx
      obtain ⟨h1, h2⟩ := take_get hx
      obtain ⟨ndj, hndj⟩ := sem.node h1
      obtain ⟨nd', g1, g2, g3⟩ := hprev j ndj x hndj h1 h2
      exact ⟨nd', g1, g3.1⟩)
    have hlt := get_lt hn
    obtain ⟨nodes', e1, e2, e3⟩ := ih (previous ++ [nd']) (by
        rw [List.length_append, List.length_singleton, ← List.drop_drop, ← hrest]; rfl) (by simp; omega) (by
      intro i ndi vi hi hvi hlt'
      rw [List.length_append, List.length_singleton] at hlt'
      by_cases e : i = previous.length
      · subst e
        rw [hn] at hi; cases hi
        rw [hv] at hvi; cases hvi
        exact ⟨nd', by simp, h2, h3⟩
      · obtain ⟨x, x1, x2⟩ := hprev i ndi vi hi hvi (by omega)
        exact ⟨x, by rw [List.getElem?_append_left (by omega)]; exact x1, x2⟩)
    exact ⟨nodes', by rw [nextNodes, h1, Option.bind_some, e1], e2, e3⟩

/-- after the last row of a chunk the node is ready for the next chunk -/
theorem post_pre (hroot : RootFn root) (nd : Node F) (v : Nat → F) (row : Nat) (ho : OpSem root cell V nd.op v) (h : Post root nd v row) :
    Pre root nd v (row + 16) := by
  obtain ⟨op, hash, period, note, values⟩ := nd
  obtain ⟨h1, h2⟩ := h
  dsimp only at h1 h2 ho
  subst h1
  refine ⟨chunk_length _ _, ?_⟩
  cases op with
  | Constant c => exact chunk_congr _ _ _ _ fun j _ => by rw [ho, ho]
  | Coset c s =>
    obtain ⟨k, w, g1, g2, g3, g4⟩ := ho
    dsimp only
    split
    · rename_i hs
      have hn := h2 c s rfl hs w g3
      refine ⟨fun w' hw' => by rw [g3] at hw'; cases hw'; exact hn, ?_⟩
      subst hn
      unfold chunk
      rw [List.map_map]
      apply List.map_congr_left
      intro j _
      simp only [Function.comp]
      rw [g4, g4, show row + 16 + j = row + j + 16 by omega, pow_add w (row + j) 16, mul_assoc]
    · rename_i hs
      refine chunk_congr _ _ _ _ fun j _ => ?_
      rw [g1] at g3 hs
      have hk : k ≤ 4 := by
        by_contra hc
        have : 2 ^ 5 ≤ 2 ^ k := Nat.pow_le_pow_right (by norm_num) (by omega)
        omega
      have e : w ^ 16 = 1 := by
        have e16 : (16 : Nat) = 2 ^ k * 2 ^ (4 - k) := by rw [← pow_add, show k + (4 - k) = 4 by omega]; norm_num
        rw [e16, pow_mul, root_rep hroot k g2 w g3, one_pow]
      rw [g4, g4, show row + 16 + j = row + j + 16 by omega, pow_add w (row + j) 16, e, mul_one]
  | Lookup t =>
    obtain ⟨a, g1, g2⟩ := ho
    intro hle
    refine chunk_congr _ _ _ _ fun j _ => ?_
    obtain ⟨m, hm⟩ : t.length ∣ 16 := by
      rw [g1] at hle ⊢
      rw [show (16 : Nat) = 2 ^ 4 from rfl] at hle ⊢
      exact Nat.pow_dvd_pow 2 ((Nat.pow_le_pow_iff_right (by norm_num)).1 hle)
    have e1 := g2 (row + j)
    have e2 := g2 (row + 16 + j)
    rw [show row + 16 + j = row + j + t.length * m by omega, Nat.add_mul_mod_self_left, e1] at e2
    rw [show row + 16 + j = row + j + t.length * m by omega]
    exact Option.some.inj e2
  | Trace c o => trivial
  | Add a b => trivial
  | Mul a b => trivial
  | Neg a => trivial
  | Inv a => trivial
  | Exp a e => trivial
  | Poly p a => trivial

/-- the state of a graph between two calls of `next` -/
structure At (root : Nat → Option F) (V : List (Nat → F)) (g : AlgebraicGraph F) : Prop where
  pre : g.row % 16 = 0 → ∀ (i : Nat) nd v, g.nodes[i]? = some nd → V[i]? = some v → Pre root nd v g.row
  post : g.row % 16 ≠ 0 → ∀ (i : Nat) nd v, g.nodes[i]? = some nd → V[i]? = some v → Post root nd v (g.row - g.row % 16)

theorem last_both (sem : Sem root cell size nodes V) (v : Nat → F) (hv : V.getLast? = some v) :
    ∃ nd, nodes.getLast? = some nd ∧ nodes[nodes.length - 1]? = some nd ∧ V[nodes.length - 1]? = some v := by
  rw [List.getLast?_eq_getElem?, sem.len] at hv
  obtain ⟨nd, hn⟩ := sem.node hv
  exact ⟨nd, by rw [List.getLast?_eq_getElem?, hn], hn, hv⟩

theorem next_spec (hroot : RootFn root) (t : TraceTable F) (g : AlgebraicGraph F) (sem : Sem root (cellOf g.trace_blowup t) size g.nodes V) (hat : At root V g)
    (v : Nat → F) (hv : V.getLast? = some v) :
    ∃ g', g.next t = some (v g.row, g') ∧ Sem root (cellOf g.trace_blowup t) size g'.nodes V ∧ At root V g' ∧ g'.row = g.row + 1 ∧ g'.trace_blowup = g.trace_blowup := by
  unfold AlgebraicGraph.next
  have turn : ∀ (ns : List (Node F)) (base : Nat), base % 16 = 0 → g.row - g.row % 16 = base → Sem root (cellOf g.trace_blowup t) size ns V →
      (∀ (i : Nat) nd v, ns[i]? = some nd → V[i]? = some v → Post root nd v base) → At root V { g with nodes := ns, row := g.row + 1 } := by
    intro ns base hb hbase hs hp
    refine ⟨fun h i nd x hn hx => ?_, fun h i nd x hn hx => ?_⟩
    · dsimp only at h hn ⊢
      have := post_pre hroot nd x base (hs.op i nd x hn hx) (hp i nd x hn hx)
      rwa [show g.row + 1 = base + 16 by omega]
    · dsimp only at h hn ⊢
      rw [show g.row + 1 - (g.row + 1) % 16 = base by omega]
      exact hp i nd x hn hx
  split
  · rename_i h
    have hne : g.row % 16 ≠ 0 := by unfold CHUNK_SIZE at h; omega
    obtain ⟨nd, h1, h2, h3⟩ := last_both sem v hv
    have hpost := hat.post hne _ nd v h2 h3
    rw [h1, Option.bind_some, hpost.1, show CHUNK_SIZE = 16 from rfl, chunk_get _ _ _ (Nat.mod_lt _ (by norm_num)), Option.map_some]
    refine ⟨{ g with row := g.row + 1 }, ?_, sem, ?_, rfl, rfl⟩
    · rw [show g.row - g.row % 16 + g.row % 16 = g.row by have := Nat.mod_le g.row 16; omega]
    · exact turn g.nodes _ (by omega) rfl sem (fun i nd x hn hx => hat.post hne i nd x hn hx)
  · rename_i h
    have h0 : g.row % 16 = 0 := by unfold CHUNK_SIZE at h; omega
    obtain ⟨ns, e1, e2, e3⟩ := nextNodes_spec g.trace_blowup g.row t sem (hat.pre h0) g.nodes [] rfl (by simp) (by simp)
    have sem' : Sem root (cellOf g.trace_blowup t) size ns V := sem.same ns e2 fun i nd hi => by
      obtain ⟨x, hx⟩ := sem.column hi
      obtain ⟨nd', a1, a2, _⟩ := e3 i nd x hi hx
      exact ⟨nd', a1, a2⟩
    have post' : ∀ (i : Nat) nd v, ns[i]? = some nd → V[i]? = some v → Post root nd v g.row := by
      intro i nd x hn hx
      obtain ⟨nd0, h0⟩ := sem.node hx
      obtain ⟨nd', a1, _, a3⟩ := e3 i nd0 x h0 hx
      rw [hn] at a1; cases a1
      exact a3
    obtain ⟨nd, h1, h2, h3⟩ := last_both sem' v hv
    rw [e1, Option.bind_some, h1, Option.bind_some, (post' _ nd v h2 h3).1, chunk_get _ _ 0 (by norm_num), Option.map_some]
    exact ⟨_, rfl, sem', turn ns g.row h0 (by omega) sem' post', rfl, rfl⟩

theorem take_spec (hroot : RootFn root) (t : TraceTable F) (count : Nat) (g : AlgebraicGraph F) (sem : Sem root (cellOf g.trace_blowup t) size g.nodes V) (hat : At root V g)
    (v : Nat → F) (hv : V.getLast? = some v) : take t count g = some ((List.range count).map fun j => v (g.row + j)) := by
  induction count generalizing g with
  | zero => rfl
  | succ count ih =>
    obtain ⟨g', h1, h2, h3, h4, h5⟩ := next_spec hroot t g sem hat v hv
    rw [take, h1, Option.bind_some]
    dsimp only
    rw [ih g' (by rw [h5]; exact h2) h3, Option.map_some, List.range_succ_eq_map, List.map_cons, List.map_map, h4]
    congr 2
    apply List.map_congr_left
    intro j _
    simp only [Function.comp]
    congr 1; omega

/-- a graph initialised at `start` yields the rows of its last column from `start` on -/
theorem init_take (hroot : RootFn root) (t : TraceTable F) (g : AlgebraicGraph F) (sem : Sem root (cellOf g.trace_blowup t) size g.nodes V)
    (v : Nat → F) (hv : V.getLast? = some v) (start count : Nat) (hs : start % 16 = 0) :
    ∃ g', g.init root start = some g' ∧ Sem root (cellOf g'.trace_blowup t) size g'.nodes V ∧ g'.trace_blowup = g.trace_blowup ∧
      take t count g' = some ((List.range count).map fun j => v (start + j)) := by
  obtain ⟨g', h1, h2, h3, h4, h5, h6⟩ := init_spec hroot g sem start hs
  refine ⟨g', h1, by rw [h4]; exact h2, h4, ?_⟩
  have := take_spec hroot t count g' (by rw [h4]; exact h2) ⟨fun _ => by rw [h3]; exact h6, fun h => absurd (by rw [h3]; exact hs) h⟩ v hv
  rw [h3] at this
  exact this

/-! ## Lookup tables -/

theorem Sem.no_trace (sem : Sem root cell size nodes V) (h : ∀ nd ∈ nodes, nd.period < size) (cell' : Nat → Nat → Int → Option F) : Sem root cell' size nodes V := by
  refine ⟨sem.len, fun i nd v hn hv => ?_, sem.period⟩
  have h1 := sem.op i nd v hn hv
  have h2 := h nd (List.mem_of_getElem? hn)
  have h3 := (sem.period i nd v hn hv).trace
  cases e : nd.op with
  | Trace c o => have := h3 c o e; omega
  | _ => rw [e] at h1; exact h1

theorem make_lookup_spec (hroot : RootFn root) (g : AlgebraicGraph F) (sem : Sem root cell size g.nodes V) (i : Nat) (nd : Node F) (v : Nat → F) (hn : g.nodes[i]? = some nd)
    (hv : V[i]? = some v) (hp : nd.period ≤ 1024) (hps : nd.period < size) : g.make_lookup root i = some ((List.range nd.period).map v) := by
  obtain ⟨g', idx, V', h1, h2, h3, h4, h5, h6, h7, h8⟩ := tree_shake_spec g sem i nd v hn hv
  unfold AlgebraicGraph.make_lookup
  rw [show g.periodAt i = some nd.period by unfold AlgebraicGraph.periodAt; rw [hn]; rfl, Option.bind_some, if_pos hp, h1, Option.bind_some]
  have sem' := h2.no_trace (fun x hx => Nat.lt_of_le_of_lt (h4 x hx) hps) (cellOf g'.trace_blowup (TraceTable.new 0 0))
  obtain ⟨g'', e1, e2, e3, e4⟩ := init_take hroot (TraceTable.new 0 0) g' sem' v h3 0 nd.period (by norm_num)
  dsimp only
  rw [e1, Option.bind_some, e4]
  congr 1
  apply List.map_congr_left
  intro j _
  rw [Nat.zero_add]

theorem lookupLoop_spec (hroot : RootFn root) (treshold : Nat) (ht1 : treshold ≤ 1024) (ht2 : treshold < size) (count : Nat) : ∀ (i : Nat) (g : AlgebraicGraph F), i + count = g.nodes.length →
    Sem root cell size g.nodes V → ∃ g', lookupLoop root treshold count i g = some g' ∧ Sem root cell size g'.nodes V ∧
      g'.cofactor = g.cofactor ∧ g'.coset_size = g.coset_size ∧ g'.trace_blowup = g.trace_blowup := by
  induction count with
  | zero => intro i g _ sem; exact ⟨g, rfl, sem, rfl, rfl, rfl⟩
  | succ count ih =>
    intro i g hi sem
    obtain ⟨nd, hn⟩ : ∃ nd, g.nodes[i]? = some nd := ⟨_, List.getElem?_eq_getElem (by omega)⟩
    obtain ⟨v, hv⟩ := sem.column hn
    have hp := sem.period i nd v hn hv
    rw [lookupLoop, hn, Option.bind_some]
    split
    · exact ih (i + 1) g (by omega) sem
    · rename_i hle
      split
      · exact ih (i + 1) g (by omega) sem
      · rw [make_lookup_spec hroot g sem i nd v hn hv (by omega) (by omega), Option.bind_some]
        refine ih (i + 1) _ (by simp; omega) ?_
        dsimp only
        have look : ∀ (j : Nat) nd', (g.nodes.set i { nd with op := .Lookup ((List.range nd.period).map v) })[j]? = some nd' →
            (j = i ∧ nd' = { nd with op := .Lookup ((List.range nd.period).map v) }) ∨ (j ≠ i ∧ g.nodes[j]? = some nd') := by
          intro j nd' h
          by_cases e : i = j
          · subst e
            rw [List.getElem?_set_self (get_lt hn)] at h
            exact .inl ⟨rfl, (Option.some.inj h).symm⟩
          · rw [List.getElem?_set_ne e] at h
            exact .inr ⟨fun e' => e e'.symm, h⟩
        have per : ∀ (j : Nat) nd', (g.nodes.set i { nd with op := .Lookup ((List.range nd.period).map v) })[j]? = some nd' →
            ∃ nd0, g.nodes[j]? = some nd0 ∧ nd0.period = nd'.period := by
          intro j nd' h
          rcases look j nd' h with ⟨rfl, rfl⟩ | ⟨_, h⟩
          · exact ⟨nd, hn, rfl⟩
          · exact ⟨nd', h, rfl⟩
        refine ⟨by simp [sem.len], fun j nd' x hn' hx => ?_, fun j nd' x hn' hx => ?_⟩
        · rcases look j nd' hn' with ⟨rfl, rfl⟩ | ⟨_, h⟩
          · rw [hv] at hx; cases hx
            obtain ⟨a, ha⟩ := hp.pow
            refine ⟨a, by simpa using ha, fun r => ?_⟩
            rw [List.length_map, List.length_range, List.getElem?_map, List.getElem?_range (Nat.mod_lt _ (by rw [ha]; exact Nat.two_pow_pos a)), Option.map_some]
            congr 1
            have := rep_mul hp.rep (r / nd.period) (r % nd.period)
            rw [← this, Nat.mul_comm, Nat.mod_add_div]
          · exact sem.op j nd' x h hx
        · rcases look j nd' hn' with ⟨rfl, rfl⟩ | ⟨_, h⟩
          · rw [hv] at hx; cases hx
            exact ⟨hp.pow, hp.rep, by simp, by simp [Operation.children], hp.values⟩
          · have hp' := sem.period j nd' x h hx
            refine ⟨hp'.pow, hp'.rep, hp'.trace, fun c hc cn hcn => ?_, hp'.values⟩
            obtain ⟨c0, h1, h2⟩ := per c cn hcn
            rw [← h2]
            exact hp'.children c hc c0 h1

theorem lookup_tables_spec (hroot : RootFn root) (g : AlgebraicGraph F) (sem : Sem root cell size g.nodes V) (hsize : g.coset_size = size) (hpos : 0 < size) :
    ∃ g', g.lookup_tables root = some g' ∧ Sem root cell size g'.nodes V ∧
      g'.cofactor = g.cofactor ∧ g'.coset_size = g.coset_size ∧ g'.trace_blowup = g.trace_blowup := by
  unfold AlgebraicGraph.lookup_tables
  exact lookupLoop_spec hroot _ (by unfold LOOKUP_SIZE; omega) (by unfold LOOKUP_SIZE; omega) g.nodes.length 0 g (by omega) sem

end Dag
end Stark
end OpenZKP
