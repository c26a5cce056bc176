import Verif.Stark.Component
import Verif.Props.Trace
import Verif.Props.Fri

/-!
# Component combinators: C47
-/

namespace OpenZKP
namespace Props
open Stark FFT

section
variable {F : Type} [Field F] [DecidableEq F] {C W C' W' : Type}

/-! ## Specification -/

/-- The component has polynomials of size `n`, and for the witness it makes a trace inside its own table. -/
def Fits (c : Component F C W) (w : W) (n : Nat) : Prop :=
  c.polynomial_size = some n ∧ ∃ ws, c.trace w = some ws ∧ ∀ p ∈ ws, p.1 < c.num_polynomials ∧ p.2.1 < n

/-- `t` is the trace table of the component for the witness, with `n` rows. -/
def IsTrace (c : Component F C W) (w : W) (n : Nat) (t : TraceTable F) : Prop :=
  c.trace_table w = some t ∧ t.trace_length = n ∧ t.num_columns = c.num_polynomials ∧ TableOk t

/-! ## Traces -/

/-- the content of the table after the writes -/
def content (ws : List (Nat × Nat × F)) : Nat → Nat → F := written (ws.map fun w => (w.2.1, w.1, w.2.2))

omit [DecidableEq F] in
theorem written_append (a b : List (Nat × Nat × F)) (i j : Nat) :
    written (a ++ b) i j = b.foldl (fun v w => if i = w.1 ∧ j = w.2.1 then w.2.2 else v) (written a i j) := by
  induction b using List.reverseRecOn with
  | nil => simp
  | append_singleton b w ih =>
    rw [← List.append_assoc, List.foldl_append, ← ih]
    unfold written
    rw [List.foldl_append]; rfl

omit [DecidableEq F] in
theorem content_foldl (ws : List (Nat × Nat × F)) (i j : Nat) :
    content ws i j = ws.foldl (fun v w => if i = w.2.1 ∧ j = w.1 then w.2.2 else v) 0 := by
  unfold content
  have := written_append [] (ws.map fun w => (w.2.1, w.1, w.2.2)) i j
  rw [List.nil_append] at this
  rw [this, List.foldl_map]; rfl

omit [DecidableEq F] in
theorem content_append (a b : List (Nat × Nat × F)) (i j : Nat) :
    content (a ++ b) i j = b.foldl (fun v w => if i = w.2.1 ∧ j = w.1 then w.2.2 else v) (content a i j) := by
  rw [content_foldl, content_foldl, List.foldl_append]

omit [Field F] [DecidableEq F] in
/-- writes elsewhere do not matter -/
theorem foldl_miss (ws : List (Nat × Nat × F)) (i j : Nat) (v : F) (h : ∀ w ∈ ws, ¬ (i = w.2.1 ∧ j = w.1)) :
    ws.foldl (fun v w => if i = w.2.1 ∧ j = w.1 then w.2.2 else v) v = v := by
  induction ws generalizing v with
  | nil => rfl
  | cons w ws ih =>
    rw [List.foldl_cons, if_neg (h w (by simp)), ih v (fun w' h' => h w' (by simp [h']))]

omit [Field F] [DecidableEq F] in
/-- writes moved by an injective map of cells -/
theorem foldl_moved (ws : List (Nat × Nat × F)) (φ : Nat → Nat → Nat × Nat) (i j : Nat) (v : F)
    (h : ∀ w ∈ ws, φ j i = φ w.1 w.2.1 → i = w.2.1 ∧ j = w.1) :
    (ws.map fun w => ((φ w.1 w.2.1).1, (φ w.1 w.2.1).2, w.2.2)).foldl
      (fun v w => if (φ j i).2 = w.2.1 ∧ (φ j i).1 = w.1 then w.2.2 else v) v =
    ws.foldl (fun v w => if i = w.2.1 ∧ j = w.1 then w.2.2 else v) v := by
  induction ws generalizing v with
  | nil => rfl
  | cons w ws ih =>
    rw [List.map_cons, List.foldl_cons, List.foldl_cons, ih _ (fun w' h' => h w' (by simp [h']))]
    congr 1
    by_cases e : i = w.2.1 ∧ j = w.1
    · obtain ⟨rfl, rfl⟩ := e
      simp
    · rw [if_neg e, if_neg]
      intro e'
      exact e (h w (by simp) (Prod.ext e'.2 e'.1))

/-- applying writes inside the table -/
theorem applyWrites_spec (rows cols : Nat) (ws : List (Nat × Nat × F)) (h : ∀ w ∈ ws, w.1 < cols ∧ w.2.1 < rows) :
    ∃ t, Component.applyWrites (TraceTable.new rows cols) ws = some t ∧ t.trace_length = rows ∧ t.num_columns = cols ∧ TableOk t ∧
      ∀ i j, i < rows → j < cols → t.get i j = some (content ws i j) := by
  have e : ∀ (ws : List (Nat × Nat × F)) (t : TraceTable F), Component.applyWrites t ws =
      (ws.map fun w => (w.2.1, w.1, w.2.2)).foldlM (fun t w => t.set w.1 w.2.1 w.2.2) t := by
    intro ws
    induction ws with
    | nil => intro t; rfl
    | cons w ws ih =>
      intro t
      obtain ⟨p, l, v⟩ := w
      rw [Component.applyWrites, List.map_cons, List.foldlM_cons]
      show (t.set l p v).bind _ = (t.set l p v).bind _
      cases t.set l p v with
      | none => rfl
      | some t => exact ih t
  obtain ⟨t, h1, h2, h3, h4, h5, _⟩ := C46_cells rows cols (ws.map fun w => (w.2.1, w.1, w.2.2)) (by
    intro w hw
    obtain ⟨w', hw', rfl⟩ := List.mem_map.1 hw
    exact ⟨(h w' hw').2, (h w' hw').1⟩)
  exact ⟨t, by rw [e, h1], h2, h3, h4, h5⟩

/-- the trace table of a fitting component -/
theorem trace_table_spec (c : Component F C W) (w : W) (n : Nat) (ws : List (Nat × Nat × F)) (hn : c.polynomial_size = some n)
    (hws : c.trace w = some ws) (h : ∀ p ∈ ws, p.1 < c.num_polynomials ∧ p.2.1 < n) :
    ∃ t, IsTrace c w n t ∧ ∀ i j, i < n → j < c.num_polynomials → t.get i j = some (content ws i j) := by
  obtain ⟨t, h1, h2, h3, h4, h5⟩ := applyWrites_spec n c.num_polynomials ws h
  refine ⟨t, ⟨?_, h2, h3, h4⟩, h5⟩
  unfold Component.trace_table
  rw [hn, Option.bind_some, hws, Option.bind_some, h1]

theorem fits_table (c : Component F C W) (w : W) (n : Nat) (h : Fits c w n) : ∃ t, IsTrace c w n t := by
  obtain ⟨h1, ws, h2, h3⟩ := h
  obtain ⟨t, h4, _⟩ := trace_table_spec c w n ws h1 h2 h3
  exact ⟨t, h4⟩

omit [Field F] [DecidableEq F] in
theorem mapped_writes (dbg : Bool) (np n : Nat) (φ : Nat → Nat → Nat × Nat) (ws : List (Nat × Nat × F)) (h : ∀ p ∈ ws, p.1 < np ∧ p.2.1 < n) :
    Mapped.writes dbg np n φ ws = some (ws.map fun w => ((φ w.1 w.2.1).1, (φ w.1 w.2.1).2, w.2.2)) := by
  unfold Mapped.writes
  refine mapM_some _ _ _ ?_
  intro w hw
  rw [if_neg]
  simp [(h w hw).1, (h w hw).2]

/-- C47, fits: side by side. -/
theorem C47_horizontal_fits (dbg : Bool) (l : Component F C W) (r : Component F C' W') (w : W × W') (n : Nat) (hl : Fits l w.1 n)
    (hr : Fits r w.2 n) : Fits (Component.Horizontal dbg l r) w n := by
  obtain ⟨l1, lw, l2, l3⟩ := hl
  obtain ⟨r1, rw', r2, r3⟩ := hr
  refine ⟨?_, (lw.map fun w => (w.1, w.2.1, w.2.2)) ++ (rw'.map fun w => (w.1 + l.num_polynomials, w.2.1, w.2.2)), ?_, ?_⟩
  rotate_left
  · show l.polynomial_size.bind _ = _
    rw [l1, Option.bind_some, l2, Option.bind_some, mapped_writes _ _ _ _ _ l3, Option.bind_some, r1, Option.bind_some, r2, Option.bind_some,
      mapped_writes _ _ _ _ _ r3, Option.map_some]
  · intro p hp
    show p.1 < l.num_polynomials + r.num_polynomials ∧ _
    rcases List.mem_append.1 hp with hp | hp <;> obtain ⟨q, hq, rfl⟩ := List.mem_map.1 hp
    · have := l3 q hq; exact ⟨by dsimp only; omega, this.2⟩
    · have := r3 q hq; exact ⟨by dsimp only; omega, this.2⟩
  · show l.polynomial_size.bind _ = _
    rw [l1, Option.bind_some, r1, Option.bind_some, if_pos rfl]

/-- C47: in the side by side composition, the cell in row `i` of column `j` of the left trace is in row `i` of column `j`, and that of
the right trace in row `i` of column `j` after the left ones. -/
theorem C47_horizontal_cells (dbg : Bool) (l : Component F C W) (r : Component F C' W') (w : W × W') (n : Nat) (hl : Fits l w.1 n)
    (hr : Fits r w.2 n) :
    ∃ tl tr t, IsTrace l w.1 n tl ∧ IsTrace r w.2 n tr ∧ IsTrace (Component.Horizontal dbg l r) w n t ∧
      (∀ i < n, ∀ j < l.num_polynomials, t.get i j = tl.get i j) ∧
      (∀ i < n, ∀ j < r.num_polynomials, t.get i (l.num_polynomials + j) = tr.get i j) := by
  obtain ⟨h1, ws, h2, h3⟩ := C47_horizontal_fits dbg l r w n hl hr
  obtain ⟨l1, lw, l2, l3⟩ := hl
  obtain ⟨r1, rw', r2, r3⟩ := hr
  obtain ⟨tl, a1, a2⟩ := trace_table_spec l w.1 n lw l1 l2 l3
  obtain ⟨tr, b1, b2⟩ := trace_table_spec r w.2 n rw' r1 r2 r3
  obtain ⟨t, c1, c2⟩ := trace_table_spec _ w n ws h1 h2 h3
  have hw : ws = (lw.map fun w => (w.1, w.2.1, w.2.2)) ++ (rw'.map fun w => (w.1 + l.num_polynomials, w.2.1, w.2.2)) := by
    have : (Component.Horizontal dbg l r).trace w = some ((lw.map fun w => (w.1, w.2.1, w.2.2)) ++
        (rw'.map fun w => (w.1 + l.num_polynomials, w.2.1, w.2.2))) := by
      show l.polynomial_size.bind _ = _
      rw [l1, Option.bind_some, l2, Option.bind_some, mapped_writes _ _ _ _ _ l3, Option.bind_some, r1, Option.bind_some, r2, Option.bind_some,
        mapped_writes _ _ _ _ _ r3, Option.map_some]
    rw [h2] at this
    exact Option.some.inj this
  have hnp : (Component.Horizontal dbg l r).num_polynomials = l.num_polynomials + r.num_polynomials := rfl
  refine ⟨tl, tr, t, a1, b1, c1, ?_, ?_⟩
  · intro i hi j hj
    rw [c2 i j hi (by rw [hnp]; omega), a2 i j hi hj, hw, content_append, foldl_miss]
    · congr 1
      rw [content_foldl, content_foldl]
      exact foldl_moved lw (fun p q => (p, q)) i j 0 (fun w' _ e => ⟨(Prod.ext_iff.1 e).2, (Prod.ext_iff.1 e).1⟩)
    · intro w' hw' e
      obtain ⟨q, hq, rfl⟩ := List.mem_map.1 hw'
      simp only at e
      omega
  · intro i hi j hj
    rw [c2 i _ hi (by rw [hnp]; omega), b2 i j hi hj, hw, content_append]
    congr 1
    have hz : content (lw.map fun w => (w.1, w.2.1, w.2.2)) i (l.num_polynomials + j) = (0 : F) := by
      rw [content_foldl, foldl_miss]
      intro w' hw' e
      obtain ⟨q, hq, rfl⟩ := List.mem_map.1 hw'
      have := l3 q hq
      simp only at e
      omega
    rw [hz, content_foldl, Nat.add_comm l.num_polynomials j]
    exact foldl_moved rw' (fun p q => (p + l.num_polynomials, q)) i j 0 (fun w' _ e => by
      have := Prod.ext_iff.1 e
      simp only at this
      omega)

/-! ### Vertical -/

/-- the writes of the copies -/
theorem copies_spec (dbg : Bool) (c : Component F C W) (n : Nat) (hn : c.polynomial_size = some n) (ws : List W) (i0 : Nat)
    (h : ∀ w ∈ ws, Fits c w n) :
    ∃ out, Component.copies dbg c.num_polynomials n c.trace i0 ws = some out ∧
      (∀ p ∈ out, p.1 < c.num_polynomials ∧ i0 * n ≤ p.2.1 ∧ p.2.1 < (i0 + ws.length) * n) ∧
      ∀ k w, ws[k]? = some w → ∀ l, c.trace w = some l → ∀ i < n, ∀ j, ∀ v,
        out.foldl (fun v w => if (i + (i0 + k) * n) = w.2.1 ∧ j = w.1 then w.2.2 else v) v =
        l.foldl (fun v w => if i = w.2.1 ∧ j = w.1 then w.2.2 else v) v := by
  induction ws generalizing i0 with
  | nil => exact ⟨[], rfl, by simp, by simp⟩
  | cons w ws ih =>
    obtain ⟨out, h1, h2, h3⟩ := ih (i0 + 1) (fun w' h' => h w' (by simp [h']))
    obtain ⟨_, l, hl, hr⟩ := h w (by simp)
    refine ⟨(l.map fun w => (w.1, w.2.1 + i0 * n, w.2.2)) ++ out, ?_, ?_, ?_⟩
    · rw [Component.copies, hl, Option.bind_some, mapped_writes _ _ _ _ _ hr, Option.bind_some, h1]; rfl
    · intro p hp
      have hlen : (i0 + (w :: ws).length) * n = i0 * n + n + ws.length * n := by simp only [List.length_cons]; ring
      rw [hlen]
      rcases List.mem_append.1 hp with hp | hp
      · obtain ⟨q, hq, rfl⟩ := List.mem_map.1 hp
        have := hr q hq
        refine ⟨this.1, ?_, ?_⟩
        · dsimp only; omega
        · dsimp only
          have : 0 ≤ ws.length * n := Nat.zero_le _
          omega
      · obtain ⟨a, b, c'⟩ := h2 p hp
        have e1 : (i0 + 1) * n = i0 * n + n := by ring
        have e2 : (i0 + 1 + ws.length) * n = i0 * n + n + ws.length * n := by ring
        rw [e1] at b
        rw [e2] at c'
        exact ⟨a, by omega, c'⟩
    · intro k w' hk l' hl' i hi j v
      rw [List.foldl_append]
      cases k with
      | zero =>
        have : w' = w := by simpa using hk.symm
        subst this
        rw [hl] at hl'
        cases hl'
        rw [foldl_miss out]
        · have := foldl_moved l (fun p q => (p, q + i0 * n)) i j v (fun w'' _ e => by
            have := Prod.ext_iff.1 e
            simp only at this
            omega)
          simpa using this
        · intro p hp e
          have := (h2 p hp).2.1
          have e1 : (i0 + 1) * n = i0 * n + n := by ring
          have e2 : (i0 + 0) * n = i0 * n := by ring
          rw [e2] at e
          omega
      | succ k =>
        have hk' : ws[k]? = some w' := by simpa using hk
        have e : i0 + (k + 1) = i0 + 1 + k := by omega
        rw [e]
        rw [foldl_miss (l.map fun w => (w.1, w.2.1 + i0 * n, w.2.2)), h3 k w' hk' l' hl' i hi j v]
        intro p hp e
        obtain ⟨q, hq, rfl⟩ := List.mem_map.1 hp
        have := (hr q hq).2
        simp only at e
        have e1 : (i0 + 1 + k) * n = i0 * n + n + k * n := by ring
        rw [e1] at e
        have : 0 ≤ k * n := Nat.zero_le _
        omega

/-- C47, fits: copies on top of each other. -/
theorem C47_vertical_fits (dbg : Bool) (c : Component F C W) (size : Nat) (ws : List W) (n : Nat) (hn : c.polynomial_size = some n)
    (h : ∀ w ∈ ws, Fits c w n) (hlen : ws.length ≤ size) : Fits (Component.Vertical dbg c size) ws (n * size) := by
  obtain ⟨out, h1, h2, _⟩ := copies_spec dbg c n hn ws 0 h
  refine ⟨?_, out, ?_, ?_⟩
  · show c.polynomial_size.map _ = _
    rw [hn]; rfl
  · show c.polynomial_size.bind _ = _
    rw [hn, Option.bind_some, h1]
  · intro p hp
    obtain ⟨a, _, b⟩ := h2 p hp
    refine ⟨a, lt_of_lt_of_le b ?_⟩
    rw [Nat.mul_comm n]
    exact Nat.mul_le_mul_right n (by omega)

omit [DecidableEq F] in
/-- C47: a stack of copies can be made exactly for a power of two, so that the number of rows stays a power of two. -/
theorem C47_vertical_new (dbg : Bool) (c : Component F C W) (size : Nat) :
    (∀ v, Component.Vertical.new dbg c size = some v ↔ (∃ k, size = 2 ^ k) ∧ v = Component.Vertical dbg c size) ∧
    (∀ v m, Component.Vertical.new dbg c size = some v → c.polynomial_size = some (2 ^ m) → ∃ k, v.polynomial_size = some (2 ^ k)) := by
  have key : ∀ v, Component.Vertical.new dbg c size = some v ↔ (∃ k, size = 2 ^ k) ∧ v = Component.Vertical dbg c size := by
    intro v
    unfold Component.Vertical.new
    constructor
    · intro h
      split_ifs at h with hs
      exact ⟨⟨_, hs⟩, (Option.some.inj h).symm⟩
    · rintro ⟨⟨k, rfl⟩, rfl⟩
      rw [if_pos (by rw [Nat.log2_two_pow])]
  refine ⟨key, fun v m h hm => ?_⟩
  obtain ⟨⟨k, rfl⟩, rfl⟩ := (key v).1 h
  exact ⟨m + k, by show c.polynomial_size.map _ = _; rw [hm, pow_add]; rfl⟩

/-- C47: in a stack of copies with `n` rows each, row `i` of copy `k` is row `i + k · n`. -/
theorem C47_vertical_cells (dbg : Bool) (c : Component F C W) (size : Nat) (ws : List W) (n : Nat) (hn : c.polynomial_size = some n)
    (h : ∀ w ∈ ws, Fits c w n) (hlen : ws.length ≤ size) :
    ∃ t, IsTrace (Component.Vertical dbg c size) ws (n * size) t ∧ ∀ k w, ws[k]? = some w → ∃ tk, IsTrace c w n tk ∧
      ∀ i < n, ∀ j < c.num_polynomials, t.get (i + k * n) j = tk.get i j := by
  obtain ⟨h1, out, h2, h3⟩ := C47_vertical_fits dbg c size ws n hn h hlen
  obtain ⟨t, c1, c2⟩ := trace_table_spec _ ws _ out h1 h2 h3
  refine ⟨t, c1, ?_⟩
  intro k w hk
  obtain ⟨_, l, hl, hr⟩ := h w (List.mem_of_getElem? hk)
  obtain ⟨tk, a1, a2⟩ := trace_table_spec c w n l hn hl hr
  refine ⟨tk, a1, ?_⟩
  intro i hi j hj
  have hks : k < ws.length := (List.getElem?_eq_some_iff.1 hk).1
  have hlt : i + k * n < n * size := by
    calc i + k * n < n + k * n := by omega
      _ = n * (k + 1) := by ring
      _ ≤ _ := Nat.mul_le_mul_left n (by omega)
  rw [c2 _ j hlt hj, a2 i j hi hj]
  obtain ⟨out', g1, _, g3⟩ := copies_spec dbg c n hn ws 0 h
  have ho : out' = out := by
    have : (Component.Vertical dbg c size).trace ws = some out' := by
      show c.polynomial_size.bind _ = _
      rw [hn, Option.bind_some, g1]
    rw [h2] at this
    exact (Option.some.inj this).symm
  subst ho
  congr 1
  rw [content_foldl, content_foldl]
  have := g3 k w hk l hl i hi j 0
  rwa [Nat.zero_add] at this

/-! ### Fold -/

theorem foldMap_eq (f : Nat) (hf : f < 64) (p q : Nat) :
    Component.foldMap f p q = (p / 2 ^ f, q * 2 ^ f + rev f (p % 2 ^ f)) := by
  unfold Component.foldMap
  dsimp only
  rw [permute_index_eq f _ hf (Nat.mod_lt _ (Nat.two_pow_pos f))]

theorem foldMap_inj (f : Nat) (hf : f < 64) (p q p' q' : Nat) (h : Component.foldMap f p q = Component.foldMap f p' q') : p = p' ∧ q = q' := by
  rw [foldMap_eq f hf, foldMap_eq f hf] at h
  have h1 := (Prod.ext_iff.1 h).1
  have h2 := (Prod.ext_iff.1 h).2
  simp only at h1 h2
  obtain ⟨e1, e2⟩ := cell_inj (rev_lt f _) (rev_lt f _) h2
  have m := Nat.mod_lt p (Nat.two_pow_pos f)
  have m' := Nat.mod_lt p' (Nat.two_pow_pos f)
  have e3 : p % 2 ^ f = p' % 2 ^ f := by rw [← rev_rev f _ m, ← rev_rev f _ m', e2]
  refine ⟨?_, e1⟩
  rw [← Nat.div_add_mod p (2 ^ f), ← Nat.div_add_mod p' (2 ^ f), h1, e3]

theorem map_up_eq (f row column : Nat) : Component.map_up f row column = (Component.foldMap f column row).swap := rfl

/-- C47: the folded position: the cell in row `i` of column `c` goes to column `c / 2^f`, to row `i · 2^f + (bit reversal of c mod 2^f)`;
different cells go to different cells. -/
theorem C47_map_up (f : Nat) (hf : f < 64) :
    (∀ i c, (Component.map_up f i c).2 = c / 2 ^ f ∧ ∃ o, IsBitRev f (c % 2 ^ f) o ∧ (Component.map_up f i c).1 = i * 2 ^ f + o) ∧
    (∀ i c i' c', Component.map_up f i c = Component.map_up f i' c' → i = i' ∧ c = c') := by
  constructor
  · intro i c
    rw [map_up_eq, foldMap_eq f hf]
    exact ⟨rfl, _, (isBitRev_iff _ _ _).2 rfl, rfl⟩
  · intro i c i' c' h
    rw [map_up_eq, map_up_eq] at h
    have := foldMap_inj f hf _ _ _ _ (Prod.swap_injective h)
    exact ⟨this.2, this.1⟩

theorem ceil_div_pow (m f : Nat) : Component.ceil_div m (2 ^ f) = some (if m = 0 then 0 else 1 + (m - 1) / 2 ^ f) := by
  unfold Component.ceil_div; rw [if_pos (Nat.two_pow_pos f)]

theorem fold_column_lt (m f p : Nat) (h : p < m) : p / 2 ^ f < (Component.ceil_div m (2 ^ f)).getD 0 := by
  rw [ceil_div_pow, if_neg (by omega), Option.getD_some]
  have : p / 2 ^ f ≤ (m - 1) / 2 ^ f := Nat.div_le_div_right (by omega)
  omega

/-- C47, fits: folding. -/
theorem C47_fold_fits (dbg : Bool) (c : Component F C W) (f : Nat) (hf : f < 64) (w : W) (n : Nat) (h : Fits c w n) :
    Fits (Component.Fold dbg c f) w (n * 2 ^ f) := by
  obtain ⟨h1, ws, h2, h3⟩ := h
  refine ⟨?_, ws.map fun w => ((Component.foldMap f w.1 w.2.1).1, (Component.foldMap f w.1 w.2.1).2, w.2.2), ?_, ?_⟩
  rotate_left
  · show c.polynomial_size.bind _ = _
    rw [h1, Option.bind_some, h2, Option.bind_some, mapped_writes _ _ _ _ _ h3]
  · intro p hp
    obtain ⟨q, hq, rfl⟩ := List.mem_map.1 hp
    obtain ⟨a, b⟩ := h3 q hq
    rw [foldMap_eq f hf]
    refine ⟨fold_column_lt _ _ _ a, ?_⟩
    dsimp only
    calc q.2.1 * 2 ^ f + rev f (q.1 % 2 ^ f) < q.2.1 * 2 ^ f + 2 ^ f := by have := rev_lt f (q.1 % 2 ^ f); omega
      _ = (q.2.1 + 1) * 2 ^ f := by ring
      _ ≤ _ := Nat.mul_le_mul_right _ b
  · show c.polynomial_size.map _ = _
    rw [h1]; rfl

/-- C47: the cells of a folded trace. -/
theorem C47_fold_cells (dbg : Bool) (c : Component F C W) (f : Nat) (hf : f < 64) (w : W) (n : Nat) (h : Fits c w n) :
    ∃ ti t, IsTrace c w n ti ∧ IsTrace (Component.Fold dbg c f) w (n * 2 ^ f) t ∧
      ∀ i < n, ∀ j < c.num_polynomials, t.get (Component.map_up f i j).1 (Component.map_up f i j).2 = ti.get i j := by
  obtain ⟨h1, ws, h2, h3⟩ := C47_fold_fits dbg c f hf w n h
  obtain ⟨i1, iw, i2, i3⟩ := h
  obtain ⟨ti, a1, a2⟩ := trace_table_spec c w n iw i1 i2 i3
  obtain ⟨t, c1, c2⟩ := trace_table_spec _ w _ ws h1 h2 h3
  have hw : ws = iw.map fun w => ((Component.foldMap f w.1 w.2.1).1, (Component.foldMap f w.1 w.2.1).2, w.2.2) := by
    have : (Component.Fold dbg c f).trace w = some (iw.map fun w => ((Component.foldMap f w.1 w.2.1).1, (Component.foldMap f w.1 w.2.1).2, w.2.2)) := by
      show c.polynomial_size.bind _ = _
      rw [i1, Option.bind_some, i2, Option.bind_some, mapped_writes _ _ _ _ _ i3]
    rw [h2] at this
    exact Option.some.inj this
  refine ⟨ti, t, a1, c1, ?_⟩
  intro i hi j hj
  have e1 : (Component.map_up f i j).1 = (Component.foldMap f j i).2 := rfl
  have e2 : (Component.map_up f i j).2 = (Component.foldMap f j i).1 := rfl
  rw [e1, e2, c2, a2 i j hi hj, hw]
  · congr 1
    rw [content_foldl, content_foldl]
    exact foldl_moved iw (Component.foldMap f) i j 0 (fun w' _ e => by
      have := foldMap_inj f hf _ _ _ _ e
      exact ⟨this.2, this.1⟩)
  · rw [foldMap_eq f hf]
    dsimp only
    calc i * 2 ^ f + rev f (j % 2 ^ f) < i * 2 ^ f + 2 ^ f := by have := rev_lt f (j % 2 ^ f); omega
      _ = (i + 1) * 2 ^ f := by ring
      _ ≤ _ := Nat.mul_le_mul_right _ hi
  · rw [foldMap_eq f hf]
    exact fold_column_lt _ _ _ hj

/-! ## Constraints -/

/-- replace the leaves `X` and `Trace` -/
def retrace (ex : Expr F) (et : Nat → Int → Expr F) : Expr F → Expr F
  | .X => ex
  | .Constant c => .Constant c
  | .Trace i j => et i j
  | .Polynomial p a => .Polynomial p (retrace ex et a)
  | .ClaimPolynomial i n a name => .ClaimPolynomial i n (retrace ex et a) name
  | .Add a b => .Add (retrace ex et a) (retrace ex et b)
  | .Neg a => .Neg (retrace ex et a)
  | .Mul a b => .Mul (retrace ex et a) (retrace ex et b)
  | .Inv a => .Inv (retrace ex et a)
  | .Exp a k => .Exp (retrace ex et a) k

omit [Field F] [DecidableEq F] in
theorem map_retrace (f : Expr F → Option (Expr F)) (ex : Expr F) (et : Nat → Int → Expr F) (hx : f .X = some ex)
    (ht : ∀ i j, f (.Trace i j) = some (et i j)) (ho : ∀ e, e ≠ .X → (∀ i j, e ≠ .Trace i j) → f e = some e) (e : Expr F) :
    e.map f = some (retrace ex et e) := by
  induction e with
  | X => exact hx
  | Trace i j => exact ht i j
  | Constant c => exact ho _ (by simp) (by simp)
  | Polynomial p a ih => rw [Expr.map, ih, Option.bind_some, ho _ (by simp) (by simp)]; rfl
  | ClaimPolynomial i n a name ih => rw [Expr.map, ih, Option.bind_some, ho _ (by simp) (by simp)]; rfl
  | Add a b iha ihb => rw [Expr.map, iha, Option.bind_some, ihb, Option.bind_some, ho _ (by simp) (by simp)]; rfl
  | Neg a ih => rw [Expr.map, ih, Option.bind_some, ho _ (by simp) (by simp)]; rfl
  | Mul a b iha ihb => rw [Expr.map, iha, Option.bind_some, ihb, Option.bind_some, ho _ (by simp) (by simp)]; rfl
  | Inv a ih => rw [Expr.map, ih, Option.bind_some, ho _ (by simp) (by simp)]; rfl
  | Exp a k ih => rw [Expr.map, ih, Option.bind_some, ho _ (by simp) (by simp)]; rfl

theorem evaluate_retrace (x x' : F) (tr tr' : Nat → Int → Option F) (ex : Expr F) (et : Nat → Int → Expr F)
    (hx : ex.evaluate x' tr' = some x) (e : Expr F) (ht : ∀ a, Occurs a e → (et a.1 a.2).evaluate x' tr' = tr a.1 a.2) :
    (retrace ex et e).evaluate x' tr' = e.evaluate x tr := by
  induction e with
  | X => exact hx
  | Trace i j => exact ht (i, j) rfl
  | Constant c => rfl
  | Polynomial p a ih => rw [retrace, Expr.evaluate, Expr.evaluate, ih ht]
  | ClaimPolynomial i n a name ih => rfl
  | Add a b iha ihb =>
    rw [retrace, Expr.evaluate, Expr.evaluate, iha (fun a h => ht a (Or.inl h)), ihb (fun a h => ht a (Or.inr h))]
  | Neg a ih => rw [retrace, Expr.evaluate, Expr.evaluate, ih ht]
  | Mul a b iha ihb =>
    rw [retrace, Expr.evaluate, Expr.evaluate, iha (fun a h => ht a (Or.inl h)), ihb (fun a h => ht a (Or.inr h))]
  | Inv a ih => rw [retrace, Expr.evaluate, Expr.evaluate, ih ht]
  | Exp a k ih => rw [retrace, Expr.evaluate, Expr.evaluate, ih ht]

theorem check_inv_other (x : F) (trace : Nat → Int → Option F) (a : Expr F) (ha : ∀ b, a ≠ .Inv b) :
    (Expr.Inv a).check x trace = (a.check x trace).map fun r => if r.2 then (if r.1 = 0 then (1, false) else (r.1, true)) else (1, false) := by
  cases a <;> first | rfl | exact absurd rfl (ha _)

theorem check_retrace_both (x x' : F) (tr tr' : Nat → Int → Option F) (ex : Expr F) (et : Nat → Int → Expr F)
    (hx : ex.check x' tr' = some (x, true)) (hxi : ∀ b, ex ≠ .Inv b) (hti : ∀ i j b, et i j ≠ .Inv b) (e : Expr F)
    (ht : ∀ a, Occurs a e → (et a.1 a.2).check x' tr' = (tr a.1 a.2).map fun v => (v, true)) :
    (retrace ex et e).check x' tr' = e.check x tr ∧ ∀ b, e = .Inv b → (retrace ex et b).check x' tr' = b.check x tr := by
  induction e with
  | X => exact ⟨hx, by simp⟩
  | Trace i j => exact ⟨ht (i, j) rfl, by simp⟩
  | Constant c => exact ⟨rfl, by simp⟩
  | Polynomial p a ih => exact ⟨by rw [retrace, Expr.check, Expr.check, (ih ht).1], by simp⟩
  | ClaimPolynomial i n a name ih => exact ⟨rfl, by simp⟩
  | Add a b iha ihb =>
    exact ⟨by rw [retrace, Expr.check, Expr.check, (iha (fun a h => ht a (Or.inl h))).1, (ihb (fun a h => ht a (Or.inr h))).1], by simp⟩
  | Neg a ih => exact ⟨by rw [retrace, Expr.check, Expr.check, (ih ht).1], by simp⟩
  | Mul a b iha ihb =>
    exact ⟨by rw [retrace, Expr.check, Expr.check, (iha (fun a h => ht a (Or.inl h))).1, (ihb (fun a h => ht a (Or.inr h))).1], by simp⟩
  | Inv a ih =>
    obtain ⟨ih, ih'⟩ := ih ht
    refine ⟨?_, by intro b h; cases h; exact ih⟩
    by_cases hb : ∃ b, a = .Inv b
    · obtain ⟨b, rfl⟩ := hb
      have := ih' b rfl
      rw [retrace] at ih ⊢
      rw [retrace, Expr.check, Expr.check, ih, this]
    · have h1 : ∀ b, a ≠ .Inv b := fun b h => hb ⟨b, h⟩
      have h2 : ∀ b, retrace ex et a ≠ .Inv b := by
        intro b h
        cases a <;> simp only [retrace] at h <;> first | exact hxi _ h | exact hti _ _ _ h | exact absurd rfl (h1 _) | cases h
      rw [retrace, check_inv_other _ _ _ h2, check_inv_other _ _ _ h1, ih]
  | Exp a k ih => exact ⟨by rw [retrace, Expr.check, Expr.check, (ih ht).1], by simp⟩

theorem check_retrace (x x' : F) (tr tr' : Nat → Int → Option F) (ex : Expr F) (et : Nat → Int → Expr F)
    (hx : ex.check x' tr' = some (x, true)) (hxi : ∀ b, ex ≠ .Inv b) (hti : ∀ i j b, et i j ≠ .Inv b) (e : Expr F)
    (ht : ∀ a, Occurs a e → (et a.1 a.2).check x' tr' = (tr a.1 a.2).map fun v => (v, true)) :
    (retrace ex et e).check x' tr' = e.check x tr := (check_retrace_both x x' tr tr' ex et hx hxi hti e ht).1

/-! ### What is satisfied -/

/-- `e` is found well defined in row `row` of the table. -/
def Passes (t : TraceTable F) (g : F) (row : Nat) (e : Expr F) : Prop := ∃ v, e.check (g ^ row) (t.traceAt row) = some (v, true)

theorem checkRow_ok (x : F) (trace : Nat → Int → Option F) (es : List (Expr F)) (base : Nat) :
    TraceTable.checkRow x trace base es = some none ↔ ∀ e ∈ es, ∃ v, e.check x trace = some (v, true) := by
  induction es generalizing base with
  | nil => simp [TraceTable.checkRow]
  | cons e es ih =>
    rw [TraceTable.checkRow]
    constructor
    · intro h
      obtain ⟨r, h1, h2⟩ := Option.bind_eq_some_iff.1 h
      obtain ⟨v, b⟩ := r
      cases b
      · simp at h2
      · simp only [if_true] at h2
        intro e' he'
        rcases List.mem_cons.1 he' with rfl | he'
        · exact ⟨v, h1⟩
        · exact (ih _).1 h2 e' he'
    · intro h
      obtain ⟨v, hv⟩ := h e (by simp)
      rw [hv, Option.bind_some]
      simp only [if_true]
      exact (ih _).2 fun e' he' => h e' (by simp [he'])

theorem check_constraints_ok (root : Nat → Option F) (c : Constraints F) (t : TraceTable F) (g : F) (hg : root t.trace_length = some g) :
    TraceTable.check_constraints root c t = some (.ok ()) ↔ ∀ row < t.trace_length, ∀ e ∈ c.expressions, Passes t g row e := by
  have key : ∀ (rows row : Nat), TraceTable.checkRows t c.expressions g rows row (g ^ row) = some (.ok ()) ↔
      ∀ row', row ≤ row' → row' < row + rows → ∀ e ∈ c.expressions, Passes t g row' e := by
    intro rows
    induction rows with
    | zero => intro row; simp only [TraceTable.checkRows, true_iff]; intro row' h1 h2; omega
    | succ rows ih =>
      intro row
      rw [TraceTable.checkRows, ← pow_succ]
      constructor
      · intro h
        obtain ⟨r, h1, h2⟩ := Option.bind_eq_some_iff.1 h
        cases r with
        | some w => simp at h2
        | none =>
          have h3 := (checkRow_ok _ _ _ _).1 h1
          have h4 := (ih (row + 1)).1 h2
          intro row' a b
          by_cases hr : row' = row
          · subst hr; exact h3
          · exact h4 row' (by omega) (by omega)
      · intro h
        rw [(checkRow_ok _ _ _ 0).2 (h row le_rfl (by omega)), Option.bind_some]
        exact (ih (row + 1)).2 fun row' a b => h row' (by omega) (by omega)
  unfold TraceTable.check_constraints
  rw [hg, Option.bind_some]
  have := key t.trace_length 0
  rw [pow_zero] at this
  rw [this]
  exact ⟨fun h row hr => h row (by omega) (by omega), fun h row _ hr => h row (by omega)⟩

/-- C47: what it means that a component accepts a witness. -/
theorem component_check_ok (root : Nat → Option F) (c : Component F C W) (w : W) (n : Nat) (t : TraceTable F) (g : F) (es : List (Expr F))
    (hn : c.polynomial_size = some n) (ht : IsTrace c w n t) (hg : root n = some g) (he : c.constraints (c.claim w) = some es) :
    c.check root w = some (.ok ()) ↔ ∀ row < n, ∀ e ∈ es, Passes t g row e := by
  obtain ⟨h1, h2, h3, h4⟩ := ht
  unfold Component.check Constraints.from_expressions
  rw [hn, Option.bind_some, he, Option.bind_some, hg]
  dsimp only
  rw [h1, Option.bind_some, check_constraints_ok root _ t g (by rw [h2]; exact hg), h2]

/-- C47: the empty component has a zero table of the given shape, and its check always passes. -/
theorem C47_empty (root : Nat → Option F) (polynomials n : Nat) (g : F) (hg : root n = some g) :
    Fits (Component.Empty polynomials n : Component F Unit Unit) () n ∧
    (∃ t, IsTrace (Component.Empty polynomials n : Component F Unit Unit) () n t ∧ t.num_columns = polynomials ∧
      ∀ i j, i < n → j < polynomials → t.get i j = some 0) ∧
    (Component.Empty polynomials n : Component F Unit Unit).check root () = some (.ok ()) := by
  obtain ⟨t, h1, h2⟩ := trace_table_spec (Component.Empty polynomials n : Component F Unit Unit) () n [] rfl rfl (by simp)
  refine ⟨⟨rfl, [], rfl, by simp⟩, ⟨t, h1, h1.2.2.1, h2⟩, ?_⟩
  rw [component_check_ok root _ () n t g [] rfl h1 hg rfl]
  simp

/-! ### Horizontal -/

omit [DecidableEq F] in
theorem shift_retrace (m : Nat) (e : Expr F) :
    e.map (Component.shiftColumns m) = some (retrace .X (fun i j => .Trace (i + m) j) e) := by
  apply map_retrace
  · rfl
  · intro i j; rfl
  · intro e h1 h2
    cases e <;> first | rfl | exact absurd rfl h1 | exact absurd rfl (h2 _ _)

/-- the cell of one table in terms of that of another -/
theorem traceAt_congr (t t' : TraceTable F) (ht : TableOk t) (ht' : TableOk t') (hlen : t.trace_length = t'.trace_length) (c c' : Nat)
    (hc : c < t.num_columns) (hc' : c' < t'.num_columns) (hcell : ∀ i < t.trace_length, t.get i c = t'.get i c') (row : Nat)
    (hrow : row < t.trace_length) (j : Int) (hj : -(t.trace_length : Int) ≤ j) : t.traceAt row c j = t'.traceAt row c' j := by
  rw [traceAt_eq t ht row hrow c j hc hj, traceAt_eq t' ht' row (by omega) c' j hc' (by omega)]
  unfold cellAt
  rw [← hlen, hcell]
  have := Int.emod_lt_of_pos ((row : Int) + j) (show (0 : Int) < t.trace_length by omega)
  have := Int.emod_nonneg ((row : Int) + j) (show (t.trace_length : Int) ≠ 0 by omega)
  omega

/-- C47: side by side, the constraints of the two components have, in every row and for every value of `X`, the value they have on the
component's own trace (and the checker finds the same), in this order. -/
theorem C47_horizontal_constraints (dbg : Bool) (l : Component F C W) (r : Component F C' W') (w : W × W') (n : Nat) (tl tr t : TraceTable F)
    (hl : Fits l w.1 n) (hr : Fits r w.2 n) (htl : IsTrace l w.1 n tl) (htr : IsTrace r w.2 n tr)
    (ht : IsTrace (Component.Horizontal dbg l r) w n t) (claim : C × C') (el er : List (Expr F)) (hel : l.constraints claim.1 = some el)
    (her : r.constraints claim.2 = some er) (hil : ∀ e ∈ el, InTable tl e) (hir : ∀ e ∈ er, InTable tr e) :
    ∃ es, (Component.Horizontal dbg l r).constraints claim = some es ∧ es.length = el.length + er.length ∧
      (∀ (k : Nat) e, el[k]? = some e → ∃ e', es[k]? = some e' ∧ ∀ row < n, ∀ x,
        e'.evaluate x (t.traceAt row) = e.evaluate x (tl.traceAt row) ∧ e'.check x (t.traceAt row) = e.check x (tl.traceAt row)) ∧
      (∀ (k : Nat) e, er[k]? = some e → ∃ e', es[el.length + k]? = some e' ∧ ∀ row < n, ∀ x,
        e'.evaluate x (t.traceAt row) = e.evaluate x (tr.traceAt row) ∧ e'.check x (t.traceAt row) = e.check x (tr.traceAt row)) := by
  obtain ⟨tl', tr', t', a1, a2, a3, a4, a5⟩ := C47_horizontal_cells dbg l r w n hl hr
  have e1 : tl' = tl := by have := a1.1; rw [htl.1] at this; exact (Option.some.inj this).symm
  have e2 : tr' = tr := by have := a2.1; rw [htr.1] at this; exact (Option.some.inj this).symm
  have e3 : t' = t := by have := a3.1; rw [ht.1] at this; exact (Option.some.inj this).symm
  subst e1 e2 e3
  obtain ⟨_, l2, l3, l4⟩ := htl
  obtain ⟨_, r2, r3, r4⟩ := htr
  obtain ⟨_, t2, t3, t4⟩ := ht
  have hnp : (Component.Horizontal dbg l r).num_polynomials = l.num_polynomials + r.num_polynomials := rfl
  rw [hnp] at t3
  refine ⟨el ++ er.map (retrace .X (fun i j => .Trace (i + l.num_polynomials) j)), ?_, by simp, ?_, ?_⟩
  · show (l.constraints claim.1).bind _ = _
    rw [hel, Option.bind_some, her, Option.bind_some, mapM_some _ _ _ (fun e _ => shift_retrace l.num_polynomials e)]; rfl
  · intro k e hk
    have hlt : k < el.length := (List.getElem?_eq_some_iff.1 hk).1
    refine ⟨e, by rw [List.getElem?_append_left hlt, hk], ?_⟩
    intro row hrow x
    have hcell : ∀ a, Occurs a e → t'.traceAt row a.1 a.2 = tl'.traceAt row a.1 a.2 := by
      intro a ha
      obtain ⟨b1, b2⟩ := hil e (List.mem_of_getElem? hk) a ha
      refine traceAt_congr t' tl' t4 l4 (by rw [t2, l2]) _ _ (by omega) b1 ?_ row (by omega) a.2 (by rw [t2, ← l2]; exact b2)
      intro i hi
      exact a4 i (by omega) a.1 (by omega)
    have hid : retrace .X (fun i j => .Trace i j) e = e := by
      clear hk hcell
      induction e <;> simp_all [retrace]
    constructor
    · conv_lhs => rw [← hid]
      exact evaluate_retrace x x _ _ _ _ rfl e fun a ha => hcell a ha
    · conv_lhs => rw [← hid]
      refine check_retrace x x _ _ _ _ rfl (by simp) (by simp) e fun a ha => ?_
      rw [Expr.check, hcell a ha]
  · intro k e hk
    have hlt : k < er.length := (List.getElem?_eq_some_iff.1 hk).1
    refine ⟨_, by rw [List.getElem?_append_right (by omega), Nat.add_sub_cancel_left, List.getElem?_map, hk]; rfl, ?_⟩
    intro row hrow x
    have hcell : ∀ a, Occurs a e → t'.traceAt row (a.1 + l.num_polynomials) a.2 = tr'.traceAt row a.1 a.2 := by
      intro a ha
      obtain ⟨b1, b2⟩ := hir e (List.mem_of_getElem? hk) a ha
      refine traceAt_congr t' tr' t4 r4 (by rw [t2, r2]) _ _ (by omega) b1 ?_ row (by omega) a.2 (by rw [t2, ← r2]; exact b2)
      intro i hi
      rw [Nat.add_comm]
      exact a5 i (by omega) a.1 (by omega)
    constructor
    · exact evaluate_retrace x x _ _ _ _ rfl e fun a ha => hcell a ha
    · refine check_retrace x x _ _ _ _ rfl (by simp) (by simp) e fun a ha => ?_
      rw [Expr.check, hcell a ha]

/-- C47: the side by side composition accepts exactly the pairs of witnesses accepted by the components. -/
theorem C47_horizontal_satisfied (root : Nat → Option F) (dbg : Bool) (l : Component F C W) (r : Component F C' W') (w : W × W') (n : Nat)
    (g : F) (hg : root n = some g) (tl tr : TraceTable F) (hl : Fits l w.1 n) (hr : Fits r w.2 n) (htl : IsTrace l w.1 n tl)
    (htr : IsTrace r w.2 n tr) (el er : List (Expr F)) (hel : l.constraints (l.claim w.1) = some el)
    (her : r.constraints (r.claim w.2) = some er) (hil : ∀ e ∈ el, InTable tl e) (hir : ∀ e ∈ er, InTable tr e) :
    (Component.Horizontal dbg l r).check root w = some (.ok ()) ↔ l.check root w.1 = some (.ok ()) ∧ r.check root w.2 = some (.ok ()) := by
  have hfit := C47_horizontal_fits dbg l r w n hl hr
  obtain ⟨t, ht⟩ := fits_table _ w n hfit
  obtain ⟨es, h1, h2, h3, h4⟩ := C47_horizontal_constraints dbg l r w n tl tr t hl hr htl htr ht ((Component.Horizontal dbg l r).claim w) el er hel her
    hil hir
  rw [component_check_ok root _ w n t g es hfit.1 ht hg h1, component_check_ok root l w.1 n tl g el hl.1 htl hg hel,
    component_check_ok root r w.2 n tr g er hr.1 htr hg her]
  constructor
  · intro h
    constructor
    · intro row hrow e he
      obtain ⟨k, hk⟩ := List.mem_iff_getElem?.1 he
      obtain ⟨e', b1, b2⟩ := h3 k e hk
      obtain ⟨v, hv⟩ := h row hrow e' (List.mem_of_getElem? b1)
      exact ⟨v, by rw [← (b2 row hrow _).2]; exact hv⟩
    · intro row hrow e he
      obtain ⟨k, hk⟩ := List.mem_iff_getElem?.1 he
      obtain ⟨e', b1, b2⟩ := h4 k e hk
      obtain ⟨v, hv⟩ := h row hrow e' (List.mem_of_getElem? b1)
      exact ⟨v, by rw [← (b2 row hrow _).2]; exact hv⟩
  · rintro ⟨hL, hR⟩ row hrow e he
    obtain ⟨k, hk⟩ := List.mem_iff_getElem?.1 he
    have hkl : k < es.length := (List.getElem?_eq_some_iff.1 hk).1
    by_cases hlt : k < el.length
    · obtain ⟨e', b1, b2⟩ := h3 k _ (List.getElem?_eq_getElem hlt)
      rw [hk] at b1
      cases b1
      obtain ⟨v, hv⟩ := hL row hrow _ (List.getElem_mem hlt)
      exact ⟨v, by rw [(b2 row hrow _).2]; exact hv⟩
    · obtain ⟨e', b1, b2⟩ := h4 (k - el.length) _ (List.getElem?_eq_getElem (by omega))
      rw [show el.length + (k - el.length) = k by omega, hk] at b1
      cases b1
      obtain ⟨v, hv⟩ := hR row hrow _ (List.getElem_mem (show k - el.length < er.length by omega))
      exact ⟨v, by rw [(b2 row hrow _).2]; exact hv⟩

/-! ### Fold -/

omit [DecidableEq F] in
theorem foldTrace_retrace (f : Nat) (hf : f < 64) (e : Expr F) :
    e.map (Component.foldTrace f) =
      some (retrace .X (fun c j => .Trace (c / 2 ^ f) (((2 ^ f : Nat) : Int) * j + ((rev f (c % 2 ^ f) : Nat) : Int))) e) := by
  apply map_retrace
  · rfl
  · intro i j
    unfold Component.foldTrace
    dsimp only
    rw [permute_index_eq f _ hf (Nat.mod_lt _ (Nat.two_pow_pos f))]
  · intro e h1 h2
    cases e <;> first | rfl | exact absurd rfl h1 | exact absurd rfl (h2 _ _)

/-- C47: the folded constraints have, in row `2^f · row`, for every value of `X`, the value of the constraints in row `row` of the inner trace. -/
theorem C47_fold_constraints (dbg : Bool) (c : Component F C W) (f : Nat) (hf : f < 64) (w : W) (n : Nat) (ti t : TraceTable F)
    (hfit : Fits c w n) (hti : IsTrace c w n ti) (ht : IsTrace (Component.Fold dbg c f) w (n * 2 ^ f) t) (claim : C) (es : List (Expr F))
    (hes : c.constraints claim = some es) (hin : ∀ e ∈ es, InTable ti e) :
    ∃ es', (Component.Fold dbg c f).constraints claim = some es' ∧ es'.length = es.length ∧
      ∀ (k : Nat) e, es[k]? = some e → ∃ e', es'[k]? = some e' ∧ ∀ row < n, ∀ x,
        e'.evaluate x (t.traceAt (row * 2 ^ f)) = e.evaluate x (ti.traceAt row) ∧
        e'.check x (t.traceAt (row * 2 ^ f)) = e.check x (ti.traceAt row) := by
  obtain ⟨ti', t', a1, a2, a3⟩ := C47_fold_cells dbg c f hf w n hfit
  have e1 : ti' = ti := by have := a1.1; rw [hti.1] at this; exact (Option.some.inj this).symm
  have e2 : t' = t := by have := a2.1; rw [ht.1] at this; exact (Option.some.inj this).symm
  subst e1 e2
  obtain ⟨_, i2, i3, i4⟩ := hti
  obtain ⟨_, t2, t3, t4⟩ := ht
  refine ⟨es.map (retrace .X (fun c j => .Trace (c / 2 ^ f) (((2 ^ f : Nat) : Int) * j + ((rev f (c % 2 ^ f) : Nat) : Int)))), ?_, by simp, ?_⟩
  · show (c.constraints claim).bind _ = _
    rw [hes, Option.bind_some]
    exact mapM_some _ _ es (fun e _ => foldTrace_retrace f hf e)
  · intro k e hk
    refine ⟨_, by rw [List.getElem?_map, hk]; rfl, ?_⟩
    intro row hrow x
    have hcell : ∀ a, Occurs a e →
        t'.traceAt (row * 2 ^ f) (a.1 / 2 ^ f) (((2 ^ f : Nat) : Int) * a.2 + ((rev f (a.1 % 2 ^ f) : Nat) : Int)) = ti'.traceAt row a.1 a.2 := by
      intro a ha
      obtain ⟨b1, b2⟩ := hin e (List.mem_of_getElem? hk) a ha
      have hr : 0 < 2 ^ f := Nat.two_pow_pos f
      have ho := rev_lt f (a.1 % 2 ^ f)
      have hn0 : (0 : Int) < n := by omega
      rw [traceAt_eq ti' i4 row (by omega) _ _ b1 b2, traceAt_eq t' t4 _ ?_ _ _ ?_ ?_]
      · unfold cellAt
        rw [t2, i2]
        have q0 := Int.emod_nonneg ((row : Int) + a.2) (by omega : (n : Int) ≠ 0)
        have q1 := Int.emod_lt_of_pos ((row : Int) + a.2) hn0
        obtain ⟨q, hq⟩ : ∃ q : Nat, ((row : Int) + a.2) % (n : Int) = (q : Int) := ⟨_, (Int.toNat_of_nonneg q0).symm⟩
        have hqn : q < n := by omega
        have hidx : (((row * 2 ^ f : Nat) : Int) + (((2 ^ f : Nat) : Int) * a.2 + ((rev f (a.1 % 2 ^ f) : Nat) : Int))) % ((n * 2 ^ f : Nat) : Int) =
            ((q * 2 ^ f + rev f (a.1 % 2 ^ f) : Nat) : Int) := by
          have hdm := Int.mul_ediv_add_emod ((row : Int) + a.2) (n : Int)
          rw [hq] at hdm
          have hlt : q * 2 ^ f + rev f (a.1 % 2 ^ f) < n * 2 ^ f := by
            calc q * 2 ^ f + rev f (a.1 % 2 ^ f) < q * 2 ^ f + 2 ^ f := by omega
              _ = (q + 1) * 2 ^ f := by ring
              _ ≤ _ := Nat.mul_le_mul_right _ hqn
          have e : ((row * 2 ^ f : Nat) : Int) + (((2 ^ f : Nat) : Int) * a.2 + ((rev f (a.1 % 2 ^ f) : Nat) : Int)) =
              ((q * 2 ^ f + rev f (a.1 % 2 ^ f) : Nat) : Int) + ((n * 2 ^ f : Nat) : Int) * (((row : Int) + a.2) / (n : Int)) := by
            push_cast
            push_cast at hdm
            linear_combination (-(2 : Int) ^ f) * hdm
          rw [e, Int.add_mul_emod_self_left, Int.emod_eq_of_lt (by omega) (by exact_mod_cast hlt)]
        rw [hidx, hq, Int.toNat_natCast, Int.toNat_natCast]
        have := a3 q hqn a.1 (by omega)
        rw [map_up_eq, foldMap_eq f hf] at this
        rw [← this]; rfl
      · rw [t2]; exact Nat.mul_lt_mul_of_pos_right hrow hr
      · rw [t3]; exact fold_column_lt _ _ _ (by omega)
      · rw [t2]
        rw [i2] at b2
        have : ((2 ^ f : Nat) : Int) * (-(n : Int)) ≤ ((2 ^ f : Nat) : Int) * a.2 := Int.mul_le_mul_of_nonneg_left b2 (by omega)
        have e : ((n * 2 ^ f : Nat) : Int) = ((2 ^ f : Nat) : Int) * (n : Int) := by push_cast; ring
        rw [e]
        rw [Int.mul_neg] at this
        omega
    constructor
    · exact evaluate_retrace x x _ _ _ _ rfl e fun a ha => hcell a ha
    · refine check_retrace x x _ _ _ _ rfl (by simp) (by simp) e fun a ha => ?_
      rw [Expr.check, hcell a ha]

/-- Specification: no denominator is zero. -/
def NoPole (x : F) (tr : Nat → Int → F) : Expr F → Prop
  | .Inv a => value x tr a ≠ 0
  | .Mul a b | .Add a b => NoPole x tr a ∧ NoPole x tr b
  | .Neg a | .Exp a _ => NoPole x tr a
  | _ => True

theorem noPole_fraction (x : F) (tr : Nat → Int → F) (e : Expr F) (he : IsProduct e) (h : NoPole x tr e) : (fraction x tr e).2 ≠ 0 := by
  induction e with
  | Mul a b iha ihb => exact mul_ne_zero (iha he.1 h.1) (ihb he.2 h.2)
  | Neg a ih => exact ih he h
  | Exp a k ih => exact pow_ne_zero _ (ih he.1 h)
  | Inv a ih => exact h
  | X => exact one_ne_zero
  | Constant c => exact one_ne_zero
  | Trace i j => exact one_ne_zero
  | Polynomial p a ih => exact one_ne_zero
  | ClaimPolynomial i n a name ih => exact he.elim
  | Add a b iha ihb => exact one_ne_zero

theorem noPole_wellDefined (x : F) (tr : Nat → Int → F) (e : Expr F) (he : IsFractionSum e) (h : NoPole x tr e) : WellDefined x tr e := by
  induction e with
  | Add a b iha ihb => exact ⟨iha he.1 h.1, ihb he.2 h.2⟩
  | Mul a b iha ihb => exact fun h0 => absurd h0 (noPole_fraction x tr _ he h)
  | Neg a ih => exact fun h0 => absurd h0 (noPole_fraction x tr _ he h)
  | Exp a k ih => exact fun h0 => absurd h0 (noPole_fraction x tr _ he h)
  | Inv a ih => exact fun h0 => absurd h0 (noPole_fraction x tr _ he h)
  | X => exact fun h0 => absurd h0 (noPole_fraction x tr _ he h)
  | Constant c => exact fun h0 => absurd h0 (noPole_fraction x tr _ he h)
  | Trace i j => exact fun h0 => absurd h0 (noPole_fraction x tr _ he h)
  | Polynomial p a ih => exact fun h0 => absurd h0 (noPole_fraction x tr _ he h)
  | ClaimPolynomial i n a name ih => exact he.elim

/-- the checker on a rewritten constraint: it passes when the constraint is well defined for the trace it now sees -/
theorem passes_retrace (x x' : F) (tr' : Nat → Int → Option F) (ex : Expr F) (et : Nat → Int → Nat × Int)
    (hx : ex.check x' tr' = some (x, true)) (hxi : ∀ b, ex ≠ .Inv b) (e : Expr F) (he : IsFractionSum e)
    (ht : ∀ a, Occurs a e → (tr' (et a.1 a.2).1 (et a.1 a.2).2).isSome)
    (h : WellDefined x (fun i j => (tr' (et i j).1 (et i j).2).getD 0) e) :
    ∃ v, (retrace ex (fun i j => .Trace (et i j).1 (et i j).2) e).check x' tr' = some (v, true) := by
  have h1 := check_retrace x x' (fun i j => tr' (et i j).1 (et i j).2) tr' ex (fun i j => .Trace (et i j).1 (et i j).2) hx hxi (by simp) e
    (fun a _ => rfl)
  obtain ⟨r, h2, h3⟩ := C48_check_partial x (fun i j => (tr' (et i j).1 (et i j).2).getD 0) (fun i j => tr' (et i j).1 (et i j).2) e he (by
    intro a ha
    obtain ⟨v, hv⟩ := Option.isSome_iff_exists.1 (ht a ha)
    rw [hv]; rfl)
  refine ⟨r.1, ?_⟩
  rw [h1, h2]
  have := h3.2 h
  rw [← this]

/-- C47 (the constraints are sums of products and inverses of division-free expressions, and have no denominator that is zero at a point of the
folded trace domain outside the inner one): the folded component accepts exactly the witnesses the component accepts. -/
theorem C47_fold_satisfied_partial (root : Nat → Option F) (hc : RootCompat root) (dbg : Bool) (c : Component F C W) (k f : Nat)
    (hkf : k + f < 64) (w : W) (g : F) (hg : root (2 ^ (k + f)) = some g) (ti : TraceTable F) (hfit : Fits c w (2 ^ k))
    (hti : IsTrace c w (2 ^ k) ti) (es : List (Expr F)) (hes : c.constraints (c.claim w) = some es) (hin : ∀ e ∈ es, InTable ti e)
    (hsum : ∀ e ∈ es, IsFractionSum e) (hpole : ∀ e ∈ es, ∀ row < 2 ^ (k + f), ¬ 2 ^ f ∣ row → ∀ tr, NoPole (g ^ row) tr e) :
    (Component.Fold dbg c f).check root w = some (.ok ()) ↔ c.check root w = some (.ok ()) := by
  have hfit' := C47_fold_fits dbg c f (by omega) w (2 ^ k) hfit
  obtain ⟨t, ht⟩ := fits_table _ w _ hfit'
  obtain ⟨es', h1, h2, h3⟩ := C47_fold_constraints dbg c f (by omega) w (2 ^ k) ti t hfit hti ht (c.claim w) es hes hin
  have hpow : 2 ^ k * 2 ^ f = 2 ^ (k + f) := (pow_add 2 k f).symm
  have hr : 0 < 2 ^ f := Nat.two_pow_pos f
  rw [component_check_ok root _ w _ t g es' hfit'.1 ht (by rw [hpow]; exact hg) h1,
    component_check_ok root c w _ ti (g ^ 2 ^ f) es hfit.1 hti (hc k f g hkf hg) hes]
  have hrow : ∀ row, (g ^ 2 ^ f) ^ row = g ^ (row * 2 ^ f) := fun row => by rw [← pow_mul, Nat.mul_comm]
  constructor
  · intro h row hlt e he
    obtain ⟨m, hm⟩ := List.mem_iff_getElem?.1 he
    obtain ⟨e', b1, b2⟩ := h3 m e hm
    obtain ⟨v, hv⟩ := h (row * 2 ^ f) (Nat.mul_lt_mul_of_pos_right hlt hr) e' (List.mem_of_getElem? b1)
    refine ⟨v, ?_⟩
    rw [hrow, ← (b2 row hlt _).2]; exact hv
  · intro h row hlt e' he'
    obtain ⟨m, hm⟩ := List.mem_iff_getElem?.1 he'
    have hmlt : m < es.length := by rw [← h2]; exact (List.getElem?_eq_some_iff.1 hm).1
    have hmem := List.getElem_mem hmlt
    by_cases hd : 2 ^ f ∣ row
    · obtain ⟨q, rfl⟩ := hd
      have hq : q < 2 ^ k := by
        rw [Nat.mul_comm] at hlt
        exact Nat.lt_of_mul_lt_mul_right hlt
      obtain ⟨e'', b1, b2⟩ := h3 m _ (List.getElem?_eq_getElem hmlt)
      rw [hm] at b1
      cases b1
      obtain ⟨v, hv⟩ := h q hq _ hmem
      refine ⟨v, ?_⟩
      rw [Nat.mul_comm, (b2 q hq _).2, ← hrow]; exact hv
    · have hshape : e' = retrace .X (fun c j => .Trace (c / 2 ^ f) (((2 ^ f : Nat) : Int) * j + ((rev f (c % 2 ^ f) : Nat) : Int))) es[m] := by
        have : (Component.Fold dbg c f).constraints (c.claim w) = some (es.map
            (retrace .X (fun c j => .Trace (c / 2 ^ f) (((2 ^ f : Nat) : Int) * j + ((rev f (c % 2 ^ f) : Nat) : Int))))) := by
          show (c.constraints (c.claim w)).bind _ = _
          rw [hes, Option.bind_some]
          exact mapM_some _ _ es (fun e _ => foldTrace_retrace f (by omega) e)
        rw [h1] at this
        have := Option.some.inj this
        rw [this, List.getElem?_map, List.getElem?_eq_getElem hmlt, Option.map_some] at hm
        exact (Option.some.inj hm).symm
      obtain ⟨_, t2, t3, t4⟩ := ht
      have := passes_retrace (g ^ row) (g ^ row) (t.traceAt row) .X
        (fun c j => (c / 2 ^ f, ((2 ^ f : Nat) : Int) * j + ((rev f (c % 2 ^ f) : Nat) : Int))) rfl (by simp) es[m] (hsum _ hmem) (by
          intro a ha
          obtain ⟨b1, b2⟩ := hin _ hmem a ha
          dsimp only
          rw [traceAt_eq t t4 row (by rw [t2]; exact hlt)]
          · rfl
          · rw [t3]; exact fold_column_lt _ _ _ (by rw [← hti.2.2.1]; exact b1)
          · rw [t2]
            rw [hti.2.1] at b2
            have : ((2 ^ f : Nat) : Int) * (-((2 ^ k : Nat) : Int)) ≤ ((2 ^ f : Nat) : Int) * a.2 := Int.mul_le_mul_of_nonneg_left b2 (by omega)
            have e : ((2 ^ k * 2 ^ f : Nat) : Int) = ((2 ^ f : Nat) : Int) * ((2 ^ k : Nat) : Int) := by push_cast; ring
            rw [e]
            rw [Int.mul_neg] at this
            omega)
        (noPole_wellDefined _ _ _ (hsum _ hmem) (hpole _ hmem row (by rw [← hpow]; exact hlt) hd _))
      obtain ⟨v, hv⟩ := this
      exact ⟨v, by rw [hshape]; exact hv⟩

/-! ### Vertical -/

omit [DecidableEq F] in
theorem powX_retrace (size : Nat) (e : Expr F) : e.map (Component.powX size) = some (retrace (.Exp .X size) (fun i j => .Trace i j) e) := by
  apply map_retrace
  · rfl
  · intro i j; rfl
  · intro e h1 h2
    cases e <;> first | rfl | exact absurd rfl h1 | exact absurd rfl (h2 _ _)

/-- C47 (partial: where the constraint does not look outside the copy): in row `row` of copy `k`, the stacked constraints have at `x` the value the
constraints have at `x^size` in row `row` of the trace of that copy. -/
theorem C47_vertical_constraints_partial (dbg : Bool) (c : Component F C W) (size : Nat) (ws : List W) (n : Nat) (hn : c.polynomial_size = some n)
    (hfit : ∀ w ∈ ws, Fits c w n) (hlen : ws.length ≤ size) (t : TraceTable F) (ht : IsTrace (Component.Vertical dbg c size) ws (n * size) t)
    (claims : List C) (first : C) (hfirst : claims.head? = some first) (es : List (Expr F)) (hes : c.constraints first = some es) :
    ∃ es', (Component.Vertical dbg c size).constraints claims = some es' ∧ es'.length = es.length ∧
      ∀ (m : Nat) e, es[m]? = some e → ∃ e', es'[m]? = some e' ∧
        ∀ k w, ws[k]? = some w → ∀ tk, IsTrace c w n tk → ∀ row < n,
          (∀ a, Occurs a e → a.1 < c.num_polynomials ∧ 0 ≤ (row : Int) + a.2 ∧ (row : Int) + a.2 < n) → ∀ x,
          e'.evaluate x (t.traceAt (row + k * n)) = e.evaluate (x ^ size) (tk.traceAt row) ∧
          e'.check x (t.traceAt (row + k * n)) = e.check (x ^ size) (tk.traceAt row) := by
  obtain ⟨t', a1, a2⟩ := C47_vertical_cells dbg c size ws n hn hfit hlen
  have e1 : t' = t := by have := a1.1; rw [ht.1] at this; exact (Option.some.inj this).symm
  subst e1
  obtain ⟨_, t2, t3, t4⟩ := ht
  refine ⟨es.map (retrace (.Exp .X size) (fun i j => .Trace i j)), ?_, by simp, ?_⟩
  · show claims.head?.bind _ = _
    rw [hfirst, Option.bind_some, hes, Option.bind_some]
    exact mapM_some _ _ es (fun e _ => powX_retrace size e)
  · intro m e hm
    refine ⟨_, by rw [List.getElem?_map, hm]; rfl, ?_⟩
    intro k w hk tk htk row hrow hocc x
    obtain ⟨tk', b1, b2⟩ := a2 k w hk
    have e2 : tk' = tk := by have := b1.1; rw [htk.1] at this; exact (Option.some.inj this).symm
    subst e2
    obtain ⟨_, k2, k3, k4⟩ := htk
    have hks : k < ws.length := (List.getElem?_eq_some_iff.1 hk).1
    have hmul : n + k * n ≤ n * size := by
      calc n + k * n = n * (k + 1) := by ring
        _ ≤ _ := Nat.mul_le_mul_left n (by omega)
    have hcell : ∀ a, Occurs a e → t'.traceAt (row + k * n) a.1 a.2 = tk'.traceAt row a.1 a.2 := by
      intro a ha
      obtain ⟨c1, c2, c3⟩ := hocc a ha
      rw [traceAt_eq tk' k4 row (by omega) _ _ (by omega) (by omega), traceAt_eq t' t4 _ (by omega) _ _ (by rw [t3]; exact c1) (by rw [t2]; push_cast; push_cast at hmul; omega)]
      unfold cellAt
      obtain ⟨q, hq⟩ : ∃ q : Nat, (row : Int) + a.2 = (q : Int) := ⟨_, (Int.toNat_of_nonneg c2).symm⟩
      have hqn : q < n := by omega
      have e3 : ((row + k * n : Nat) : Int) + a.2 = ((q + k * n : Nat) : Int) := by push_cast; omega
      rw [e3, hq, t2, k2, ← Int.natCast_mod, ← Int.natCast_mod, Int.toNat_natCast, Int.toNat_natCast, Nat.mod_eq_of_lt hqn, Nat.mod_eq_of_lt (by omega),
        b2 q hqn a.1 c1]
    constructor
    · exact evaluate_retrace (x ^ size) x _ _ _ _ rfl e fun a ha => hcell a ha
    · refine check_retrace (x ^ size) x _ _ _ _ rfl (by simp) (by simp) e fun a ha => ?_
      rw [Expr.check, hcell a ha]

/-- C47 (partial: in each row, the constraint does not look outside the copy, or is well defined whatever it finds there; and the
constraints are the same for all claims): if the component accepts each witness, the stack accepts them all. -/
theorem C47_vertical_satisfied_partial (root : Nat → Option F) (hroot : RootFn root) (hc : RootCompat root) (dbg : Bool) (c : Component F C W)
    (k s : Nat) (hks : k + s < 64) (ws : List W) (hlen : ws.length = 2 ^ s) (g : F) (hg : root (2 ^ (k + s)) = some g)
    (hn : c.polynomial_size = some (2 ^ k)) (hfit : ∀ w ∈ ws, Fits c w (2 ^ k)) (es : List (Expr F))
    (hes : ∀ w ∈ ws, c.constraints (c.claim w) = some es) (hsum : ∀ e ∈ es, IsFractionSum e)
    (hcol : ∀ e ∈ es, ∀ a, Occurs a e → a.1 < c.num_polynomials ∧ -((2 ^ k : Nat) : Int) ≤ a.2)
    (hwrap : ∀ e ∈ es, ∀ row : Nat, row < 2 ^ k → (∀ a, Occurs a e → 0 ≤ (row : Int) + a.2 ∧ (row : Int) + a.2 < (2 ^ k : Nat)) ∨
      ∀ tr, WellDefined ((g ^ 2 ^ s) ^ row) tr e)
    (hok : ∀ w ∈ ws, c.check root w = some (.ok ())) :
    (Component.Vertical dbg c (2 ^ s)).check root ws = some (.ok ()) := by
  have hpow : 2 ^ k * 2 ^ s = 2 ^ (k + s) := (pow_add 2 k s).symm
  have hfit' := C47_vertical_fits dbg c (2 ^ s) ws (2 ^ k) hn hfit hlen.le
  obtain ⟨t, ht⟩ := fits_table _ ws _ hfit'
  have hpos : 0 < ws.length := by rw [hlen]; exact Nat.two_pow_pos s
  obtain ⟨w0, wr, hws⟩ : ∃ w0 wr, ws = w0 :: wr := by
    cases ws with
    | nil => simp at hpos
    | cons a l => exact ⟨a, l, rfl⟩
  have hfirst : ((Component.Vertical dbg c (2 ^ s)).claim ws).head? = some (c.claim w0) := by rw [hws]; rfl
  have hes0 : c.constraints (c.claim w0) = some es := hes w0 (by rw [hws]; simp)
  obtain ⟨es', h1, h2, h3⟩ := C47_vertical_constraints_partial dbg c (2 ^ s) ws (2 ^ k) hn hfit hlen.le t ht _ _ hfirst es hes0
  have hgn : orderOf g = 2 ^ (k + s) := hroot _ _ (Nat.two_pow_pos _) (Nat.pow_lt_pow_right (by omega) hks) hg
  have hg1 : (g ^ 2 ^ s) ^ 2 ^ k = 1 := by rw [← pow_mul, Nat.mul_comm, hpow, ← hgn, pow_orderOf_eq_one]
  rw [component_check_ok root _ ws _ t g es' hfit'.1 ht (by rw [hpow]; exact hg) h1]
  intro row hlt e' he'
  obtain ⟨m, hm⟩ := List.mem_iff_getElem?.1 he'
  have hmlt : m < es.length := by rw [← h2]; exact (List.getElem?_eq_some_iff.1 hm).1
  have hmem := List.getElem_mem hmlt
  have hk0 : 0 < 2 ^ k := Nat.two_pow_pos k
  obtain ⟨i, q, hi, hq, rfl⟩ : ∃ i q, i < 2 ^ k ∧ q < 2 ^ s ∧ row = i + q * 2 ^ k :=
    ⟨row % 2 ^ k, row / 2 ^ k, Nat.mod_lt _ hk0, Nat.div_lt_of_lt_mul hlt, by rw [Nat.mul_comm]; exact (Nat.mod_add_div _ _).symm⟩
  have hx : (g ^ (i + q * 2 ^ k)) ^ 2 ^ s = (g ^ 2 ^ s) ^ i := by
    have e : (g ^ (i + q * 2 ^ k)) ^ 2 ^ s = (g ^ 2 ^ s) ^ i * ((g ^ 2 ^ s) ^ 2 ^ k) ^ q := by
      rw [← pow_mul, ← pow_mul, ← pow_mul, ← pow_mul, ← pow_add]; congr 1; ring
    rw [e, hg1, one_pow, mul_one]
  rcases hwrap _ hmem i hi with hno | hall
  · obtain ⟨w, hw⟩ : ∃ w, ws[q]? = some w := ⟨_, List.getElem?_eq_getElem (by omega)⟩
    have hwm := List.mem_of_getElem? hw
    obtain ⟨tk, htk⟩ := fits_table _ w _ (hfit w hwm)
    obtain ⟨e'', b1, b2⟩ := h3 m _ (List.getElem?_eq_getElem hmlt)
    rw [hm] at b1
    cases b1
    have := (component_check_ok root c w _ tk (g ^ 2 ^ s) es hn htk (hc k s g hks hg) (hes w hwm)).1 (hok w hwm) i hi _ hmem
    obtain ⟨v, hv⟩ := this
    refine ⟨v, ?_⟩
    rw [(b2 q w hw tk htk i hi (fun a ha => ⟨(hcol _ hmem a ha).1, (hno a ha).1, (hno a ha).2⟩) _).2, hx]
    exact hv
  · have hshape : e' = retrace (.Exp .X (2 ^ s)) (fun i j => .Trace i j) es[m] := by
      have : (Component.Vertical dbg c (2 ^ s)).constraints ((Component.Vertical dbg c (2 ^ s)).claim ws) =
          some (es.map (retrace (.Exp .X (2 ^ s)) (fun i j => .Trace i j))) := by
        show Option.bind (List.head? _) _ = _
        rw [hfirst, Option.bind_some, hes0, Option.bind_some]
        exact mapM_some _ _ es (fun e _ => powX_retrace (2 ^ s) e)
      rw [h1] at this
      have := Option.some.inj this
      rw [this, List.getElem?_map, List.getElem?_eq_getElem hmlt, Option.map_some] at hm
      exact (Option.some.inj hm).symm
    obtain ⟨_, t2, t3, t4⟩ := ht
    have := passes_retrace ((g ^ 2 ^ s) ^ i) (g ^ (i + q * 2 ^ k)) (t.traceAt (i + q * 2 ^ k)) (.Exp .X (2 ^ s)) (fun i j => (i, j))
      (by rw [← hx]; rfl) (by simp) es[m] (hsum _ hmem) (by
        intro a ha
        obtain ⟨b1, b2⟩ := hcol _ hmem a ha
        dsimp only
        rw [traceAt_eq t t4 _ (by rw [t2]; exact hlt)]
        · rfl
        · rw [t3]; exact b1
        · rw [t2]
          have : 2 ^ k ≤ 2 ^ k * 2 ^ s := Nat.le_mul_of_pos_right _ (Nat.two_pow_pos s)
          omega) (hall _)
    obtain ⟨v, hv⟩ := this
    exact ⟨v, by rw [hshape]; exact hv⟩

/-! ## The test component -/

/-- Specification: the sequence `x₀, x₁, x₂ = x₀·x₁ + claim, …` -/
def testSeq (claim x0 x1 : F) : Nat → F
  | 0 => x0
  | 1 => x1
  | m + 2 => testSeq claim x0 x1 m * testSeq claim x0 x1 (m + 1) + claim

omit [DecidableEq F] in
theorem testSeq_shift (claim x0 x1 : F) (m : Nat) : testSeq claim x0 x1 (m + 1) = testSeq claim x1 (x0 * x1 + claim) m := by
  induction m using Nat.strongRecOn with
  | _ m ih =>
    match m with
    | 0 => rfl
    | 1 => rfl
    | m + 2 =>
      show testSeq claim x0 x1 (m + 1) * testSeq claim x0 x1 (m + 2) + claim =
        testSeq claim x1 (x0 * x1 + claim) m * testSeq claim x1 (x0 * x1 + claim) (m + 1) + claim
      rw [ih m (by omega), ih (m + 1) (by omega)]

omit [DecidableEq F] in
theorem testSequence_get (claim : F) (n : Nat) (x0 x1 : F) (m : Nat) (hm : m < n) :
    (Component.testSequence claim n x0 x1)[m]? = some (testSeq claim x0 x1 m) := by
  induction n generalizing x0 x1 m with
  | zero => omega
  | succ n ih =>
    rw [Component.testSequence]
    cases m with
    | zero => rfl
    | succ m => rw [List.getElem?_cons_succ, ih _ _ m (by omega), testSeq_shift]

omit [DecidableEq F] in
theorem testSequence_length (claim : F) (n : Nat) (x0 x1 : F) : (Component.testSequence claim n x0 x1).length = n := by
  induction n generalizing x0 x1 with
  | zero => rfl
  | succ n ih => rw [Component.testSequence, List.length_cons, ih]

omit [DecidableEq F] in
theorem content_rows (cols : Nat) (l : List F) (i j : Nat) (hj : j < cols) (v : F) (h : l[i * cols + j]? = some v) :
    content (l.zipIdx.map fun p => (p.2 % cols, p.2 / cols, p.1)) i j = v := by
  induction l using List.reverseRecOn with
  | nil => simp at h
  | append_singleton l a ih =>
    rw [List.zipIdx_append, List.map_append, content_append]
    simp only [List.zipIdx_singleton, List.map_cons, List.map_nil, List.foldl_cons, List.foldl_nil, Nat.zero_add]
    have hcols : 0 < cols := by omega
    by_cases e : i * cols + j = l.length
    · rw [List.getElem?_append_right (by omega), e] at h
      simp at h
      rw [← e, if_pos, h]
      rw [Nat.mul_comm, Nat.mul_add_div hcols, Nat.mul_add_mod, Nat.div_eq_of_lt hj, Nat.mod_eq_of_lt hj]
      exact ⟨by simp, rfl⟩
    · have hlt : i * cols + j < l.length := by
        have := (List.getElem?_eq_some_iff.1 h).1
        simp at this
        omega
      rw [List.getElem?_append_left hlt] at h
      rw [if_neg, ih h]
      rintro ⟨e1, e2⟩
      apply e
      rw [e1, e2, Nat.mul_comm]; exact Nat.div_add_mod _ _

theorem test_fits (root : Nat → Option F) (rows columns : Nat) (seed : F) (w : F × F) :
    Fits (Component.Test root rows columns seed) w rows := by
  refine ⟨rfl, _, rfl, ?_⟩
  intro p hp
  obtain ⟨q, hq, rfl⟩ := List.mem_map.1 hp
  have := List.mem_zipIdx hq
  rw [testSequence_length] at this
  have hlt : q.2 < rows * columns := by omega
  have hc : 0 < columns := by
    rcases Nat.eq_zero_or_pos columns with h | h
    · rw [h] at hlt; simp at hlt
    · exact h
  exact ⟨Nat.mod_lt _ hc, Nat.div_lt_of_lt_mul (by rw [Nat.mul_comm]; exact hlt)⟩

/-- the trace of the test component: the sequence, row by row -/
theorem test_cells (root : Nat → Option F) (rows columns : Nat) (seed : F) (w : F × F) :
    ∃ t, IsTrace (Component.Test root rows columns seed) w rows t ∧
      ∀ i < rows, ∀ j < columns, t.get i j = some (testSeq w.1 seed w.2 (i * columns + j)) := by
  obtain ⟨h1, ws, h2, h3⟩ := test_fits root rows columns seed w
  obtain ⟨t, a1, a2⟩ := trace_table_spec _ w rows ws h1 h2 h3
  refine ⟨t, a1, ?_⟩
  intro i hi j hj
  rw [a2 i j hi hj]
  cases h2
  rw [content_rows columns _ i j hj _ (testSequence_get _ _ _ _ _ ?_)]
  exact cell_lt (⟨rows, columns, []⟩ : TraceTable F) hi hj

/-- the constraints of the test component -/
theorem test_constraints (root : Nat → Option F) (rows columns : Nat) (seed claim omega : F) (hg : root rows = some omega) :
    ∃ es, (Component.Test root rows columns seed).constraints claim = some es ∧ ∀ e ∈ es, 1 ≤ rows * columns ∧
      (e = Expr.div (Expr.sub (.Trace 0 0) (.Constant seed)) (Expr.sub .X (Expr.pow (.Constant omega) 0)) ∨
       (3 ≤ rows * columns ∧ ∃ i < columns, e = Component.testConstraint omega claim rows columns i)) := by
  refine ⟨_, by show (root rows).map _ = _; rw [hg]; rfl, ?_⟩
  intro e he
  rcases List.mem_append.1 he with he | he
  · split at he
    · rename_i h
      exact ⟨h, Or.inl (List.mem_singleton.1 he)⟩
    · simp at he
  · split at he
    · rename_i h
      obtain ⟨i, hi, rfl⟩ := List.mem_map.1 he
      exact ⟨by omega, Or.inr ⟨h, i, List.mem_range.1 hi, rfl⟩⟩
    · simp at he

theorem test_shape (omega claim : F) (rows columns i : Nat) : IsFractionSum (Component.testConstraint omega claim rows columns i) := by
  unfold Component.testConstraint
  dsimp only
  split_ifs <;> simp [Expr.div, Expr.mul, Expr.sub, Expr.neg, Expr.inv, Expr.add, Expr.pow, IsFractionSum, IsProduct, DivFree]

/-- the cells a constraint of the test component looks at -/
theorem test_occurs (omega claim : F) (rows columns i : Nat) (hi : i < columns) (hrc : 3 ≤ rows * columns) (a : Nat × Int)
    (ha : Occurs a (Component.testConstraint omega claim rows columns i)) :
    a.1 < columns ∧ -(rows : Int) ≤ a.2 ∧ a.2 ≤ 0 ∧ (2 ≤ i → a.2 = 0) ∧ (1 < columns → -1 ≤ a.2) ∧ -2 ≤ a.2 := by
  have hr : 1 ≤ rows := by
    rcases Nat.eq_zero_or_pos rows with h | h
    · rw [h] at hrc; simp at hrc
    · exact h
  unfold Component.testConstraint at ha
  dsimp only at ha
  split_ifs at ha with h1 h2 h3 h4 h5 <;>
    simp only [Expr.div, Expr.mul, Expr.sub, Expr.neg, Expr.inv, Expr.add, Expr.pow, Occurs, or_false, false_or] at ha <;>
    rcases ha with rfl | rfl | rfl <;> (try obtain ⟨_, rfl⟩ := h1) <;> (try rw [Nat.mul_one] at hrc) <;>
    (refine ⟨?_, ?_, ?_, ?_, ?_, ?_⟩ <;> dsimp only <;> omega)

/-- in the rows in which it looks at rows before the first, a constraint of the test component is well defined whatever it finds -/
theorem test_exempt (omega claim : F) (rows columns i row : Nat) (tr : Nat → Int → F)
    (h : row = 0 ∧ i < 2 ∨ row = 1 ∧ columns = 1 ∧ i = 0) :
    WellDefined (omega ^ row) tr (Component.testConstraint omega claim rows columns i) := by
  unfold Component.testConstraint
  dsimp only
  have e : ∀ (A B D : Expr F), WellDefined (omega ^ row) tr (Expr.div (Expr.mul A B) D) ↔
      ((fraction (omega ^ row) tr (Expr.div (Expr.mul A B) D)).2 = 0 → (fraction (omega ^ row) tr (Expr.div (Expr.mul A B) D)).1 = 0) :=
    fun A B D => Iff.rfl
  rw [e]
  intro _
  rcases h with ⟨rfl, h⟩ | ⟨rfl, rfl, rfl⟩
  · split_ifs with h1 h2 h3 h4 h5 <;>
      first
      | omega
      | simp [Expr.div, Expr.mul, Expr.sub, Expr.neg, Expr.inv, Expr.add, Expr.pow, fraction, value]
  · simp [Expr.div, Expr.mul, Expr.sub, Expr.neg, Expr.inv, Expr.add, Expr.pow, fraction, value]

omit [DecidableEq F] in
theorem fits_cellAt (t : TraceTable F) (n : Nat) (hn : t.trace_length = n) (row c : Nat) (j : Int) (r : Nat) (hr : (row : Int) + j = r) (hlt : r < n) :
    cellAt t row c j = (t.get r c).getD 0 := by
  unfold cellAt
  rw [hn, hr, ← Int.natCast_mod, Int.toNat_natCast, Nat.mod_eq_of_lt hlt]

/-- C61: the test component accepts every witness, for every number of columns, seed and claim. -/
theorem C61_test_component (root : Nat → Option F) (hroot : RootFn root) (k columns : Nat) (hk : k < 64) (omega seed : F)
    (hg : root (2 ^ k) = some omega) (w : F × F) :
    (Component.Test root (2 ^ k) columns seed).check root w = some (.ok ()) := by
  have hord : orderOf omega = 2 ^ k := hroot _ _ (Nat.two_pow_pos _) (Nat.pow_lt_pow_right (by omega) hk) hg
  obtain ⟨t, ht, hcells⟩ := test_cells root (2 ^ k) columns seed w
  obtain ⟨es, h1, h2⟩ := test_constraints root (2 ^ k) columns seed w.1 omega hg
  rw [component_check_ok root _ w (2 ^ k) t omega es rfl ht hg h1]
  intro row hrow e he
  obtain ⟨hcol, hshape⟩ := h2 e he
  have hc0 : 0 < columns := by
    rcases Nat.eq_zero_or_pos columns with h | h
    · rw [h] at hcol; simp at hcol
    · exact h
  obtain ⟨_, t2, t3, t4⟩ := ht
  have t3 : t.num_columns = columns := t3
  have hcell : ∀ (c : Nat) (j : Int) (r m : Nat), c < columns → (row : Int) + j = r → r < 2 ^ k → r * columns + c = m →
      cellAt t row c j = testSeq w.1 seed w.2 m := by
    intro c j r m hc hr hlt hm
    rw [fits_cellAt t (2 ^ k) t2 row c j r hr hlt, hcells r hlt c hc, hm]; rfl
  have hpass : ∀ e : Expr F, IsFractionSum e → InTable t e → WellDefined (omega ^ row) (cellAt t row) e → Passes t omega row e := by
    intro e h1 h2 h3
    obtain ⟨r, a1, a2⟩ := C48_check_partial (omega ^ row) (cellAt t row) (t.traceAt row) e h1
      (fun a ha => traceAt_eq t t4 row (by omega) a.1 a.2 (h2 a ha).1 (h2 a ha).2)
    exact ⟨r.1, by rw [a1, ← a2.2 h3]⟩
  rcases hshape with rfl | ⟨hrc, i, hi, rfl⟩
  · apply hpass
    · simp [Expr.div, Expr.mul, Expr.sub, Expr.neg, Expr.inv, Expr.add, Expr.pow, IsFractionSum, IsProduct, DivFree]
    · intro a ha
      simp only [Expr.div, Expr.mul, Expr.sub, Expr.neg, Expr.inv, Expr.add, Expr.pow, Occurs, or_false, false_or] at ha
      subst ha
      exact ⟨by rw [t3]; exact hc0, by simp⟩
    · intro hd
      simp only [Expr.div, Expr.mul, Expr.sub, Expr.neg, Expr.inv, Expr.add, Expr.pow, fraction, value, pow_zero, one_mul, mul_one] at hd ⊢
      have hone : omega ^ row = 1 := by linear_combination hd
      have : row = 0 := by
        by_contra h0
        exact pow_ne_one_of_lt_orderOf h0 (by rw [hord]; exact hrow) hone
      subst this
      rw [hcell 0 0 0 0 hc0 (by simp) hrow (by simp)]
      simp [testSeq]
  · by_cases hex : row = 0 ∧ i < 2 ∨ row = 1 ∧ columns = 1 ∧ i = 0
    · apply hpass _ (test_shape _ _ _ _ _) _ (test_exempt _ _ _ _ _ _ _ hex)
      intro a ha
      have := test_occurs omega w.1 (2 ^ k) columns i hi hrc a ha
      exact ⟨by rw [t3]; exact this.1, by rw [t2]; exact this.2.1⟩
    · apply hpass _ (test_shape _ _ _ _ _)
      · intro a ha
        have := test_occurs omega w.1 (2 ^ k) columns i hi hrc a ha
        exact ⟨by rw [t3]; exact this.1, by rw [t2]; exact this.2.1⟩
      · have hidx : ∃ m, row * columns + i = m + 2 := ⟨row * columns + i - 2, by
          rcases Nat.lt_or_ge i 2 with h | h
          · have : 1 ≤ row := by omega
            have : 1 * columns ≤ row * columns := Nat.mul_le_mul_right _ this
            by_cases hc1 : columns = 1
            · subst hc1; omega
            · omega
          · omega⟩
        obtain ⟨m, hm⟩ := hidx
        have hT : cellAt t row i 0 = testSeq w.1 seed w.2 (m + 2) := hcell i 0 row (m + 2) hi (by simp) hrow hm
        have hrec : testSeq w.1 seed w.2 (m + 2) - testSeq w.1 seed w.2 m * testSeq w.1 seed w.2 (m + 1) - w.1 = 0 := by
          rw [testSeq]; ring
        have hnum : ∀ (A B E D : Expr F), value (omega ^ row) (cellAt t row) A = testSeq w.1 seed w.2 m →
            value (omega ^ row) (cellAt t row) B = testSeq w.1 seed w.2 (m + 1) →
            WellDefined (omega ^ row) (cellAt t row)
              (Expr.div (Expr.mul (Expr.sub (Expr.sub (.Trace i 0) (Expr.mul A B)) (.Constant w.1)) E) D) := by
          intro A B E D hA hB _
          simp only [Expr.div, Expr.mul, Expr.sub, Expr.neg, Expr.inv, Expr.add, fraction, value]
          rw [hA, hB, hT, mul_one]
          rw [sub_eq_add_neg, sub_eq_add_neg] at hrec
          rw [hrec, zero_mul]
        unfold Component.testConstraint
        dsimp only
        apply hnum
        · split_ifs with h1 h2 h3
          · obtain ⟨rfl, rfl⟩ := h1
            exact hcell 0 (-2) (row - 2) m (by omega) (by omega) (by omega) (by omega)
          · subst h2
            have h1r : 1 ≤ row := by omega
            have e : row * columns = (row - 1) * columns + columns := by
              conv_lhs => rw [show row = row - 1 + 1 by omega]
              ring
            exact hcell (columns - 2) (-1) (row - 1) m (by omega) (by omega) (by omega) (by omega)
          · subst h3
            have h1r : 1 ≤ row := by omega
            have e : row * columns = (row - 1) * columns + columns := by
              conv_lhs => rw [show row = row - 1 + 1 by omega]
              ring
            exact hcell (columns - 1) (-1) (row - 1) m (by omega) (by omega) (by omega) (by omega)
          · exact hcell (i - 2) 0 row m (by omega) (by omega) (by omega) (by omega)
        · split_ifs with h1 h2 h3
          · obtain ⟨rfl, rfl⟩ := h1
            exact hcell 0 (-1) (row - 1) (m + 1) (by omega) (by omega) (by omega) (by omega)
          · subst h2
            have h1r : 1 ≤ row := by omega
            have e : row * columns = (row - 1) * columns + columns := by
              conv_lhs => rw [show row = row - 1 + 1 by omega]
              ring
            exact hcell (columns - 1) (-1) (row - 1) (m + 1) (by omega) (by omega) (by omega) (by omega)
          · subst h3
            exact hcell 0 0 row (m + 1) (by omega) (by omega) (by omega) (by omega)
          · exact hcell (i - 1) 0 row (m + 1) (by omega) (by omega) (by omega) (by omega)

/-- a constraint of the test component has no zero denominator outside the trace domain -/
theorem test_noPole (omega claim x : F) (rows columns i : Nat) (tr : Nat → Int → F) (hx : x ^ rows ≠ 1) :
    NoPole x tr (Component.testConstraint omega claim rows columns i) := by
  have h : x ^ rows + -1 ≠ 0 := fun h => hx (by linear_combination h)
  unfold Component.testConstraint
  dsimp only
  split_ifs <;> simp [Expr.div, Expr.mul, Expr.sub, Expr.neg, Expr.inv, Expr.add, Expr.pow, NoPole, value, h]

/-- C61: folded, stacked (with the same claim) or side by side, test components accept every witness. -/
theorem C61_test_compositions (root : Nat → Option F) (hroot : RootFn root) (hc : RootCompat root) (dbg : Bool) (k columns : Nat) (omega seed : F)
    (w : F × F) :
    (∀ f g, k + f < 64 → root (2 ^ (k + f)) = some g →
      (Component.Fold dbg (Component.Test root (2 ^ k) columns seed) f).check root w = some (.ok ())) ∧
    (∀ s g (ws : List (F × F)), k + s < 64 → root (2 ^ (k + s)) = some g → ws.length = 2 ^ s → (∀ w' ∈ ws, w'.1 = w.1) →
      (Component.Vertical dbg (Component.Test root (2 ^ k) columns seed) (2 ^ s)).check root ws = some (.ok ())) ∧
    (∀ columns' seed' w', k < 64 → root (2 ^ k) = some omega →
      (Component.Horizontal dbg (Component.Test root (2 ^ k) columns seed) (Component.Test root (2 ^ k) columns' seed')).check root (w, w') =
        some (.ok ())) := by
  have hin : ∀ columns seed omega (w : F × F) t, IsTrace (Component.Test root (2 ^ k) columns seed) w (2 ^ k) t → root (2 ^ k) = some omega →
      ∃ es, (Component.Test root (2 ^ k) columns seed).constraints w.1 = some es ∧ ∀ e ∈ es, InTable t e ∧ IsFractionSum e := by
    intro columns seed omega w t ht hg
    obtain ⟨_, t2, t3, t4⟩ := ht
    have t3 : t.num_columns = columns := t3
    obtain ⟨es, h1, h2⟩ := test_constraints root (2 ^ k) columns seed w.1 omega hg
    refine ⟨es, h1, ?_⟩
    intro e he
    obtain ⟨hrc, rfl | ⟨hrc', i, hi, rfl⟩⟩ := h2 e he
    · refine ⟨?_, by simp [Expr.div, Expr.mul, Expr.sub, Expr.neg, Expr.inv, Expr.add, Expr.pow, IsFractionSum, IsProduct, DivFree]⟩
      intro a ha
      simp only [Expr.div, Expr.mul, Expr.sub, Expr.neg, Expr.inv, Expr.add, Expr.pow, Occurs, or_false, false_or] at ha
      subst ha
      refine ⟨?_, by simp⟩
      rw [t3]
      rcases Nat.eq_zero_or_pos columns with h | h
      · rw [h] at hrc; simp at hrc
      · exact h
    · refine ⟨?_, test_shape _ _ _ _ _⟩
      intro a ha
      have := test_occurs omega w.1 (2 ^ k) columns i hi hrc' a ha
      exact ⟨by rw [t3]; exact this.1, by rw [t2]; exact this.2.1⟩
  refine ⟨?_, ?_, ?_⟩
  · intro f g hkf hg
    have hg' := hc k f g hkf hg
    have hord : orderOf g = 2 ^ (k + f) := hroot _ _ (Nat.two_pow_pos _) (Nat.pow_lt_pow_right (by omega) hkf) hg
    obtain ⟨t, ht, _⟩ := test_cells root (2 ^ k) columns seed w
    obtain ⟨es, h1, h2⟩ := hin columns seed _ w t ht hg'
    rw [C47_fold_satisfied_partial root hc dbg _ k f hkf w g hg t (test_fits _ _ _ _ _) ht es h1 (fun e he => (h2 e he).1) (fun e he => (h2 e he).2)]
    · exact C61_test_component root hroot k columns (by omega) _ seed hg' w
    · intro e he row hrow hdvd tr
      obtain ⟨es', a1, a2⟩ := test_constraints root (2 ^ k) columns seed w.1 _ hg'
      rw [h1] at a1
      cases a1
      obtain ⟨_, rfl | ⟨_, i, _, rfl⟩⟩ := a2 e he
      · have hne : g ^ row + -1 ≠ 0 := by
          intro h
          have hone : g ^ row = 1 := by linear_combination h
          apply pow_ne_one_of_lt_orderOf _ (by rw [hord]; exact hrow) hone
          rintro rfl
          exact hdvd (Nat.dvd_zero _)
        simp [Expr.div, Expr.mul, Expr.sub, Expr.neg, Expr.inv, Expr.add, Expr.pow, NoPole, value, hne]
      · apply test_noPole
        rw [← pow_mul]
        intro h
        have := orderOf_dvd_of_pow_eq_one h
        rw [hord, pow_add, Nat.mul_comm row] at this
        exact hdvd (Nat.dvd_of_mul_dvd_mul_left (Nat.two_pow_pos k) this)
  · intro s g ws hks hg hlen hclaim
    have hg' := hc k s g hks hg
    obtain ⟨t, ht, _⟩ := test_cells root (2 ^ k) columns seed w
    obtain ⟨es, h1, h2⟩ := hin columns seed _ w t ht hg'
    obtain ⟨_, t2, t3, t4⟩ := ht
    have t3 : t.num_columns = columns := t3
    refine C47_vertical_satisfied_partial root hroot hc dbg _ k s hks ws hlen g hg rfl (fun w' _ => test_fits _ _ _ _ _) es ?_
      (fun e he => (h2 e he).2) ?_ ?_ (fun w' _ => C61_test_component root hroot k columns (by omega) _ seed hg' w')
    · intro w' hw'
      show (Component.Test root (2 ^ k) columns seed).constraints w'.1 = _
      rw [hclaim w' hw', h1]
    · intro e he a ha
      have := (h2 e he).1 a ha
      rw [t3, t2] at this
      exact this
    · intro e he row hrow
      obtain ⟨es', a1, a2⟩ := test_constraints root (2 ^ k) columns seed w.1 _ hg'
      rw [h1] at a1
      cases a1
      obtain ⟨_, rfl | ⟨hrc, i, hi, rfl⟩⟩ := a2 e he
      · left
        intro a ha
        simp only [Expr.div, Expr.mul, Expr.sub, Expr.neg, Expr.inv, Expr.add, Expr.pow, Occurs, or_false, false_or] at ha
        subst ha
        exact ⟨by simp, by rw [add_zero]; exact_mod_cast hrow⟩
      · by_cases hex : row = 0 ∧ i < 2 ∨ row = 1 ∧ columns = 1 ∧ i = 0
        · exact Or.inr fun tr => test_exempt _ _ _ _ _ _ _ hex
        · left
          intro a ha
          obtain ⟨b1, b2, b3, b4, b5, b6⟩ := test_occurs (g ^ 2 ^ s) w.1 (2 ^ k) columns i hi hrc a ha
          have hlt : (row : Int) < (2 ^ k : Nat) := by exact_mod_cast hrow
          refine ⟨?_, by omega⟩
          by_cases hi2 : 2 ≤ i
          · rw [b4 hi2]; omega
          · by_cases hc1 : 1 < columns
            · have := b5 hc1; omega
            · omega
  · intro columns' seed' w' hk hg
    obtain ⟨t, ht, _⟩ := test_cells root (2 ^ k) columns seed w
    obtain ⟨t', ht', _⟩ := test_cells root (2 ^ k) columns' seed' w'
    obtain ⟨es, h1, h2⟩ := hin columns seed _ w t ht hg
    obtain ⟨es', h1', h2'⟩ := hin columns' seed' _ w' t' ht' hg
    rw [C47_horizontal_satisfied root dbg _ _ (w, w') (2 ^ k) omega hg t t' (test_fits _ _ _ _ _) (test_fits _ _ _ _ _) ht ht' es es' h1 h1'
      (fun e he => (h2 e he).1) (fun e he => (h2' e he).1)]
    exact ⟨C61_test_component root hroot k columns hk omega seed hg w, C61_test_component root hroot k columns' hk omega seed' hg w'⟩

end

/-! ### Where the combinators change what is satisfied -/

/-- one column of two equal values: the constraint looks at the next row, cyclically -/
def constColumn : Component (ZMod 5) Unit (ZMod 5) where
  num_polynomials := 1
  polynomial_size := some 2
  claim := fun _ => ()
  constraints := fun _ => some [.Mul (.Add (.Trace 0 1) (.Neg (.Trace 0 0))) (.Inv (.Add (.Exp .X 2) (.Neg (.Constant 1))))]
  trace := fun v => some [(0, 0, v), (0, 1, v)]

/-- C47: stacking breaks a component whose constraint is cyclic: both copies are fine, the stack is not. -/
theorem C47_vertical_violated : constColumn.check root5 1 = some (.ok ()) ∧ constColumn.check root5 2 = some (.ok ()) ∧
    (Component.Vertical true constColumn 2).check root5 [1, 2] = some (.error (1, 0)) := by decide +kernel

/-- a constraint with a pole outside the trace domain {1, 4} -/
def poleElsewhere : Component (ZMod 5) Unit Unit where
  num_polynomials := 1
  polynomial_size := some 2
  claim := fun _ => ()
  constraints := fun _ => some [.Inv (.Add .X (.Neg (.Constant 2)))]
  trace := fun _ => some []

/-- C47: folding breaks a component with a pole at a point of the larger domain. -/
theorem C47_fold_violated : poleElsewhere.check root5 () = some (.ok ()) ∧
    (Component.Fold true poleElsewhere 1).check root5 () = some (.error (1, 0)) := by decide +kernel

-- the hypotheses of the theorems above are met by test components (C61_test_compositions); and in numbers:
example : (Component.Test root5 2 3 (4 : ZMod 5)).trace_table (1, 2) = some ⟨2, 3, [4, 2, 4, 4, 2, 4]⟩ := by decide +kernel
example : (Component.Fold true (Component.Test root5 2 3 (4 : ZMod 5)) 1).trace_table (1, 2) = some ⟨4, 2, [4, 4, 2, 0, 4, 4, 2, 0]⟩ := by decide +kernel
example : (Component.Vertical true (Component.Test root5 2 2 (4 : ZMod 5)) 2).trace_table [(1, 2), (1, 3)] =
    some ⟨4, 2, [4, 2, 4, 4, 4, 3, 3, 0]⟩ := by decide +kernel
example : (Component.Horizontal true (Component.Test root5 2 2 (4 : ZMod 5)) (Component.Test root5 2 1 (1 : ZMod 5))).check root5 ((1, 2), (3, 4)) =
    some (.ok ()) := by decide +kernel
example : (Component.Empty 3 4 : Component (ZMod 5) Unit Unit).check root5 () = some (.ok ()) :=
  (C47_empty root5 3 4 2 (by decide +kernel)).2.2
example : ∃ w, Fits (Component.Test root5 4 3 (4 : ZMod 5)) w 4 := ⟨(1, 2), test_fits _ _ _ _ _⟩

end Props
end OpenZKP
