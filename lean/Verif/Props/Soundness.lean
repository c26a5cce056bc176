import Verif.Stark.Binding
import Verif.Props.ProofSize

/-!
# C63: what an accepted proof says
-/

namespace OpenZKP
namespace Props
open FFT U256 Stark Stark.Accept

section
variable {F : Type} [Field F] [DecidableEq F]

/-- C63: If `verify` accepts the bytes `p`, then `p` is the concatenation of the parts `P` of a proof, of the sizes given by the constraint system, for
which there are challenges `x` with `Accepts`: every challenge is drawn from the hash of all that precedes it, the proof of work is done, the
out-of-domain equation holds, the openings of the queried rows verify against the roots, and the layers of FRI, from the combination of the opened
rows to the last polynomial, are folds of each other at the queried positions. -/
theorem C63_accepts (env : Env F) (hroot : RootFn env.root) (hcompat : RootCompat env.root) (hsearch : SearchOk env.search) (c : Constraints F) (k b : Nat)
    (hkb : k + b < 64) (hk : c.trace_nrows = 2 ^ k) (hb : c.blowup = 2 ^ b) (hlayout : c.fri_layout.sum ≤ k + b) (hq : c.num_queries < 2 ^ 64) (p : Bytes)
    (h : Stark.verify env c p = .ok ()) :
    ∃ w g args P x, env.root (2 ^ (k + b)) = some w ∧ env.root (2 ^ k) = some g ∧ Accepts env c k b w g p args P x :=
  accepts env hroot hcompat hsearch c k b hkb hk hb hlayout hq p h

/-- C63: If the roots in an accepted proof are those of tables `R` (rows of the trace's extension), `C` (rows of the constraint polynomial's parts) and
`Ls` (layers of FRI), whatever these contain, then there is a hash collision between what the verifier hashed and what is hashed in building the
trees, or at every queried position the layers of the tables are consistent: the first is the combination of the rows, each next one is a fold of the one
before, and the last fold is the value of the last polynomial. -/
theorem C63_committed (env : Env F) (c : Constraints F) (k b : Nat) (w g : F) (p : Bytes) (args : List (Nat × Int)) (P : Contents) (x : Challenges F)
    (h : Accepts env c k b w g p args P x) (R C : Nat → List F) (Ls : List (Nat → F)) (hRw : ∀ i, (R i).length = c.trace_ncolumns)
    (hCw : ∀ i, (C i).length = P.constraint_values.length) (hR : Commits env (k + b) P.trace_root R) (hC : Commits env (k + b) P.constraint_root C)
    (hL : LayersCommit env c.fri_layout P.fri Ls (k + b)) :
    Collision env (k + b) P.trace_root P.trace_hashes x.queries (P.trace_rows.map (·.map env.codec.val)) R ∨
    Collision env (k + b) P.constraint_root P.constraint_hashes x.queries (P.constraint_rows.map (·.map env.codec.val)) C ∨
    LayersCollide env c.fri_layout P.fri Ls (k + b) ∨
    ∀ q ∈ x.queries, (∀ a ∈ args, env.generator * w ^ rev (k + b) q ≠ g ^ a.2 * x.point) ∧
      env.generator * w ^ rev (k + b) q ≠ x.point ^ P.constraint_values.length ∧
      Chain (P.last_layer.map env.codec.val) c.fri_layout Ls x.folds w (k + b)
        (deep env g args P x (R q) (C q) (env.generator * w ^ rev (k + b) q)) q := by
  obtain ⟨d, hd, hs⟩ := h.sized
  have hcw : Merkle.next_power_of_two d = P.constraint_values.length := hs.constraint_values.1.symm
  have hql : x.queries.length = c.num_queries := by rw [h.drawn.queries.2.length_eq, List.length_map, List.length_range]
  have get : ∀ (rows : List (List U256)) (n : Nat), (∀ r ∈ rows, r.length = n ∧ Reduced r) →
      ∀ (z : Nat) leaf, (rows.map (·.map env.codec.val))[z]? = some leaf → leaf.length = n := by
    intro rows n hr z leaf h2
    rw [List.getElem?_map] at h2
    obtain ⟨y, hy, rfl⟩ := Option.map_eq_some_iff.1 h2
    rw [List.length_map]
    exact (hr y (List.mem_of_getElem? hy)).1
  rcases opened_true env (k + b) P.trace_root P.trace_hashes hs.trace_hashes x.queries (P.trace_rows.map (·.map env.codec.val))
      (by rw [List.length_map, hs.trace_rows.1, hql]) R (fun z i leaf _ h2 => by rw [hRw, get _ _ hs.trace_rows.2 z leaf h2]) hR h.trace with h1 | h1
  swap
  · exact Or.inl h1
  right
  rcases opened_true env (k + b) P.constraint_root P.constraint_hashes hs.constraint_hashes x.queries (P.constraint_rows.map (·.map env.codec.val))
      (by rw [List.length_map, hs.constraint_rows.1, hql]) C (fun z i leaf _ h2 => by rw [hCw, get _ _ hs.constraint_rows.2 z leaf h2, hcw]) hC h.constraint
    with h2 | h2
  swap
  · exact Or.inl h2
  right
  obtain ⟨f, hf, hfri⟩ := h.fri
  rcases layers_true env _ _ _ _ Ls _ _ _ _ (fun l hl => ((hs.fri.2 l hl).2).2) hL hfri with h3 | h3
  · exact Or.inl h3
  right
  intro q hq
  obtain ⟨z, row, crow, y1, y2, y3, y4, y5, y6⟩ := hf q hq
  refine ⟨fun a ha => (y4 a ha).2, y5, ?_⟩
  have e1 : row.map env.codec.val = R q := by
    have := congrArg (·[z]?) h1
    simp only [List.getElem?_map, y1, y2, Option.map_some, Option.some.injEq] at this
    exact this
  have e2 : crow.map env.codec.val = C q := by
    have := congrArg (·[z]?) h2
    simp only [List.getElem?_map, y1, y3, Option.map_some, Option.some.injEq] at this
    exact this
  rw [← e1, ← e2, ← y6]
  exact h3 q hq

end

namespace Small
open OpenZKP.Props.Small

theorem search_ok : SearchOk env.search := by
  intro l n _
  refine ⟨fun z hz => ?_, fun hn => ?_⟩
  · obtain ⟨h3, h4, -⟩ := List.findIdx?_eq_some_iff_getElem.1 hz
    rw [List.getElem?_eq_getElem h3]
    simpa using h4
  · have := List.findIdx?_eq_none_iff.1 hn
    intro hm
    have := this n hm
    simp at this

-- the proof of the system in Props/Prover.lean
example : ∃ p w g args P x, Stark.verify env c p = .ok () ∧ env.root (2 ^ (1 + 1)) = some w ∧ env.root (2 ^ 1) = some g ∧
    Accepts env c 1 1 w g p args P x ∧ x.queries.length = 2 ∧ P.trace_rows.length = 2 := by
  obtain ⟨p, _, h⟩ := proved
  obtain ⟨w, g, args, P, x, h1, h2, h3⟩ := C63_accepts env root_ok root_compat search_ok c 1 1 (by norm_num) rfl rfl (by decide) (by decide) p h
  obtain ⟨d, _, hs⟩ := h3.sized
  exact ⟨p, w, g, args, P, x, h, h1, h2, h3, by rw [h3.drawn.queries.2.length_eq, List.length_map, List.length_range]; rfl, hs.trace_rows.1⟩

theorem auth_root {α : Type} (H : α → α → α) {tr : List (α × α)} {root : α} {i : Nat} {h : α} (a : Merkle.Auth H tr root i h) : i ≠ 1 → ∃ u v, root = H u v := by
  induction a with
  | root => intro h; exact absurd rfl h
  | left p h s hp a _ ih =>
    intro _
    by_cases h1 : p = 1
    · subst h1
      generalize hx : H h s = y at a
      generalize hi : (1 : Nat) = i at a
      cases a with
      | root => exact ⟨h, s, hx.symm⟩
      | left => omega
      | right => omega
    · exact ih h1
  | right p h s hp a _ ih =>
    intro _
    by_cases h1 : p = 1
    · subst h1
      generalize hx : H s h = y at a
      generalize hi : (1 : Nat) = i at a
      cases a with
      | root => exact ⟨s, h, hx.symm⟩
      | left => omega
      | right => omega
    · exact ih h1

/-- with the constant hash of this example every table has the same root -/
theorem commits (k : Nat) (root : Bytes) (hashes : List Bytes) (indices : List Nat) (leaves : List (List Z)) (hi : indices ≠ []) (hl : leaves ≠ [])
    (ho : Opened env (2 ^ (k + 1)) root hashes indices leaves) (R : Nat → List Z) : Commits env (k + 1) root R := by
  unfold Opened at ho
  obtain ⟨tr, htr⟩ := (C32_trace _ _ _).1 ho
  obtain ⟨i, is, rfl⟩ := List.exists_cons_of_ne_nil hi
  obtain ⟨l, ls, rfl⟩ := List.exists_cons_of_ne_nil hl
  have ha := Merkle.verifyTrace_auth _ _ _ _ htr (i, elementsHash env l) (by simp)
  obtain ⟨u, v, e⟩ := auth_root _ ha (by
    have : 0 < 2 ^ k := by positivity
    show 2 ^ (k + 1) + i ≠ 1
    rw [pow_succ]; omega)
  unfold Commits tableNode Merkle.subtree
  exact e

-- C63: the roots of that proof are those of any tables
theorem any_tables (R C : Nat → List Z) (L : Nat → Z) : ∃ p w g args P x, Stark.verify env c p = .ok () ∧ Accepts env c 1 1 w g p args P x ∧
    Commits env (1 + 1) P.trace_root R ∧ Commits env (1 + 1) P.constraint_root C ∧ LayersCommit env c.fri_layout P.fri [L] (1 + 1) := by
  obtain ⟨p, _, h⟩ := proved
  obtain ⟨w, g, args, P, x, h1, h2, h3⟩ := C63_accepts env root_ok root_compat search_ok c 1 1 (by norm_num) rfl rfl (by decide) (by decide) p h
  obtain ⟨d, _, hs⟩ := h3.sized
  have hql : x.queries.length = 2 := by rw [h3.drawn.queries.2.length_eq, List.length_map, List.length_range]; rfl
  have hq : x.queries ≠ [] := by rintro e; rw [e] at hql; cases hql
  have nonempty : ∀ rows : List (List U256), rows.length = c.num_queries → rows.map (·.map env.codec.val) ≠ [] := by
    intro rows hr e
    have := congrArg List.length e
    rw [List.length_map, hr] at this
    cases this
  refine ⟨p, w, g, args, P, x, h, h3, commits 1 _ _ _ _ hq (nonempty _ hs.trace_rows.1) h3.trace R,
    commits 1 _ _ _ _ hq (nonempty _ hs.constraint_rows.1) h3.constraint C, ?_⟩
  obtain ⟨f, _, hf⟩ := h3.fri
  have hl := hs.fri.1
  have hx := h3.drawn.folds.1
  rw [hl] at hx
  generalize P.fri = ls at hl hf
  generalize x.folds = as at hx hf
  match ls, as, hl, hx with
  | [l], [a], _, _ =>
    obtain ⟨V, J, _, hJ, _, _, ho, _⟩ := hf
    obtain ⟨q, qs, e⟩ := List.exists_cons_of_ne_nil hq
    have hJ0 : J ≠ [] := by
      rintro rfl
      have := (hJ (q / 2 ^ 1)).2 ⟨q, by rw [e]; simp, rfl⟩
      simp at this
    exact ⟨commits 0 _ _ _ _ hJ0 (by simpa using hJ0) ho _, trivial⟩

end Small
end Props
end OpenZKP
