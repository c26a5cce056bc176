import Verif.Stark.ForwardChecks
import Verif.Stark.Binding

/-!
Lemmas: the verifier accepts a proof that meets the specification.
-/

namespace OpenZKP
namespace Stark
namespace Accept
open FFT U256 Props Merkle Polynomial

section
variable {F : Type} [Field F] [DecidableEq F] (env : Env F)

/-- a position that is queried twice has the same rows both times -/
def SameRows (P : Contents) (queries : List Nat) : Prop :=
  ∀ (y z : Nat) (q : Nat), queries[y]? = some q → queries[z]? = some q →
    (P.trace_rows.map (·.map env.codec.val))[y]? = (P.trace_rows.map (·.map env.codec.val))[z]? ∧
    (P.constraint_rows.map (·.map env.codec.val))[y]? = (P.constraint_rows.map (·.map env.codec.val))[z]?

/-- a collision of the hash function between two of the rows -/
def RowsCollide (rows : List (List F)) : Prop := ∃ r ∈ rows, ∃ s ∈ rows, r ≠ s ∧
  maskedKeccak env.K (words (r.map env.codec.rep)) = maskedKeccak env.K (words (s.map env.codec.rep))

omit [Field F] [DecidableEq F] in
/-- the claims of an opening that verifies agree on the positions they share -/
theorem claims_agree {α : Type} [DecidableEq α] (H : α → α → α) (p : Proof α) (claims : List (Nat × α)) (h : Merkle.verify H p claims = .ok ())
    (i : Nat) (x y : α) (h1 : (i, x) ∈ claims) (h2 : (i, y) ∈ claims) : x = y := by
  unfold Merkle.verify at h
  obtain ⟨tr, h, _⟩ := map_ok_inv h
  unfold verifyTrace at h
  obtain ⟨nodes, e1, h⟩ := bind_ok_inv h
  split at h
  · cases h
  next hn =>
  have hn : noMismatch nodes = true := by simpa using hn
  unfold leafNodes at e1
  obtain ⟨ns, e2, rfl⟩ := map_ok_inv e1
  have hf := mapM_ok_inv _ _ _ e2
  have hmem : ∀ u, (i, u) ∈ claims → (p.commitment.size + i, u) ∈ ns := by
    intro u hu
    obtain ⟨j, hj, e⟩ := List.getElem_of_mem hu
    have hj' : j < ns.length := by rw [← hf.length_eq]; exact hj
    have := (List.forall₂_iff_get.1 hf).2 j hj hj'
    obtain ⟨z, hz, hz'⟩ := map_ok_inv this
    obtain ⟨k, _, hk, _, rfl⟩ := (from_size_offset_iff _ _ _).1 hz
    simp only [List.get_eq_getElem, e] at hz'
    rw [hz']; exact List.getElem_mem hj'
  have hcomp := dedupBy_complete _ hn
  have d1 := hcomp _ ((List.mem_insertionSort _).2 (hmem x h1))
  have d2 := hcomp _ ((List.mem_insertionSort _).2 (hmem y h2))
  have hstrict := dedupBy_strict Prod.fst (ns.insertionSort fun a b => a.1 ≤ b.1)
    (by
      have : Std.Total (fun a b : Nat × α => a.1 ≤ b.1) := ⟨fun a b => Nat.le_total _ _⟩
      have : IsTrans (Nat × α) (fun a b => a.1 ≤ b.1) := ⟨fun a b c => Nat.le_trans⟩
      exact List.pairwise_insertionSort (fun a b : Nat × α => a.1 ≤ b.1) ns)
  by_contra hne
  have : Std.Symm (fun a b : Nat × α => a = b ∨ a.1 ≠ b.1) := ⟨fun a b h => h.imp Eq.symm Ne.symm⟩
  have key := List.Pairwise.forall_of_forall (R := fun a b : Nat × α => a = b ∨ a.1 ≠ b.1) (fun a _ => Or.inl rfl)
    (hstrict.imp fun {a b} hab => Or.inr (Nat.ne_of_lt hab)) d1 d2
  rcases key with e | e
  · exact hne (congrArg Prod.snd e)
  · exact e rfl

omit [Field F] [DecidableEq F] in
theorem rows_agree (size n : Nat) (root : Bytes) (hashes : List Bytes) (indices : List Nat) (rows : List (List F)) (hn : ∀ r ∈ rows, r.length = n)
    (h : Opened env size root hashes indices rows) :
    RowsCollide env rows ∨ ∀ (y z : Nat) (q : Nat), indices[y]? = some q → indices[z]? = some q → y < rows.length → z < rows.length → rows[y]? = rows[z]? := by
  by_cases hc : RowsCollide env rows
  · exact Or.inl hc
  refine Or.inr fun y z q hy hz ly lz => ?_
  rw [List.getElem?_eq_getElem ly, List.getElem?_eq_getElem lz, Option.some.injEq]
  by_contra hne
  have m : ∀ (i : Nat) (hi : i < rows.length), indices[i]? = some q → (q, elementsHash env rows[i]) ∈ indices.zip (rows.map (elementsHash env)) := by
    intro i hi e
    refine List.mem_of_getElem? (i := i) ?_
    rw [List.getElem?_zip_eq_some]
    exact ⟨e, by rw [List.getElem?_map, List.getElem?_eq_getElem hi]; rfl⟩
  have e := claims_agree _ _ _ h q _ _ (m y ly hy) (m z lz hz)
  have n1 := hn _ (List.getElem_mem ly)
  have n2 := hn _ (List.getElem_mem lz)
  generalize hr : rows[y] = r at e n1 hne
  generalize hs : rows[z] = s at e n2 hne
  unfold elementsHash at e
  apply hne
  have one : ∀ (r s : List F), r.length = 1 → s.length = 1 → leafHash env.K (r.map env.codec.rep) = leafHash env.K (s.map env.codec.rep) → r = s := by
    intro r s h1 h2 e
    obtain ⟨a, rfl⟩ := List.length_eq_one_iff.1 h1
    obtain ⟨b, rfl⟩ := List.length_eq_one_iff.1 h2
    have e : to_bytes_be (env.codec.rep a) = to_bytes_be (env.codec.rep b) := e
    have := words_inj [env.codec.rep a] [env.codec.rep b] rfl (by simpa [words] using e)
    rw [rep_inj env (List.cons.inj this).1]
  by_cases h1 : n = 1
  · exact one r s (n1.trans h1) (n2.trans h1) e
  · have ne1 : ∀ l : List F, l.length = n → leafHash env.K (l.map env.codec.rep) = maskedKeccak env.K (words (l.map env.codec.rep)) := by
      intro l hl
      match l, hl with
      | [], _ => rfl
      | [_], hl => exact absurd hl.symm h1
      | _ :: _ :: _, _ => rfl
    rw [ne1 r n1, ne1 s n2] at e
    exact absurd ⟨r, by rw [← hr]; exact List.getElem_mem ly, s, by rw [← hs]; exact List.getElem_mem lz, hne, e⟩ hc

theorem same_rows (c : Constraints F) (k b : Nat) (W g : F) (p : Bytes) (args : List (Nat × Int)) (P : Contents) (x : Challenges F)
    (h : Accepts env c k b W g p args P x) :
    RowsCollide env (P.trace_rows.map (·.map env.codec.val)) ∨ RowsCollide env (P.constraint_rows.map (·.map env.codec.val)) ∨ SameRows env P x.queries := by
  obtain ⟨d, hd, hs⟩ := h.sized
  have hql : x.queries.length = c.num_queries := by rw [h.drawn.queries.2.length_eq, List.length_map, List.length_range]
  have width : ∀ (rows : List (List U256)) (n : Nat), (∀ r ∈ rows, r.length = n ∧ Reduced r) → ∀ r ∈ rows.map (·.map env.codec.val), r.length = n := by
    intro rows n hr r h1
    obtain ⟨u, hu, rfl⟩ := List.mem_map.1 h1
    rw [List.length_map]; exact (hr u hu).1
  rcases rows_agree env _ _ _ _ _ _ (width _ _ hs.trace_rows.2) h.trace with h1 | h1
  · exact Or.inl h1
  rcases rows_agree env _ _ _ _ _ _ (width _ _ hs.constraint_rows.2) h.constraint with h2 | h2
  · exact Or.inr (Or.inl h2)
  refine Or.inr (Or.inr fun y z q hy hz => ?_)
  have ly := (List.getElem?_eq_some_iff.1 hy).1
  have lz := (List.getElem?_eq_some_iff.1 hz).1
  exact ⟨h1 y z q hy hz (by rw [List.length_map, hs.trace_rows.1, ← hql]; exact ly) (by rw [List.length_map, hs.trace_rows.1, ← hql]; exact lz),
    h2 y z q hy hz (by rw [List.length_map, hs.constraint_rows.1, ← hql]; exact ly) (by rw [List.length_map, hs.constraint_rows.1, ← hql]; exact lz)⟩

theorem known_fwd (hsearch : SearchOk env.search) (c : Constraints F) (k b : Nat) (hkb : k + b < 64) (hk : c.trace_nrows = 2 ^ k) (hb : c.blowup = 2 ^ b)
    (W g : F) (hg : env.root (2 ^ k) = some g) (p : Bytes) (args : List (Nat × Int)) (P : Contents) (x : Challenges F)
    (h : Accepts env c k b W g p args P x) (hsame : SameRows env P x.queries) (hQ : ∀ q ∈ x.queries, q < 2 ^ (k + b)) (f : Nat → F)
    (hf : ∀ q ∈ x.queries, ∃ z : Nat, ∃ row crow, x.queries[z]? = some q ∧ P.trace_rows[z]? = some row ∧ P.constraint_rows[z]? = some crow ∧
      (∀ a ∈ args, a.1 < row.length ∧ env.generator * W ^ rev (k + b) q ≠ g ^ a.2 * x.point) ∧
      env.generator * W ^ rev (k + b) q ≠ x.point ^ P.constraint_values.length ∧
      f q = deep env g args P x (row.map env.codec.val) (crow.map env.codec.val) (env.generator * W ^ rev (k + b) q))
    (q z : Nat) (hz : env.search x.queries q = some z) :
    knownFirst env c (transcriptOf env c (k + b) args P x) ((List.range (2 ^ (k + b))).map (W ^ ·)) (x.queries.zip (P.trace_rows.map (·.map env.codec.val)))
      (x.queries.zip (P.constraint_rows.map (·.map env.codec.val))) q z = .ok (f q) := by
  have hN : c.trace_nrows * c.blowup = 2 ^ (k + b) := by rw [hk, hb, pow_add]
  obtain ⟨d, hd, hs⟩ := h.sized
  have hqz := (hsearch x.queries q h.drawn.queries.1).1 z hz
  have hmem : q ∈ x.queries := List.mem_of_getElem? hqz
  obtain ⟨row, crow, y2, y3, y4, y5, y6⟩ : ∃ row crow, P.trace_rows[z]? = some row ∧ P.constraint_rows[z]? = some crow ∧
      (∀ a ∈ args, a.1 < row.length ∧ env.generator * W ^ rev (k + b) q ≠ g ^ a.2 * x.point) ∧
      env.generator * W ^ rev (k + b) q ≠ x.point ^ P.constraint_values.length ∧
      f q = deep env g args P x (row.map env.codec.val) (crow.map env.codec.val) (env.generator * W ^ rev (k + b) q) := by
    obtain ⟨y, row, crow, y1, y2, y3, y4, y5, y6⟩ := hf q hmem
    obtain ⟨s1, s2⟩ := hsame y z q y1 hqz
    rw [List.getElem?_map, y2, Option.map_some, List.getElem?_map] at s1
    rw [List.getElem?_map, y3, Option.map_some, List.getElem?_map] at s2
    obtain ⟨row', z2, s1⟩ := Option.map_eq_some_iff.1 s1.symm
    obtain ⟨crow', z3, s2⟩ := Option.map_eq_some_iff.1 s2.symm
    have s3 := congrArg List.length s1
    rw [List.length_map, List.length_map] at s3
    rw [← s1, ← s2] at y6
    rw [← s3] at y4
    exact ⟨row', crow', z2, z3, y4, y5, y6⟩
  have hcl : crow.length = P.constraint_values.length := by
    rw [(hs.constraint_rows.2 crow (List.mem_of_getElem? y3)).1, hs.constraint_values.1]
  obtain ⟨v, hv⟩ := deep_fwd env (W ^ rev (k + b) q) (row.map env.codec.val) (crow.map env.codec.val) x.point args (P.trace_values.map env.codec.val)
    (P.constraint_values.map env.codec.val) x.oods (2 ^ k) g hg (by rw [List.length_map, List.length_map, hcl])
    (by rw [List.length_map]; exact y4) (by rw [List.length_map]; exact y5)
  have hkf : knownFirst env c (transcriptOf env c (k + b) args P x) ((List.range (2 ^ (k + b))).map (W ^ ·)) (x.queries.zip (P.trace_rows.map (·.map env.codec.val)))
      (x.queries.zip (P.constraint_rows.map (·.map env.codec.val))) q z = .ok v := by
    unfold knownFirst
    have t1 : (transcriptOf env c (k + b) args P x).queries = x.queries := rfl
    have z1 : (x.queries.zip (P.trace_rows.map (·.map env.codec.val)))[z]? = some (q, row.map env.codec.val) := by
      rw [List.getElem?_zip_eq_some]; exact ⟨hqz, by rw [List.getElem?_map, y2]; rfl⟩
    have z2 : (x.queries.zip (P.constraint_rows.map (·.map env.codec.val)))[z]? = some (q, crow.map env.codec.val) := by
      rw [List.getElem?_zip_eq_some]; exact ⟨hqz, by rw [List.getElem?_map, y3]; rfl⟩
    rw [t1, hqz, orPanic_some, ok_bind, hN, permute_index_eq (k + b) q hkb (hQ q hmem), List.getElem?_map, List.getElem?_range (rev_lt _ q), Option.map_some,
      orPanic_some, ok_bind, z1, orPanic_some, ok_bind, z2, orPanic_some, ok_bind, hk]
    exact hv
  have hcvne : P.constraint_values ≠ [] := by
    intro h0
    have := congrArg List.length h0
    rw [hs.constraint_values.1, List.length_nil] at this
    unfold next_power_of_two at this
    split at this
    · omega
    · exact absurd this (Nat.two_pow_pos _).ne'
  have hql : x.queries.length = c.num_queries := by rw [h.drawn.queries.2.length_eq, List.length_map, List.length_range]
  obtain ⟨row', crow', r1, r2, _, _, r5⟩ := first_inv env c (k + b) k b rfl hkb hk hb W g hg (transcriptOf env c (k + b) args P x) args P.trace_values P.constraint_values rfl
    hs.trace_values.1 rfl hcvne (draws_length env _ _ _ h.drawn.oods) P.trace_rows P.constraint_rows (hs.trace_rows.1.trans hql.symm)
    (hs.constraint_rows.1.trans hql.symm) (fun r hr => by rw [(hs.constraint_rows.2 r hr).1, hs.constraint_values.1]) q z v hqz (hQ q hmem) hkf P x rfl rfl rfl rfl
  rw [y2] at r1
  rw [y3] at r2
  cases r1
  cases r2
  rw [hkf, r5, y6]

theorem converse (hroot : RootFn env.root) (hcompat : RootCompat env.root) (hsearch : SearchOk env.search) (c : Constraints F) (k b : Nat)
    (hkb : k + b < 64) (hk : c.trace_nrows = 2 ^ k) (hb : c.blowup = 2 ^ b) (hlayout : c.fri_layout.sum ≤ k) (hq : c.num_queries < 2 ^ 64) (hpow : c.pow_bits < 256)
    (hlay : c.fri_layout ≠ [] ∨ c.num_queries = 0) (hdeg : c.degree ≠ some 0)
    (W g : F) (hW : env.root (2 ^ (k + b)) = some W) (hg : env.root (2 ^ k) = some g) (p : Bytes) (args : List (Nat × Int)) (P : Contents) (x : Challenges F)
    (h : Accepts env c k b W g p args P x) (hcount : P.Counted c.fri_layout (k + b) x.queries) (hsame : SameRows env P x.queries) :
    verify env c p = .ok () := by
  have hN : c.trace_nrows * c.blowup = 2 ^ (k + b) := by rw [hk, hb, pow_add]
  obtain ⟨d, hd, hs⟩ := h.sized
  have hql : x.queries.length = c.num_queries := by rw [h.drawn.queries.2.length_eq, List.length_map, List.length_range]
  have hQ : ∀ q ∈ x.queries, q < 2 ^ (k + b) := by
    intro q hq
    obtain ⟨i, _, rfl⟩ := List.mem_map.1 (h.drawn.queries.2.subset hq)
    unfold queryWord
    exact Nat.mod_lt _ (Nat.two_pow_pos _)
  obtain ⟨coin0, e0⟩ := transcript_fwd env c k b hkb hk hb (by omega) hq hpow W g p args P x h
  have hp : p = P.front ++ P.trace_rows.flatMap words ++ P.trace_hashes.flatten ++ P.constraint_rows.flatMap words ++ P.constraint_hashes.flatten ++
      P.fri.flatMap fun l => words l.values ++ l.hashes.flatten := by
    rw [h.bytes]; unfold Contents.bytes Contents.front; simp only [List.append_assoc]
  have p5 : P.front ++ P.trace_rows.flatMap words ++ P.trace_hashes.flatten ++ P.constraint_rows.flatMap words ++ P.constraint_hashes.flatten ++
      (P.fri.flatMap fun l => words l.values ++ l.hashes.flatten) <+: p := by rw [← hp]
  have p4 := (List.prefix_append _ _).trans p5
  have p3 := (List.prefix_append _ _).trans p4
  have p2 := (List.prefix_append _ _).trans p3
  have p1 := (List.prefix_append _ _).trans p2
  obtain ⟨coin1, e1⟩ := fwd_leaves env c.trace_ncolumns x.queries P.trace_rows (hs.trace_rows.1.trans hql.symm) hs.trace_rows.2 coin0 P.front p p1
  obtain ⟨coin2, e2⟩ := fwd_check env .InvalidLDECommitment ⟨2 ^ (k + b), P.trace_root⟩ x.queries (x.queries.zip (P.trace_rows.map (·.map env.codec.val))) P.trace_hashes
    hs.trace_hashes hcount.trace (by rw [zip_hash]; exact h.trace) coin1 _ p p2
  obtain ⟨coin3, e3⟩ := fwd_leaves env P.constraint_values.length x.queries P.constraint_rows (hs.constraint_rows.1.trans hql.symm)
    (fun r hr => by rw [hs.constraint_values.1]; exact hs.constraint_rows.2 r hr) coin2 _ p p3
  obtain ⟨coin4, e4⟩ := fwd_check env .InvalidConstraintCommitment ⟨2 ^ (k + b), P.constraint_root⟩ x.queries (x.queries.zip (P.constraint_rows.map (·.map env.codec.val)))
    P.constraint_hashes hs.constraint_hashes hcount.constraint (by rw [zip_hash]; exact h.constraint) coin3 _ p p4
  obtain ⟨f, hf1, hf2⟩ := h.fri
  have hl : (P.last_layer.map env.codec.val).length = 2 ^ (k - c.fri_layout.sum) := by
    rw [List.length_map, hs.last_layer.1, Nat.pow_div (by omega) (by norm_num), Nat.pow_div (by omega) (by norm_num)]
    congr 1; omega
  have hWm : W ^ 2 ^ (k + b - (k + b)) = W := by rw [Nat.sub_self, pow_zero, pow_one]
  rw [← hWm] at hf2
  obtain ⟨coin5, res, e5, e6⟩ := layers_fwd env hroot hcompat hsearch (k + b) hkb W hW _ _ hl p c.fri_layout P.fri x.folds (k + b) (le_refl _) (by omega) f x.queries
    h.drawn.queries.1 hQ (fun l hl => (hs.fri.2 l hl).2) hf2 hcount.fri _ []
    (known_fwd env hsearch c k b hkb hk hb W g hg p args P x h hsame hQ f hf1)
    (by
      intro h0
      have : x.queries = [] := by
        rcases hlay with h1 | h1
        · exact absurd h0 h1
        · rw [h1] at hql; exact List.length_eq_zero_iff.1 hql
      rw [this]; rfl) coin4 _ p5
  rw [Nat.sub_self, pow_zero] at e5
  have e7 := oods_fwd env c hdeg (by rw [hk]; exact Nat.two_pow_pos _) args P x (draws_length env _ _ _ h.drawn.coefficients) h.out_of_domain
  unfold verify
  dsimp only
  rw [hN, hW, orPanic_some, ok_bind, e0, ok_bind]
  dsimp only
  unfold checkTranscript
  have t1 : (transcriptOf env c (k + b) args P x).queries = x.queries := rfl
  rw [t1, e1, ok_bind]
  dsimp only
  have t2 : (transcriptOf env c (k + b) args P x).lde_commitment = ⟨2 ^ (k + b), P.trace_root⟩ := rfl
  have t3 : (transcriptOf env c (k + b) args P x).constraint_commitment = ⟨2 ^ (k + b), P.constraint_root⟩ := rfl
  have t4 : (transcriptOf env c (k + b) args P x).degree = P.constraint_values.length := rfl
  rw [t2, e2, ok_bind, t4, e3, ok_bind]
  dsimp only
  rw [t3, e4, ok_bind, if_neg (by
    rintro ⟨h0, h1⟩
    rcases hlay with h2 | h2
    · exact h2 h0
    · rw [h2] at hql; exact h1 (List.length_eq_zero_iff.1 hql))]
  have t5 : (transcriptOf env c (k + b) args P x).layers = comsOf c.fri_layout P.fri x.folds (k + b) := rfl
  rw [t5, hN, e5, ok_bind]
  dsimp only
  have hend : (vch coin5 p (P.front ++ P.trace_rows.flatMap words ++ P.trace_hashes.flatten ++ P.constraint_rows.flatMap words ++ P.constraint_hashes.flatten ++
      P.fri.flatMap fun l => words l.values ++ l.hashes.flatten)).at_end = true := by
    rw [← hp]
    simp [VerifierChannel.at_end, vch]
  rw [hend, if_neg (by simp)]
  have t6 : (transcriptOf env c (k + b) args P x).last_layer = P.last_layer.map env.codec.val := rfl
  have t7 : (transcriptOf env c (k + b) args P x).constraint_coefficients = x.coefficients := rfl
  have t8 : (transcriptOf env c (k + b) args P x).trace_map = args.zip (P.trace_values.map env.codec.val) := rfl
  have t9 : (transcriptOf env c (k + b) args P x).oods_point = x.point := rfl
  have t10 : (transcriptOf env c (k + b) args P x).constraint_values = P.constraint_values.map env.codec.val := rfl
  rw [t6, e6, ok_bind, t7, t8, t9, t10, e7, orPanic_some, ok_bind, if_neg (by simp)]

end
end Accept
end Stark
end OpenZKP
