import Verif.Stark.SoundSpec
import Verif.Stark.AcceptMain
import Verif.Stark.Openings
import Verif.Props.Merkle

/-!
Lemmas: openings against the root of a table show the table's rows, or a collision.
-/

namespace OpenZKP
namespace Stark
namespace Accept
open FFT U256 Props Merkle

section
variable {α : Type} [DecidableEq α] (H : α → α → α)

theorem auth_subtree (leaf : Nat → α) (k : Nat) (tr : List (α × α)) (d : Nat) : ∀ (o : Nat) (h : α), d ≤ k → o < 2 ^ d →
    Auth H tr (subtree H leaf k 0) (2 ^ d + o) h → h = subtree H leaf (k - d) o ∨
      ∃ u ∈ tr, ∃ d' o', d' < k ∧ o' < 2 ^ (k - 1 - d') ∧ u ≠ (subtree H leaf d' (2 * o'), subtree H leaf d' (2 * o' + 1)) ∧
        H u.1 u.2 = H (subtree H leaf d' (2 * o')) (subtree H leaf d' (2 * o' + 1)) := by
  induction d with
  | zero =>
    intro o h _ ho a
    obtain rfl : o = 0 := by simpa using ho
    generalize hi : 2 ^ 0 + 0 = i at a
    simp only [pow_zero, add_zero] at hi
    cases a with
    | root => left; rfl
    | left p _ s hp _ _ => omega
    | right p _ s hp _ _ => omega
  | succ d ih =>
    intro o h hd ho a
    have hp2 : 2 ^ (d + 1) = 2 * 2 ^ d := by ring
    have hpos : 0 < 2 ^ d := by positivity
    generalize hi : 2 ^ (d + 1) + o = i at a
    have e1 : k - d = (k - (d + 1)) + 1 := by omega
    cases a with
    | root => omega
    | left p _ s hp a hm =>
      have e2 : p = 2 ^ d + o / 2 := by omega
      have e3 : o = 2 * (o / 2) := by omega
      rw [e2] at a
      rcases ih (o / 2) _ (by omega) (by omega) a with h1 | h1
      · rw [e1, subtree] at h1
        by_cases hc : (h, s) = (subtree H leaf (k - (d + 1)) (2 * (o / 2)), subtree H leaf (k - (d + 1)) (2 * (o / 2) + 1))
        · left
          rw [← e3] at hc
          exact (Prod.ext_iff.1 hc).1
        · right
          refine ⟨_, hm, k - (d + 1), o / 2, by omega, ?_, hc, h1⟩
          have : k - 1 - (k - (d + 1)) = d := by omega
          rw [this]; omega
      · exact Or.inr h1
    | right p _ s hp a hm =>
      have e2 : p = 2 ^ d + o / 2 := by omega
      have e3 : o = 2 * (o / 2) + 1 := by omega
      rw [e2] at a
      rcases ih (o / 2) _ (by omega) (by omega) a with h1 | h1
      · rw [e1, subtree] at h1
        by_cases hc : (s, h) = (subtree H leaf (k - (d + 1)) (2 * (o / 2)), subtree H leaf (k - (d + 1)) (2 * (o / 2) + 1))
        · left
          rw [← e3] at hc
          exact (Prod.ext_iff.1 hc).2
        · right
          refine ⟨_, hm, k - (d + 1), o / 2, by omega, ?_, hc, h1⟩
          have : k - 1 - (k - (d + 1)) = d := by omega
          rw [this]; omega
      · exact Or.inr h1

theorem verifyLoop_pred (Q : α → Prop) (hH : ∀ a b, Q (H a b)) (root : α) (fuel : Nat) (q : List (Nat × α)) (hs : List α) (tr : List (α × α))
    (h : verifyLoop H root fuel q hs = .ok tr) (hq : ∀ x ∈ q, Q x.2) (hh : ∀ x ∈ hs, Q x) : ∀ u ∈ tr, Q u.1 ∧ Q u.2 := by
  induction fuel generalizing q hs tr with
  | zero => cases h
  | succ fuel ih =>
    cases q with
    | nil => cases h; simp
    | cons c q =>
      obtain ⟨c, hash⟩ := c
      have hc : Q hash := hq (c, hash) (by simp)
      have hq' : ∀ x ∈ q, Q x.2 := fun x hx => hq x (by simp [hx])
      have step : ∀ (u : α × α) (i : Nat) (hh : α) (r : List (Nat × α)) (hs' : List α), (verifyLoop H root fuel (r ++ [(i, hh)]) hs').map (u :: ·) = .ok tr →
          Q u.1 → Q u.2 → Q hh → (∀ x ∈ r, Q x.2) → (∀ x ∈ hs', Q x) → ∀ u ∈ tr, Q u.1 ∧ Q u.2 := by
        intro u i hh r hs' e h1 h2 h3 h4 h5
        obtain ⟨tr', e1, rfl⟩ := map_ok_inv e
        intro v hv
        rcases List.mem_cons.1 hv with rfl | hv
        · exact ⟨h1, h2⟩
        · refine ih _ _ _ e1 ?_ h5 v hv
          intro x hx
          rcases List.mem_append.1 hx with hx | hx
          · exact h4 x hx
          · rw [List.mem_singleton] at hx; subst hx; exact h3
      rw [verifyLoop] at h
      split at h
      · split at h
        · split at h
          · split at h
            · exact step _ _ _ _ _ h hc (hq' _ (List.mem_cons_self ..)) (hH _ _) (fun x hx => hq' x (by simp [hx])) hh
            · split at h
              · exact step _ _ _ _ _ h hc (hh _ (by simp)) (hH _ _) hq' (fun x hx => hh x (by simp [hx]))
              · cases h
          · split at h
            · exact step _ _ _ _ _ h hc (hh _ (by simp)) (hH _ _) (by simp) (fun x hx => hh x (by simp [hx]))
            · cases h
        · split at h
          · exact step _ _ _ _ _ h (hh _ (by simp)) hc (hH _ _) hq' (fun x hx => hh x (by simp [hx]))
          · cases h
      · split at h
        · exact ih _ _ _ h hq' hh
        · cases h

theorem verifyTrace_pred (Q : α → Prop) (hH : ∀ a b, Q (H a b)) (p : Proof α) (claims : List (Nat × α)) (tr : List (α × α))
    (h : verifyTrace H p claims = .ok tr) (hc : ∀ c ∈ claims, Q c.2) (hh : ∀ x ∈ p.hashes, Q x) : ∀ u ∈ tr, Q u.1 ∧ Q u.2 := by
  unfold verifyTrace at h
  obtain ⟨nodes, h1, h2⟩ := bind_ok_inv h
  unfold leafNodes at h1
  obtain ⟨ns, h3, rfl⟩ := map_ok_inv h1
  have hf := mapM_ok_inv _ _ _ h3
  split at h2
  · cases h2
  · refine verifyLoop_pred H Q hH _ _ _ _ _ h2 ?_ hh
    intro x hx
    have hx := (dedupBy_sublist _ _).subset hx
    rw [List.mem_insertionSort] at hx
    obtain ⟨j, hj, rfl⟩ := List.getElem_of_mem hx
    have := (List.forall₂_iff_get.1 hf).2 j (by rw [hf.length_eq]; exact hj) hj
    obtain ⟨z, hz, hz'⟩ := map_ok_inv this
    simp only [List.get_eq_getElem] at hz'
    rw [← hz']
    exact hc (claims[j]'(by rw [hf.length_eq]; exact hj)) (List.getElem_mem _)

end

section
variable {F : Type} [Field F] [DecidableEq F] (env : Env F)

theorem words_inj : ∀ (a b : List U256), a.length = b.length → words a = words b → a = b
  | [], [], _, _ => rfl
  | x :: a, y :: b, hl, h => by
    rw [words_cons, words_cons] at h
    obtain ⟨h1, h2⟩ := List.append_inj h (by rw [to_bytes_be_length, to_bytes_be_length])
    have e := C06_roundtrip_value x
    rw [h1, C06_roundtrip_value y] at e
    rw [Option.some.inj e, words_inj a b (by simpa using hl) h2]

omit [Field F] [DecidableEq F] in
theorem rep_inj {x y : F} (h : env.codec.rep x = env.codec.rep y) : x = y := by
  have := congrArg env.codec.val h
  rwa [env.codec.val_rep, env.codec.val_rep] at this

omit [Field F] [DecidableEq F] in
theorem leafBytes_inj {a b : List F} (hl : a.length = b.length) (h : leafBytes env a = leafBytes env b) : a = b := by
  have := words_inj _ _ (by simp [hl]) h
  exact List.map_injective_iff.2 (fun _ _ h => rep_inj env h) this

omit [Field F] [DecidableEq F] in
theorem elementsHash_inv {a b : List F} (hl : a.length = b.length) (h : elementsHash env a = elementsHash env b) :
    a = b ∨ (leafBytes env a ≠ leafBytes env b ∧ maskedKeccak env.K (leafBytes env a) = maskedKeccak env.K (leafBytes env b)) := by
  by_cases hab : a = b
  · exact Or.inl hab
  · have hne : leafBytes env a ≠ leafBytes env b := fun h => hab (leafBytes_inj env hl h)
    unfold elementsHash at h
    match a, b, hl with
    | [], [], _ => exact absurd rfl hab
    | [x], [y], _ =>
      exfalso
      apply hne
      simp only [List.map_cons, List.map_nil, leafHash] at h
      simp only [leafBytes, List.map_cons, List.map_nil, words, List.flatMap_cons, List.flatMap_nil, h]
    | x :: x' :: a, y :: y' :: b, _ => exact Or.inr ⟨hne, h⟩

omit [Field F] [DecidableEq F] in
theorem tableNode_length (R : Nat → List F) (d o : Nat) : (tableNode env R d o).length = 32 :=
  subtree_pred _ (fun x : Bytes => x.length = 32) _ (fun _ _ => maskedKeccak_length _ _) (fun _ => leafHash_length _ _) _ _

omit [Field F] in
/-- the opened leaves are the table's, or there is a collision -/
theorem opened_true (k : Nat) (root : Bytes) (hashes : List Bytes) (hh : ∀ h ∈ hashes, h.length = 32) (indices : List Nat) (leaves : List (List F))
    (hl : leaves.length = indices.length) (R : Nat → List F) (hw : ∀ (z : Nat) i leaf, indices[z]? = some i → leaves[z]? = some leaf → leaf.length = (R i).length)
    (hR : Commits env k root R) (ho : Opened env (2 ^ k) root hashes indices leaves) :
    leaves = indices.map R ∨ Collision env k root hashes indices leaves R := by
  by_cases hcol : Collision env k root hashes indices leaves R
  · exact Or.inr hcol
  left
  unfold Opened at ho
  obtain ⟨tr, htr⟩ := (C32_trace _ _ _).1 ho
  apply List.ext_getElem (by rw [List.length_map, hl])
  intro z h1 h2
  have hz : z < indices.length := by omega
  rw [List.getElem_map]
  have hmem : (indices[z], elementsHash env leaves[z]) ∈ indices.zip (leaves.map (elementsHash env)) := by
    rw [List.mem_iff_getElem]
    refine ⟨z, by simp; omega, by simp⟩
  have hi : indices[z] < 2 ^ k := by
    have := htr
    unfold verifyTrace at this
    obtain ⟨nodes, h3, _⟩ := bind_ok_inv this
    unfold leafNodes at h3
    obtain ⟨ns, h5, _⟩ := map_ok_inv h3
    have hf := mapM_ok_inv _ _ _ h5
    obtain ⟨j, hj, e⟩ := List.getElem_of_mem hmem
    have := (List.forall₂_iff_get.1 hf).2 j hj (by rw [← hf.length_eq]; exact hj)
    obtain ⟨y, hy, _⟩ := map_ok_inv this
    obtain ⟨k', hk', hs, ho, _⟩ := (from_size_offset_iff _ _ _).1 hy
    simp only [List.get_eq_getElem, e] at ho
    exact ho
  have ha := verifyTrace_auth _ _ _ _ htr _ hmem
  rw [hR] at ha
  rcases auth_subtree (nodeHash env.K) _ k tr k _ _ (le_refl k) hi ha with h3 | ⟨u, hu, d', o', hd, ho', hne, he⟩
  · rw [Nat.sub_self, subtree] at h3
    rcases elementsHash_inv env (hw z _ _ (List.getElem?_eq_getElem hz) (List.getElem?_eq_getElem h1)) h3 with h4 | ⟨h4, h5⟩
    · exact h4
    · exact absurd ⟨_, _, Or.inl ⟨_, List.getElem_mem h1, rfl⟩, Or.inl ⟨_, hi, rfl⟩, h4, h5⟩ hcol
  · exfalso
    have hlen := verifyTrace_pred (nodeHash env.K) (fun x : Bytes => x.length = 32) (fun _ _ => maskedKeccak_length _ _) _ _ _ htr (by
      intro c hc
      have := (List.of_mem_zip (a := c.1) (b := c.2) hc).2
      obtain ⟨x, _, e⟩ := List.mem_map.1 this
      rw [← e]; exact leafHash_length _ _) hh u hu
    refine hcol ⟨_, _, Or.inr ⟨tr, htr, u, hu, rfl⟩, Or.inr ⟨d', o', hd, ho', rfl⟩, ?_, he⟩
    intro h
    obtain ⟨e1, e2⟩ := List.append_inj h (by rw [hlen.1, tableNode_length])
    exact hne (Prod.ext e1 e2)

theorem foldMany_congr (a : F) (V L : Nat → F) (j : Nat) : ∀ (n : Nat) (w : F) (m : Nat), (∀ i < 2 ^ n, V (j * 2 ^ n + i) = L (j * 2 ^ n + i)) →
    foldMany n w m a V j = foldMany n w m a L j := by
  intro n
  induction n generalizing a V L with
  | zero => intro w m h; have := h 0 (by norm_num); simpa [foldMany] using this
  | succ n ih =>
    intro w m h
    rw [foldMany, foldMany]
    apply ih
    intro i hi
    have h1 := h (2 * i) (by rw [pow_succ]; omega)
    have h2 := h (2 * i + 1) (by rw [pow_succ]; omega)
    have e1 : j * 2 ^ (n + 1) + 2 * i = 2 * (j * 2 ^ n + i) := by ring
    have e2 : j * 2 ^ (n + 1) + (2 * i + 1) = 2 * (j * 2 ^ n + i) + 1 := by ring
    rw [e1] at h1
    rw [e2] at h2
    unfold foldOnce
    rw [h1, h2]

/-- the layers as opened are the layers committed to, or there is a collision -/
theorem layers_true (last : List F) : ∀ (ns : List Nat) (ls : List Layer) (as : List F) (Ls : List (Nat → F)) (w : F) (m : Nat) (f : Nat → F) (Q : List Nat),
    (∀ l ∈ ls, ∀ h ∈ l.hashes, h.length = 32) → LayersCommit env ns ls Ls m → FriOk env last ns ls as w m f Q →
    LayersCollide env ns ls Ls m ∨ ∀ q ∈ Q, Chain last ns Ls as w m (f q) q := by
  intro ns
  induction ns with
  | nil =>
    intro ls as Ls w m f Q hh hc h
    match ls, Ls, as, hc, h with
    | [], [], [], _, h => right; exact h
  | cons n ns ih =>
    intro ls as Ls w m f Q hh hc h
    match ls, Ls, as, hc, h with
    | l :: ls, L :: Ls, a :: as, ⟨c1, c2⟩, ⟨V, J, hJ, hJQ, hVf, _, hop, hrest⟩ =>
      rcases opened_true env (m - n) l.root l.hashes (hh l (by simp)) J _ (by simp) (cosetRows n L) (by
          intro z i leaf h1 h2
          rw [List.getElem?_map] at h2
          obtain ⟨y, _, rfl⟩ := Option.map_eq_some_iff.1 h2
          simp [cosetRows]) c1 hop with h1 | h1
      · have hV : ∀ j ∈ J, ∀ i < 2 ^ n, V (j * 2 ^ n + i) = L (j * 2 ^ n + i) := by
          intro j hj i hi
          have h2 := List.map_inj_left.1 h1 j hj
          exact List.map_inj_left.1 h2 i (List.mem_range.2 hi)
        rcases ih ls as Ls (w ^ 2 ^ n) (m - n) _ J (fun l hl => hh l (by simp [hl])) c2 hrest with h2 | h2
        · left; exact Or.inr h2
        · right
          intro q hq
          have hj : q / 2 ^ n ∈ J := (hJQ _).2 ⟨q, hq, rfl⟩
          refine ⟨?_, ?_⟩
          · rw [← hVf q hq]
            have := hV _ hj (q % 2 ^ n) (Nat.mod_lt _ (by positivity))
            rw [Nat.div_add_mod'] at this
            exact this.symm
          · have := h2 _ hj
            rwa [foldMany_congr a V L _ n w m (hV _ hj)] at this
      · left; exact Or.inl ⟨_, _, h1⟩

end
end Accept
end Stark
end OpenZKP
