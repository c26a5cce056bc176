import Verif.Stark.Replay
import Verif.Merkle.Main

/-!
Lemmas: the verifier accepts the openings the prover writes.
-/

namespace OpenZKP
namespace Stark
open FFT U256 Merkle

section
variable {α : Type} (H : α → α → α) (Q : α → Prop) (hH : ∀ a b, Q (H a b))

include hH in
theorem node_hash_pred (t : Merkle.Tree α) (hn : ∀ x ∈ t.nodes, Q x) (hl : ∀ x ∈ t.leaves, Q x) (fuel i : Nat) (h : α)
    (he : node_hash H t fuel i = .ok h) : Q h := by
  cases fuel with
  | zero => cases he
  | succ fuel =>
    rw [node_hash] at he
    split at he
    · next x hx => cases he; exact hn _ (List.mem_of_getElem? hx)
    · dsimp only at he
      split at he
      · cases he
      · split at he
        · split at he
          · next x hx => cases he; exact hl _ (List.mem_of_getElem? hx)
          · cases he
        · obtain ⟨l, _, h2⟩ := bind_ok_inv he
          obtain ⟨r, _, h3⟩ := bind_ok_inv h2
          cases h3
          exact hH _ _

include hH in
theorem openLoop_pred (t : Merkle.Tree α) (hn : ∀ x ∈ t.nodes, Q x) (hl : ∀ x ∈ t.leaves, Q x) (fuel : Nat) (q : List Nat) (hs : List α)
    (he : openLoop H t fuel q = .ok hs) : ∀ h ∈ hs, Q h := by
  induction fuel generalizing q hs with
  | zero => cases he
  | succ fuel ih =>
    cases q with
    | nil => cases he; simp
    | cons c q =>
      rw [openLoop] at he
      split at he
      · exact ih _ _ he
      · split at he
        · cases he
        · split at he
          · split at he
            · exact ih _ _ he
            · obtain ⟨h, h1, h2⟩ := bind_ok_inv he
              obtain ⟨r, h3, rfl⟩ := map_ok_inv h2
              intro x hx
              rcases List.mem_cons.1 hx with rfl | hx
              · exact node_hash_pred H Q hH t hn hl _ _ _ h1
              · exact ih _ _ h3 x hx
          · cases he

include hH in
theorem openAt_pred (t : Merkle.Tree α) (hn : ∀ x ∈ t.nodes, Q x) (hl : ∀ x ∈ t.leaves, Q x) (is : List Nat) (p : Proof α)
    (he : openAt H t is = .ok p) : ∀ h ∈ p.hashes, Q h := by
  unfold openAt at he
  obtain ⟨s, _, h2⟩ := bind_ok_inv he
  obtain ⟨hs, h3, h4⟩ := bind_ok_inv h2
  unfold from_hashes at h4
  obtain ⟨_, _, h5⟩ := bind_ok_inv h4
  obtain ⟨n, _, h6⟩ := bind_ok_inv h5
  split at h6
  · cases h6
    exact openLoop_pred H Q hH t hn hl _ _ _ h3
  · cases h6

theorem subtree_pred (leaf : Nat → α) (hH : ∀ a b, Q (H a b)) (hl : ∀ o, Q (leaf o)) (d o : Nat) : Q (subtree H leaf d o) := by
  cases d with
  | zero => exact hl o
  | succ d => exact hH _ _

end

theorem maskedKeccak_length (K : Keccak) (x : Bytes) : (maskedKeccak K x).length = 32 := by
  unfold maskedKeccak
  rw [List.length_append, List.length_take, K.len, List.length_replicate]
  rfl

theorem leafHash_length (K : Keccak) (xs : List U256) : (leafHash K xs).length = 32 := by
  unfold leafHash
  split
  · exact to_bytes_be_length _
  · exact maskedKeccak_length _ _

section
variable {F : Type} [Field F] [DecidableEq F] (env : Env F)

omit [DecidableEq F] [Field F] in
/-- A tree over a power of two of leaves exists, its root is a 32-byte string, and every opening of it, written after `pre`, is read and accepted
by the verifier. -/
theorem makeTree_ok (leaves : List (List F)) (k : Nat) (hk : k ≤ 63) (hlen : leaves.length = 2 ^ k) :
    ∃ t, makeTree env leaves = .ok t ∧ t.commitment.size = 2 ^ k ∧ t.commitment.hash.length = 32 ∧
      ∀ indices, (∀ i ∈ indices, i < 2 ^ k) → ∃ p, openAt (nodeHash env.K) t indices = .ok p ∧
        ∀ (err : VerifierError) (values : List (Nat × List F)) (coin : PublicCoin) (pre full : Bytes),
          (∀ i, i ∈ indices ↔ ∃ v ∈ values, v.1 = i) → (∀ v ∈ values, leaves[v.1]? = some v.2) → pre ++ p.hashes.flatten <+: full →
          ∃ coin', checkLeaves env err t.commitment indices values (vch coin full pre) = .ok (vch coin' full (pre ++ p.hashes.flatten)) := by
  have hlen' : (leaves.map (elementsHash env)).length = 2 ^ k := by rw [List.length_map]; exact hlen
  let leaf : Nat → Bytes := fun o => (leaves.map (elementsHash env)).getD o zeroHash
  have hleaf : ∀ o, o < 2 ^ k → (leaves.map (elementsHash env))[o]? = some (leaf o) := by
    intro o ho
    have : o < (leaves.map (elementsHash env)).length := by omega
    simp only [leaf, List.getD_eq_getElem?_getD, List.getElem?_eq_getElem this, Option.getD_some]
  have hQl : ∀ o, (leaf o).length = 32 := by
    intro o
    by_cases ho : o < 2 ^ k
    · have h1 := List.mem_of_getElem? (hleaf o ho)
      obtain ⟨x, _, h2⟩ := List.mem_map.1 h1
      rw [← h2]
      exact leafHash_length _ _
    · have : (leaves.map (elementsHash env))[o]? = none := List.getElem?_eq_none (by omega)
      simp only [leaf, List.getD_eq_getElem?_getD, this, Option.getD_none]
      rfl
  have hQH : ∀ a b, (nodeHash env.K a b).length = 32 := fun a b => maskedKeccak_length _ _
  obtain ⟨t, ht, hl, hc, hn, _⟩ := from_leaves_eq (nodeHash env.K) zeroHash hk hlen' hleaf 1
  refine ⟨t, ?_, by rw [hc], ?_, ?_⟩
  · unfold makeTree Merkle.from_leaves
    rw [ht]
    rfl
  · rw [hc]
    exact subtree_pred _ (fun x : Bytes => x.length = 32) leaf hQH hQl _ _
  · intro indices hi
    have hnode := node_hash_fuel hk hlen' hleaf hl hn
    obtain ⟨_, p, n, ho, _⟩ := open_ok (nodeHash env.K) hk hc hnode indices hi
    refine ⟨p, ho, ?_⟩
    intro err values coin pre full hset htrue hpre
    obtain ⟨p', n, ho', hpc, _, hps, hpl, hfrom, hv⟩ := verify_ok (nodeHash env.K) hk hc hnode indices
      (values.map fun v => (v.1, elementsHash env v.2)) (by
        intro i
        rw [hset i]
        simp) (by
        intro c hc'
        obtain ⟨v, hv, rfl⟩ := List.mem_map.1 hc'
        have h1 := htrue v hv
        have h2 : v.1 < 2 ^ k := by
          rw [← hlen]
          by_contra hge
          rw [List.getElem?_eq_none (by omega)] at h1
          cases h1
        refine ⟨h2, ?_⟩
        have h3 := hleaf _ h2
        rw [List.getElem?_map, h1] at h3
        exact Option.some.inj h3)
    rw [ho] at ho'
    cases ho'
    have hQ : ∀ h ∈ p.hashes, h.length = 32 := by
      refine openAt_pred (nodeHash env.K) (fun x : Bytes => x.length = 32) hQH t ?_ ?_ indices p ho
      · intro x hx
        obtain ⟨j, hj⟩ := List.mem_iff_getElem?.1 hx
        rw [hn j x hj]
        exact subtree_pred _ (fun x : Bytes => x.length = 32) leaf hQH hQl _ _
      · intro x hx
        rw [hl] at hx
        obtain ⟨y, _, rfl⟩ := List.mem_map.1 hx
        exact leafHash_length _ _
    obtain ⟨coin', hr⟩ := readHashes_pre env p.hashes hQ coin pre full hpre
    refine ⟨coin', ?_⟩
    unfold checkLeaves
    rw [hps]
    simp only [orMerkle, Except.bind]
    rw [← hpl, hr]
    simp only [orPanic]
    rw [hfrom indices p.hashes (fun i => Iff.rfl), if_pos hpl]
    dsimp only
    have := hv indices []
    rw [List.append_nil] at this
    rw [this]
    rfl

end

end Stark
end OpenZKP
