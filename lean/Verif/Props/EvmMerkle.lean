import Verif.Evm.MerkleLemmas
import Verif.Props.Merkle
import Verif.Props.Channel

/-!
# C75: Merkle proofs on the chain

`gas`, the memory `beyond` the decommitment and the contents `s0`, `s1` of the scratch space are not under the control of the contract: the theorems hold for all of them.
-/

namespace OpenZKP
namespace Props
open Stark Evm Evm.MerkleVerifier

/-- the model of `verify` on ascending positions starts from the leaves as they are -/
theorem trace_ascending (K : Keccak) (root : Bytes) (d : Nat) (hd : d ≤ 63) (is : List Nat) (hashes : List Bytes) (claims : List (Nat × Bytes))
    (hs : claims.Pairwise fun a b => a.1 < b.1) (hb : ∀ c ∈ claims, c.1 < 2 ^ d) :
    Merkle.verifyTrace (nodeHash K) ⟨⟨2 ^ d, root⟩, is, hashes⟩ claims =
      Merkle.verifyLoop (nodeHash K) root (65 * claims.length + 1) (claims.map fun c => (2 ^ d + c.1, c.2)) hashes := by
  have hs' : (claims.map fun c => (2 ^ d + c.1, c.2)).Pairwise fun a b => a.1 < b.1 := by
    rw [List.pairwise_map]
    exact hs.imp fun h => by dsimp only; omega
  generalize hn : (claims.map fun c => (2 ^ d + c.1, c.2)) = nodes at *
  have hl : nodes.length = claims.length := by rw [← hn, List.length_map]
  have hsort : nodes.insertionSort (fun a b => a.1 ≤ b.1) = nodes := List.Pairwise.insertionSort_eq (hs'.imp fun h => h.le)
  have hnm : Merkle.noMismatch nodes = true := by
    clear hsort hl hn hs
    induction nodes with
    | nil => rfl
    | cons a l ih =>
      cases l with
      | nil => rfl
      | cons b l =>
        rw [List.pairwise_cons] at hs'
        have := hs'.1 b (by simp)
        simp only [Merkle.noMismatch, ih hs'.2, Bool.and_true, Bool.or_eq_true, bne_iff_ne]
        left
        omega
  have hded : Merkle.dedupBy Prod.fst nodes = nodes := by
    cases nodes with
    | nil => rfl
    | cons a l =>
      have : ∀ (a : Nat × Bytes) (l : List (Nat × Bytes)), (a :: l).Pairwise (fun a b => a.1 < b.1) → Merkle.dedupAfter Prod.fst a l = l := by
        intro a l
        induction l generalizing a with
        | nil => intro _; rfl
        | cons b l ih =>
          intro h
          rw [List.pairwise_cons] at h
          have h1 := h.1 b (by simp)
          rw [Merkle.dedupAfter, if_neg (by omega), ih b h.2]
      rw [Merkle.dedupBy, this a l hs']
  unfold Merkle.verifyTrace
  rw [Merkle.leafNodes_ok hd claims hb, hn, hsort]
  show (if Merkle.noMismatch nodes = false then _ else Merkle.verifyLoop _ _ (65 * (Merkle.dedupBy Prod.fst nodes).length + 1) (Merkle.dedupBy Prod.fst nodes) _) = _
  rw [hnm, if_neg (by simp), hded, hl]

theorem zip_ascending {is : List Nat} (leaves : List Bytes) (h : is.Pairwise (· < ·)) : (is.zip leaves).Pairwise fun a b => a.1 < b.1 := by
  induction is generalizing leaves with
  | nil => simp
  | cons i is ih =>
    cases leaves with
    | nil => simp
    | cons x leaves =>
      rw [List.pairwise_cons] at h
      rw [List.zip_cons_cons, List.pairwise_cons]
      exact ⟨fun c hc => h.1 c.1 (List.of_mem_zip hc).1, ih leaves h.2⟩

theorem zip_map_add (is : List Nat) (leaves : List Bytes) (n : Nat) :
    (is.zip leaves).map (fun c => (n + c.1, c.2)) = (is.map fun i => n + i).zip leaves := by
  induction is generalizing leaves with
  | nil => rfl
  | cons i is ih =>
    cases leaves with
    | nil => rfl
    | cons x leaves => rw [List.zip_cons_cons, List.map_cons, ih, List.map_cons, List.zip_cons_cons]

theorem initial_inv (d : Nat) (positions : List Nat) (leaves : List Bytes) (hlen : leaves.length = positions.length) (hne : positions ≠ [])
    (hasc : positions.Pairwise (· < ·)) (hb : ∀ i ∈ positions, i < 2 ^ d) :
    Ring ((positions.map fun i => 2 ^ d + i).zip leaves) 0 0 [] ((positions.map fun i => 2 ^ d + i).zip leaves) := by
  have hl : ((positions.map fun i => 2 ^ d + i).zip leaves).length = positions.length := by simp [hlen]
  have hp : 0 < positions.length := List.length_pos_iff.2 hne
  have hf : ((positions.map fun i => 2 ^ d + i).zip leaves).map Prod.fst = positions.map fun i => 2 ^ d + i :=
    List.map_fst_zip (by simp [hlen])
  refine ⟨by simp, by omega, by simp, ?_, ?_, ?_, by simp⟩
  · intro h
    rw [h] at hl
    simp at hl
    omega
  · rw [hf, List.pairwise_map]
    refine (List.Pairwise.and_mem.1 hasc).imp ?_
    rintro a b ⟨ha, hb', hab⟩
    left
    exact ⟨by rw [Merkle.log_level (hb a ha), Merkle.log_level (hb b hb')], by omega⟩
  · intro x hx
    have := (List.of_mem_zip hx).1
    obtain ⟨i, _, hi⟩ := List.mem_map.1 this
    have : 0 < 2 ^ d := by positivity
    omega

theorem initial_level (d : Nat) (positions : List Nat) (hb : ∀ i ∈ positions, i < 2 ^ d) :
    ∀ z ∈ positions.map (fun i => 2 ^ d + i), 1 ≤ z ∧ Nat.log 2 z = d := by
  intro z hz
  obtain ⟨i, hi, rfl⟩ := List.mem_map.1 hz
  have : 0 < 2 ^ d := by positivity
  exact ⟨by omega, Merkle.log_level (hb i hi)⟩

/-- C75 (soundness): if the contract accepts leaves at distinct ascending positions of a tree of `2 ^ d` leaves, then there are hashes with which the Merkle proof
is accepted by the verifier in Rust, whose binding is C32.  The hashes are those of the decommitment and of the memory behind it, except that a single leaf may use
old scratch space. -/
theorem C75_sound (K : Keccak) (gas : Nat) (beyond : Nat → Bytes) (s0 s1 root : Bytes) (leaves : List Bytes) (positions : List Nat) (decommitment : List Bytes) (d : Nat)
    (hd : d ≤ 63) (hasc : positions.Pairwise (· < ·)) (hb : ∀ i ∈ positions, i < 2 ^ d) (hs0 : s0.length = 32) (hbey : ∀ i, (beyond i).length = 32)
    (hdec : ∀ x ∈ decommitment, x.length = 32) (hlv : ∀ x ∈ leaves, x.length = 32)
    (h : verify_merkle_proof K gas beyond s0 s1 root leaves (positions.map fun i => 2 ^ d + i) decommitment = some true) :
    leaves.length = positions.length ∧
      ∃ hashes, (∀ x ∈ hashes, x.length = 32) ∧ (2 ≤ positions.length → ∃ c, hashes = (List.range c).map (behind decommitment beyond)) ∧
        Merkle.verify (nodeHash K) ⟨⟨2 ^ d, root⟩, positions, hashes⟩ (positions.zip leaves) = .ok () := by
  unfold verify_merkle_proof at h
  split at h
  · cases h
  next h1 =>
  split at h
  · cases h
  next h2 =>
  simp only [List.length_map, ne_eq, not_not] at h1
  have hinv := initial_inv d positions leaves h1 (fun e => h2 (by rw [h1, e]; rfl)) hasc hb
  have hl : ((positions.map fun i => 2 ^ d + i).zip leaves).length = positions.length := by simp [h1]
  obtain ⟨hs, g1, g2, g3⟩ := sim_sound K root (behind decommitment beyond) (by
    intro i
    unfold behind
    rw [List.getD_eq_getElem?_getD]
    cases hi : decommitment[i]? with
    | none => exact hbey i
    | some x => exact hdec x (List.mem_of_getElem? hi)) gas _ _ _ _ _ _ _ _ hinv hs0 (by
      intro x hx
      exact hlv _ (List.of_mem_zip hx).2) h
  have hf : ((positions.map fun i => 2 ^ d + i).zip leaves).map Prod.fst = positions.map fun i => 2 ^ d + i :=
    List.map_fst_zip (by simp [h1])
  obtain ⟨tr, htr⟩ := g3 (65 * positions.length + 1) (by
    rw [hf]
    have := Merkle.work_le hd (initial_level d positions hb)
    rwa [List.length_map] at this)
  refine ⟨h1, hs, g1, ?_, ?_⟩
  · rw [hl] at g2
    intro h2
    obtain ⟨c, hc⟩ := g2 h2
    refine ⟨c, hc.trans (List.map_congr_left fun t _ => ?_)⟩
    rw [Nat.zero_add]
  · refine (C32_trace _ _ _).2 ⟨tr, ?_⟩
    rw [trace_ascending K root d hd _ _ _ (zip_ascending leaves hasc) (fun c hc => hb c.1 (List.of_mem_zip hc).1), zip_map_add]
    have : (positions.zip leaves).length = positions.length := by simp [h1]
    rw [this]
    exact htr

/-- C75 (binding): leaves accepted on the chain against the root of a tree are the leaves of the tree; otherwise the node hash was called on a collision, by the
check of this proof or by the check of the opening of the tree at the position. -/
theorem C75_binding (K : Keccak) (gas : Nat) (beyond : Nat → Bytes) (s0 s1 : Bytes) (leaves : List Bytes) (positions : List Nat) (decommitment : List Bytes) (d : Nat)
    (hd : d ≤ 63) (hasc : positions.Pairwise (· < ·)) (hb : ∀ i ∈ positions, i < 2 ^ d) (hs0 : s0.length = 32) (hbey : ∀ i, (beyond i).length = 32)
    (hdec : ∀ x ∈ decommitment, x.length = 32) (hlv : ∀ x ∈ leaves, x.length = 32)
    (zero : Bytes) (tree : List Bytes) (t : Merkle.Tree Bytes) (skip : Nat) (ht : Merkle.from_leaves_skip_layers (nodeHash K) zero tree skip = .ok t)
    (hsize : t.commitment.size = 2 ^ d)
    (h : verify_merkle_proof K gas beyond s0 s1 t.commitment.hash leaves (positions.map fun i => 2 ^ d + i) decommitment = some true)
    (j i : Nat) (hi : positions[j]? = some i) :
    (∃ x, leaves[j]? = some x ∧ tree[i]? = some x) ∨
      ∃ hashes leaf tr p' tr', tree[i]? = some leaf ∧ Merkle.verifyTrace (nodeHash K) ⟨t.commitment, positions, hashes⟩ (positions.zip leaves) = .ok tr ∧
        Merkle.openAt (nodeHash K) t [i] = .ok p' ∧ Merkle.verifyTrace (nodeHash K) p' [(i, leaf)] = .ok tr' ∧
        ∃ u ∈ tr, ∃ v ∈ tr', u ≠ v ∧ nodeHash K u.1 u.2 = nodeHash K v.1 v.2 := by
  obtain ⟨hl, hashes, -, -, hv⟩ := C75_sound K gas beyond s0 s1 _ leaves positions decommitment d hd hasc hb hs0 hbey hdec hlv h
  obtain ⟨hj, hji⟩ := List.getElem?_eq_some_iff.1 hi
  have hx : leaves[j]? = some (leaves[j]'(by omega)) := List.getElem?_eq_getElem _
  have hm : (i, leaves[j]'(by omega)) ∈ positions.zip leaves := by
    rw [← hji, ← List.getElem_zip (h := by rw [List.length_zip]; omega)]
    exact List.getElem_mem _
  by_cases he : tree[i]? = some (leaves[j]'(by omega))
  · exact Or.inl ⟨_, hx, he⟩
  · right
    have hc : (⟨2 ^ d, t.commitment.hash⟩ : Merkle.Commitment Bytes) = t.commitment := by rw [← hsize]
    rw [hc] at hv
    obtain ⟨leaf, tr, p', tr', g⟩ := C32_tree (nodeHash K) zero tree t skip ht ⟨t.commitment, positions, hashes⟩ rfl _ hv _ hm he
    exact ⟨hashes, leaf, tr, p', tr', g⟩

/-- C75 (completeness): for at least two positions, a proof accepted by the verifier in Rust is accepted by the contract when the gas suffices for 64 rounds per leaf,
whatever is behind the decommitment and in the scratch space. -/
theorem C75_complete_partial (K : Keccak) (gas : Nat) (beyond : Nat → Bytes) (s0 s1 root : Bytes) (leaves : List Bytes) (positions : List Nat) (decommitment : List Bytes) (d : Nat)
    (hd : d ≤ 63) (hlen : leaves.length = positions.length) (htwo : 2 ≤ positions.length) (hasc : positions.Pairwise (· < ·)) (hb : ∀ i ∈ positions, i < 2 ^ d)
    (hgas : 64 * positions.length ≤ gas)
    (h : Merkle.verify (nodeHash K) ⟨⟨2 ^ d, root⟩, positions, decommitment⟩ (positions.zip leaves) = .ok ()) :
    verify_merkle_proof K gas beyond s0 s1 root leaves (positions.map fun i => 2 ^ d + i) decommitment = some true := by
  obtain ⟨tr, htr⟩ := (C32_trace _ _ _).1 h
  rw [trace_ascending K root d hd _ _ _ (zip_ascending leaves hasc) (fun c hc => hb c.1 (List.of_mem_zip hc).1), zip_map_add] at htr
  have hl : ((positions.map fun i => 2 ^ d + i).zip leaves).length = positions.length := by simp [hlen]
  have hf : ((positions.map fun i => 2 ^ d + i).zip leaves).map Prod.fst = positions.map fun i => 2 ^ d + i :=
    List.map_fst_zip (by simp [hlen])
  unfold verify_merkle_proof
  rw [if_neg (by simp [hlen]), if_neg (by omega)]
  refine sim_complete K root (behind decommitment beyond) _ _ _ _ _ _ _ _ _ _ _ _ (initial_inv d positions leaves hlen (fun e => by rw [e] at htwo; simp at htwo) hasc hb)
    (by omega) ?_ htr ?_
  · intro t x hx
    unfold behind
    rw [Nat.zero_add, List.getD_eq_getElem?_getD, hx]
    rfl
  · rw [hf, Merkle.work_level (initial_level d positions hb), List.length_map]
    exact (Nat.mul_le_mul_right _ (by omega)).trans hgas

/-- C75 (leaves): a leaf is hashed as in Rust. -/
theorem C75_leaf_hash (K : Keccak) (row : List U256) : merkle_leaf_hash K (row.map U256.toNat) = leafHash K row := by
  have hrow : ∀ l : List U256, (l.map U256.toNat).flatMap bytes32 = l.flatMap U256.to_bytes_be := by
    intro l
    induction l with
    | nil => rfl
    | cons x l ih => rw [List.map_cons, List.flatMap_cons, List.flatMap_cons, ih, bytes32_toNat]
  cases row with
  | nil => rfl
  | cons x l =>
    cases l with
    | nil => exact bytes32_toNat x
    | cons y l =>
      show mask (K.hash (((x :: y :: l).map U256.toNat).flatMap bytes32)) = _
      rw [hrow]
      rfl

/-- a toy hash that depends on all bytes -/
def polyKeccak : Keccak := ⟨fun b => [b.foldl (fun h x => 3 * h + x + 1) 0] ++ List.replicate 31 0, fun b => by simp⟩

/-- C75 is violated without the restrictions: of leaves at the same position only the first is checked — here `x` is any value, for every hash function; an opening with a
repeated position that the verifier in Rust accepts is rejected; and so is one with a single leaf at an odd position. -/
theorem C75_violated :
    (∀ K beyond s0 s1 (a b x : Bytes), verify_merkle_proof K 3 beyond s0 s1 (nodeHash K a b) [a, b, x] [2, 3, 3] [] = some true) ∧
    (∃ K root a hashes, Merkle.verify (nodeHash K) ⟨⟨4, root⟩, [0, 0], hashes⟩ [(0, a), (0, a)] = .ok () ∧
      ∀ gas, verify_merkle_proof K gas (fun _ => List.replicate 32 0) (List.replicate 32 0) (List.replicate 32 0) root [a, a] [4, 4] hashes ≠ some true) ∧
    (∃ K root a hashes, Merkle.verify (nodeHash K) ⟨⟨2, root⟩, [1], hashes⟩ [(1, a)] = .ok () ∧
      ∀ gas, verify_merkle_proof K gas (fun _ => List.replicate 32 0) (List.replicate 32 0) (List.replicate 32 0) root [a] [3] hashes ≠ some true) := by
  refine ⟨?_, ?_, ?_⟩
  · intro K beyond s0 s1 a b x
    simp [verify_merkle_proof, merkleLoop, nodeHash, maskedKeccak, mask]
  · refine ⟨polyKeccak, nodeHash polyKeccak (nodeHash polyKeccak (List.replicate 32 1) (List.replicate 32 2)) (List.replicate 32 3), List.replicate 32 1,
      [List.replicate 32 2, List.replicate 32 3], by decide +kernel, rejected _ 5 _ _ _ _ _ _ _ (by decide +kernel)⟩
  · exact ⟨polyKeccak, nodeHash polyKeccak (List.replicate 32 1) (List.replicate 32 2), List.replicate 32 2, [List.replicate 32 1], by decide +kernel,
      rejected _ 2 _ _ _ _ _ _ _ (by decide +kernel)⟩

-- two leaves of a tree of four are accepted with two hashes, and with a wrong leaf rejected
example : verify_merkle_proof polyKeccak 9 (fun _ => List.replicate 32 0) (List.replicate 32 0) (List.replicate 32 0)
      (nodeHash polyKeccak (nodeHash polyKeccak (List.replicate 32 1) (List.replicate 32 2)) (nodeHash polyKeccak (List.replicate 32 3) (List.replicate 32 4)))
      [List.replicate 32 2, List.replicate 32 3] ([1, 2].map fun i => 2 ^ 2 + i) [List.replicate 32 1, List.replicate 32 4] = some true ∧
    verify_merkle_proof polyKeccak 9 (fun _ => List.replicate 32 0) (List.replicate 32 0) (List.replicate 32 0)
      (nodeHash polyKeccak (nodeHash polyKeccak (List.replicate 32 1) (List.replicate 32 2)) (nodeHash polyKeccak (List.replicate 32 3) (List.replicate 32 4)))
      [List.replicate 32 2, List.replicate 32 5] ([1, 2].map fun i => 2 ^ 2 + i) [List.replicate 32 1, List.replicate 32 4] = some false := by decide +kernel

-- the tree of the example, and the same opening accepted by the verifier in Rust
example : ∃ t, Merkle.from_leaves_skip_layers (nodeHash polyKeccak) [] [List.replicate 32 1, List.replicate 32 2, List.replicate 32 3, List.replicate 32 4] 0 = .ok t ∧
    t.commitment.size = 2 ^ 2 ∧
    t.commitment.hash = nodeHash polyKeccak (nodeHash polyKeccak (List.replicate 32 1) (List.replicate 32 2)) (nodeHash polyKeccak (List.replicate 32 3) (List.replicate 32 4)) ∧
    Merkle.verify (nodeHash polyKeccak) ⟨t.commitment, [1, 2], [List.replicate 32 1, List.replicate 32 4]⟩ ([1, 2].zip [List.replicate 32 2, List.replicate 32 3]) = .ok () :=
  ⟨_, rfl, by decide +kernel, by decide +kernel, by decide +kernel⟩

end Props
end OpenZKP
