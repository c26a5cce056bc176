import Verif.Props.EvmVerifierSound
import Verif.Merkle.Main

/-!
# C79: a proof for a false claim
-/

namespace OpenZKP
namespace Props
namespace EvmVerifier
open Evm Evm.PrimeField Evm.MerkleVerifier Evm.StarkVerifier FFT Stark Stark.Accept EvmDefaultCs EvmRecurrence

/-! ## Trees -/

/-- a tree with the given leaves has a root, and an opening at any positions, with as many hashes as it needs -/
theorem tree_exists (K : Keccak) (leaf : Nat → Bytes) (hleaf : ∀ o, (leaf o).length = 32) (d : Nat) (hd : d ≤ 63) :
    ∃ root : Bytes, root.length = 32 ∧ ∀ indices : List Nat, (∀ i ∈ indices, i < 2 ^ d) → ∃ hashes : List Bytes, (∀ h ∈ hashes, h.length = 32) ∧
      Merkle.verify (nodeHash K) ⟨⟨2 ^ d, root⟩, indices, hashes⟩ (indices.zip (indices.map leaf)) = .ok () ∧ Enough (2 ^ d) root hashes indices := by
  have hQH : ∀ a b, (nodeHash K a b).length = 32 := fun a b => maskedKeccak_length _ _
  have hlen : ((List.range (2 ^ d)).map leaf).length = 2 ^ d := by simp
  have hl' : ∀ o, o < 2 ^ d → ((List.range (2 ^ d)).map leaf)[o]? = some (leaf o) := by
    intro o ho
    rw [List.getElem?_map, List.getElem?_range ho, Option.map_some]
  obtain ⟨t, ht, hl, hc, hn, -⟩ := Merkle.from_leaves_eq (nodeHash K) [] hd hlen hl' 0
  refine ⟨Merkle.nodeAt (nodeHash K) leaf d 1, subtree_pred _ (fun x : Bytes => x.length = 32) leaf hQH hleaf _ _, fun indices hi => ?_⟩
  have hz : indices.zip (indices.map leaf) = indices.map fun i => (i, leaf i) := by
    generalize indices = l
    induction l with
    | nil => rfl
    | cons i l ih => rw [List.map_cons, List.zip_cons_cons, ih, List.map_cons]
  obtain ⟨p, n, ho, hpc, -, hn1, hn2, -, hv⟩ := Merkle.verify_ok (nodeHash K) hd hc (Merkle.node_hash_fuel hd hlen hl' hl hn) indices (indices.zip (indices.map leaf)) (by
      intro i
      rw [hz]
      simp) (by
      intro c hc'
      rw [hz] at hc'
      obtain ⟨i, h, rfl⟩ := List.mem_map.1 hc'
      exact ⟨hi i h, rfl⟩)
  refine ⟨p.hashes, ?_, ?_, ?_⟩
  · refine openAt_pred (nodeHash K) (fun x : Bytes => x.length = 32) hQH t ?_ ?_ indices p ho
    · intro x hx
      obtain ⟨j, hj⟩ := List.mem_iff_getElem?.1 hx
      rw [hn j x hj]
      exact subtree_pred _ (fun x : Bytes => x.length = 32) leaf hQH hleaf _ _
    · intro x hx
      rw [hl] at hx
      obtain ⟨y, -, rfl⟩ := List.mem_map.1 hx
      exact hleaf _
  · have := hv indices []
    rw [List.append_nil, hc] at this
    exact this
  · unfold Enough
    rw [← hc, hn1, hn2]

/-! ## Layers of zeros -/

theorem fold_zero (n : Nat) (w : Z) (m : Nat) (a : Z) : foldMany n w m a (fun _ => 0) = fun _ => 0 := by
  induction n generalizing w m a with
  | zero => rfl
  | succ n ih =>
    rw [foldMany]
    have : foldOnce w m a (fun _ => (0 : Z)) = fun _ => 0 := by
      funext j
      unfold foldOnce
      rw [add_zero, sub_zero, mul_zero, add_zero]
    rw [this]
    exact ih _ _ _

theorem zero_fri (env : Env Z) (hc : env.codec = montgomery) (last : List Z) (hlast : ∀ x ∈ last, x = 0) : ∀ (layout : List Nat) (m : Nat) (_ : m ≤ 63) (_ : layout.sum ≤ m),
    ∃ roots : List Bytes, roots.length = layout.length ∧ (∀ r ∈ roots, r.length = 32) ∧ ∀ (as : List Z) (Q : List Nat) (w : Z), as.length = layout.length → (∀ q ∈ Q, q < 2 ^ m) →
      ∃ ls : List Layer, ls.map (·.root) = roots ∧ (∀ l ∈ ls, (∀ u ∈ l.values, u.toNat = 0) ∧ ∀ h ∈ l.hashes, h.length = 32) ∧ FriOk env last layout ls as w m (fun _ => 0) Q ∧
        FriCounted layout ls m Q
  | [], m, _, _ => by
    refine ⟨[], rfl, by simp, fun as Q w has _ => ⟨[], rfl, by simp, ?_, trivial⟩⟩
    obtain rfl := List.length_eq_zero_iff.1 has
    rw [FriOk]
    intro q _
    symm
    refine Finset.sum_eq_zero fun i hi => ?_
    have hi := Finset.mem_range.1 hi
    rw [List.getD_eq_getElem _ _ hi, hlast _ (List.getElem_mem hi), zero_mul]
  | n :: ns, m, hm, hsum => by
    rw [List.sum_cons] at hsum
    obtain ⟨roots, h1, h2, h3⟩ := zero_fri env hc last hlast ns (m - n) (by omega) (by omega)
    obtain ⟨root, g1, g2⟩ := tree_exists env.K (fun _ => elementsHash env ((List.range (2 ^ n)).map fun _ => (0 : Z))) (fun _ => leafHash_length _ _) (m - n) (by omega)
    refine ⟨root :: roots, by simp [h1], by
      intro r hr
      rcases List.mem_cons.1 hr with rfl | hr
      · exact g1
      · exact h2 r hr, fun as Q w has hQ => ?_⟩
    obtain ⟨a, as, rfl⟩ := List.exists_cons_of_length_eq_add_one has
    have hJ : ∀ j, j ∈ (Q.map (· / 2 ^ n)).toFinset.sort (· ≤ ·) ↔ ∃ q ∈ Q, j = q / 2 ^ n := by
      intro j
      rw [Finset.mem_sort, List.mem_toFinset, List.mem_map]
      exact ⟨fun ⟨q, a, b⟩ => ⟨q, a, b.symm⟩, fun ⟨q, a, b⟩ => ⟨q, a, b.symm⟩⟩
    have hJs : ((Q.map (· / 2 ^ n)).toFinset.sort (· ≤ ·)).Pairwise (· < ·) := Finset.sortedLT_sort _ |>.pairwise
    generalize (Q.map (· / 2 ^ n)).toFinset.sort (· ≤ ·) = J at hJ hJs
    have hJb : ∀ j ∈ J, j < 2 ^ (m - n) := by
      intro j hj
      obtain ⟨q, hq, rfl⟩ := (hJ j).1 hj
      refine Nat.div_lt_of_lt_mul ?_
      rw [← pow_add, Nat.add_sub_cancel' (by omega)]
      exact hQ q hq
    obtain ⟨hashes, t1, t2, t3⟩ := g2 J hJb
    obtain ⟨ls, e1, e2, e3, e4⟩ := h3 as J (w ^ 2 ^ n) (by simpa using has) hJb
    refine ⟨⟨root, ((J.flatMap fun j => (List.range (2 ^ n)).map (j * 2 ^ n + ·)).filter (· ∉ Q)).map fun _ => word 0, hashes⟩ :: ls, by rw [List.map_cons, e1], ?_, ?_, ⟨J, hJs, hJ, t3, e4⟩⟩
    · intro l hl
      rcases List.mem_cons.1 hl with rfl | hl
      · refine ⟨fun u hu => ?_, t1⟩
        obtain ⟨_, -, rfl⟩ := List.mem_map.1 hu
        exact toNat_word 0 (by norm_num)
      · exact e2 l hl
    · rw [FriOk]
      refine ⟨fun _ => 0, J, hJs, hJ, fun _ _ => rfl, ?_, ?_, ?_⟩
      · rw [List.map_map, hc]
        refine List.map_congr_left fun _ _ => ?_
        rw [Function.comp_apply, val_word 0 modulus_pos]
        unfold mont
        rw [Nat.cast_zero, zero_mul]
      · unfold Opened
        rw [List.map_map]
        exact t2
      · rw [fold_zero]
        exact e3

/-! ## Rows of zeros -/

theorem zero_points (b : DefaultCs.Behind) (e k p : Nat) (hk : k + 4 ≤ 192) (oc Q : List Nat) (hoc : 6 ≤ oc.length) (hQ : Q.length = 20) (eval : EvalX) (he : init_eval (k + 4) = some eval) :
    DefaultCs.get_polynomial_points Recurrence.system b ⟨List.replicate 40 0, List.replicate 40 0, [0, 0, 0, 0], [0, 0, e], k⟩ eval oc Q p = some (List.replicate 20 0) := by
  obtain ⟨inverses, -, results, h2, h3, h4, h5⟩ := points_cast Recurrence.system b ⟨List.replicate 40 0, List.replicate 40 0, [0, 0, 0, 0], [0, 0, e], k⟩ eval oc Q p (k + 4) cells rfl
    (by omega) he (C77_recurrence _) rfl ⟨hoc, by rw [hQ]; show 20 * 2 ≤ (List.replicate 40 0).length; simp, by rw [hQ]; show 20 * 2 ≤ (List.replicate 40 0).length; simp,
    by show 2 ≤ 3; norm_num⟩
  rw [h2]
  congr 1
  refine List.eq_replicate_iff.2 ⟨h3.trans hQ, fun v hv => ?_⟩
  obtain ⟨i, hi, rfl⟩ := List.mem_iff_getElem.1 hv
  obtain ⟨places, -, h6⟩ := h5 i Q[i] (List.getElem?_eq_getElem (by omega))
  refine cast_inj (h4 _ hv) modulus_pos ?_
  rw [List.getD_eq_getElem?_getD, List.getElem?_eq_getElem hi, Option.getD_some] at h6
  rw [h6, Nat.cast_zero]
  have hz : ∀ n : Nat, (List.replicate 40 0).getD n 0 = 0 := by
    intro n
    rw [List.getD_eq_getElem?_getD, List.getElem?_replicate]
    split <;> rfl
  have hneg : ((wsub MODULUS 0 : Nat) : Z) = 0 := by rw [neg_cast 0 (Nat.zero_le _), Nat.cast_zero, neg_zero]
  have h0 : ∀ j < 4, [0, 0, 0, 0].getD j 0 = 0 := by decide
  have h1 : ∀ j < 2, [0, 0, e].getD j 0 = 0 := by
    intro j hj
    interval_cases j <;> rfl
  rw [Finset.sum_eq_zero fun j hj => ?_, Finset.sum_eq_zero fun j hj => ?_, add_zero]
  · have hj := Finset.mem_range.1 hj
    show (((List.replicate 40 0).getD _ 0 : Nat) + ((wsub MODULUS ([0, 0, e].getD j 0) : Nat) : Z)) * _ * _ = 0
    rw [hz, h1 j hj, hneg, Nat.cast_zero, add_zero, zero_mul, zero_mul]
  · have hj := Finset.mem_range.1 hj
    show (((List.replicate 40 0).getD _ 0 : Nat) + ((wsub MODULUS ([0, 0, 0, 0].getD j 0) : Nat) : Z)) * _ * _ = 0
    rw [hz, h0 j hj, hneg, Nat.cast_zero, add_zero, zero_mul, zero_mul]

/-! ## The draws -/

/-- the proofs agree in what is written to the coin before the nonce -/
structure SameWritten (p q : StarkProof) : Prop where
  public_inputs : p.public_inputs = q.public_inputs
  trace_commitment : p.trace_commitment = q.trace_commitment
  constraint_commitment : p.constraint_commitment = q.constraint_commitment
  trace_oods_values : p.trace_oods_values = q.trace_oods_values
  constraint_oods_values : p.constraint_oods_values = q.constraint_oods_values
  fri_commitments : p.fri_commitments = q.fri_commitments
  last_layer : p.last_layer_coefficients = q.last_layer_coefficients

theorem same_draws (K : Keccak) (gas : Nat) (p q : StarkProof) (h : SameWritten p q) (params : Recurrence.ProofParameters) (coin : Coin) :
    write_data_and_read_random K gas p params coin = write_data_and_read_random K gas q params coin := by
  unfold write_data_and_read_random
  rw [h.trace_commitment, h.constraint_commitment, h.trace_oods_values, h.constraint_oods_values, h.fri_commitments, h.last_layer]

/-- the coefficients and the point, which depend on the two roots only -/
def firstDraws (K : Keccak) (gas : Nat) (trace constraint : Bytes) (params : Recurrence.ProofParameters) (coin : Coin) : Option (List Nat × Nat) :=
  (Evm.PublicCoin.read_many_field_elements K gas (2 * params.number_of_constraints % 2 ^ 64) (Evm.PublicCoin.write_bytes32 K coin trace)).bind fun r1 =>
  (Evm.PublicCoin.read_field_element K gas (Evm.PublicCoin.write_bytes32 K r1.2 constraint)).map fun r2 => (r1.1, r2.1)

theorem first_draws (K : Keccak) (gas : Nat) (proof : StarkProof) (params : Recurrence.ProofParameters) (coin : Coin) (r : Random) (h : write_data_and_read_random K gas proof params coin = some r) :
    firstDraws K gas proof.trace_commitment proof.constraint_commitment params coin = some (r.constraint_coefficients, r.oods_point) := by
  unfold write_data_and_read_random at h
  dsimp only at h
  obtain ⟨r1, h1, h⟩ := Option.bind_eq_some_iff.1 h
  obtain ⟨r2, h2, h⟩ := Option.bind_eq_some_iff.1 h
  obtain ⟨r3, h3, h⟩ := Option.bind_eq_some_iff.1 h
  obtain ⟨r4, h4, rfl⟩ := Option.map_eq_some_iff.1 h
  unfold firstDraws
  rw [h1, Option.bind_some, h2, Option.map_some]

theorem draw_lengths (K : Keccak) (gas : Nat) (hg : gas < 2 ^ 48) (proof : StarkProof) (params : Recurrence.ProofParameters) (coin : Coin) (hp : params.number_of_constraints = 4)
    (hl : proof.trace_oods_values.length + proof.constraint_oods_values.length = 7) (hl' : proof.constraint_oods_values ≠ []) (r : Random)
    (h : write_data_and_read_random K gas proof params coin = some r) :
    r.constraint_coefficients.length = 8 ∧ r.oods_coefficients.length = 7 ∧ r.eval_points.length = params.fri_layout.length := by
  unfold write_data_and_read_random at h
  dsimp only at h
  obtain ⟨r1, h1, h⟩ := Option.bind_eq_some_iff.1 h
  obtain ⟨r2, h2, h⟩ := Option.bind_eq_some_iff.1 h
  obtain ⟨r3, h3, h⟩ := Option.bind_eq_some_iff.1 h
  obtain ⟨r4, h4, rfl⟩ := Option.map_eq_some_iff.1 h
  rw [hp] at h1
  rw [hl] at h3
  refine ⟨?_, ?_, ?_⟩
  · exact (read_many_digest K gas (2 * 4 % 2 ^ 64) _ r1.2 r1.1 h1 (by show 0 + 8 * gas < 2 ^ 64; omega)).2
  · exact (read_many_digest K gas 7 _ r3.2 r3.1 h3 (by
      rw [write_many_coin K _ _ hl']
      show 0 + 7 * gas < 2 ^ 64
      omega)).2
  · exact (eval_points_inv ⟨K, montgomery, fieldRoot, 3, fun _ _ => none⟩ rfl gas (by omega) _ _ _ _ r4.2 r4.1 h4).1

/-! ## The claim -/

/-- the value after the first is a square -/
theorem state_square (secret : Z) (index : Nat) (h : 1 ≤ index) : IsSquare (Examples.Recurrence.state 2 secret index).1 := by
  obtain ⟨n, rfl⟩ := Nat.exists_eq_add_of_le' h
  rw [Examples.Recurrence.state]
  exact ⟨_, sq _⟩

/-- the combined constraints, for values that are zero -/
def evaluated (input : Recurrence.PublicInput) (k : Nat) (eval : EvalX) (cc : List Nat) (p : Nat) : Option Nat :=
  if k = 8 ∧ input.index = 150 then Recurrence.evaluate_oods_point256 p cc input [0, 0, 0, 0] else Recurrence.evaluate_oods_point p cc input eval k [0, 0, 0, 0]

theorem evaluated_some (input : Recurrence.PublicInput) (hv : input.value < MODULUS) (k : Nat) (hk : k ≤ 252) (eval : EvalX) (cc : List Nat) (hcc : cc.length = 8) (p : Nat) : ∃ v, evaluated input k eval cc p = some v ∧ v < MODULUS := by
  obtain ⟨c0, c1, c2, c3, c4, c5, c6, c7, rfl⟩ : ∃ c0 c1 c2 c3 c4 c5 c6 c7, cc = [c0, c1, c2, c3, c4, c5, c6, c7] := by
    match cc, hcc with
    | [c0, c1, c2, c3, c4, c5, c6, c7], _ => exact ⟨c0, c1, c2, c3, c4, c5, c6, c7, rfl⟩
  unfold evaluated
  split
  · unfold Recurrence.evaluate_oods_point256
    dsimp only
    rw [if_pos (by simp)]
    refine ⟨_, rfl, ?_⟩
    unfold Recurrence.constraintPolyLen256
    exact addmod_lt _ _
  · obtain ⟨r, h1, h2, -⟩ := Recurrence.evaluate_cast p c0 c1 c2 c3 c4 c5 c6 c7 [] input eval k hk 0 0 0 0 [] hv modulus_pos modulus_pos
    exact ⟨r, h1, h2⟩

/-- the value that makes the sum right -/
def extra (input : Recurrence.PublicInput) (k : Nat) (eval : EvalX) (d : Option (List Nat × Nat)) : Nat :=
  match d with
  | some (cc, p) => repNat (mont ((evaluated input k eval cc p).getD 0) / mont p ^ 2)
  | none => 0

theorem extra_lt (input : Recurrence.PublicInput) (k : Nat) (eval : EvalX) (d : Option (List Nat × Nat)) : extra input k eval d < MODULUS := by
  unfold extra
  split
  · exact repNat_lt _
  · exact modulus_pos

theorem sum_three {F : Type} [Field F] (f : Nat → F) (x : F) (h0 : f 0 = 0) (h1 : f 1 = 0) : ∑ j ∈ Finset.range 3, f j * x ^ j = f 2 * x ^ 2 := by
  rw [Finset.sum_range_succ, Finset.sum_range_succ, Finset.sum_range_succ, Finset.sum_range_zero, h0, h1]
  ring

theorem sum_right (p v : Nat) (hv : v < MODULUS) (hp : mont p ≠ 0) : ([0, 0, repNat (mont v / mont p ^ 2)].foldl (oodsStep p) (0, to_montgomery 1)).1 = v := by
  refine mont_inj ?_ hv ?_
  · rw [List.foldl_cons, List.foldl_cons, List.foldl_cons, List.foldl_nil, oodsStep]
    exact addmod_lt _ _
  rw [oods_sum]
  have h2 := mont_repNat (mont v / mont p ^ 2)
  generalize repNat (mont v / mont p ^ 2) = e at h2
  have h3 : [0, 0, e].length = 3 := rfl
  have a0 : mont ([0, 0, e].getD 0 0) = 0 := by rw [List.getD_cons_zero, mont_zero]
  have a1 : mont ([0, 0, e].getD 1 0) = 0 := by rw [List.getD_cons_succ, List.getD_cons_zero, mont_zero]
  have a2 : mont ([0, 0, e].getD 2 0) = mont v / mont p ^ 2 := by rw [List.getD_cons_succ, List.getD_cons_succ, List.getD_cons_zero, h2]
  have a3 := sum_three (fun j => mont ([0, 0, e].getD j 0)) (mont p) a0 a1
  rw [h3, a3, a2]
  generalize mont v = V
  generalize mont p = P at hp
  exact div_mul_cancel₀ _ (pow_ne_zero _ hp)

theorem layouts_small (k : Nat) (h1 : 1 ≤ k) (hk : k < 64) : DefaultCs.default_fri_layout k ≠ [] ∧ ∀ n ∈ DefaultCs.default_fri_layout k, 1 ≤ n ∧ n ≤ 3 := by
  revert h1 hk k
  decide +kernel

/-! ## C79 -/

/-- C79 is violated: the number of the values claimed out of domain is not checked. Whatever the hash function, for every claim there are values, all in range, with one too many, and
roots of trees, such that with every nonce that has the work done and leads to distinct queries (in more than one coset of the last layer) there is a proof the contract accepts.  This
includes claims that are false for every secret. -/
theorem C79_violated (K : Keccak) (decode : Bytes → Option Recurrence.PublicInput) (b : DefaultCs.Behind) (s : Surroundings) (hgas : s.gas < 2 ^ 48)
    (hmem : 1280 ≤ s.trace.gas ∧ 1280 ≤ s.constraint.gas ∧ ∀ t, 1280 ≤ (s.fri t).gas) (hleaves : s.leaves.length = 20)
    (inputs : Bytes) (input : Recurrence.PublicInput) (hdec : decode inputs = some input) (hv : input.value < MODULUS) (k : Nat) (hk1 : 1 ≤ k) (hk : k + 4 ≤ 40)
    (hn : Merkle.next_power_of_two (input.index + 1) = 2 ^ k) :
    (¬ IsSquare (mont input.value) → ∀ secret, (Examples.Recurrence.state 2 secret input.index).1 ≠ mont input.value) ∧
    ∃ base : StarkProof, base.public_inputs = inputs ∧ base.constraint_oods_values.length = 3 ∧
      ∀ (nonce : Nat) (r : Random), write_data_and_read_random K s.gas base (Recurrence.initalize_system K input).1 (Recurrence.initalize_system K input).2 = some r →
        mont r.oods_point ≠ 0 → (check_proof_of_work K r.coin nonce 10).1 = true → (queriesOf K r.coin nonce (k + 4) 20).Nodup →
        (∃ q ∈ queriesOf K r.coin nonce (k + 4) 20, ∃ q' ∈ queriesOf K r.coin nonce (k + 4) 20,
          q / 2 ^ (DefaultCs.default_fri_layout k).sum ≠ q' / 2 ^ (DefaultCs.default_fri_layout k).sum) →
        ∃ proof, SameWritten proof base ∧ proof.pow_nonce = nonce ∧ AllReduced proof ∧
          RightLengths { proof with constraint_oods_values := proof.constraint_oods_values.take 2 } 20 2 4 2 (2 ^ (k + 4) / 2 ^ (DefaultCs.default_fri_layout k).sum / 2 ^ 4) ∧
          verify_proof K s proof (recurrence K decode b) = some false := by
  have hindex1 : 1 ≤ input.index := by
    rcases Nat.eq_zero_or_pos input.index with h0 | h0
    · rw [h0] at hn
      have : Merkle.next_power_of_two (0 + 1) = 1 := by decide
      rw [this] at hn
      have : 2 ^ 1 ≤ 2 ^ k := Nat.pow_le_pow_right (by norm_num) hk1
      omega
    · exact h0
  have hindex : input.index < 2 ^ 63 := by
    have h1 := (rec_length input.index).1
    rw [hn] at h1
    exact lt_of_lt_of_le h1 (Nat.pow_le_pow_right (by norm_num) (by omega))
  have hlog : (Utils.num_bits input.index + 1) % 256 = k := by
    have := rows_log input.index hindex
    rw [hn] at this
    exact (Nat.pow_right_injective (le_refl 2) this).symm
  refine ⟨fun h secret e => h (by rw [← e]; exact state_square secret _ hindex1), ?_⟩
  have hlay := init_layout K input
  have hpar : (Recurrence.initalize_system K input).1.pow_bits = 10 ∧ (Recurrence.initalize_system K input).1.number_of_queries = 20 ∧
      (Recurrence.initalize_system K input).1.log_blowup = 4 ∧ (Recurrence.initalize_system K input).1.number_of_columns = 2 ∧
      (Recurrence.initalize_system K input).1.constraint_degree = 2 ∧ (Recurrence.initalize_system K input).1.number_of_constraints = 4 ∧
      (Recurrence.initalize_system K input).1.log_trace_length = (Utils.num_bits input.index + 1) % 256 := ⟨rfl, rfl, rfl, rfl, rfl, rfl, rfl⟩
  rw [hlog] at hlay hpar
  generalize hi : Recurrence.initalize_system K input = init at hlay hpar
  obtain ⟨params, coin0⟩ := init
  dsimp only at hlay hpar
  obtain ⟨q1, q2, q3, q4, q5, q6, q7⟩ := hpar
  obtain ⟨eval, heval, -⟩ := init_some (k + 4) (by omega)
  obtain ⟨w1, w2, -⟩ := layouts k (by omega)
  obtain ⟨w3, w4⟩ := layouts_small k hk1 (by omega)
  generalize hlast : 2 ^ (k + 4) / 2 ^ (DefaultCs.default_fri_layout k).sum / 2 ^ 4 = last
  let env : Env Z := ⟨K, montgomery, fieldRoot, 3, fun _ _ => none⟩
  obtain ⟨root, t1, t2⟩ := tree_exists K (fun _ => merkle_leaf_hash K [0, 0]) (fun _ => by
    rw [← toNat_words [0, 0] (by
      intro v hv
      simp only [List.mem_cons, List.not_mem_nil, or_false, or_self] at hv
      rw [hv]
      exact modulus_pos), C75_leaf_hash]
    exact leafHash_length _ _) (k + 4) (by omega)
  obtain ⟨roots, f1, f2, f3⟩ := zero_fri env rfl ((List.replicate last 0).map mont) (by
    intro x hx
    obtain ⟨v, hv, rfl⟩ := List.mem_map.1 hx
    rw [List.eq_of_mem_replicate hv, mont_zero]) (DefaultCs.default_fri_layout k) (k + 4) (by omega) (by omega)
  refine ⟨⟨inputs, [], root, [], root, [0, 0, 0, 0], [0, 0, extra input k eval (firstDraws K s.gas root root params coin0)], 0, [], [], [], roots, [], List.replicate last 0⟩, rfl, rfl, ?_⟩
  have helt := extra_lt input k eval (firstDraws K s.gas root root params coin0)
  intro nonce r hr hp hwork hnodup htwo
  have hfirst := first_draws K s.gas _ params coin0 r hr
  dsimp only at hfirst
  obtain ⟨l1, l2, l3⟩ := draw_lengths K s.gas hgas _ params coin0 q6 rfl (by simp) r hr
  obtain ⟨v, hv1, hv2⟩ := evaluated_some input hv k (by omega) eval r.constraint_coefficients l1 r.oods_point
  have hext : extra input k eval (firstDraws K s.gas root root params coin0) = repNat (mont v / mont r.oods_point ^ 2) := by
    rw [hfirst, extra, hv1, Option.getD_some]
  obtain ⟨u1, u2, u3, u4⟩ := queries_eq K r.coin nonce (k + 4) (by omega)
  generalize hQ : queriesOf K r.coin nonce (k + 4) 20 = Q at hnodup htwo u1 u2 u3 u4
  have hasc : Q.Pairwise (· < ·) := (u1.and hnodup).imp fun h => lt_of_le_of_ne h.1 h.2
  obtain ⟨hashes, d1, d2, -⟩ := t2 Q u4
  obtain ⟨ls, g1, g2, g3, -⟩ := f3 (r.eval_points.map mont) Q ((3 : Z) ^ ((MODULUS - 1) / 2 ^ (k + 4))) (by rw [List.length_map, l3, hlay]) u4
  have hsame : SameWritten ⟨inputs, List.replicate 40 0, root, List.replicate 40 0, root, [0, 0, 0, 0], [0, 0, extra input k eval (firstDraws K s.gas root root params coin0)], nonce, hashes, hashes,
      ls.map fun l => l.values.map U256.toNat, roots, ls.map (·.hashes), List.replicate last 0⟩
      ⟨inputs, [], root, [], root, [0, 0, 0, 0], [0, 0, extra input k eval (firstDraws K s.gas root root params coin0)], 0, [], [], [], roots, [], List.replicate last 0⟩ :=
    ⟨rfl, rfl, rfl, rfl, rfl, rfl, rfl⟩
  refine ⟨_, hsame, rfl, ?_, ⟨List.length_replicate .., List.length_replicate .., rfl, rfl, List.length_replicate ..⟩, ?_⟩
  · have hz : ∀ n, ∀ v ∈ List.replicate n 0, v < MODULUS := by
      intro n v hv
      rw [List.eq_of_mem_replicate hv]
      exact modulus_pos
    refine ⟨hz 40, hz 40, hz 4, ?_, ?_, hz _⟩
    · intro v hv
      simp only [List.mem_cons, List.not_mem_nil, or_false] at hv
      rcases hv with rfl | rfl | rfl
      · exact modulus_pos
      · exact modulus_pos
      · exact helt
    · intro vs hvs v hv
      obtain ⟨l, hl, rfl⟩ := List.mem_map.1 hvs
      obtain ⟨u, hu, rfl⟩ := List.mem_map.1 hv
      rw [(g2 l hl).1 u hu]
      exact modulus_pos
  · have key := (steps K decode b s _ input hdec k (by omega) params coin0 hi q7 q3 q1).2 ⟨r, List.replicate 20 0, v, (same_draws K s.gas _ _ hsame params coin0).trans hr, hwork, ?_, ?_, ?_, ?_⟩
    · obtain ⟨res, hres⟩ := Option.ne_none_iff_exists'.1 key
      rw [hres, C79_returns K s _ _ res hres]
    · rw [q2, hQ]
      unfold Recurrence.constraint_calculations
      dsimp only
      rw [Nat.mod_eq_of_lt (by omega : k + 4 < 256), heval, Option.bind_some, zero_points b _ k r.oods_point (by omega) _ Q (by omega) u3 eval heval, Option.bind_some]
      unfold evaluated at hv1
      rw [hv1, Option.map_some]
    · rw [q2, hQ]
      have hopen : ∀ gas beyond s0 s1, 1280 ≤ gas → verify_merkle_proof K gas beyond s0 s1 root ((rowsOf 20 2 (List.replicate 40 0)).map (merkle_leaf_hash K)) (Q.map fun q => 2 ^ (k + 4) + q)
          hashes = some true := by
        intro gas beyond s0 s1 hg
        have hrows : (rowsOf 20 2 (List.replicate 40 0)).map (merkle_leaf_hash K) = Q.map fun _ => merkle_leaf_hash K [0, 0] := by
          have : rowsOf 20 2 (List.replicate 40 0) = List.replicate 20 [0, 0] := by decide
          rw [this, List.map_replicate, List.map_const', u3]
        rw [hrows]
        exact C75_complete_partial K gas beyond s0 s1 root _ Q hashes (k + 4) (by omega) (by rw [List.length_map]) (by omega) hasc u4 (by rw [u3]; exact hg) d2
      exact (check_commitments_iff K s _ params Q (k + 4) (by omega) 20 2 2 q2 q4 q5 (by norm_num) (by norm_num) (List.length_replicate ..) (List.length_replicate ..) hleaves).2
        ⟨hopen _ _ _ _ hmem.1, hopen _ _ _ _ hmem.2.1⟩
    · rw [q2, hQ]
      refine C76_complete_partial env rfl _ s.fri (k + 4) hk rfl (fun t => by dsimp only; rw [u3]; exact hmem.2.2 t) ?_ ?_ ?_ hasc u4 ?_ ?_ ?_ ?_ (fun _ => 0) ?_ ls ?_ (r.eval_points.map mont) ?_ ?_
      · intro c hc
        dsimp only at hc
        rw [List.eq_of_mem_replicate hc]
        exact modulus_pos
      · intro v hv
        dsimp only at hv
        rw [List.eq_of_mem_replicate hv]
        exact modulus_pos
      · dsimp only
        rw [List.length_replicate, u3]
      · dsimp only
        rw [hlay]
        exact w3
      · dsimp only
        rw [hlay]
        exact w4
      · dsimp only
        rw [hlay]
        omega
      · dsimp only
        rw [hlay]
        exact htwo
      · intro z q v _ hz
        dsimp only at hz
        rw [List.eq_of_mem_replicate (List.mem_of_getElem? hz), mont_zero]
      · intro t l hl
        dsimp only
        refine ⟨?_, ⟨[], ?_⟩, ?_, (g2 l (List.mem_of_getElem? hl)).2, ?_⟩
        · rw [← g1, List.getElem?_map, hl, Option.map_some]
        · rw [List.getElem?_map, hl, Option.map_some, List.append_nil]
        · intro u hu
          rw [(g2 l (List.mem_of_getElem? hl)).1 u hu]
          exact modulus_pos
        · rw [List.getElem?_map, hl, Option.map_some]
      · intro t x hx
        dsimp only
        rw [List.getElem?_map] at hx
        obtain ⟨e, h1, h2⟩ := Option.map_eq_some_iff.1 hx
        exact ⟨e, h1, h2⟩
      · dsimp only
        rw [hlay]
        exact g3
    · rw [hext]
      exact sum_right _ _ hv2 hp

end EvmVerifier
end Props
end OpenZKP
