import Verif.Evm.StarkVerifierLemmas

/-!
Lemmas: with enough gas the contract draws the challenges of the protocol.
-/

namespace OpenZKP
namespace Evm
namespace StarkVerifier
open Stark Stark.Accept PrimeField MerkleVerifier

section
variable (env : Env Z) (hc : env.codec = montgomery)

theorem randomFields_props (K : Keccak) (n : Nat) (c c' : Coin) (xs : List U256) (h : Stark.PublicCoin.randomFields K n c = some (xs, c')) :
    xs.length = n ∧ c'.digest = c.digest ∧ ∀ u ∈ xs, u.toNat < MODULUS := by
  induction n generalizing c xs with
  | zero => cases h; exact ⟨rfl, rfl, by simp⟩
  | succ n ih =>
    rw [Stark.PublicCoin.randomFields] at h
    obtain ⟨r, h1, h⟩ := Option.bind_eq_some_iff.1 h
    obtain ⟨rs, h2, h⟩ := Option.map_eq_some_iff.1 h
    cases h
    obtain ⟨a1, a2, a3⟩ := ih r.2 rs.1 h2
    obtain ⟨-, -, -, -, h3, -, -, h4⟩ := Props.randomFieldLoop_inv K _ _ _ _ h1
    refine ⟨by rw [List.length_cons, a1], by rw [a2, h3], fun u hu => ?_⟩
    rcases List.mem_cons.1 hu with rfl | hu
    · rw [modulus_base]; exact h4
    · exact a3 u hu

include hc in
theorem draws_conv (c : Coin) (n : Nat) (xs : List Z) (h : Draws env c n xs) :
    ∃ G vs c', (∀ gas, G ≤ gas → PublicCoin.read_many_field_elements env.K gas n c = some (vs, c')) ∧ vs.map mont = xs ∧ vs.length = n ∧ c'.digest = c.digest ∧ ∀ v ∈ vs, v < MODULUS := by
  obtain ⟨us, c', h1, rfl⟩ := h
  obtain ⟨a1, a2, a3⟩ := randomFields_props env.K n c c' us h1
  refine ⟨c'.counter, us.map U256.toNat, c', fun gas hg => (rust_read_many env.K gas n c c' us h1 (by omega)).1, ?_, by rw [List.length_map, a1], a2, fun v hv => ?_⟩
  · rw [List.map_map, hc]
    rfl
  · obtain ⟨u, hu, rfl⟩ := List.mem_map.1 hv
    exact a3 u hu

include hc in
theorem draws_conv_one (c : Coin) (x : Z) (h : Draws env c 1 [x]) :
    ∃ G v c', (∀ gas, G ≤ gas → PublicCoin.read_field_element env.K gas c = some (v, c')) ∧ mont v = x ∧ c'.digest = c.digest ∧ v < MODULUS := by
  obtain ⟨G, vs, c', h1, h2, h3, h4, h5⟩ := draws_conv env hc c 1 [x] h
  obtain ⟨v, rfl⟩ := List.length_eq_one_iff.1 h3
  refine ⟨G, v, c', fun gas hg => ?_, by simpa using h2, h4, h5 v (by simp)⟩
  have := h1 gas hg
  rw [PublicCoin.read_many_field_elements] at this
  obtain ⟨r, e1, e2⟩ := Option.bind_eq_some_iff.1 this
  obtain ⟨rs, e3, e4⟩ := Option.map_eq_some_iff.1 e2
  cases e3
  cases e4
  exact e1

include hc in
theorem eval_points_conv (roots : List Bytes) (n i : Nat) (c : Coin) (xs : List Z) (hx : xs.length = n) (hn : i + n ≤ roots.length)
    (h : ∀ j < n, Draws env ⟨absorb env.K c.digest ((roots.drop i).take (j + 1)), 0⟩ 1 [xs.getD j 0]) :
    ∃ G es c', (∀ gas, G ≤ gas → readEvalPoints env.K gas roots n i c = some (es, c')) ∧ es.map mont = xs ∧ c'.digest = absorb env.K c.digest ((roots.drop i).take n) ∧
      ∀ v ∈ es, v < MODULUS := by
  induction n generalizing i c xs with
  | zero =>
    rw [List.length_eq_zero_iff] at hx
    subst hx
    exact ⟨0, [], c, fun _ _ => rfl, rfl, rfl, by simp⟩
  | succ n ih =>
    obtain ⟨x, xs, rfl⟩ : ∃ y ys, xs = y :: ys := by cases xs with | nil => cases hx | cons y ys => exact ⟨y, ys, rfl⟩
    have hi : i < roots.length := by omega
    have hdrop : roots.drop i = roots[i] :: roots.drop (i + 1) := (List.getElem_cons_drop hi).symm
    have h0 := h 0 (by omega)
    rw [hdrop, List.take_succ_cons, List.take_zero] at h0
    obtain ⟨G1, v, c1, a1, a2, a3, a4⟩ := draws_conv_one env hc _ _ h0
    dsimp only at a3
    obtain ⟨G2, es, c2, b1, b2, b3, b4⟩ := ih (i + 1) c1 xs (by simpa using hx) (by omega) (by
      intro j hj
      have := h (j + 1) (by omega)
      rw [hdrop, List.take_succ_cons, List.getD_cons_succ] at this
      rw [a3, ← absorb_append]
      exact this)
    refine ⟨max G1 G2, v :: es, c2, fun gas hg => ?_, by rw [List.map_cons, b2, a2]; rfl, ?_, ?_⟩
    · rw [readEvalPoints, List.getElem?_eq_getElem hi, Option.bind_some, write_bytes32_eq, a1 gas (by omega), Option.bind_some, b1 gas (by omega)]
      rfl
    · rw [b3, a3, ← absorb_append, hdrop, List.take_succ_cons]
      rfl
    · intro u hu
      rcases List.mem_cons.1 hu with rfl | hu
      · exact a4
      · exact b4 u hu

include hc in
/-- with enough gas the contract draws the challenges of the protocol -/
theorem transcript_conv (proof : StarkProof) (parameters : Recurrence.ProofParameters) (c : Coin) (seed : Bytes) (hseed : c = ⟨env.K.hash seed, 0⟩)
    (n : Nat) (hn : 2 * parameters.number_of_constraints = n) (hn' : n < 2 ^ 64) (P : Contents) (hP : Carries proof parameters.fri_layout.length P) (hne : P.constraint_values ≠ [])
    (x : Challenges Z) (h1 : Draws env (coin env.K seed [P.trace_root]) n x.coefficients)
    (h2 : Draws env (coin env.K seed [P.trace_root, P.constraint_root]) 1 [x.point])
    (h3 : Draws env (coin env.K seed P.head) (P.trace_values.length + P.constraint_values.length) x.oods)
    (h4 : x.folds.length = P.fri.length)
    (h5 : ∀ i < P.fri.length, Draws env (coin env.K seed (P.head ++ (P.fri.take (i + 1)).map (·.root))) 1 [x.folds.getD i 0]) :
    ∃ G, ∀ gas, G ≤ gas → ∃ r, write_data_and_read_random env.K gas proof parameters c = some r ∧ r.constraint_coefficients.map mont = x.coefficients ∧ mont r.oods_point = x.point ∧
      r.oods_coefficients.map mont = x.oods ∧ r.eval_points.map mont = x.folds ∧ r.coin = coin env.K seed P.body ∧ r.constraint_coefficients.length = n ∧
      r.oods_coefficients.length = P.trace_values.length + P.constraint_values.length ∧ (∀ v ∈ r.constraint_coefficients, v < MODULUS) ∧ (∀ v ∈ r.oods_coefficients, v < MODULUS) ∧
      ∀ v ∈ r.eval_points, v < MODULUS := by
  subst hseed
  rw [coin_eq] at h1 h2 h3
  obtain ⟨G1, v1, c1, a1, a2, a3, a4, a5⟩ := draws_conv env hc _ _ _ h1
  obtain ⟨G2, v2, c2, b1, b2, b3, b4⟩ := draws_conv_one env hc _ _ h2
  obtain ⟨G3, v3, c3, d1, d2, d3, d4, d5⟩ := draws_conv env hc _ _ _ h3
  dsimp only at a4 b3 d4
  have hlen : parameters.fri_layout.length ≤ proof.fri_commitments.length := by
    have := congrArg List.length hP.fri.2
    rw [List.length_map, hP.fri.1, List.length_take] at this
    omega
  have hroots : ∀ j, j ≤ parameters.fri_layout.length → (P.fri.take j).map (·.root) = proof.fri_commitments.take j := by
    intro j hj
    rw [List.map_take, hP.fri.2, List.take_take, Nat.min_eq_left hj]
  obtain ⟨G4, v4, c4, e1, e2, e3, e4⟩ := eval_points_conv env hc proof.fri_commitments parameters.fri_layout.length 0 c3 x.folds (h4.trans hP.fri.1) (by omega) (by
    intro j hj
    have := h5 j (by rw [hP.fri.1]; exact hj)
    rw [coin_eq, absorb_append, ← d4, hroots _ (by omega)] at this
    rw [List.drop_zero]
    exact this)
  rw [List.drop_zero] at e3
  have hw1 : PublicCoin.write_bytes32 env.K ⟨env.K.hash seed, 0⟩ proof.trace_commitment = ⟨absorb env.K (env.K.hash seed) [P.trace_root], 0⟩ := by
    rw [write_bytes32_eq, hP.trace_root]
  have hw2 : PublicCoin.write_bytes32 env.K c1 proof.constraint_commitment = ⟨absorb env.K (env.K.hash seed) [P.trace_root, P.constraint_root], 0⟩ := by
    rw [write_bytes32_eq, a4, ← absorb_append, hP.constraint_root]
    rfl
  have hne' : proof.constraint_oods_values ≠ [] := by
    rw [← hP.constraint_values]
    simpa using hne
  have hw3 : PublicCoin.write_many_field_elements env.K (PublicCoin.write_many_field_elements env.K c2 proof.trace_oods_values) proof.constraint_oods_values =
      ⟨absorb env.K (env.K.hash seed) P.head, 0⟩ := by
    rw [write_many_coin _ _ _ hne', write_many_eq, b3, ← absorb_append, ← absorb_append, ← hP.trace_values, ← hP.constraint_values, bytes32_map, bytes32_map, Contents.head, List.append_assoc]
  have hl3 : proof.trace_oods_values.length + proof.constraint_oods_values.length = P.trace_values.length + P.constraint_values.length := by
    rw [← hP.trace_values, ← hP.constraint_values, List.length_map, List.length_map]
  refine ⟨max (max G1 G2) (max G3 G4), fun gas hg => ⟨⟨v1, v2, v3, v4, PublicCoin.write_layer env.K c4 proof.last_layer_coefficients⟩, ?_, a2, b2, d2, e2, ?_, a3, d3, a5, d5, e4⟩⟩
  · unfold write_data_and_read_random
    dsimp only
    rw [hw1, hn, Nat.mod_eq_of_lt hn', a1 gas (by omega), Option.bind_some]
    dsimp only
    rw [hw2, b1 gas (by omega), Option.bind_some]
    dsimp only
    rw [hw3, hl3, d1 gas (by omega), Option.bind_some]
    dsimp only
    rw [e1 gas (by omega), Option.map_some]
  · rw [write_layer_eq, e3, coin_eq, Contents.body, absorb_append, absorb_append, ← d4, hP.fri.2, ← hP.last_layer, words_map]

end

/-! ### rows -/

theorem rowsOf_eq (n w : Nat) (rows : List (List Nat)) (hn : rows.length = n) (hw : ∀ r ∈ rows, r.length = w) : rowsOf n w rows.flatten = rows := by
  induction n generalizing rows with
  | zero => rw [List.length_eq_zero_iff] at hn; subst hn; rfl
  | succ n ih =>
    obtain ⟨r, rows, rfl⟩ : ∃ y ys, rows = y :: ys := by cases rows with | nil => cases hn | cons y ys => exact ⟨y, ys, rfl⟩
    have hr : r.length = w := hw r (by simp)
    have h := ih rows (by simpa using hn) (fun r' h' => hw r' (by simp [h']))
    unfold rowsOf at h ⊢
    rw [List.range_succ_eq_map, List.map_cons, List.map_map, List.flatten_cons]
    congr 1
    · refine List.ext_getElem (by simp [hr]) fun i h1 h2 => ?_
      rw [List.getElem_map, List.getElem_range, Nat.zero_mul, Nat.zero_add, List.getD_append _ _ _ _ h2, List.getD_eq_getElem _ _ h2]
    · refine Eq.trans ?_ h
      refine List.map_congr_left fun i _ => ?_
      refine List.map_congr_left fun j _ => ?_
      rw [List.getD_append_right _ _ _ _ (by rw [hr]; show w ≤ (i + 1) * w + j; nlinarith), hr]
      congr 1
      show (i + 1) * w + j - w = i * w + j
      rw [Nat.succ_mul]
      omega

theorem rowsOf_words (n w : Nat) (rows : List (List U256)) (hn : rows.length = n) (hw : ∀ r ∈ rows, r.length = w) :
    (rowsOf n w (rows.flatten.map U256.toNat)).map (·.map word) = rows ∧ (rows.flatten.map U256.toNat).length = n * w := by
  rw [List.map_flatten, rowsOf_eq n w _ (by simpa using hn) (by simpa using hw)]
  constructor
  · rw [List.map_map]
    refine (List.map_congr_left fun r _ => ?_).trans (List.map_id rows)
    rw [Function.comp_apply, List.map_map]
    exact (List.map_congr_left fun u _ => word_toNat u).trans (List.map_id r)
  · rw [← List.map_flatten, List.length_map, ← hn]
    clear hn
    induction rows with
    | nil => simp
    | cons r rows ih => rw [List.flatten_cons, List.length_append, hw r (by simp), ih fun r' h' => hw r' (by simp [h']), List.length_cons]; ring

end StarkVerifier
end Evm
end OpenZKP
