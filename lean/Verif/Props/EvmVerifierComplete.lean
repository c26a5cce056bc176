import Verif.Evm.VerifierComplete
import Verif.Props.EvmVerifier

/-!
# C79, conversely: the contract `StarkVerifier` accepts what the protocol accepts
-/

namespace OpenZKP
namespace Props
namespace EvmVerifier
open Evm Evm.PrimeField Evm.MerkleVerifier Evm.StarkVerifier FFT Stark Stark.Accept EvmDefaultCs EvmRecurrence

/-! ## Lemmas -/

theorem encodes_carries {proof : StarkProof} {P : Contents} (h : Encodes proof P) (n : Nat) (hn : P.fri.length = n) : Carries proof n P where
  trace_root := h.trace_root.symm
  constraint_root := h.constraint_root.symm
  trace_values := h.trace_values.symm
  constraint_values := h.constraint_values.symm
  fri := ⟨hn, by rw [h.fri_roots, List.take_of_length_le (by rw [List.length_map, hn])]⟩
  last_layer := h.last_layer.symm
  nonce := h.nonce.symm
  trace_rows := h.trace_rows.symm
  constraint_rows := h.constraint_rows.symm

theorem reduced_toNat {l : List U256} (h : Reduced l) : ∀ v ∈ l.map U256.toNat, v < MODULUS := by
  intro v hv
  obtain ⟨u, hu, rfl⟩ := List.mem_map.1 hv
  rw [modulus_base]
  exact h u hu

theorem word_map (l : List U256) : (l.map U256.toNat).map word = l := by
  rw [List.map_map]
  exact (List.map_congr_left fun u _ => word_toNat u).trans (List.map_id l)

theorem val_map (codec : Codec Z) (hc : codec = montgomery) (l : List U256) : l.map codec.val = (l.map U256.toNat).map mont := by
  rw [List.map_map, hc]
  rfl

theorem rows_reduced {rows : List (List U256)} (h : ∀ r ∈ rows, Reduced r) : ∀ v ∈ rows.flatten.map U256.toNat, v < MODULUS := by
  refine reduced_toNat fun u hu => ?_
  obtain ⟨r, hr, hu⟩ := List.mem_flatten.1 hu
  exact h r hr u hu

theorem layouts_three (k : Nat) (hk : k < 64) : ∀ n ∈ DefaultCs.default_fri_layout k, 1 ≤ n ∧ n ≤ 3 := by
  revert hk k
  decide +kernel

theorem layouts_some (k : Nat) (hk : k < 64) (h : 0 < k) : DefaultCs.default_fri_layout k ≠ [] := by
  revert hk k
  decide +kernel

/-- the calculations of the contract `Recurrence` do not revert -/
theorem calculations_some (b : DefaultCs.Behind) (data : DefaultCs.Data) (input : Recurrence.PublicInput) (Q : List Nat) (p : Nat) (cc oc : List Nat) (k : Nat) (hk : k + 4 ≤ 192)
    (hlog : data.log_trace_length = k) (h1 : data.trace_oods_values.length = 4) (h2 : data.constraint_oods_values.length = 2) (h3 : Q.length * 2 = data.trace_values.length)
    (h4 : Q.length * 2 = data.constraint_values.length) (h5 : oc.length = 6) (h6 : cc.length = 8) (hr1 : ∀ v ∈ data.trace_oods_values, v < MODULUS)
    (hr2 : ∀ v ∈ cc, v < MODULUS) (hv : input.value < MODULUS) (hz : mont p ^ 2 ^ k ≠ 1) :
    ∃ points v, Recurrence.constraint_calculations b data input Q p cc oc = some (points, v) ∧ v < MODULUS := by
  obtain ⟨eval, he, hgen⟩ := init_some (k + 4) hk
  obtain ⟨hg16, hg1⟩ := gen_eq k hk
  obtain ⟨inverses, -, points, hp, -⟩ := points_cast Recurrence.system b data eval oc Q p (k + 4) cells (by rw [hlog]) (by omega) he (C77_recurrence _) h1
    ⟨by rw [h1, h5]; decide, by rw [← h3]; exact le_refl _, by rw [← h4]; exact le_refl _, h2.ge⟩
  obtain ⟨c0, c1, c2, c3, c4, c5, c6, c7, rfl⟩ : ∃ c0 c1 c2 c3 c4 c5 c6 c7, cc = [c0, c1, c2, c3, c4, c5, c6, c7] := by
    match cc, h6 with
    | [c0, c1, c2, c3, c4, c5, c6, c7], _ => exact ⟨_, _, _, _, _, _, _, _, rfl⟩
  obtain ⟨t0, t1, t2, t3, hts⟩ : ∃ t0 t1 t2 t3, data.trace_oods_values = [t0, t1, t2, t3] := by
    match data.trace_oods_values, h1 with
    | [t0, t1, t2, t3], _ => exact ⟨_, _, _, _, rfl⟩
  rw [hts] at hr1
  simp only [List.forall_mem_cons, List.not_mem_nil, false_imp_iff, implies_true, and_true] at hr1 hr2
  obtain ⟨a0, a1, a2, a3⟩ := hr1
  obtain ⟨b0, b1, b2, b3, b4, b5, b6, b7⟩ := hr2
  unfold Recurrence.constraint_calculations
  rw [hlog, Nat.mod_eq_of_lt (by omega), he, Option.bind_some, hp, Option.bind_some, hts]
  split
  · next hcond =>
    obtain ⟨rfl, hi⟩ := hcond
    obtain ⟨r, e1, e2, -⟩ := Recurrence.evaluate256_cast p c0 c1 c2 c3 c4 c5 c6 c7 input.value t0 t1 t2 t3 b0 b2 b4 b6 hz (by rw [gen256]; exact hg1) input.index
    exact ⟨points, r, by rw [e1, Option.map_some], e2⟩
  · obtain ⟨r, e1, e2, -⟩ := Recurrence.evaluate_cast p c0 c1 c2 c3 c4 c5 c6 c7 [] input eval k (by omega) t0 t1 t2 t3 [] hv a0 a2
    exact ⟨points, r, by rw [e1, Option.map_some], e2⟩

theorem oods_lt (p : Nat) (vs : List Nat) (h : vs ≠ []) : (vs.foldl (oodsStep p) (0, to_montgomery 1)).1 < MODULUS := by
  obtain ⟨ws, v, rfl⟩ := List.eq_nil_or_concat vs |>.resolve_left h
  rw [List.concat_eq_append, List.foldl_append, List.foldl_cons, List.foldl_nil]
  exact addmod_lt _ _

/-! ## C79 -/

section
variable (env : Env Z) (hc : env.codec = montgomery) (hgen : env.generator = 3) (input : Recurrence.PublicInput) (hv : input.value < MODULUS) (k : Nat) (h0 : 0 < k) (hk : k + 4 ≤ 40)
  (c : Constraints Z) (hsys : Examples.Recurrence.constraints env.root env.codec.rep input.index (mont input.value) 2 = some c) (hrows : c.trace_nrows = 2 ^ k)
  (hroot : env.root (2 ^ k) = some (gen k))
include hc hgen hv h0 hk hsys hrows hroot

/-- C79 (completeness; partial: the trace has at least two rows, the queries are distinct and meet at least two cosets of the last layer, and the out-of-domain point is not a row): if the protocol
accepts a proof, with 20 queries and 10 bits of work, then given enough gas the contract does not revert on the arrays of its parts. -/
theorem C79_complete_partial (p : Bytes) (P : Contents) (x : Challenges Z) (h : Accepts env (contractSystem c) k 4 (gen (k + 4)) (gen k) p cells P x)
    (hdistinct : x.queries.Nodup) (houtside : x.point ^ 2 ^ k ≠ 1)
    (htwo : ∃ q ∈ x.queries, ∃ q' ∈ x.queries, q / 2 ^ c.fri_layout.sum ≠ q' / 2 ^ c.fri_layout.sum) (proof : StarkProof) (hP : Encodes proof P) :
    ∃ G, ∀ (decode : Bytes → Option Recurrence.PublicInput) (b : DefaultCs.Behind) (s : Surroundings), decode proof.public_inputs = some input → G ≤ s.gas →
      64 * 20 ≤ s.trace.gas → 64 * 20 ≤ s.constraint.gas → (∀ t, 64 * 20 ≤ (s.fri t).gas) → s.leaves.length = 20 →
      verify_proof env.K s proof (recurrence env.K decode b) = some false := by
  obtain ⟨g, hg, hs', -, hd, -, hes⟩ := rec_system env.root _ input.index _ 2 c hsys
  obtain ⟨-, hcc⟩ := Examples.system_some _ _ _ _ _ _ hs'
  have hn : Merkle.next_power_of_two (input.index + 1) = 2 ^ k := by rw [← hrows, hcc]
  have hindex : input.index < 2 ^ 63 := by
    have h1 := (rec_length input.index).1
    rw [hn] at h1
    exact lt_of_lt_of_le h1 (Nat.pow_le_pow_right (by norm_num) (by omega))
  have hrep : (env.codec.rep (mont input.value)).toNat = input.value := by
    rw [hc, rep_mont _ hv]
    exact toNat_word _ (lt_trans hv modulus_word)
  have hpar := C78_parameters_partial env.K env.root env.codec.rep input.index hindex (mont input.value) c hsys
  rw [hrep] at hpar
  dsimp only at hpar
  have hpow : (Recurrence.initalize_system env.K input).1.pow_bits = 10 ∧ (Recurrence.initalize_system env.K input).1.number_of_queries = 20 ∧
      (Recurrence.initalize_system env.K input).1.log_blowup = 4 ∧ (Recurrence.initalize_system env.K input).1.number_of_columns = 2 ∧
      (Recurrence.initalize_system env.K input).1.constraint_degree = 2 ∧ (Recurrence.initalize_system env.K input).1.number_of_constraints = 4 := ⟨rfl, rfl, rfl, rfl, rfl, rfl⟩
  have hlayout0 := init_layout env.K input
  generalize hi : Recurrence.initalize_system env.K input = init at hpar hpow hlayout0
  obtain ⟨params, coin0⟩ := init
  dsimp only at hpar hpow hlayout0
  obtain ⟨p1, p2, p3, p4, p5, p6, p7⟩ := hpar
  obtain ⟨q1, q2, q3, q4, q5, q6⟩ := hpow
  have hlog : params.log_trace_length = k := by
    rw [hrows] at p1
    exact (Nat.pow_right_injective (le_refl 2) p1).symm
  have hseed : coin0 = ⟨env.K.hash c.channel_seed, 0⟩ := p7
  have hlay : params.fri_layout.length = c.fri_layout.length := by rw [p6]
  have hlayout : params.fri_layout = DefaultCs.default_fri_layout k := by
    have h2 : (Utils.num_bits input.index + 1) % 256 = k := by
      have := rows_log input.index hindex
      rw [hn] at this
      exact (Nat.pow_right_injective (le_refl 2) this).symm
    rw [hlayout0, h2]
  obtain ⟨-, w2, -⟩ := layouts k (by omega)
  have w1 := layouts_three k (by omega)
  have w0 := layouts_some k (by omega) h0
  rw [← hlayout] at w0 w1 w2
  -- the parts
  obtain ⟨d, hd', sz⟩ := h.sized
  obtain rfl : d = 2 := Option.some.inj (hd'.symm.trans hd)
  have hlt : P.trace_values.length = 4 := sz.trace_values.1
  have hlc : P.constraint_values.length = 2 := sz.constraint_values.1
  have hfri : P.fri.length = c.fri_layout.length := sz.fri.1
  have hcar := encodes_carries hP params.fri_layout.length (by rw [hlay, hfri])
  obtain ⟨rw1, rl1⟩ := rowsOf_words 20 2 P.trace_rows sz.trace_rows.1 fun r hr => by
    rw [(sz.trace_rows.2 r hr).1]; show c.trace_ncolumns = 2; rw [p2, q4]
  obtain ⟨rw2, rl2⟩ := rowsOf_words 20 2 P.constraint_rows sz.constraint_rows.1 fun r hr => by
    rw [(sz.constraint_rows.2 r hr).1]; decide
  rw [← hP.trace_rows] at rw1 rl1
  rw [← hP.constraint_rows] at rw2 rl2
  have red1 : ∀ v ∈ proof.trace_values, v < MODULUS := by rw [hP.trace_rows]; exact rows_reduced fun r hr => (sz.trace_rows.2 r hr).2
  have red2 : ∀ v ∈ proof.constraint_values, v < MODULUS := by rw [hP.constraint_rows]; exact rows_reduced fun r hr => (sz.constraint_rows.2 r hr).2
  have red3 : ∀ v ∈ proof.trace_oods_values, v < MODULUS := by rw [hP.trace_values]; exact reduced_toNat sz.trace_values.2
  have red4 : ∀ v ∈ proof.constraint_oods_values, v < MODULUS := by rw [hP.constraint_values]; exact reduced_toNat sz.constraint_values.2
  have red5 : ∀ v ∈ proof.last_layer_coefficients, v < MODULUS := by rw [hP.last_layer]; exact reduced_toNat sz.last_layer.2
  have lo1 : proof.trace_oods_values.length = 4 := by rw [hP.trace_values, List.length_map, hlt]
  have lo2 : proof.constraint_oods_values.length = 2 := by rw [hP.constraint_values, List.length_map, hlc]
  -- the challenges
  have dr := h.drawn
  have hdc : Draws env (coin env.K c.channel_seed [P.trace_root]) 8 x.coefficients := by
    have := dr.coefficients
    have e : (2 * (contractSystem c).expressions.length) = 8 := by show 2 * c.expressions.length = 8; rw [p3, q6]
    rw [e] at this
    exact this
  have hdo : Draws env (coin env.K c.channel_seed P.head) (P.trace_values.length + P.constraint_values.length) x.oods := by
    have := dr.oods
    rw [hlt]
    exact this
  obtain ⟨G, hG⟩ := transcript_conv env hc proof params coin0 c.channel_seed hseed 8 (by rw [q6]) (by norm_num) P hcar (by intro e; rw [e] at hlc; cases hlc) x hdc dr.point hdo dr.folds.1
    dr.folds.2
  refine ⟨G, fun decode b s hdec hgas hg1 hg2 hg3 hleaves => ?_⟩
  obtain ⟨r, t0, t1, t2, t3, t4, t5, t6, t7, t8, t9, t10⟩ := hG s.gas hgas
  have hQ : queriesOf env.K r.coin proof.pow_nonce (k + 4) 20 = x.queries := by
    obtain ⟨u1, u2, -, -⟩ := queries_eq env.K r.coin proof.pow_nonce (k + 4) (by omega)
    obtain ⟨v1, v2⟩ := dr.queries
    refine List.Perm.eq_of_pairwise (fun a b _ _ hab hba => le_antisymm hab hba) u1 v1 (u2.trans (v2.trans ?_).symm)
    have e3 : (⟨absorb env.K r.coin.digest [to_be_bytes 8 proof.pow_nonce], 0⟩ : Coin) = coin env.K c.channel_seed (P.body ++ [to_be_bytes 8 P.nonce]) := by
      rw [t5, coin_eq, coin_eq, absorb_append, hP.nonce]
    rw [e3]
    rfl
  obtain ⟨-, -, u3, u4⟩ := queries_eq env.K r.coin proof.pow_nonce (k + 4) (by omega)
  rw [hQ] at u3 u4
  have hasc : x.queries.Pairwise (· < ·) := (dr.queries.1.and hdistinct).imp fun h => lt_of_le_of_ne h.1 h.2
  have hidx : ∀ (z z' q : Nat), x.queries[z]? = some q → x.queries[z']? = some q → z = z' := by
    intro z z' q h1 h2
    obtain ⟨a1, a2⟩ := List.getElem?_eq_some_iff.1 h1
    obtain ⟨b1, b2⟩ := List.getElem?_eq_some_iff.1 h2
    exact (List.Nodup.getElem_inj_iff hdistinct).1 (a2.trans b2.symm)
  obtain ⟨f, hf1, hf2⟩ := h.fri
  have hat : ∀ q, at_query (k + 4) q = env.generator * gen (k + 4) ^ rev (k + 4) q := by intro q; rw [hgen]; rfl
  have hapart : ∀ q ∈ x.queries, (∀ a ∈ cells, at_query (k + 4) q ≠ gen k ^ a.2 * x.point) ∧ at_query (k + 4) q ≠ x.point ^ 2 := by
    intro q hq
    obtain ⟨z, row, crow, -, -, -, y1, y2, -⟩ := hf1 q hq
    rw [hat]
    refine ⟨fun a ha => (y1 a ha).2, ?_⟩
    rw [hlc] at y2
    exact y2
  have t7' : r.oods_coefficients.length = 6 := by rw [t7, hlt, hlc]
  obtain ⟨points, v, hcalc, hvlt⟩ := calculations_some b ⟨proof.trace_values, proof.constraint_values, proof.trace_oods_values, proof.constraint_oods_values, k⟩ input x.queries r.oods_point
    r.constraint_coefficients r.oods_coefficients k (by omega) rfl lo1 lo2 (by rw [u3, rl1]) (by rw [u3, rl2]) t7' t6 red3 t8 hv (by rw [t2]; exact houtside)
  obtain ⟨n1, n2, n3⟩ := points_deep env hc b _ input x.queries r.oods_point r.constraint_coefficients r.oods_coefficients k (by omega) rfl points v hcalc P x lo1 lo2
    (by rw [u3, rl1]) (by rw [u3, rl2]) t7' red3 red4 (by dsimp only; rw [hP.trace_values, word_map]) (by dsimp only; rw [hP.constraint_values, word_map]) t3.symm t2.symm hapart
  have hrow : ∀ (data : List Nat) (rows : List (List U256)), (∀ v ∈ data, v < MODULUS) → data.length = 20 * 2 → (rowsOf 20 2 data).map (·.map word) = rows →
      ∀ (z : Nat) (row' : List U256), rows[z]? = some row' → row'.map env.codec.val = row 2 data z := by
    intro data rows e1 e2 e3 z row' hz
    have hz20 : z < 20 := by
      have := (List.getElem?_eq_some_iff.1 hz).1
      rw [← e3] at this
      simpa [rowsOf] using this
    obtain ⟨row1, g1, -, g3⟩ := row_word env.codec hc data e1 e2 z hz20
    rw [e3, hz] at g1
    cases g1
    exact g3
  have hopen : ∀ (mem : Evm.Fri.Mem) (root : Bytes) (data : List Nat) (rows : List (List U256)) (hashes : List Bytes), (∀ v ∈ data, v < MODULUS) → data.length = 20 * 2 →
      (rowsOf 20 2 data).map (·.map word) = rows → Opened env (2 ^ (k + 4)) root hashes x.queries (rows.map (·.map env.codec.val)) → 64 * 20 ≤ mem.gas →
      verify_merkle_proof env.K mem.gas mem.beyond mem.s0 mem.s1 root ((rowsOf 20 2 data).map (merkle_leaf_hash env.K)) (x.queries.map fun q => 2 ^ (k + 4) + q) hashes = some true := by
    intro mem root data rows hashes e1 e2 e3 hop hgas'
    rw [← e3] at hop
    unfold Opened at hop
    rw [opened_rows env hc data e1 e2] at hop
    exact C75_complete_partial env.K _ _ _ _ root _ x.queries hashes (k + 4) (by omega) (by rw [u3]; simp [rowsOf]) (by rw [u3]; norm_num) hasc u4 (by rw [u3]; exact hgas') hop
  have hne : verify_proof env.K s proof (recurrence env.K decode b) ≠ none := by
    refine (steps env.K decode b s proof input hdec k (by omega) params coin0 hi hlog q3 q1).2 ⟨r, points, v, t0, ?_, ?_, ?_, ?_, ?_⟩
    · refine (proof_of_work_iff env.K r.coin proof.pow_nonce 10 (by norm_num)).2 ?_
      rw [t5, hP.nonce]
      exact h.worked
    · rw [q2, hQ]
      exact hcalc
    · rw [q2, hQ]
      refine (check_commitments_iff env.K s proof params x.queries (k + 4) (by omega) 20 2 2 q2 q4 q5 (by norm_num) (by norm_num) rl1 rl2 hleaves).2 ⟨?_, ?_⟩
      · rw [hP.trace_root, hP.trace_hashes]
        exact hopen s.trace _ _ _ _ red1 rl1 rw1 h.trace hg1
      · rw [hP.constraint_root, hP.constraint_hashes]
        exact hopen s.constraint _ _ _ _ red2 rl2 rw2 h.constraint hg2
    · rw [q2, hQ]
      refine C76_complete_partial env hc _ s.fri (k + 4) hk rfl (by dsimp only; rw [u3]; exact hg3) red5 n2 n1 hasc u4 w0 w1 (by dsimp only; omega) (by dsimp only; rw [← p6]; exact htwo) f ?_ P.fri ?_
        x.folds ?_ ?_
      · intro z q v' hz hv'
        dsimp only at hz hv'
        obtain ⟨z', row', crow', y1, y2, y3, -, -, y6⟩ := hf1 q (List.mem_of_getElem? hz)
        obtain rfl := hidx z z' q hz y1
        have := n3 z q hz
        rw [List.getD_eq_getElem?_getD, hv', Option.getD_some] at this
        rw [this, y6, hat, hrow _ _ red1 rl1 rw1 z row' y2, hrow _ _ red2 rl2 rw2 z crow' y3]
      · intro t l hl
        have hm := sz.fri.2 l (List.mem_of_getElem? hl)
        refine ⟨?_, ⟨[], ?_⟩, fun u hu => ?_, hm.2.2, ?_⟩
        · dsimp only
          rw [hP.fri_roots, List.getElem?_map, hl, Option.map_some]
        · dsimp only
          rw [hP.fri_values, List.getElem?_map, hl, Option.map_some, List.append_nil]
        · rw [modulus_base]
          exact hm.2.1 u hu
        · dsimp only
          rw [hP.fri_hashes, List.getElem?_map, hl, Option.map_some]
      · intro t y hy
        rw [← t4, List.getElem?_map] at hy
        obtain ⟨e, he1, he2⟩ := Option.map_eq_some_iff.1 hy
        exact ⟨e, he1, he2⟩
      · show FriOk env (proof.last_layer_coefficients.map mont) params.fri_layout P.fri x.folds (gen (k + 4)) (k + 4) f x.queries
        rw [hP.last_layer, ← val_map env.codec hc, ← p6]
        exact hf2
    · refine mont_inj (oods_lt _ _ (by intro e; rw [e] at lo2; cases lo2)) hvlt ?_
      have hood := (C78_calculations_partial env hc env.codec.rep b _ input x.queries r.oods_point r.constraint_coefficients r.oods_coefficients k rfl (by omega) c hsys hrows hroot
          P x (by dsimp only; rw [hP.trace_values, word_map]) t1.symm t2.symm lo1 red3 t6 t8 hv houtside points v hcalc).1 h.out_of_domain
      rw [hood, oods_sum, lo2, hlc]
      refine Finset.sum_congr rfl fun j hj => ?_
      have hj' := Finset.mem_range.1 hj
      rw [t2, hP.constraint_values, List.getD_eq_getElem _ _ (by rw [List.length_map, hlc]; exact hj'), List.getD_eq_getElem _ _ (by rw [hlc]; exact hj'), List.getElem_map, hc]
      rfl
  obtain ⟨res, hres⟩ := Option.ne_none_iff_exists'.1 hne
  rw [hres]
  unfold verify_proof at hres
  dsimp only at hres
  obtain ⟨i, -, hres⟩ := Option.bind_eq_some_iff.1 hres
  obtain ⟨r', -, hres⟩ := Option.bind_eq_some_iff.1 hres
  split at hres
  · obtain ⟨_, -, hres⟩ := Option.bind_eq_some_iff.1 hres
    obtain ⟨_, -, hres⟩ := Option.bind_eq_some_iff.1 hres
    obtain ⟨_, -, hres⟩ := Option.bind_eq_some_iff.1 hres
    obtain ⟨_, -, hres⟩ := Option.map_eq_some_iff.1 hres
    rw [hres]
  · cases hres

end

end EvmVerifier
end Props
end OpenZKP
