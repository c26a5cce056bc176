import Verif.Evm.StarkVerifierLemmas
import Verif.Props.EvmRecurrence
import Verif.Props.EvmFri
import Verif.Props.EvmCoin

/-!
# C79: the contract `StarkVerifier`, with the constraint system `Recurrence`, is a verifier of the protocol
-/

namespace OpenZKP
namespace Props
namespace EvmVerifier
open Evm Evm.PrimeField Evm.MerkleVerifier Evm.StarkVerifier FFT Stark Stark.Accept EvmDefaultCs EvmRecurrence

/-- the system of the claim, with the numbers of queries and bits of work of the contract -/
def contractSystem (c : Constraints Z) : Constraints Z := { c with num_queries := 20, pow_bits := 10 }

/-- the challenges are such that the contract computes what it should: the queries are distinct, the out-of-domain point is none of the rows, and no denominator vanishes -/
structure Regular (k : Nat) (x : Challenges Z) : Prop where
  distinct : x.queries.Nodup
  outside : x.point ^ 2 ^ k ≠ 1
  apart : ∀ q ∈ x.queries, (∀ a ∈ cells, at_query (k + 4) q ≠ gen k ^ a.2 * x.point) ∧ at_query (k + 4) q ≠ x.point ^ 2

/-! ## Lemmas -/

/-- the parts of a proof, with the openings -/
def contents (proof : StarkProof) (ls : List Layer) (th ch : List Bytes) : Contents where
  trace_root := proof.trace_commitment
  constraint_root := proof.constraint_commitment
  trace_values := proof.trace_oods_values.map word
  constraint_values := proof.constraint_oods_values.map word
  fri := ls
  last_layer := proof.last_layer_coefficients.map word
  nonce := proof.pow_nonce
  trace_rows := (rowsOf 20 2 proof.trace_values).map (·.map word)
  trace_hashes := th
  constraint_rows := (rowsOf 20 2 proof.constraint_values).map (·.map word)
  constraint_hashes := ch

theorem toNat_words (l : List Nat) (h : ∀ v ∈ l, v < MODULUS) : (l.map word).map U256.toNat = l := by
  rw [List.map_map]
  refine (List.map_congr_left fun v hv => ?_).trans (List.map_id l)
  exact toNat_word v (lt_trans (h v hv) modulus_word)

theorem val_words (codec : Codec Z) (hc : codec = montgomery) (l : List Nat) (h : ∀ v ∈ l, v < MODULUS) : (l.map word).map codec.val = l.map mont := by
  rw [List.map_map, hc]
  exact List.map_congr_left fun v hv => val_word v (h v hv)

theorem reduced_words (l : List Nat) (h : ∀ v ∈ l, v < MODULUS) : Reduced (l.map word) := by
  intro u hu
  obtain ⟨v, hv, rfl⟩ := List.mem_map.1 hu
  rw [toNat_word v (lt_trans (h v hv) modulus_word), ← modulus_base]
  exact h v hv

theorem carries (proof : StarkProof) (n last : Nat) (hr : AllReduced proof) (hl : RightLengths proof 20 2 4 2 last) (ls : List Layer) (th ch : List Bytes) (h1 : ls.length = n)
    (h2 : ls.map (·.root) = proof.fri_commitments.take n) : Carries proof n (contents proof ls th ch) where
  trace_root := rfl
  constraint_root := rfl
  trace_values := toNat_words _ hr.trace_oods_values
  constraint_values := toNat_words _ hr.constraint_oods_values
  fri := ⟨h1, h2⟩
  last_layer := toNat_words _ hr.last_layer
  nonce := rfl
  trace_rows := by
    show (((rowsOf 20 2 proof.trace_values).map (·.map word)).flatten).map U256.toNat = _
    rw [← List.map_flatten, rowsOf_flatten _ _ _ hl.trace_values, toNat_words _ hr.trace_values]
  constraint_rows := by
    show (((rowsOf 20 2 proof.constraint_values).map (·.map word)).flatten).map U256.toNat = _
    rw [← List.map_flatten, rowsOf_flatten _ _ _ hl.constraint_values, toNat_words _ hr.constraint_values]

theorem cells_occur {F : Type} [Field F] [DecidableEq F] (g : F) (n index : Nat) (v : F) (a : Nat × Int) :
    a ∈ cells ↔ ∃ e ∈ Examples.Recurrence.expressions g n index v 2, Occurs a e := by
  simp [Examples.Recurrence.expressions, Occurs, Examples.every_row, Examples.on_row, Expr.sub, Expr.add, Expr.neg, Expr.mul, Expr.div, Expr.inv, Expr.pow]
  tauto

/-- the layouts fold something in each layer and not too much -/
theorem layouts (k : Nat) (hk : k < 64) : (∀ n ∈ DefaultCs.default_fri_layout k, 1 ≤ n) ∧ (DefaultCs.default_fri_layout k).sum ≤ k ∧ (DefaultCs.default_fri_layout k).length < 64 := by
  revert hk k
  decide +kernel

/-- the rows of a committed table, as elements -/
theorem opened_rows (env : Env Z) (hc : env.codec = montgomery) (data : List Nat) (hd : ∀ v ∈ data, v < MODULUS) (hl : data.length = 20 * 2) :
    (((rowsOf 20 2 data).map (·.map word)).map (·.map env.codec.val)).map (elementsHash env) = (rowsOf 20 2 data).map (merkle_leaf_hash env.K) := by
  rw [List.map_map, List.map_map]
  refine List.map_congr_left fun r hr => ?_
  have h := rowsOf_mem 20 2 data hl r hr
  have hv : ∀ v ∈ r, v < MODULUS := fun v hv => hd v (h.2 v hv)
  rw [Function.comp_apply, Function.comp_apply, val_words _ hc r hv]
  exact Evm.Fri.elementsHash_words env hc r hv

/-- the queries of the contract -/
def queriesOf (K : Keccak) (coin : Coin) (nonce m n : Nat) : List Nat := (get_queries K (check_proof_of_work K coin nonce 10).2 m n).1

/-- the steps of `verify_proof` -/
theorem steps (K : Keccak) (decode : Bytes → Option Recurrence.PublicInput) (b : DefaultCs.Behind) (s : Surroundings) (proof : StarkProof) (input : Recurrence.PublicInput)
    (hdec : decode proof.public_inputs = some input) (k : Nat) (hk : k < 64) (params : Recurrence.ProofParameters) (coin0 : Coin)
    (hinit : Recurrence.initalize_system K input = (params, coin0)) (h1 : params.log_trace_length = k) (h2 : params.log_blowup = 4) (h3 : params.pow_bits = 10) :
    verify_proof K s proof (recurrence K decode b) ≠ none ↔ ∃ r points v, write_data_and_read_random K s.gas proof params coin0 = some r ∧
      (check_proof_of_work K r.coin proof.pow_nonce 10).1 = true ∧
      Recurrence.constraint_calculations b ⟨proof.trace_values, proof.constraint_values, proof.trace_oods_values, proof.constraint_oods_values, k⟩ input
        (queriesOf K r.coin proof.pow_nonce (k + 4) params.number_of_queries) r.oods_point r.constraint_coefficients r.oods_coefficients = some (points, v) ∧
      check_commitments K s proof params (queriesOf K r.coin proof.pow_nonce (k + 4) params.number_of_queries) (k + 4) = some () ∧
      Evm.Fri.fold_and_check_fri_layers K ⟨proof.fri_values, proof.fri_commitments, proof.fri_decommitments, params.fri_layout, r.eval_points, k + 4,
        queriesOf K r.coin proof.pow_nonce (k + 4) params.number_of_queries, points, proof.last_layer_coefficients⟩ s.fri = some () ∧
      (proof.constraint_oods_values.foldl (oodsStep r.oods_point) (0, to_montgomery 1)).1 = v := by
  have hm : (params.log_trace_length + params.log_blowup) % 256 = k + 4 := by rw [h1, h2]; exact Nat.mod_eq_of_lt (by omega)
  constructor
  · intro h
    obtain ⟨res, h⟩ := Option.ne_none_iff_exists'.1 h
    unfold verify_proof recurrence at h
    dsimp only at h
    rw [hdec, Option.map_some, Option.bind_some, hinit] at h
    dsimp only at h
    obtain ⟨r, a1, h⟩ := Option.bind_eq_some_iff.1 h
    rw [hm, h3, h1] at h
    split at h
    · next hpow =>
      rw [Option.bind_some] at h
      obtain ⟨cc, a2, h⟩ := Option.bind_eq_some_iff.1 h
      obtain ⟨u, a3, h⟩ := Option.bind_eq_some_iff.1 h
      obtain ⟨u', a4, h⟩ := Option.bind_eq_some_iff.1 h
      obtain ⟨u'', a5, h⟩ := Option.map_eq_some_iff.1 h
      unfold check_out_of_domain_sample_result at a5
      split at a5
      · next he => exact ⟨r, cc.1, cc.2, a1, hpow, a2, a3, a4, he⟩
      · cases a5
    · cases h
  · rintro ⟨r, points, v, a1, a2, a3, a4, a5, a6⟩ h
    unfold verify_proof recurrence at h
    dsimp only at h
    rw [hdec, Option.map_some, Option.bind_some, hinit] at h
    dsimp only at h
    rw [a1, Option.bind_some, hm, h3, h1, if_pos a2, Option.bind_some] at h
    unfold queriesOf at a3 a4 a5
    rw [a3, Option.bind_some, a4, Option.bind_some] at h
    dsimp only at h
    rw [a5, Option.bind_some, check_out_of_domain_sample_result, if_pos a6] at h
    cases h

/-- the queries of the contract are those of the protocol -/
theorem queries_eq (K : Keccak) (c : Coin) (nonce m : Nat) (hm : m < 64) :
    (queriesOf K c nonce m 20).Pairwise (· ≤ ·) ∧ (queriesOf K c nonce m 20).Perm ((List.range 20).map (queryWord K ⟨absorb K c.digest [to_be_bytes 8 nonce], 0⟩ m)) ∧
      (queriesOf K c nonce m 20).length = 20 ∧ ∀ q ∈ queriesOf K c nonce m 20, q < 2 ^ m := by
  obtain ⟨c', -, h2, h3⟩ := EvmCoin.C74_queries K 20 m true hm ⟨(check_proof_of_work K c nonce 10).2, [], 0⟩ (by show 0 + 20 / 4 + 1 < 2 ^ 64; norm_num)
  refine ⟨h3, h2, by rw [queriesOf, h2.length_eq]; simp, fun q hq => ?_⟩
  obtain ⟨j, -, rfl⟩ := List.mem_map.1 (h2.mem_iff.1 hq)
  exact Nat.mod_lt _ (Nat.two_pow_pos _)

/-- an accepted opening of rows -/
theorem opened_sound (env : Env Z) (hc : env.codec = montgomery) (mem : Evm.Fri.Mem) (hmem : mem.s0.length = 32 ∧ ∀ i, (mem.beyond i).length = 32) (root : Bytes) (data : List Nat)
    (hd : ∀ v ∈ data, v < MODULUS) (hl : data.length = 20 * 2) (queries : List Nat) (m : Nat) (hm : m ≤ 63) (hasc : queries.Pairwise (· < ·)) (hb : ∀ q ∈ queries, q < 2 ^ m)
    (dec : List Bytes) (hdec : ∀ h ∈ dec, h.length = 32)
    (h : verify_merkle_proof env.K mem.gas mem.beyond mem.s0 mem.s1 root ((rowsOf 20 2 data).map (merkle_leaf_hash env.K)) (queries.map fun q => 2 ^ m + q) dec = some true) :
    ∃ hashes, (∀ x ∈ hashes, x.length = 32) ∧ Opened env (2 ^ m) root hashes queries (((rowsOf 20 2 data).map (·.map word)).map (·.map env.codec.val)) := by
  obtain ⟨-, hashes, h1, -, h2⟩ := C75_sound env.K mem.gas mem.beyond mem.s0 mem.s1 root _ queries dec m hm hasc hb hmem.1 hmem.2 hdec (by
    intro x hx
    obtain ⟨r, hr, rfl⟩ := List.mem_map.1 hx
    have hv : ∀ v ∈ r, v < MODULUS := fun v hv => hd v ((rowsOf_mem 20 2 data hl r hr).2 v hv)
    rw [← toNat_words r hv, C75_leaf_hash]
    exact leafHash_length _ _) h
  refine ⟨hashes, h1, ?_⟩
  unfold Opened
  rw [opened_rows env hc data hd hl]
  exact h2

theorem row_word (codec : Codec Z) (hc : codec = montgomery) (data : List Nat) (hd : ∀ v ∈ data, v < MODULUS) (hl : data.length = 20 * 2) (z : Nat) (hz : z < 20) :
    ∃ r, ((rowsOf 20 2 data).map (·.map word))[z]? = some r ∧ r.length = 2 ∧ r.map codec.val = row 2 data z := by
  have hz' : (rowsOf 20 2 data)[z]? = some ((List.range 2).map fun j => data.getD (z * 2 + j) 0) := by
    unfold rowsOf
    rw [List.getElem?_map, List.getElem?_range hz, Option.map_some]
  have hmem := rowsOf_mem 20 2 data hl _ (List.mem_of_getElem? hz')
  refine ⟨_, by rw [List.getElem?_map, hz', Option.map_some], by rw [List.length_map, hmem.1], ?_⟩
  rw [val_words codec hc _ fun v hv => hd v (hmem.2 v hv), List.map_map]
  rfl

/-- the points of the contract are the combinations of the quotients -/
theorem points_deep (env : Env Z) (hc : env.codec = montgomery) (b : DefaultCs.Behind) (data : DefaultCs.Data) (input : Recurrence.PublicInput) (Q : List Nat) (p : Nat)
    (cc oc : List Nat) (k : Nat) (hk : k + 4 ≤ 192) (hlog : data.log_trace_length = k) (points : List Nat) (v : Nat)
    (h : Recurrence.constraint_calculations b data input Q p cc oc = some (points, v)) (P : Contents) (x : Challenges Z)
    (h1 : data.trace_oods_values.length = 4) (h2 : data.constraint_oods_values.length = 2) (h3 : Q.length * 2 = data.trace_values.length) (h4 : Q.length * 2 = data.constraint_values.length)
    (h5 : oc.length = 6) (hr1 : ∀ v ∈ data.trace_oods_values, v < MODULUS) (hr2 : ∀ v ∈ data.constraint_oods_values, v < MODULUS)
    (hP1 : P.trace_values = data.trace_oods_values.map word) (hP2 : P.constraint_values = data.constraint_oods_values.map word)
    (hx1 : x.oods = oc.map mont) (hx2 : x.point = mont p)
    (hz : ∀ q ∈ Q, (∀ a ∈ cells, at_query (k + 4) q ≠ gen k ^ a.2 * x.point) ∧ at_query (k + 4) q ≠ x.point ^ 2) :
    points.length = Q.length ∧ (∀ v ∈ points, v < MODULUS) ∧
      ∀ (i q : Nat), Q[i]? = some q → mont (points.getD i 0) = deep env (gen k) cells P x (row 2 data.trace_values i) (row 2 data.constraint_values i) (at_query (k + 4) q) := by
  unfold Recurrence.constraint_calculations at h
  rw [hlog, Nat.mod_eq_of_lt (by omega)] at h
  obtain ⟨eval, he, h⟩ := Option.bind_eq_some_iff.1 h
  obtain ⟨pts, hp, h⟩ := Option.bind_eq_some_iff.1 h
  obtain ⟨r', -, hr⟩ := Option.map_eq_some_iff.1 h
  obtain ⟨rfl, -⟩ := Prod.mk.injEq _ _ _ _ ▸ hr
  obtain ⟨hg16, hg1⟩ := gen_eq k hk
  have hg : gen (k + 4) ^ Recurrence.system.blowup = gen k := hg16
  obtain ⟨results, e1, e2, e3, e4⟩ := C77_points_partial Recurrence.system b data eval oc Q p (k + 4) env hc cells P x (by rw [hlog]) (by omega) he (C77_recurrence _) h1
    ⟨by rw [h1, h5]; decide, by rw [← h3]; exact le_refl _, by rw [← h4]; exact le_refl _, h2.ge⟩ h2 hr1 hr2 hP1 hP2 hx1 hx2 (by
      intro q hq
      obtain ⟨z1, z2⟩ := hz q hq
      refine ⟨fun r hr => ?_, z2⟩
      rw [hg]
      have hr' : r = 0 ∨ r = 1 := by simpa [Recurrence.system] using hr
      rcases hr' with rfl | rfl
      · simpa using z1 (0, 0) (by simp)
      · simpa using z1 (0, 1) (by simp))
  obtain rfl : results = pts := Option.some.inj (e1.symm.trans hp)
  refine ⟨e2, e3, fun i q hq => ?_⟩
  rw [e4 i q hq, hg]
  rfl

/-! ## C79 -/

section
variable (env : Env Z) (hc : env.codec = montgomery) (hgen : env.generator = 3) (decode : Bytes → Option Recurrence.PublicInput) (b : DefaultCs.Behind) (s : Surroundings)
  (proof : StarkProof) (input : Recurrence.PublicInput) (hdec : decode proof.public_inputs = some input) (hv : input.value < MODULUS) (k : Nat) (hk : k + 4 ≤ 40) (c : Constraints Z)
  (hsys : Examples.Recurrence.constraints env.root env.codec.rep input.index (mont input.value) 2 = some c) (hrows : c.trace_nrows = 2 ^ k) (hroot : env.root (2 ^ k) = some (gen k))
include hc hgen hdec hv hk hsys hrows hroot

/-- C79 (partial: for reduced words and arrays of the right lengths, neither of which the contract checks, and for challenges that are `Regular`): if the contract does not revert, the proof is
one the protocol accepts for the claim, with 20 queries and 10 bits of work. -/
theorem C79_accepts_partial (hs : s.Ok 20) (ht : Typed proof) (hr : AllReduced proof) (hl : RightLengths proof 20 2 4 2 (2 ^ (k + 4) / 2 ^ c.fri_layout.sum / 2 ^ 4))
    (h : verify_proof env.K s proof (recurrence env.K decode b) ≠ none) :
    ∃ P x, Carries proof c.fri_layout.length P ∧ Drawn env (contractSystem c) (k + 4) 4 2 P x ∧ Worked env (contractSystem c) P ∧
      (Regular k x → Accepts env (contractSystem c) k 4 (gen (k + 4)) (gen k) P.bytes cells P x) := by
  obtain ⟨g, hg, hs', -, hd, -, hes⟩ := rec_system env.root _ input.index _ 2 c hsys
  obtain ⟨-, hcc⟩ := Examples.system_some _ _ _ _ _ _ hs'
  have hn : Merkle.next_power_of_two (input.index + 1) = 2 ^ k := by rw [← hrows, hcc]
  have hindex : input.index < 2 ^ 63 := by
    have h1 := (rec_length input.index).1
    rw [hn] at h1
    exact lt_of_lt_of_le h1 (Nat.pow_le_pow_right (by norm_num) (by omega))
  have hrep : (env.codec.rep (mont input.value)).toNat = input.value := by
    rw [hc, rep_mont _ hv]
    exact toNat_word _ (lt_trans hv modulus_word)
  have hpar := C78_parameters_partial env.K env.root env.codec.rep input.index hindex (mont input.value) c hsys
  rw [hrep] at hpar
  dsimp only at hpar
  have hpow : (Recurrence.initalize_system env.K input).1.pow_bits = 10 ∧ (Recurrence.initalize_system env.K input).1.number_of_queries = 20 ∧
      (Recurrence.initalize_system env.K input).1.log_blowup = 4 ∧ (Recurrence.initalize_system env.K input).1.number_of_columns = 2 ∧
      (Recurrence.initalize_system env.K input).1.constraint_degree = 2 ∧ (Recurrence.initalize_system env.K input).1.number_of_constraints = 4 := ⟨rfl, rfl, rfl, rfl, rfl, rfl⟩
  generalize hi : Recurrence.initalize_system env.K input = init at hpar hpow
  obtain ⟨params, coin0⟩ := init
  dsimp only at hpar hpow
  obtain ⟨p1, p2, p3, p4, p5, p6, p7⟩ := hpar
  obtain ⟨q1, q2, q3, q4, q5, q6⟩ := hpow
  have hlog : params.log_trace_length = k := by
    rw [hrows] at p1
    exact (Nat.pow_right_injective (le_refl 2) p1).symm
  obtain ⟨r, points, v, a1, a2, a3, a4, a5, a6⟩ := (steps env.K decode b s proof input hdec k (by omega) params coin0 hi hlog q3 q1).1 h
  rw [q2] at a3 a4 a5
  obtain ⟨u1, u2, u3, u4⟩ := queries_eq env.K r.coin proof.pow_nonce (k + 4) (by omega)
  generalize queriesOf env.K r.coin proof.pow_nonce (k + 4) 20 = Q at a3 a4 a5 u1 u2 u3 u4
  have hseed : coin0 = ⟨env.K.hash c.channel_seed, 0⟩ := p7
  have hlay : params.fri_layout.length = c.fri_layout.length := by rw [p6]
  -- the challenges, for any contents of the openings
  have htr : ∀ ls th ch, ls.length = c.fri_layout.length → ls.map (·.root) = proof.fri_commitments.take c.fri_layout.length →
      Carries proof c.fri_layout.length (contents proof ls th ch) ∧
      Drawn env (contractSystem c) (k + 4) 4 2 (contents proof ls th ch)
        ⟨r.constraint_coefficients.map mont, mont r.oods_point, r.oods_coefficients.map mont, r.eval_points.map mont, Q⟩ ∧
      Worked env (contractSystem c) (contents proof ls th ch) := by
    intro ls th ch e1 e2
    have hcar := carries proof c.fri_layout.length _ hr hl ls th ch e1 e2
    obtain ⟨t1, t2, t3, t4, t5, t6, -⟩ := transcript env hc s.gas hs.gas proof params coin0 c.channel_seed hseed (by rw [q6]; norm_num)
      (by rw [hl.trace_oods_values, hl.constraint_oods_values]; norm_num) (by intro e; have := hl.constraint_oods_values; rw [e] at this; cases this) r a1 _ (by rw [hlay]; exact hcar)
    refine ⟨hcar, ⟨?_, t2, ?_, ⟨t4, t5⟩, ?_⟩, ?_⟩
    · show Draws _ _ (2 * c.expressions.length) _
      rw [p3]
      exact t1
    · have l1 : (contents proof ls th ch).trace_values.length = 4 := by rw [← hl.trace_oods_values]; exact List.length_map _
      have l2 : (contents proof ls th ch).constraint_values.length = 2 := by rw [← hl.constraint_oods_values]; exact List.length_map _
      rw [l1, l2] at t3
      exact t3
    · refine ⟨u1, ?_⟩
      have e3 : (⟨absorb env.K r.coin.digest [to_be_bytes 8 proof.pow_nonce], 0⟩ : Coin) =
          coin env.K c.channel_seed ((contents proof ls th ch).body ++ [to_be_bytes 8 proof.pow_nonce]) := by
        rw [t6, coin_eq, coin_eq, absorb_append]
      show Q.Perm ((List.range 20).map (queryWord env.K (coin env.K c.channel_seed ((contents proof ls th ch).body ++ [to_be_bytes 8 proof.pow_nonce])) (k + 4)))
      rw [← e3]
      exact u2
    · have := (proof_of_work_iff env.K r.coin proof.pow_nonce 10 (by norm_num)).1 a2
      rw [t6] at this
      exact this
  have hroots : ∃ ls : List Layer, ls.length = c.fri_layout.length ∧ ls.map (·.root) = proof.fri_commitments.take c.fri_layout.length := by
    have h1 := enough_roots env hc s.gas (by have := hs.gas; omega) proof params coin0 r a1
    refine ⟨(proof.fri_commitments.take c.fri_layout.length).map fun r => ⟨r, [], []⟩, by rw [List.length_map, List.length_take]; omega, ?_⟩
    rw [List.map_map]
    exact List.map_id _
  by_cases hreg : Regular k ⟨r.constraint_coefficients.map mont, mont r.oods_point, r.oods_coefficients.map mont, r.eval_points.map mont, Q⟩
  · have hasc : Q.Pairwise (· < ·) := (u1.and hreg.distinct).imp fun h => lt_of_le_of_ne h.1 h.2
    obtain ⟨m1, m2⟩ := (check_commitments_iff env.K s proof params Q (k + 4) (by omega) 20 2 2 q2 q4 q5 (by norm_num) (by norm_num) hl.trace_values hl.constraint_values hs.leaves).1 a4
    obtain ⟨th, th1, th2⟩ := opened_sound env hc s.trace hs.trace _ _ hr.trace_values hl.trace_values Q (k + 4) (by omega) hasc u4 _ ht.trace_decommitment m1
    obtain ⟨ch, ch1, ch2⟩ := opened_sound env hc s.constraint hs.constraint _ _ hr.constraint_values hl.constraint_values Q (k + 4) (by omega) hasc u4 _ ht.constraint_decommitment m2
    have hcl : r.oods_coefficients.length = 6 ∧ r.constraint_coefficients.length = 8 ∧ (∀ v ∈ r.constraint_coefficients, v < MODULUS) ∧ r.eval_points.length = c.fri_layout.length := by
      obtain ⟨ls, e1, e2⟩ := hroots
      obtain ⟨z1, -, -⟩ := htr ls [] [] e1 e2
      obtain ⟨-, -, -, -, -, -, t7, t8, t9, -, t10, -⟩ := transcript env hc s.gas hs.gas proof params coin0 c.channel_seed hseed (by rw [q6]; norm_num)
        (by rw [hl.trace_oods_values, hl.constraint_oods_values]; norm_num) (by intro e; have := hl.constraint_oods_values; rw [e] at this; cases this) r a1 _ (by rw [hlay]; exact z1)
      exact ⟨by rw [t8, hl.trace_oods_values, hl.constraint_oods_values], by rw [t7, q6], t10, by rw [t9, hlay]⟩
    obtain ⟨o1, o2, o3, o4⟩ := hcl
    have hpts : ∀ ls, points.length = Q.length ∧ (∀ v ∈ points, v < MODULUS) ∧ ∀ (i q : Nat), Q[i]? = some q → mont (points.getD i 0) = deep env (gen k) cells (contents proof ls th ch)
        ⟨r.constraint_coefficients.map mont, mont r.oods_point, r.oods_coefficients.map mont, r.eval_points.map mont, Q⟩ (row 2 proof.trace_values i) (row 2 proof.constraint_values i)
        (at_query (k + 4) q) := fun ls =>
      points_deep env hc b _ input Q r.oods_point r.constraint_coefficients r.oods_coefficients k (by omega) rfl points v a3 (contents proof ls th ch) _ hl.trace_oods_values
        hl.constraint_oods_values (by rw [u3]; exact hl.trace_values.symm) (by rw [u3]; exact hl.constraint_values.symm) o1 hr.trace_oods_values hr.constraint_oods_values rfl rfl rfl rfl hreg.apart
    obtain ⟨n1, n2, -⟩ := hpts []
    have hidx : ∀ z q, Q[z]? = some q → Q.idxOf q = z := by
      intro z q hz
      obtain ⟨hlt, rfl⟩ := List.getElem?_eq_some_iff.1 hz
      exact List.Nodup.idxOf_getElem hreg.distinct z hlt
    have hlayout : params.fri_layout = DefaultCs.default_fri_layout k := by
      have h1 := init_layout env.K input
      rw [hi] at h1
      dsimp only at h1
      have h2 : (Utils.num_bits input.index + 1) % 256 = k := by
        have := rows_log input.index hindex
        rw [hn] at this
        exact (Nat.pow_right_injective (le_refl 2) this).symm
      rw [h1, h2]
    obtain ⟨w1, w2, -⟩ := layouts k (by omega)
    rw [← hlayout] at w1 w2
    obtain ⟨ls, f1, f2, f3, f4⟩ := C76_sound env hc _ s.fri (k + 4) hk rfl hs.fri hr.fri_values ht.fri_decommitments hr.last_layer n2 n1 hasc u4 w1 (by dsimp only; omega)
      (fun q => mont (points.getD (Q.idxOf q) 0)) (by
        intro z q v hz hv
        dsimp only at hz hv
        rw [hidx z q hz, List.getD_eq_getElem?_getD, hv, Option.getD_some]) a5
    dsimp only at f1 f2 f3 f4
    rw [hlay] at f1 f2
    have hls : ls.map (·.root) = proof.fri_commitments.take c.fri_layout.length := by
      refine List.ext_getElem? fun t => ?_
      rw [List.getElem?_map, List.getElem?_take]
      split
      · next hlt =>
        obtain ⟨l, hl'⟩ : ∃ l, ls[t]? = some l := ⟨_, List.getElem?_eq_getElem (by omega)⟩
        rw [hl', Option.map_some, (f3 t l hl').1]
      · next hge => rw [List.getElem?_eq_none (by omega), Option.map_none]
    obtain ⟨z1, z2, z3⟩ := htr ls th ch f1 hls
    refine ⟨_, _, z1, z2, z3, fun _ => ?_⟩
    have hgk : g = gen k := by rw [hn, hroot] at hg; exact (Option.some.inj hg).symm
    exact {
      bytes := rfl
      sized := ⟨2, hd, {
        trace_root := ht.trace_commitment
        constraint_root := ht.constraint_commitment
        trace_values := ⟨(List.length_map _).trans hl.trace_oods_values, reduced_words _ hr.trace_oods_values⟩
        constraint_values := ⟨(List.length_map _).trans hl.constraint_oods_values, reduced_words _ hr.constraint_oods_values⟩
        fri := ⟨f1, fun l hl' => by
          obtain ⟨t, ht'⟩ := List.getElem?_of_mem hl'
          obtain ⟨y1, -, y3, y4⟩ := f3 t l ht'
          exact ⟨ht.fri_commitments _ (List.mem_of_getElem? y1), fun u hu => by rw [← modulus_base]; exact y3 u hu, y4⟩⟩
        last_layer := ⟨(List.length_map _).trans hl.last_layer, reduced_words _ hr.last_layer⟩
        nonce := ht.pow_nonce
        trace_rows := ⟨by show ((rowsOf 20 2 _).map _).length = 20; simp [rowsOf], fun r' hr' => by
          obtain ⟨r0, hr0, rfl⟩ := List.mem_map.1 hr'
          have := rowsOf_mem 20 2 _ hl.trace_values r0 hr0
          exact ⟨by rw [List.length_map, this.1]; show 2 = c.trace_ncolumns; rw [p2, q4], reduced_words _ fun v hv => hr.trace_values v (this.2 v hv)⟩⟩
        trace_hashes := th1
        constraint_rows := ⟨by show ((rowsOf 20 2 _).map _).length = 20; simp [rowsOf], fun r' hr' => by
          obtain ⟨r0, hr0, rfl⟩ := List.mem_map.1 hr'
          have := rowsOf_mem 20 2 _ hl.constraint_values r0 hr0
          exact ⟨by rw [List.length_map, this.1]; decide, reduced_words _ fun v hv => hr.constraint_values v (this.2 v hv)⟩⟩
        constraint_hashes := ch1 }⟩
      args_sorted := by decide
      args_all := fun a => by
        show a ∈ cells ↔ ∃ e ∈ c.expressions, Occurs a e
        rw [hes]
        exact cells_occur _ _ _ _ a
      drawn := by
        have l2 : (contents proof ls th ch).constraint_values.length = 2 := by rw [← hl.constraint_oods_values]; exact List.length_map _
        rw [l2]
        exact z2
      worked := z3
      out_of_domain := by
        have hood := C78_calculations_partial env hc env.codec.rep b _ input Q r.oods_point r.constraint_coefficients r.oods_coefficients k rfl (by omega) c hsys hrows hroot
          (contents proof ls th ch) _ rfl rfl rfl hl.trace_oods_values hr.trace_oods_values o2 o3 hv hreg.outside points v a3
        have hsum : mont v = ∑ j ∈ Finset.range (contents proof ls th ch).constraint_values.length,
            env.codec.val ((contents proof ls th ch).constraint_values.getD j ⟨0, 0, 0, 0⟩) * mont r.oods_point ^ j := by
          rw [← a6, oods_sum]
          have l2 : (contents proof ls th ch).constraint_values.length = proof.constraint_oods_values.length := List.length_map _
          rw [l2]
          refine Finset.sum_congr rfl fun j hj => ?_
          have hj' := Finset.mem_range.1 hj
          show _ = env.codec.val ((proof.constraint_oods_values.map word).getD j ⟨0, 0, 0, 0⟩) * _
          rw [List.getD_eq_getElem _ _ hj', List.getD_eq_getElem _ _ (by rw [List.length_map]; exact hj'), List.getElem_map, hc,
            val_word _ (hr.constraint_oods_values _ (List.getElem_mem hj'))]
        exact hood.2 hsum
      trace := th2
      constraint := ch2
      fri := by
        refine ⟨fun q => mont (points.getD (Q.idxOf q) 0), fun q hq => ?_, ?_⟩
        · obtain ⟨z, hz⟩ := List.getElem?_of_mem hq
          have hz20 : z < 20 := by rw [← u3]; exact (List.getElem?_eq_some_iff.1 hz).1
          obtain ⟨row1, g1, g2, g3⟩ := row_word env.codec hc proof.trace_values hr.trace_values hl.trace_values z hz20
          obtain ⟨row2, g4, g5, g6⟩ := row_word env.codec hc proof.constraint_values hr.constraint_values hl.constraint_values z hz20
          obtain ⟨y1, y2⟩ := hreg.apart q hq
          have hat : at_query (k + 4) q = env.generator * gen (k + 4) ^ rev (k + 4) q := by rw [hgen]; rfl
          refine ⟨z, row1, row2, hz, g1, g4, fun a ha => ⟨?_, ?_⟩, ?_, ?_⟩
          · rw [g2]
            simp only [cells, List.mem_cons, List.not_mem_nil, or_false] at ha
            rcases ha with rfl | rfl | rfl | rfl <;> decide
          · rw [← hat]
            exact y1 a ha
          · rw [← hat]
            have l2 : (contents proof ls th ch).constraint_values.length = 2 := by rw [← hl.constraint_oods_values]; exact List.length_map _
            rw [l2]
            exact y2
          · rw [← hat, g3, g6]
            show mont (points.getD (Q.idxOf q) 0) = _
            rw [hidx z q hz]
            exact (hpts ls).2.2 z q hz
        · show FriOk env ((proof.last_layer_coefficients.map word).map env.codec.val) c.fri_layout ls (r.eval_points.map mont) (gen (k + 4)) (k + 4) _ Q
          rw [val_words _ hc _ hr.last_layer, p6]
          rw [List.take_of_length_le (by omega)] at f4
          exact f4 }
  · obtain ⟨ls, e1, e2⟩ := hroots
    obtain ⟨z1, z2, z3⟩ := htr ls [] [] e1 e2
    exact ⟨_, _, z1, z2, z3, fun h => absurd h hreg⟩

end

end EvmVerifier
end Props
end OpenZKP
