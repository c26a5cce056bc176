import Verif.Props.EvmVerifierRuns
import Verif.Props.EvmVerifierComplete

/-!
# C79 on a concrete proof, in both directions
-/

namespace OpenZKP
namespace Props
namespace EvmVerifier
namespace Example
open Evm Evm.StarkVerifier Stark Stark.Accept PrimeField EvmDefaultCs EvmRecurrence

/-- the system of the true claim -/
noncomputable def system : Constraints Z := ⟨Examples.Recurrence.seed env.codec.rep trueInput.index (mont trueInput.value) 2, 2 ^ 2, 2,
  Examples.Recurrence.expressions (gen 2) (2 ^ 2) trueInput.index (mont trueInput.value) 2, 16, 0, 45, default_fri_layout (2 ^ 2), []⟩

theorem root4 : env.root (2 ^ 2) = some (gen 2) := fieldRoot_ok.2 2 (by norm_num)

theorem system_eq : Examples.Recurrence.constraints env.root env.codec.rep trueInput.index (mont trueInput.value) 2 = some system := by
  have h4 : Merkle.next_power_of_two (trueInput.index + 1) = 2 ^ 2 := by decide +kernel
  unfold Examples.Recurrence.constraints
  rw [h4]
  dsimp only
  rw [root4, Option.bind_some]
  unfold Examples.system Constraints.from_expressions
  rw [root4]
  rfl

theorem value_lt : trueInput.value < MODULUS := by decide +kernel

theorem genuine_lengths : RightLengths genuine 20 2 4 2 (2 ^ (2 + 4) / 2 ^ system.fri_layout.sum / 2 ^ 4) :=
  ⟨by decide +kernel, by decide +kernel, by decide +kernel, by decide +kernel, by decide +kernel⟩

theorem genuine_some : verify_proof env.K surroundings genuine (recurrence env.K (fun _ => some trueInput) nothing) ≠ none := by
  have h := genuine_accepted
  unfold env
  dsimp only
  rw [h]
  exact Option.some_ne_none _

/-- the digest of the seed -/
def seedDigest : Bytes := toyKeccak.hash (to_be_bytes 8 trueInput.index ++ bytes32 trueInput.value ++ to_be_bytes 8 2)

theorem seed_eq (e : Env Z) (hc : e.codec = montgomery) (input : Recurrence.PublicInput) (hv : input.value < MODULUS) (hi : input.index < 2 ^ 63) (c : Constraints Z)
    (h : Examples.Recurrence.constraints e.root e.codec.rep input.index (mont input.value) 2 = some c) :
    e.K.hash c.channel_seed = e.K.hash (to_be_bytes 8 input.index ++ bytes32 input.value ++ to_be_bytes 8 2) := by
  have hrep : (e.codec.rep (mont input.value)).toNat = input.value := by
    rw [hc, rep_mont _ hv]
    exact toNat_word _ (lt_trans hv modulus_word)
  have h := (C78_parameters_partial e.K e.root e.codec.rep input.index hi (mont input.value) c h).2.2.2.2.2.2
  rw [hrep] at h
  exact (congrArg Stark.PublicCoin.digest h).symm

theorem seed_digest : env.K.hash system.channel_seed = seedDigest := seed_eq env rfl trueInput value_lt (by decide) system system_eq

/-- the blocks before the queries -/
def blocks : List Bytes := [genuine.trace_commitment, genuine.constraint_commitment] ++ genuine.trace_oods_values.map bytes32 ++ genuine.constraint_oods_values.map bytes32 ++
  genuine.fri_commitments.take 1 ++ [genuine.last_layer_coefficients.flatMap bytes32] ++ [to_be_bytes 8 genuine.pow_nonce]

/-- the out-of-domain point, as a word -/
def point : Nat := ((Stark.PublicCoin.randomFields toyKeccak 1 ⟨absorb toyKeccak seedDigest [genuine.trace_commitment, genuine.constraint_commitment], 0⟩).map fun r =>
  r.1.map U256.toNat).getD [] |>.getD 0 0

/-- the queries -/
def queries : List Nat := [0, 3, 6, 9, 10, 11, 13, 17, 19, 27, 28, 36, 37, 48, 50, 55, 60, 61, 62, 63]

theorem drawn_point (us : List U256) (c' : Coin)
    (h : Stark.PublicCoin.randomFields toyKeccak 1 ⟨absorb toyKeccak seedDigest [genuine.trace_commitment, genuine.constraint_commitment], 0⟩ = some (us, c')) :
    us.map U256.toNat = [point] := by
  have h1 : us.length = 1 := (randomFields_props _ _ _ _ _ h).1
  obtain ⟨u, rfl⟩ := List.length_eq_one_iff.1 h1
  unfold point
  rw [h]
  rfl

theorem drawn_queries : List.Perm ((List.range 20).map (queryWord toyKeccak ⟨absorb toyKeccak seedDigest blocks, 0⟩ 6)) queries := by decide +kernel

theorem point_powers : point ^ 4 % MODULUS ≠ 1 * (2 ^ 256) ^ 4 % MODULUS ∧ point ^ 64 % MODULUS ≠ 3 ^ 64 * (2 ^ 256) ^ 64 % MODULUS ∧
    point ^ 128 % MODULUS ≠ 3 ^ 64 * (2 ^ 256) ^ 128 % MODULUS := by decide +kernel

theorem mont_pow (v n c : Nat) (h : mont v ^ n = (c : Z)) : v ^ n % MODULUS = c * (2 ^ 256) ^ n % MODULUS := by
  refine (ZMod.natCast_eq_natCast_iff' _ _ _).1 ?_
  rw [Nat.cast_pow, Nat.cast_mul, ← h, Nat.cast_pow, Nat.cast_pow, ← mul_pow]
  unfold mont
  rw [mul_assoc]
  have e : ((2 : Z) ^ 256)⁻¹ * ((2 : Nat) : Z) ^ 256 = 1 := inv_mul_cancel₀ r_ne
  rw [e, mul_one]

theorem point_outside : mont point ^ 2 ^ 2 ≠ 1 := fun e => point_powers.1 (mont_pow point 4 1 (by rw [Nat.cast_one]; exact e))

theorem point_64 : mont point ^ 64 ≠ 3 ^ 64 := fun e => point_powers.2.1 (mont_pow point 64 (3 ^ 64) (by rw [Nat.cast_pow]; exact e))

theorem point_128 : mont point ^ 128 ≠ 3 ^ 64 := fun e => point_powers.2.2 (mont_pow point 128 (3 ^ 64) (by rw [Nat.cast_pow]; exact e))

theorem at_query_pow (q : Nat) : at_query (2 + 4) q ^ 64 = 3 ^ 64 := by
  have h := (gen_eq 6 (by norm_num)).2
  unfold at_query
  rw [mul_pow, ← pow_mul, mul_comm (FFT.rev _ _), pow_mul, show (64 : Nat) = 2 ^ 6 from rfl, h, one_pow, mul_one]

theorem genuine_regular (x : Challenges Z) (h1 : x.point = mont point) (h2 : x.queries = queries) : Regular 2 x where
  distinct := by rw [h2]; decide
  outside := by rw [h1]; exact point_outside
  apart q _ := by
    rw [h1]
    constructor
    · intro a _ e
      have := congrArg (fun y => y ^ 64) e
      beta_reduce at this
      have hg : (gen 2 ^ a.2) ^ 64 = 1 := by
        have h4 : gen 2 ^ 64 = 1 := by
          have := (gen_eq 2 (by norm_num)).2
          rw [show (64 : Nat) = 2 ^ 2 * 16 from rfl, pow_mul, this, one_pow]
        rw [← zpow_natCast, ← zpow_mul, mul_comm, zpow_mul, zpow_natCast, h4, one_zpow]
      rw [at_query_pow, mul_pow, hg, one_mul] at this
      exact point_64 this.symm
    · intro e
      have := congrArg (fun y => y ^ 64) e
      beta_reduce at this
      rw [at_query_pow, ← pow_mul] at this
      exact point_128 this.symm

/-- the arrays of the parts of a proof -/
def encoding (P : Contents) : StarkProof := ⟨[], P.trace_rows.flatten.map U256.toNat, P.trace_root, P.constraint_rows.flatten.map U256.toNat, P.constraint_root, P.trace_values.map U256.toNat,
  P.constraint_values.map U256.toNat, P.nonce, P.trace_hashes, P.constraint_hashes, P.fri.map (·.values.map U256.toNat), P.fri.map (·.root), P.fri.map (·.hashes), P.last_layer.map U256.toNat⟩

-- the genuine proof is one the protocol accepts, with regular challenges; and so the hypotheses of `C79_complete_partial` can be met: with enough gas the arrays of the parts are accepted
example : ∃ P x, Accepts env (contractSystem system) 2 4 (gen 6) (gen 2) P.bytes cells P x ∧ Regular 2 x ∧ Encodes (encoding P) P ∧
    ∃ G, ∀ s : Surroundings, G ≤ s.gas → 64 * 20 ≤ s.trace.gas → 64 * 20 ≤ s.constraint.gas → (∀ t, 64 * 20 ≤ (s.fri t).gas) → s.leaves.length = 20 →
      verify_proof env.K s (encoding P) (recurrence env.K (fun _ => some trueInput) nothing) = some false := by
  obtain ⟨P, x, h1, h2, -, h4⟩ := C79_accepts_partial env rfl rfl (fun _ => some trueInput) nothing surroundings genuine trueInput rfl value_lt 2 (by norm_num) system system_eq rfl root4
    surroundings_ok genuine_typed genuine_reduced genuine_lengths genuine_some
  have hp : x.point = mont point := by
    obtain ⟨us, c', e1, e2⟩ := h2.point
    rw [coin_eq] at e1
    have hd : env.K.hash (contractSystem system).channel_seed = seedDigest := seed_digest
    rw [hd, h1.trace_root, h1.constraint_root] at e1
    have := drawn_point us c' e1
    obtain ⟨u, rfl⟩ := List.length_eq_one_iff.1 (by simpa using (congrArg List.length e2).symm)
    rw [List.map_cons, List.map_nil, List.cons.injEq] at e2 this
    rw [e2.1, ← this.1]
    rfl
  have hq : x.queries = queries := by
    obtain ⟨e1, e2⟩ := h2.queries
    refine List.Perm.eq_of_pairwise (fun a b _ _ hab hba => le_antisymm hab hba) e1 (by decide) (e2.trans ?_)
    have hb : P.body ++ [to_be_bytes 8 P.nonce] = blocks := by
      unfold Contents.body Contents.head blocks
      have hl : system.fri_layout.length = 1 := by decide +kernel
      rw [h1.trace_root, h1.constraint_root, h1.fri.2, hl, h1.nonce, ← h1.trace_values, ← h1.constraint_values, bytes32_map, bytes32_map, ← h1.last_layer, words_map]
    rw [coin_eq, hb]
    have hd : env.K.hash (contractSystem system).channel_seed = seedDigest := seed_digest
    rw [hd]
    exact drawn_queries
  have hr := genuine_regular x hp hq
  have hacc := h4 hr
  have henc : Encodes (encoding P) P := ⟨rfl, rfl, rfl, rfl, rfl, rfl, rfl, rfl, rfl, rfl, rfl, rfl, rfl⟩
  obtain ⟨G, hG⟩ := C79_complete_partial env rfl rfl trueInput value_lt 2 (by norm_num) (by norm_num) system system_eq rfl root4 P.bytes P x hacc hr.distinct hr.outside (by
    rw [hq]
    have : system.fri_layout.sum = 2 := by decide +kernel
    rw [this]
    exact ⟨0, by decide, 63, by decide, by decide⟩) (encoding P) henc
  exact ⟨P, x, hacc, hr, henc, G, fun s => hG (fun _ => some trueInput) nothing s rfl⟩

end Example
end EvmVerifier
end Props
end OpenZKP
