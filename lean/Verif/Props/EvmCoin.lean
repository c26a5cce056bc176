import Verif.Evm.CoinLemmas

/-!
# The contracts: C74 (the coin, the proof of work and the queries agree with those of the prover)
-/

namespace OpenZKP
namespace Props
namespace EvmCoin
open Evm Stark

section
variable (K : Keccak)

/-- C74: writing hashes, field elements (as words of 32 bytes), a layer and a nonce leads to the same state of the coin as in Rust, whatever was written before. -/
theorem C74_write (c : PublicCoin) (p : Bytes) (h : Bytes) (hs : List Bytes) (xs : List U256) (nonce : Nat) (seed : Bytes) :
    Evm.PublicCoin.write_bytes32 K c h = (ProverChannel.writeHash K ⟨c, p⟩ h).coin ∧
    Evm.PublicCoin.write_many_bytes32 K c hs = (ProverChannel.writeHashes K ⟨c, p⟩ hs).coin ∧
    Evm.PublicCoin.write_many_field_elements K c (xs.map U256.toNat) = (ProverChannel.writeU256s K ⟨c, p⟩ xs).coin ∧
    Evm.PublicCoin.write_layer K c (xs.map U256.toNat) = (ProverChannel.writeLayer K ⟨c, p⟩ xs).coin ∧
    Evm.PublicCoin.write_bytes8 K c nonce = (ProverChannel.writeResponse K ⟨c, p⟩ nonce).coin ∧
    Evm.PublicCoin.init_coin K seed = (ProverChannel.init K seed).coin := by
  refine ⟨rfl, ?_, ?_, ?_, rfl, rfl⟩
  · unfold Evm.PublicCoin.write_many_bytes32 ProverChannel.writeHashes
    induction hs generalizing c p with
    | nil => rfl
    | cons a hs ih => exact ih _ _
  · unfold Evm.PublicCoin.write_many_field_elements ProverChannel.writeU256s
    induction xs generalizing c p with
    | nil => rfl
    | cons a xs ih =>
      rw [List.map_cons, List.foldl_cons, List.foldl_cons, bytes32_toNat]
      exact ih _ _
  · unfold Evm.PublicCoin.write_layer ProverChannel.writeLayer
    rw [List.flatMap_map, show (fun x : U256 => bytes32 x.toNat) = U256.to_bytes_be from funext bytes32_toNat]
    rfl

/-- C74: the random bytes are the same, as long as the 64-bit counter does not overflow. -/
theorem C74_read_bytes (c : PublicCoin) (h : c.counter + 1 < 2 ^ 64) : PublicCoin.randomBytes K c = some (Evm.PublicCoin.read_bytes32 K c) := by
  unfold Stark.PublicCoin.randomBytes Stark.PublicCoin.bump Evm.PublicCoin.read_bytes32 Evm.PublicCoin.publicCoinHash
  rw [if_pos h, Nat.mod_eq_of_lt h, bytes32_small _ (by omega), List.append_assoc]
  rfl

/-- C74: if the contract draws field elements (its gas suffices), then the prover draws the same (the words are the Montgomery representations) and the states of the coins
agree afterwards; -/
theorem C74_read_fields (gas n : Nat) (c c' : PublicCoin) (vs : List Nat) (hg : c.counter + n * gas < 2 ^ 64)
    (h : Evm.PublicCoin.read_many_field_elements K gas n c = some (vs, c')) :
    ∃ xs, PublicCoin.randomFields K n c = some (xs, c') ∧ xs.map U256.toNat = vs := by
  obtain ⟨xs, h1, h2, -⟩ := read_many_rust K gas n c c' vs hg h
  exact ⟨xs, h1, h2⟩

/-- C74: and conversely, if the contract has the gas for as many attempts as the prover made. -/
theorem C74_read_fields_conversely (gas n : Nat) (c c' : PublicCoin) (xs : List U256) (h : PublicCoin.randomFields K n c = some (xs, c'))
    (hg : c'.counter - c.counter ≤ gas) : Evm.PublicCoin.read_many_field_elements K gas n c = some (xs.map U256.toNat, c') :=
  (rust_read_many K gas n c c' xs h (by omega)).1

/-- C74: the contract accepts a proof of work exactly if the verifier in Rust does, and hashes the nonce into the coin in the same way; both mean a hash below
`2^(256 - difficulty)`. -/
theorem C74_proof_of_work (c : PublicCoin) (p : Bytes) (nonce bits : Nat) (hb : bits < 256) :
    ∃ challenge, with_difficulty K c.digest bits = some challenge ∧
      ((check_proof_of_work K c nonce bits).1 = true ↔ challenge.verify K nonce = true) ∧
      ((check_proof_of_work K c nonce bits).1 = true ↔
        beValue (K.hash (K.hash ([0x01, 0x23, 0x45, 0x67, 0x89, 0xab, 0xcd, 0xed] ++ c.digest ++ [UInt8.ofNat bits]) ++ to_be_bytes 8 nonce)) < 2 ^ (256 - bits)) ∧
      (check_proof_of_work K c nonce bits).2 = (ProverChannel.writeResponse K ⟨c, p⟩ nonce).coin := by
  have e : (check_proof_of_work K c nonce bits).1 = true ↔
      beValue (K.hash (K.hash ([0x01, 0x23, 0x45, 0x67, 0x89, 0xab, 0xcd, 0xed] ++ c.digest ++ [UInt8.ofNat bits]) ++ to_be_bytes 8 nonce)) < 2 ^ (256 - bits) :=
    proof_of_work_iff K c nonce bits hb
  refine ⟨_, if_pos hb, ?_, e, rfl⟩
  rw [C36_verify K _ hb.le nonce]
  exact e

/-- C74: the queries of the contract are those of the verifier in Rust: the words of the coin, reduced to the domain of `2^bits` points, in ascending order (with
repetitions). -/
theorem C74_queries (num bits : Nat) (dbg : Bool) (hb : bits < 64) (vc : VerifierChannel) (hc : vc.coin.counter + num / 4 + 1 < 2 ^ 64) :
    ∃ c', vc.get_indices K dbg num bits = some ((get_queries K vc.coin bits num).1, c') ∧
      (get_queries K vc.coin bits num).1.Perm ((List.range num).map (queryWord K vc.coin bits)) ∧ (get_queries K vc.coin bits num).1.Pairwise (· ≤ ·) := by
  have hq := get_queries_eq K vc.coin num bits (by omega) hc
  obtain ⟨l, coin, -, h2, -, h4, -, h6, -⟩ := C40_indices K dbg num bits hb ⟨vc.coin, []⟩ vc rfl (by dsimp only; omega)
  have hp : (get_queries K vc.coin bits num).1.Perm ((List.range num).map (queryWord K vc.coin bits)) := by
    rw [hq]; exact List.perm_insertionSort _ _
  have hs : (get_queries K vc.coin bits num).1.Pairwise (· ≤ ·) := by
    rw [hq]; exact List.pairwise_insertionSort _ _
  have e : l = (get_queries K vc.coin bits num).1 :=
    List.Perm.eq_of_pairwise (fun a b _ _ hab hba => le_antisymm hab hba) h4 hs (h6.trans hp.symm)
  exact ⟨_, e ▸ h2, hp, hs⟩

/-- C74 is violated: reading several blocks of bytes at once moves the coin but returns nothing; and if the number of queries is a multiple of four the contract
reads one block more than the verifier in Rust. -/
theorem C74_violated :
    (∀ n c, (Evm.PublicCoin.read_many_bytes32 K n c).1 = []) ∧
    (∃ vc : VerifierChannel, ∃ l c', vc.get_indices K true 4 10 = some (l, c') ∧ (get_queries K vc.coin 10 4).2 ≠ c'.coin) := by
  refine ⟨fun _ _ => rfl, ⟨PublicCoin.default, [], 0⟩, ?_⟩
  obtain ⟨l, coin, -, h2, -, -, -, -, h7⟩ := C40_indices K true 4 10 (by norm_num) ⟨PublicCoin.default, []⟩ ⟨PublicCoin.default, [], 0⟩ rfl (by decide)
  refine ⟨l, _, h2, ?_⟩
  rw [get_queries_eq K _ 4 10 (by norm_num) (by decide)]
  dsimp only
  rw [h7]
  simp [PublicCoin.default]

end

-- concrete cases (with the toy hash function of C34): five queries, as the example of C40; a draw; a proof of work of 8 bits
example : (get_queries toyKeccak (ProverChannel.init toyKeccak [1, 2]).coin 10 5).1 = [0, 0, 0, 0, 64] := by decide +kernel
example : Evm.PublicCoin.read_many_field_elements toyKeccak 3 2 (ProverChannel.init toyKeccak [1, 2]).coin = some ([64, 64], ⟨(ProverChannel.init toyKeccak [1, 2]).coin.digest, 2⟩) := by
  decide +kernel
example : (check_proof_of_work toyKeccak (ProverChannel.init toyKeccak [1, 2]).coin 7 8).1 = true := by decide +kernel

end EvmCoin
end Props
end OpenZKP
