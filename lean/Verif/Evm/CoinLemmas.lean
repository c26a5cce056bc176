import Verif.Evm.Coin
import Verif.Evm.FieldLemmas
import Verif.Evm.UtilsLemmas
import Verif.Props.Fri

/-!
# The coin of the contracts: lemmas
-/

namespace OpenZKP
namespace Evm
open Stark Props

section
variable (K : Keccak)

theorem modulus_base : PrimeField.MODULUS = PF.BASE.modulus.toNat := by decide +kernel

theorem to_be_bytes_pad (k j n : Nat) (h : n < 256 ^ k) : to_be_bytes (j + k) n = List.replicate j 0 ++ to_be_bytes k n := by
  induction k generalizing n with
  | zero =>
    have : n = 0 := by simpa using h
    subst this
    simp only [Nat.add_zero, to_be_bytes, List.append_nil]
    induction j with
    | zero => rfl
    | succ j ih => rw [to_be_bytes, Nat.zero_div, ih, List.replicate_succ']; rfl
  | succ k ih =>
    rw [show j + (k + 1) = j + k + 1 by ring, to_be_bytes, to_be_bytes, ih (n / 256) (by rw [pow_succ] at h; omega), List.append_assoc]

theorem bytes32_small (n : Nat) (h : n < 2 ^ 64) : bytes32 n = List.replicate 24 0 ++ to_be_bytes 8 n :=
  to_be_bytes_pad 8 24 n (by norm_num at h ⊢; exact h)

theorem bytes32_toNat (x : U256) : bytes32 x.toNat = U256.to_bytes_be x := by
  obtain ⟨h1, h2⟩ := Props.C06_to_bytes x
  refine U256.beValue_inj (by unfold bytes32; rw [to_be_bytes_length, h1]) ?_
  unfold bytes32
  rw [to_be_bytes_value, h2, Nat.mod_eq_of_lt (by have := U256.toNat_lt x; norm_num at this ⊢; exact this)]

theorem proof_of_work_iff (c : Coin) (nonce bits : Nat) (hb : bits < 256) : (check_proof_of_work K c nonce bits).1 = true ↔
    beValue (K.hash (K.hash ([0x01, 0x23, 0x45, 0x67, 0x89, 0xab, 0xcd, 0xed] ++ c.digest ++ [UInt8.ofNat bits]) ++ to_be_bytes 8 nonce)) < 2 ^ (256 - bits) := by
  have ht : wshr (W - 1) bits = 2 ^ (256 - bits) - 1 := by
    unfold wshr W
    rw [if_pos hb]
    have hsplit : (2 : Nat) ^ 256 = 2 ^ (256 - bits) * 2 ^ bits := by rw [← pow_add]; congr 1; omega
    have hp : 0 < 2 ^ bits := by positivity
    have hq : 0 < 2 ^ (256 - bits) := by positivity
    rw [hsplit]
    generalize 2 ^ bits = a at *
    generalize 2 ^ (256 - bits) = b at *
    have e : b * a - 1 = (b - 1) * a + (a - 1) := by
      obtain ⟨a', rfl⟩ : ∃ a', a = a' + 1 := ⟨a - 1, by omega⟩
      obtain ⟨b', rfl⟩ : ∃ b', b = b' + 1 := ⟨b - 1, by omega⟩
      simp only [Nat.add_sub_cancel]
      rw [show (b' + 1) * (a' + 1) = (b' * (a' + 1) + a') + 1 by ring, Nat.add_sub_cancel]
    rw [e, mul_comm, Nat.mul_add_div hp, Nat.div_eq_of_lt (by omega), Nat.add_zero]
  unfold check_proof_of_work
  dsimp only
  rw [ht, decide_eq_true_iff]
  have hq : 0 < 2 ^ (256 - bits) := by positivity
  unfold uint256
  exact Nat.le_sub_one_iff_lt hq

theorem read_bytes32_eq (c : Coin) (h : c.counter + 1 < 2 ^ 64) :
    uint256 (PublicCoin.read_bytes32 K c).1 = block K c c.counter ∧ (PublicCoin.read_bytes32 K c).2 = ⟨c.digest, c.counter + 1⟩ := by
  unfold PublicCoin.read_bytes32 PublicCoin.publicCoinHash block uint256
  rw [bytes32_small _ (by omega), Nat.mod_eq_of_lt h, List.append_assoc]
  exact ⟨rfl, rfl⟩

theorem and_mask (x : Nat) : x &&& PrimeField.MODULUS_MASK = x % 2 ^ 252 := by
  rw [show PrimeField.MODULUS_MASK = 2 ^ 252 - 1 by decide +kernel, Nat.and_two_pow_sub_one_eq_mod]

theorem read_field_inv (gas : Nat) (c c' : Coin) (v : Nat) (hg : c.counter + gas < 2 ^ 64) (h : PublicCoin.read_field_element K gas c = some (v, c')) :
    ∃ n < gas, c' = ⟨c.digest, c.counter + n + 1⟩ ∧ (∀ j < n, PF.BASE.modulus.toNat ≤ block K c (c.counter + j) % 2 ^ 252) ∧
      v = block K c (c.counter + n) % 2 ^ 252 ∧ v < PF.BASE.modulus.toNat := by
  induction gas generalizing c with
  | zero => cases h
  | succ gas ih =>
    obtain ⟨h1, h2⟩ := read_bytes32_eq K c (by omega)
    rw [PublicCoin.read_field_element] at h
    rw [h1, h2, and_mask, modulus_base] at h
    split at h
    · next hle =>
      obtain ⟨n, a1, a2, a3, a4, a5⟩ := ih ⟨c.digest, c.counter + 1⟩ (by dsimp only; omega) h
      have e : ∀ k, block K ⟨c.digest, c.counter + 1⟩ k = block K c k := fun _ => rfl
      dsimp only at a2 a3 a4
      refine ⟨n + 1, by omega, ?_, ?_, ?_, a5⟩
      · rw [a2]
        congr 1
        omega
      · intro j hj
        cases j with
        | zero => exact hle
        | succ j =>
          have := a3 j (by omega)
          rwa [e, show c.counter + 1 + j = c.counter + (j + 1) by ring] at this
      · rw [a4, e, show c.counter + 1 + n = c.counter + (n + 1) by ring]
    · next hlt =>
      cases h
      exact ⟨0, by omega, rfl, by simp, rfl, not_le.1 hlt⟩

theorem read_field_spec (gas n : Nat) (c : Coin) (hg : c.counter + n + 1 < 2 ^ 64) (hn : n < gas)
    (hrej : ∀ j < n, PF.BASE.modulus.toNat ≤ block K c (c.counter + j) % 2 ^ 252) (hacc : block K c (c.counter + n) % 2 ^ 252 < PF.BASE.modulus.toNat) :
    PublicCoin.read_field_element K gas c = some (block K c (c.counter + n) % 2 ^ 252, ⟨c.digest, c.counter + n + 1⟩) := by
  induction n generalizing c gas with
  | zero =>
    obtain ⟨g, rfl⟩ : ∃ g, gas = g + 1 := ⟨gas - 1, by omega⟩
    obtain ⟨h1, h2⟩ := read_bytes32_eq K c (by omega)
    rw [PublicCoin.read_field_element]
    rw [h1, h2, and_mask, modulus_base, if_neg (by simpa using hacc)]
    rfl
  | succ n ih =>
    obtain ⟨g, rfl⟩ : ∃ g, gas = g + 1 := ⟨gas - 1, by omega⟩
    obtain ⟨h1, h2⟩ := read_bytes32_eq K c (by omega)
    have e : ∀ k, block K ⟨c.digest, c.counter + 1⟩ k = block K c k := fun _ => rfl
    rw [PublicCoin.read_field_element]
    rw [h1, h2, and_mask, modulus_base, if_pos (by simpa using hrej 0 (by omega)), ih g ⟨c.digest, c.counter + 1⟩ (by dsimp only; omega) (by omega)
      (fun j hj => by dsimp only; rw [e, show c.counter + 1 + j = c.counter + (j + 1) by ring]; exact hrej (j + 1) (by omega))
      (by dsimp only; rw [e, show c.counter + 1 + n = c.counter + (n + 1) by ring]; exact hacc)]
    dsimp only
    rw [e, show c.counter + 1 + n = c.counter + (n + 1) by ring]

/-- the on-chain draw is the draw in Rust -/
theorem read_field_rust (gas : Nat) (c c' : Coin) (v : Nat) (hg : c.counter + gas < 2 ^ 64) (h : PublicCoin.read_field_element K gas c = some (v, c')) :
    ∃ x, Stark.PublicCoin.randomField K c = some (x, c') ∧ x.toNat = v ∧ c'.counter ≤ c.counter + gas ∧ v < PF.BASE.modulus.toNat := by
  obtain ⟨n, hn, rfl, h1, h2, h3⟩ := read_field_inv K gas c c' v hg h
  obtain ⟨x, e1, e2⟩ := randomFieldLoop_spec K (2 ^ 64) c n (by omega) (by omega) h1 (h2 ▸ h3)
  exact ⟨x, e1, by rw [e2, h2], by dsimp only; omega, h3⟩

/-- and conversely, if there is gas -/
theorem rust_read_field (gas : Nat) (c c' : Coin) (x : U256) (h : Stark.PublicCoin.randomField K c = some (x, c')) (hg : c'.counter ≤ c.counter + gas) :
    PublicCoin.read_field_element K gas c = some (x.toNat, c') := by
  obtain ⟨n, _, h2, h3, h4, h5, h6, h7⟩ := randomFieldLoop_inv K _ _ _ _ h
  have e : c' = ⟨c.digest, c.counter + n + 1⟩ := by
    cases c'
    simp only at h2 h4
    rw [h2, h4]
  rw [read_field_spec K gas n c (by omega) (by omega) h5 (h6 ▸ h7), h6, e]

theorem read_many_rust (gas n : Nat) (c c' : Coin) (vs : List Nat) (hg : c.counter + n * gas < 2 ^ 64)
    (h : PublicCoin.read_many_field_elements K gas n c = some (vs, c')) :
    ∃ xs, Stark.PublicCoin.randomFields K n c = some (xs, c') ∧ xs.map U256.toNat = vs ∧ c'.counter ≤ c.counter + n * gas ∧ ∀ v ∈ vs, v < PF.BASE.modulus.toNat := by
  induction n generalizing c vs with
  | zero =>
    cases h
    exact ⟨[], rfl, rfl, by omega, by simp⟩
  | succ n ih =>
    rw [PublicCoin.read_many_field_elements] at h
    cases h1 : PublicCoin.read_field_element K gas c with
    | none => rw [h1] at h; cases h
    | some r =>
      rw [h1, Option.bind_some] at h
      cases h2 : PublicCoin.read_many_field_elements K gas n r.2 with
      | none => rw [h2] at h; cases h
      | some rs =>
        rw [h2] at h
        cases h
        have hm : (n + 1) * gas = n * gas + gas := by ring
        obtain ⟨x, e1, e2, e3, e4⟩ := read_field_rust K gas c r.2 r.1 (by omega) h1
        obtain ⟨xs, f1, f2, f3, f4⟩ := ih r.2 rs.1 (by omega) h2
        refine ⟨x :: xs, ?_, by rw [List.map_cons, e2, f2], by omega, ?_⟩
        · rw [Stark.PublicCoin.randomFields, e1, Option.bind_some, f1]
          rfl
        · intro v hv
          rcases List.mem_cons.1 hv with rfl | hv
          · exact e4
          · exact f4 v hv

theorem rust_read_many (gas n : Nat) (c c' : Coin) (xs : List U256) (h : Stark.PublicCoin.randomFields K n c = some (xs, c')) (hg : c'.counter ≤ c.counter + gas) :
    PublicCoin.read_many_field_elements K gas n c = some (xs.map U256.toNat, c') ∧ c.counter ≤ c'.counter := by
  induction n generalizing c xs with
  | zero =>
    cases h
    exact ⟨rfl, le_refl _⟩
  | succ n ih =>
    rw [Stark.PublicCoin.randomFields] at h
    cases h1 : Stark.PublicCoin.randomField K c with
    | none => rw [h1] at h; cases h
    | some r =>
      rw [h1, Option.bind_some] at h
      cases h2 : Stark.PublicCoin.randomFields K n r.2 with
      | none => rw [h2] at h; cases h
      | some rs =>
        rw [h2] at h
        cases h
        obtain ⟨m, hm, -⟩ := C35_first_candidate K c r.2 r.1 h1
        obtain ⟨e1, e2⟩ := ih r.2 rs.1 h2 (by omega)
        refine ⟨?_, by omega⟩
        rw [PublicCoin.read_many_field_elements, rust_read_field K gas c r.2 r.1 h1 (by omega), Option.bind_some, e1]
        rfl

/-! ### queries -/

/-- the `t`-th word of 64 bits of a block, from the most significant on -/
theorem shifted_word (b t : Nat) (hb : b < 2 ^ 256) (ht : t < 4) : (b * 2 ^ (64 * t)) % W / 2 ^ 192 = b / 2 ^ (64 * (3 - t)) % 2 ^ 64 := by
  unfold W
  obtain rfl | rfl | rfl | rfl : t = 0 ∨ t = 1 ∨ t = 2 ∨ t = 3 := by omega
  all_goals norm_num at hb ⊢
  all_goals omega

theorem wshl_word (b t : Nat) : wshl (b * 2 ^ (64 * t) % W) 64 = b * 2 ^ (64 * (t + 1)) % W := by
  unfold wshl
  rw [if_pos (by norm_num), Nat.mod_mul_mod, mul_assoc, ← pow_add]
  rfl

/-- the array after `n` queries -/
def filled (num n : Nat) (f : Nat → Nat) : List Nat := (List.range num).map fun k => if k < n then f k else 0

theorem filled_set (num n : Nat) (f : Nat → Nat) (h : n < num) : (filled num n f).set n (f n) = filled num (n + 1) f := by
  apply List.ext_getElem?
  intro k
  unfold filled
  rw [List.getElem?_set, List.getElem?_map, List.getElem?_map]
  by_cases hk : n = k
  · subst hk
    rw [if_pos rfl, if_pos (by simpa using h), List.getElem?_range h]
    simp
  · rw [if_neg hk]
    by_cases hkn : k < num
    · rw [List.getElem?_range hkn]
      simp only [Option.map_some, Option.some.injEq]
      by_cases hlt : k < n
      · rw [if_pos hlt, if_pos (by omega)]
      · rw [if_neg hlt, if_neg (by omega)]
    · rw [List.getElem?_eq_none (by simpa using hkn)]
      rfl

theorem mask_and (x bits : Nat) (h : bits ≤ 64) : x % 2 ^ 64 &&& wsub (wexp 2 bits) 1 = x % 2 ^ bits := by
  have h1 : 2 ^ bits ≤ 2 ^ 64 := Nat.pow_le_pow_right (by norm_num) h
  have hw : wexp 2 bits = 2 ^ bits := Nat.mod_eq_of_lt (lt_of_le_of_lt h1 (by unfold W; norm_num))
  have hs : wsub (2 ^ bits) 1 = 2 ^ bits - 1 := PrimeField.wsub_le _ _ (lt_of_le_of_lt h1 (by unfold W; norm_num)) Nat.one_le_two_pow
  rw [hw, hs, Nat.and_two_pow_sub_one_eq_mod, Nat.mod_mod_of_dvd _ (pow_dvd_pow 2 h)]

theorem block_lt (c : Coin) (n : Nat) : block K c n < 2 ^ 256 := by
  obtain ⟨x, _, e2⟩ := U256.from_bytes_be_eq _ (K.len (c.digest ++ List.replicate 24 0 ++ to_be_bytes 8 n))
  unfold block
  rw [← e2]
  exact U256.toNat_lt x

theorem queryStep_spec (c : Coin) (num bits i t : Nat) (hb : bits ≤ 64) (ht : t ≤ 4) :
    (List.range t).foldl (queryStep num (wsub (wexp 2 bits) 1) i) (block K c (c.counter + i), filled num (4 * i) (queryWord K c bits)) =
      (block K c (c.counter + i) * 2 ^ (64 * (min (4 * i + t) num - 4 * i)) % W, filled num (min (4 * i + t) num) (queryWord K c bits)) ∨ num < 4 * i := by
  by_cases hnum : num < 4 * i
  · exact Or.inr hnum
  left
  have hlt := block_lt K c (c.counter + i)
  induction t with
  | zero =>
    rw [List.range_zero, List.foldl_nil, Nat.min_eq_left (by omega), Nat.add_zero, Nat.sub_self, Nat.mul_zero, pow_zero, mul_one, Nat.mod_eq_of_lt (by unfold W; exact hlt)]
  | succ t ih =>
    rw [List.range_succ, List.foldl_append, ih (by omega), List.foldl_cons, List.foldl_nil, queryStep]
    by_cases h : 4 * i + t < num
    · rw [if_pos h, Nat.min_eq_left h.le, Nat.min_eq_left (show 4 * i + (t + 1) ≤ num by omega), Nat.add_sub_cancel_left, Nat.add_sub_cancel_left]
      dsimp only
      rw [wshl_word, shifted_word _ t hlt (by omega), mask_and _ bits hb]
      have e : block K c (c.counter + i) / 2 ^ (64 * (3 - t)) % 2 ^ bits = queryWord K c bits (4 * i + t) := by
        unfold queryWord
        rw [show (4 * i + t) / 4 = i by omega, show (4 * i + t) % 4 = t by omega]
      rw [e, filled_set num (4 * i + t) _ h]
      rfl
    · rw [if_neg h, Nat.min_eq_right (by omega), Nat.min_eq_right (by omega)]

theorem queries_fold (c : Coin) (num bits n : Nat) (hb : bits ≤ 64) (hn : n ≤ num / 4 + 1) (hc : c.counter + n < 2 ^ 64) :
    (List.range n).foldl (queryBlock K num (wsub (wexp 2 bits) 1)) (List.replicate num 0, c) =
      (filled num (min (4 * n) num) (queryWord K c bits), ⟨c.digest, c.counter + n⟩) := by
  induction n with
  | zero =>
    rw [List.range_zero, List.foldl_nil, Nat.mul_zero, Nat.zero_min]
    refine Prod.ext ?_ rfl
    unfold filled
    simp only [Nat.not_lt_zero, if_false]
    apply List.ext_getElem?
    intro k
    rw [List.getElem?_map, List.getElem?_replicate]
    by_cases hk : k < num
    · rw [if_pos hk, List.getElem?_range hk]; rfl
    · rw [if_neg hk, List.getElem?_eq_none (by simpa using hk)]; rfl
  | succ n ih =>
    rw [List.range_succ, List.foldl_append, ih (by omega) (by omega), List.foldl_cons, List.foldl_nil, queryBlock]
    obtain ⟨h1, h2⟩ := read_bytes32_eq K ⟨c.digest, c.counter + n⟩ (by dsimp only; omega)
    dsimp only at h1 h2 ⊢
    rw [h1, h2, Nat.min_eq_left (show 4 * n ≤ num by omega)]
    have e : block K ⟨c.digest, c.counter + n⟩ (c.counter + n) = block K c (c.counter + n) := rfl
    rw [e]
    rcases queryStep_spec K c num bits n 4 hb (le_refl _) with h | h
    · rw [h]
      rfl
    · omega

theorem get_queries_eq (c : Coin) (num bits : Nat) (hb : bits ≤ 64) (hc : c.counter + num / 4 + 1 < 2 ^ 64) :
    get_queries K c bits num = (((List.range num).map (queryWord K c bits)).insertionSort (· ≤ ·), ⟨c.digest, c.counter + num / 4 + 1⟩) := by
  unfold get_queries
  dsimp only
  rw [queries_fold K c num bits (num / 4 + 1) hb (le_refl _) (by omega), Utils.sort_eq]
  refine Prod.ext ?_ rfl
  dsimp only
  congr 1
  unfold filled
  refine List.map_congr_left fun k hk => ?_
  rw [List.mem_range] at hk
  rw [if_pos (by omega)]

end

end Evm
end OpenZKP
