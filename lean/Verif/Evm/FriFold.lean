import Verif.Evm.Fri
import Verif.Props.EvmField
import Verif.Props.EvmUtils
import Verif.Props.EvmMerkle
import Verif.Stark.AcceptSpec

/-!
# FRI in the contracts: folding a coset
-/

namespace OpenZKP
namespace Evm
namespace Fri
open PrimeField MerkleVerifier Stark Stark.Accept FFT

/-- the primitive root of unity of order `2^n`, for `n ≤ 3` -/
def zeta (n : Nat) : Z := ((OROOT1 : Nat) : Z) ^ 2 ^ (3 - n)

theorem oroot_pow (a b : Nat) (e : Nat) (h : a = b ^ e % MODULUS) : ((a : Nat) : Z) = ((b : Nat) : Z) ^ e := by
  rw [h, ZMod.natCast_mod, Nat.cast_pow]

theorem oroot2 : ((OROOT2 : Nat) : Z) = ((OROOT1 : Nat) : Z) ^ 2 := oroot_pow _ _ _ (by decide +kernel)
theorem oroot3 : ((OROOT3 : Nat) : Z) = ((OROOT1 : Nat) : Z) ^ 3 := oroot_pow _ _ _ (by decide +kernel)
theorem oroot4 : ((OROOT4 : Nat) : Z) = ((OROOT1 : Nat) : Z) ^ 4 := oroot_pow _ _ _ (by decide +kernel)
theorem oroot5 : ((OROOT5 : Nat) : Z) = ((OROOT1 : Nat) : Z) ^ 5 := oroot_pow _ _ _ (by decide +kernel)
theorem oroot6 : ((OROOT6 : Nat) : Z) = ((OROOT1 : Nat) : Z) ^ 6 := oroot_pow _ _ _ (by decide +kernel)
theorem oroot7 : ((OROOT7 : Nat) : Z) = ((OROOT1 : Nat) : Z) ^ 7 := oroot_pow _ _ _ (by decide +kernel)
theorem oroot8 : ((OROOT1 : Nat) : Z) ^ 8 = 1 := by
  have := oroot_pow 1 OROOT1 8 (by decide +kernel)
  rw [← this, Nat.cast_one]

theorem oroot1_eq : ((OROOT1 : Nat) : Z) = (3 : Z) ^ ((MODULUS - 1) / 2 ^ 3) := by
  have h : ((3 : Nat) : Z) ^ ((MODULUS - 1) / 2 ^ 3) = _ := powMod_zmod (m := MODULUS) (fuel := 256) (b := 3) (e := (MODULUS - 1) / 2 ^ 3) (by decide +kernel)
  rw [show powMod MODULUS 256 3 ((MODULUS - 1) / 2 ^ 3) = OROOT1 by decide +kernel] at h
  rw [← h]
  norm_num

/-- the roots of the contract are the powers of the root in the order of the positions -/
theorem roots_get (n i : Nat) (hn : n ≤ 3) (hi : i < 2 ^ n) : ∃ r, roots[i]? = some r ∧ ((r : Nat) : Z) = zeta n ^ rev n i := by
  unfold zeta
  have e : ∀ k, k = 3 → ∀ i, i < 8 → ∃ r, roots[i]? = some r ∧ ((r : Nat) : Z) = ((OROOT1 : Nat) : Z) ^ rev k i := by
    intro k hk i hi
    subst hk
    have hc : i = 0 ∨ i = 1 ∨ i = 2 ∨ i = 3 ∨ i = 4 ∨ i = 5 ∨ i = 6 ∨ i = 7 := by omega
    rcases hc with rfl | rfl | rfl | rfl | rfl | rfl | rfl | rfl
    · exact ⟨_, rfl, by rw [show rev 3 0 = 0 from rfl, pow_zero, Nat.cast_one]⟩
    · exact ⟨_, rfl, by rw [show rev 3 1 = 4 from rfl]; exact oroot4⟩
    · exact ⟨_, rfl, by rw [show rev 3 2 = 2 from rfl]; exact oroot2⟩
    · exact ⟨_, rfl, by rw [show rev 3 3 = 6 from rfl]; exact oroot6⟩
    · exact ⟨_, rfl, by rw [show rev 3 4 = 1 from rfl, pow_one]⟩
    · exact ⟨_, rfl, by rw [show rev 3 5 = 5 from rfl]; exact oroot5⟩
    · exact ⟨_, rfl, by rw [show rev 3 6 = 3 from rfl]; exact oroot3⟩
    · exact ⟨_, rfl, by rw [show rev 3 7 = 7 from rfl]; exact oroot7⟩
  obtain ⟨r, h1, h2⟩ := e 3 rfl i (lt_of_lt_of_le hi (Nat.pow_le_pow_right (by norm_num) hn))
  refine ⟨r, h1, ?_⟩
  rw [h2, ← pow_mul]
  congr 1
  have := rev_lt_pow n (3 - n) i hi
  rw [show 3 - n + n = 3 by omega] at this
  rw [this, Nat.mul_comm]

/-- the points of a coset -/
theorem point_eq (w z : Z) (m n j i : Nat) (hn : n ≤ m) (hw : w ^ 2 ^ (m - n) = z) (hi : i < 2 ^ n) : w ^ rev m (j * 2 ^ n + i) = z ^ rev n i * w ^ rev (m - n) j := by
  have := rev_concat n (m - n) j i hi
  rw [show m - n + n = m by omega] at this
  rw [this, pow_add, Nat.mul_comm, pow_mul, hw]

theorem fold_lt (p n f : Nat) : fold p n f < MODULUS := addmod_lt _ _

theorem fold_cast (p n f : Nat) (hp : p < MODULUS) (hn : n < MODULUS) : ((fold p n f : Nat) : Z) = p + n + f * (p - n) := by
  have hm := modulus_lt
  have h1 : wsub (wadd p MODULUS) n = p + MODULUS - n := by
    rw [wadd_lt _ _ (by omega), wsub_le _ _ (by omega) (by omega)]
  unfold fold
  rw [addmod_cast, mulmod_cast, h1, wadd_lt _ _ (by omega), Nat.cast_add, Nat.cast_sub (by omega), Nat.cast_add, ZMod.natCast_self]
  ring

/-- folding a coset is folding the function on it -/
theorem fold_coset_eq (n m j : Nat) (hn1 : 1 ≤ n) (hn3 : n ≤ 3) (hm : n ≤ m) (w : Z) (hw : w ^ 2 ^ (m - n) = zeta n) (V : Nat → Nat)
    (hV : ∀ q, j * 2 ^ n ≤ q → q < j * 2 ^ n + 2 ^ n → V q < MODULUS) (x a : Nat) (hx : (x : Z) = (w ^ rev (m - n) j)⁻¹) :
    ∃ v y, fold_coset ((List.range' (j * 2 ^ n) (2 ^ n)).map V) x a = some (v, y) ∧ v < MODULUS ∧ y < MODULUS ∧
      (v : Z) = foldMany n w m (a : Z) (fun q => ((V q : Nat) : Z)) j ∧ (y : Z) = (x : Z) ^ 2 ^ n := by
  have hinv : ∀ k, k ≤ 8 → (((OROOT1 : Nat) : Z) ^ k)⁻¹ = ((OROOT1 : Nat) : Z) ^ (8 - k) := by
    intro k hk
    refine inv_eq_of_mul_eq_one_right ?_
    rw [← pow_add, show k + (8 - k) = 8 by omega, oroot8]
  have hc : n = 1 ∨ n = 2 ∨ n = 3 := by omega
  rcases hc with rfl | rfl | rfl
  · refine ⟨_, _, rfl, fold_lt _ _ _, mulmod_lt _ _, ?_, by rw [mulmod_cast]; ring⟩
    have p0 := point_eq w _ m 1 j 0 hm hw (by norm_num)
    rw [fold_cast _ _ _ (hV _ (by omega) (by omega)) (hV _ (by omega) (by omega)), mulmod_cast, hx]
    rw [foldMany, foldMany, foldOnce]
    rw [show 2 * j = j * 2 ^ 1 + 0 by ring, p0, show rev 1 0 = 0 from rfl]
    ring
  · refine ⟨_, _, rfl, fold_lt _ _ _, mulmod_lt _ _, ?_, by rw [mulmod_cast, mulmod_cast]; ring⟩
    have hz : zeta 2 = ((OROOT1 : Nat) : Z) ^ 2 := rfl
    have p0 := point_eq w _ m 2 j 0 hm hw (by norm_num)
    have p2 := point_eq w _ m 2 j 2 hm hw (by norm_num)
    have q0 := point_eq (w ^ 2) (zeta 2 ^ 2) (m - 1) 1 j 0 (by omega) (by rw [← hw, show m - 1 - 1 = m - 2 by omega, ← pow_mul, ← pow_mul, Nat.mul_comm]) (by norm_num)
    rw [show rev 2 0 = 0 from rfl, pow_zero, one_mul] at p0
    rw [show rev 2 2 = 1 from rfl, pow_one, hz] at p2
    rw [show rev 1 0 = 0 from rfl, pow_zero, one_mul, show m - 1 - 1 = m - 2 by omega] at q0
    rw [fold_cast _ _ _ (fold_lt _ _ _) (fold_lt _ _ _), fold_cast _ _ _ (hV _ (by omega) (by omega)) (hV _ (by omega) (by omega)),
      fold_cast _ _ _ (hV _ (by omega) (by omega)) (hV _ (by omega) (by omega))]
    simp only [mulmod_cast, hx, oroot6]
    simp only [foldMany, foldOnce]
    rw [show 2 * (2 * j) = j * 2 ^ 2 + 0 by ring, show 2 * (2 * j + 1) = j * 2 ^ 2 + 2 by ring, p0, p2, show 2 * j = j * 2 ^ 1 + 0 by ring, q0, mul_inv, hinv 2 (by norm_num),
      pow_right_comm w 2]
    simp only [← inv_pow]
    generalize (w ^ rev (m - 2) j)⁻¹ = Y
    ring
  · refine ⟨_, _, rfl, fold_lt _ _ _, mulmod_lt _ _, ?_, by rw [mulmod_cast, mulmod_cast, mulmod_cast]; ring⟩
    have hz : zeta 3 = ((OROOT1 : Nat) : Z) := by unfold zeta; rw [Nat.sub_self, pow_zero, pow_one]
    have p0 := point_eq w _ m 3 j 0 hm hw (by norm_num)
    have p2 := point_eq w _ m 3 j 2 hm hw (by norm_num)
    have p4 := point_eq w _ m 3 j 4 hm hw (by norm_num)
    have p6 := point_eq w _ m 3 j 6 hm hw (by norm_num)
    have hw2 : (w ^ 2) ^ 2 ^ (m - 1 - 2) = zeta 3 ^ 2 := by rw [← hw, show m - 1 - 2 = m - 3 by omega, ← pow_mul, ← pow_mul, Nat.mul_comm]
    have q0 := point_eq (w ^ 2) (zeta 3 ^ 2) (m - 1) 2 j 0 (by omega) hw2 (by norm_num)
    have q2 := point_eq (w ^ 2) (zeta 3 ^ 2) (m - 1) 2 j 2 (by omega) hw2 (by norm_num)
    have hw4 : ((w ^ 2) ^ 2) ^ 2 ^ (m - 1 - 1 - 1) = (zeta 3 ^ 2) ^ 2 := by
      rw [← hw2, show m - 1 - 1 - 1 = m - 1 - 2 by omega]
      exact pow_right_comm _ _ _
    have s0 := point_eq ((w ^ 2) ^ 2) ((zeta 3 ^ 2) ^ 2) (m - 1 - 1) 1 j 0 (by omega) hw4 (by norm_num)
    rw [show rev 3 0 = 0 from rfl, pow_zero, one_mul] at p0
    rw [show rev 3 2 = 2 from rfl, hz] at p2
    rw [show rev 3 4 = 1 from rfl, hz] at p4
    rw [show rev 3 6 = 3 from rfl, hz] at p6
    rw [show rev 2 0 = 0 from rfl, pow_zero, one_mul, show m - 1 - 2 = m - 3 by omega] at q0
    rw [show rev 2 2 = 1 from rfl, pow_one, hz, show m - 1 - 2 = m - 3 by omega] at q2
    rw [show rev 1 0 = 0 from rfl, pow_zero, one_mul, show m - 1 - 1 - 1 = m - 3 by omega] at s0
    rw [fold_cast _ _ _ (fold_lt _ _ _) (fold_lt _ _ _), fold_cast _ _ _ (fold_lt _ _ _) (fold_lt _ _ _), fold_cast _ _ _ (fold_lt _ _ _) (fold_lt _ _ _),
      fold_cast _ _ _ (hV _ (by omega) (by omega)) (hV _ (by omega) (by omega)), fold_cast _ _ _ (hV _ (by omega) (by omega)) (hV _ (by omega) (by omega)),
      fold_cast _ _ _ (hV _ (by omega) (by omega)) (hV _ (by omega) (by omega)), fold_cast _ _ _ (hV _ (by omega) (by omega)) (hV _ (by omega) (by omega))]
    simp only [mulmod_cast, hx, oroot6, oroot7, oroot5]
    simp only [foldMany, foldOnce]
    rw [show 2 * (2 * (2 * j)) = j * 2 ^ 3 + 0 by ring, show 2 * (2 * (2 * j) + 1) = j * 2 ^ 3 + 2 by ring, show 2 * (2 * (2 * j + 1)) = j * 2 ^ 3 + 4 by ring,
      show 2 * (2 * (2 * j + 1) + 1) = j * 2 ^ 3 + 6 by ring, p0, p2, p4, p6, show 2 * (2 * j) = j * 2 ^ 2 + 0 by ring, show 2 * (2 * j + 1) = j * 2 ^ 2 + 2 by ring,
      q0, q2, show 2 * j = j * 2 ^ 1 + 0 by ring, s0, pow_right_comm (w ^ 2) 2, pow_right_comm w 2]
    simp only [mul_inv]
    rw [hinv 2 (by norm_num), hinv 1 (by norm_num), hinv 3 (by norm_num)]
    generalize w ^ rev (m - 3) j = X
    simp only [← inv_pow]
    generalize X⁻¹ = Y
    simp only [Nat.add_assoc, Nat.reduceAdd, Nat.reduceSub, Nat.reduceMul, Nat.add_zero, pow_one]
    ring

end Fri
end Evm
end OpenZKP
