import Verif.Evm.Recurrence
import Verif.Evm.FriLemmas
import Verif.Evm.CoinLemmas
import Verif.Evm.UtilsLemmas
import Verif.Examples.Recurrence
import Verif.Props.Examples
import Verif.Props.EvmDefaultCs

/-!
# Lemmas about the contract `Recurrence`
-/

namespace OpenZKP
namespace Evm
namespace Recurrence
open PrimeField DefaultCs Stark Stark.Accept Props Evm.Fri

theorem fmul_cast (a b : Nat) : ((fmul a b : Nat) : Z) = a * b := mulmod_cast a b
theorem fadd_cast (a b : Nat) : ((fadd a b : Nat) : Z) = a + b := addmod_cast a b
theorem fpow_cast (a b : Nat) : ((fpow a b : Nat) : Z) = (a : Z) ^ b := modexp_cast a b
theorem fmul_mont_cast (a b : Nat) : ((fmul_mont a b : Nat) : Z) = a * mont b := by
  unfold fmul_mont fmul
  rw [mulmod_cast, mulmod_cast, montgomery_r_inv]
  unfold mont
  generalize ((2 : Z) ^ 256)⁻¹ = R
  ring
theorem to_montgomery_one : ((to_montgomery 1 : Nat) : Z) = (2 : Z) ^ 256 := by
  unfold to_montgomery
  rw [mulmod_cast, montgomery_r, Nat.cast_one, one_mul]

theorem adjust_every2 (n : Nat) (h0 : 0 < n) (hn : 4 * n < W) : degree_adjustment (wsub (wmul 2 n) 1) (wsub (wmul 2 n) 1) n = n := by
  unfold degree_adjustment
  have e : wmul 2 n = 2 * n := Nat.mod_eq_of_lt (by omega)
  rw [e, wsub_le (2 * n) 1 (by omega) (by omega), wadd_lt _ _ (by omega), wsub_le _ _ (by omega) (by omega)]
  omega

theorem adjust_every1 (n : Nat) (h0 : 0 < n) (hn : 4 * n < W) : degree_adjustment (wsub (wmul 2 n) 1) n n = 2 * n - 1 := by
  unfold degree_adjustment
  have e : wmul 2 n = 2 * n := Nat.mod_eq_of_lt (by omega)
  rw [e, wsub_le (2 * n) 1 (by omega) (by omega), wadd_lt _ _ (by omega), wsub_le _ _ (by omega) (by omega)]
  omega

theorem adjust_fixed (n : Nat) (h0 : 0 < n) (hn : 4 * n < W) : degree_adjustment (wsub (wmul 2 n) 1) (wsub n 1) 1 = n + 1 := by
  unfold degree_adjustment
  have e : wmul 2 n = 2 * n := Nat.mod_eq_of_lt (by omega)
  rw [e, wsub_le (2 * n) 1 (by omega) (by omega), wadd_lt _ _ (by omega), wsub_le n 1 (by omega) (by omega), wsub_le _ _ (by omega) (by omega)]
  omega

/-- the combination the constraints stand for -/
def combined (z g : Z) (n index : Nat) (value : Z) (c : Nat → Z) (t : Nat → Z) : Z :=
  (c 0 + c 1 * z ^ n) * ((t 1 - t 2 ^ 2) * ((z - g ^ (n - 1)) * (z ^ n - 1)⁻¹)) +
  (c 2 + c 3 * z ^ (2 * n - 1)) * ((t 3 - t 0 - t 2) * ((z - g ^ (n - 1)) * (z ^ n - 1)⁻¹)) +
  (c 4 + c 5 * z ^ (n + 1)) * ((t 0 - 1) * (z - g ^ n)⁻¹) +
  (c 6 + c 7 * z ^ (n + 1)) * ((t 0 - value) * (z - g ^ index)⁻¹)

theorem evaluate_cast (p : Nat) (c0 c1 c2 c3 c4 c5 c6 c7 : Nat) (rc : List Nat) (input : PublicInput) (eval : EvalX) (k : Nat) (hk : k ≤ 252) (t0 t1 t2 t3 : Nat) (rt : List Nat)
    (hv : input.value < MODULUS) (h0 : t0 < MODULUS) (h2 : t2 < MODULUS) :
    ∃ r, evaluate_oods_point p (c0 :: c1 :: c2 :: c3 :: c4 :: c5 :: c6 :: c7 :: rc) input eval k (t0 :: t1 :: t2 :: t3 :: rt) = some r ∧ r < MODULUS ∧
      mont r = combined (mont p) ((eval.eval_domain_generator : Z) ^ 16) (2 ^ k) input.index (mont input.value)
        (fun i => mont ([c0, c1, c2, c3, c4, c5, c6, c7].getD i 0)) (fun i => mont ([t0, t1, t2, t3].getD i 0)) := by
  have hsh : wshl 1 k = 2 ^ k := by
    unfold wshl
    rw [one_mul, if_pos (by omega)]
    exact Nat.mod_eq_of_lt (show 2 ^ k < 2 ^ 256 from Nat.pow_lt_pow_right (by norm_num) (by omega))
  have hn : 4 * 2 ^ k < W := by
    have : 2 ^ k ≤ 2 ^ 252 := Nat.pow_le_pow_right (by norm_num) hk
    have hW : W = 16 * 2 ^ 252 := by norm_num [W]
    have : 0 < 2 ^ 252 := Nat.two_pow_pos _
    rw [hW]
    generalize 2 ^ 252 = M at *
    omega
  have hpos : 0 < 2 ^ k := Nat.two_pow_pos _
  generalize 2 ^ k = n at *
  unfold evaluate_oods_point
  rw [hsh]
  dsimp only
  rw [adjust_every2 n hpos hn, adjust_every1 n hpos hn, adjust_fixed n hpos hn, wsub_le n 1 (by omega) (by omega)]
  refine ⟨_, rfl, addmod_lt _ _, ?_⟩
  have hone : (1 : Nat) ≤ MODULUS := modulus_pos
  have hlt : ∀ a b, fmul_mont a b ≤ MODULUS := fun a b => (mulmod_lt _ _).le
  have hpw : ∀ a b, fpow a b ≤ MODULUS := fun a b => (modexp_lt _ _).le
  have htm : to_montgomery 1 ≤ MODULUS := (mulmod_lt _ _).le
  have hz : ((fmul_mont p 1 : Nat) : Z) = mont p := by
    rw [fmul_mont_cast]
    unfold mont
    rw [Nat.cast_one, one_mul]
  generalize mont p = z at hz ⊢
  unfold combined
  rw [mont, fadd_cast, fadd_cast, fadd_cast]
  simp only [fmul_mont_cast]
  unfold mont
  simp only [fmul_cast, fadd_cast]
  rw [fsub_cast _ _ (hlt _ _), fsub_cast _ _ h2.le, fsub_cast _ _ h0.le, fsub_cast _ _ htm, fsub_cast _ _ hv.le]
  simp only [inverse_cast]
  rw [fsub_cast _ _ hone, fsub_cast (fmul_mont p 1) _ (hpw _ _), fsub_cast (fmul_mont p 1) (fpow _ n) (hpw _ _), fsub_cast (fmul_mont p 1) (fpow _ input.index) (hpw _ _)]
  simp only [fpow_cast, hz, fmul_mont_cast, to_montgomery_one, Nat.cast_one]
  have hSR : (2 : Z) ^ 256 * ((2 : Z) ^ 256)⁻¹ = 1 := mul_inv_cancel₀ r_ne
  unfold mont
  simp only [List.getD_cons_zero, List.getD_cons_succ]
  generalize ((2 : Z) ^ 256)⁻¹ = R at hSR ⊢
  generalize (2 : Z) ^ 256 = S at hSR ⊢
  generalize (z ^ n - 1)⁻¹ = D1
  generalize (z - ((eval.eval_domain_generator : Z) ^ 16) ^ (n - 1)) = D2
  generalize (z - ((eval.eval_domain_generator : Z) ^ 16) ^ n)⁻¹ = D3
  generalize (z - ((eval.eval_domain_generator : Z) ^ 16) ^ input.index)⁻¹ = D4
  generalize z ^ n = p1
  generalize z ^ (2 * n - 1) = p2
  generalize z ^ (n + 1) = p3
  linear_combination (-((c5 : Z) * p3 + c4) * D3 * R) * hSR

/-- the contract for 256 rows -/
theorem evaluate256_cast (p c0 c1 c2 c3 c4 c5 c6 c7 : Nat) (value : Nat) (t0 t1 t2 t3 : Nat)
    (hc0 : c0 < MODULUS) (hc2 : c2 < MODULUS) (hc4 : c4 < MODULUS) (hc6 : c6 < MODULUS)
    (hz : (mont p) ^ 256 ≠ 1) (hg : ((GENERATOR256 : Nat) : Z) ^ 256 = 1) (index : Nat) :
    ∃ r, evaluate_oods_point256 p [c0, c1, c2, c3, c4, c5, c6, c7] ⟨value, index⟩ [t0, t1, t2, t3] = some r ∧ r < MODULUS ∧
      mont r = combined (mont p) (GENERATOR256 : Z) 256 150 (mont value)
        (fun i => mont ([c0, c1, c2, c3, c4, c5, c6, c7].getD i 0)) (fun i => mont ([t0, t1, t2, t3].getD i 0)) := by
  unfold evaluate_oods_point256
  dsimp only
  rw [if_pos (by simp)]
  refine ⟨_, rfl, addmod_lt _ _, ?_⟩
  have hm : ∀ v, ((fmul_mont v 1 : Nat) : Z) = mont v := by
    intro v
    rw [fmul_mont_cast]
    unfold mont
    rw [Nat.cast_one, one_mul]
  have hml : ∀ v, fmul_mont v 1 ≤ MODULUS := fun v => (mulmod_lt _ _).le
  have hadd : ∀ c d a : Nat, c < MODULUS → ((wadd c (mulmod d a MODULUS) : Nat) : Z) = c + d * a := by
    intro c d a hc
    rw [wadd_lt _ _ (by have := mulmod_lt d a; have := modulus_lt; omega), Nat.cast_add, mulmod_cast]
  have hpw : ∀ a b, modexp a b MODULUS ≤ MODULUS := fun a b => (modexp_lt _ _).le
  have hi : ∀ a : Nat, ((modexp a (wsub MODULUS 2) MODULUS : Nat) : Z) = (a : Z)⁻¹ := inverse_cast
  have hone : (1 : Nat) ≤ MODULUS := modulus_pos
  simp only [List.map_cons, List.map_nil, List.cons_append, List.nil_append, List.getD_cons_zero, List.getD_cons_succ]
  unfold constraintPolyLen256
  dsimp only
  rw [mont]
  simp only [mulmod_cast, addmod_cast, hi]
  rw [hadd _ _ _ hc0, hadd _ _ _ hc2, hadd _ _ _ hc4, hadd _ _ _ hc6]
  rw [EvmDefaultCs.neg_cast _ (hpw _ 255), EvmDefaultCs.neg_cast _ (hpw _ 150), EvmDefaultCs.neg_cast _ (hpw _ 256), EvmDefaultCs.neg_cast _ (hml t0), EvmDefaultCs.neg_cast _ (hml t2),
    EvmDefaultCs.neg_cast _ hone, EvmDefaultCs.neg_cast _ (mulmod_lt _ _).le, EvmDefaultCs.neg_cast (from_montgomery value) (mulmod_lt _ _).le, from_montgomery_cast]
  simp only [mulmod_cast, modexp_cast, hm, Nat.cast_one, Nat.cast_zero]
  unfold combined
  have hz1 : mont p - ((GENERATOR256 : Nat) : Z) ^ 150 ≠ 0 := by
    rw [sub_ne_zero]
    intro h
    apply hz
    rw [h, ← pow_mul, Nat.mul_comm, pow_mul, hg, one_pow]
  have hz2 : mont p - ((GENERATOR256 : Nat) : Z) ^ 256 ≠ 0 := by
    rw [sub_ne_zero, hg]
    intro h
    exact hz (by rw [h, one_pow])
  have hz3 : mont p ^ 256 - 1 ≠ 0 := sub_ne_zero.2 hz
  generalize mont p = z at *
  generalize ((GENERATOR256 : Nat) : Z) = g at *
  simp only [List.getD_cons_zero, List.getD_cons_succ]
  simp only [show (256 : Nat) - 1 = 255 from rfl, show (2 : Nat) * 256 - 1 = 511 from rfl,
    show (256 : Nat) + 1 = 257 from rfl, ← sub_eq_add_neg, one_mul, zero_add]
  generalize z - g ^ 150 = a at hz1 ⊢
  generalize z - g ^ 256 = b at hz2 ⊢
  generalize z ^ 256 - 1 = d at hz3 ⊢
  rw [show a * b * (a * b * d)⁻¹ = d⁻¹ by field_simp,
    show a * ((a * b * d)⁻¹ * d) = b⁻¹ by field_simp,
    show (a * b * d)⁻¹ * d * b = a⁻¹ by field_simp]
  simp only [mont]
  generalize ((2 : Z) ^ 256)⁻¹ = R
  generalize z ^ 256 = e1
  generalize z ^ 257 = e2
  generalize z ^ 511 = e3
  generalize z - g ^ 255 = e4
  ring

end Recurrence
end Evm
end OpenZKP
