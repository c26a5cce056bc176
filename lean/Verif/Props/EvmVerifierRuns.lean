import Verif.Props.EvmVerifierSound
import Verif.Props.EvmForgery
import Verif.Props.EvmVerifierData

/-!
# C79 on concrete proofs
Runs of the contract with a toy hash function: a genuine proof, the same proof for another claim, and a forged proof of a claim that is false.
-/

namespace OpenZKP
namespace Props
namespace EvmVerifier
namespace Example
open Evm Evm.StarkVerifier Stark Stark.Accept PrimeField EvmDefaultCs EvmRecurrence

theorem genuine_accepted : verify_proof toyKeccak surroundings genuine (recurrence toyKeccak (fun _ => some trueInput) nothing) = some false := by decide +kernel

theorem genuine_rejected : verify_proof toyKeccak surroundings genuine (recurrence toyKeccak (fun _ => some falseInput) nothing) = none := by decide +kernel

theorem forged_accepted : verify_proof toyKeccak surroundings forged (recurrence toyKeccak (fun _ => some falseInput) nothing) = some false := by decide +kernel

theorem mont_to (n : Nat) : mont (to_montgomery n) = n := by
  unfold mont to_montgomery
  rw [mulmod_cast, montgomery_r, mul_assoc, mul_inv_cancel₀ r_ne, mul_one]

/-- the forged claim is false whatever the secret: three is no square -/
theorem forged_false (secret : Z) : (Examples.Recurrence.state 2 secret falseInput.index).1 ≠ mont falseInput.value := by
  have e : mont falseInput.value = 3 := by
    have h : falseInput.value = to_montgomery 3 := by decide +kernel
    rw [h, mont_to]
    norm_num
  rw [e]
  intro h
  have hsq : IsSquare (3 : Z) := by
    rw [← h]
    exact state_square secret _ (by decide)
  obtain ⟨y, hy⟩ := hsq
  have h1 : gen 1 = 1 := by
    have hy0 : y ≠ 0 := by
      rintro rfl
      have := congrArg ZMod.val hy
      revert this
      rw [mul_zero]
      decide +kernel
    have h2 := ZMod.pow_card_sub_one_eq_one hy0
    unfold gen
    rw [hy, ← pow_two, ← pow_mul, pow_one, Nat.mul_div_cancel' (by have := dvd_modulus 1 (by omega); rwa [pow_one] at this)]
    exact h2
  have h3 := order_gen 1 (by norm_num)
  rw [h1, orderOf_one] at h3
  omega

theorem genuine_typed : Typed genuine := ⟨by decide +kernel, by decide +kernel, by decide +kernel, by decide +kernel, by decide +kernel, by decide +kernel, by decide +kernel⟩
theorem genuine_reduced : AllReduced genuine := ⟨by decide +kernel, by decide +kernel, by decide +kernel, by decide +kernel, by decide +kernel, by decide +kernel⟩
theorem surroundings_ok : surroundings.Ok 20 := ⟨by decide, ⟨rfl, fun _ => rfl⟩, ⟨rfl, fun _ => rfl⟩, fun _ => ⟨rfl, fun _ => rfl⟩, rfl⟩

/-- the protocol with the toy hash, on the field of the contracts -/
def env : Env Z := ⟨toyKeccak, montgomery, fieldRoot, 3, fun _ _ => none⟩

-- the hypotheses of `C79_accepts_partial` and `C79_sound_partial` hold for the genuine proof
example : ∃ c, Examples.Recurrence.constraints env.root env.codec.rep trueInput.index (mont trueInput.value) 2 = some c ∧ c.trace_nrows = 2 ^ 2 ∧
    surroundings.Ok 20 ∧ Typed genuine ∧ AllReduced genuine ∧ RightLengths genuine 20 2 4 2 (2 ^ (2 + 4) / 2 ^ c.fri_layout.sum / 2 ^ 4) ∧
    verify_proof env.K surroundings genuine (recurrence env.K (fun _ => some trueInput) nothing) ≠ none := by
  have h4 : Merkle.next_power_of_two (trueInput.index + 1) = 2 ^ 2 := by decide +kernel
  have hg : fieldRoot (2 ^ 2) = some (gen 2) := fieldRoot_ok.2 2 (by norm_num)
  refine ⟨⟨Examples.Recurrence.seed env.codec.rep trueInput.index (mont trueInput.value) 2, 2 ^ 2, 2, Examples.Recurrence.expressions (gen 2) (2 ^ 2) trueInput.index (mont trueInput.value) 2, 16, 0, 45,
    default_fri_layout (2 ^ 2), []⟩, ?_, rfl, surroundings_ok, genuine_typed, genuine_reduced, ?_, ?_⟩
  · unfold Examples.Recurrence.constraints
    rw [h4]
    dsimp only [env]
    rw [hg, Option.bind_some]
    unfold Examples.system Constraints.from_expressions
    rw [hg]
  · exact ⟨by decide +kernel, by decide +kernel, by decide +kernel, by decide +kernel, by decide +kernel⟩
  · have h := genuine_accepted
    unfold env
    dsimp only
    rw [h]
    exact Option.some_ne_none _

end Example
end EvmVerifier
end Props
end OpenZKP
