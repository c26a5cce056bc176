import Verif.Props.EvmVerifier
import Verif.Props.Recurrence

/-!
# C79: what a proof shows that the contract does not reject
-/

namespace OpenZKP
namespace Props
namespace EvmVerifier
open Evm Evm.PrimeField Evm.MerkleVerifier Evm.StarkVerifier FFT Stark Stark.Accept EvmDefaultCs EvmRecurrence Polynomial

/-! ## The roots of the library are those of the contract -/

/-- `PrimeField::root` on the base field (`PF.root`), read in the field of the contracts -/
def fieldRoot (n : Nat) : Option Z := (PF.root PF.BASE (UInt64.ofNat n)).map fun w => ((nat PF.BASE w : Nat) : Z)

theorem order_gen (k : Nat) (hk : k + 4 ≤ 192) : orderOf (gen k) = 2 ^ k :=
  order_of_power _ _ (Nat.mul_div_cancel' (dvd_modulus k (by omega)))

theorem fieldRoot_spec (M : Nat) (hM : M = PF.BASE.modulus.toNat) [Fact M.Prime] :
    RootFn (fun n => (PF.root PF.BASE (UInt64.ofNat n)).map fun w => ((nat PF.BASE w : Nat) : ZMod M)) ∧
    ∀ k < 64, (PF.root PF.BASE (UInt64.ofNat (2 ^ k))).map (fun w => ((nat PF.BASE w : Nat) : ZMod M)) = some (3 ^ ((M - 1) / 2 ^ k)) := by
  subst hM
  refine ⟨C20_base_field.1, fun k hk => ?_⟩
  have hto : (UInt64.ofNat (2 ^ k)).toNat = 2 ^ k := by
    rw [UInt64.toNat_ofNat']
    exact Nat.mod_eq_of_lt (Nat.pow_lt_pow_right (by norm_num) hk)
  obtain ⟨q, r, e, e1, hr⟩ := U256.div_rem_u64_spec PF.BASE.order (UInt64.ofNat (2 ^ k)) (by rw [hto]; exact Nat.two_pow_pos _)
  rw [base_ok.order, hto] at e1 hr
  have hd : 2 ^ k ∣ PF.BASE.modulus.toNat - 1 := (Nat.pow_dvd_pow 2 (by omega : k ≤ 192)).trans (by decide +kernel)
  have hr0 : r = 0 := by
    rw [← UInt64.toNat_inj, hr, Nat.mod_eq_zero_of_dvd hd]; rfl
  obtain ⟨-, p2⟩ := PF.powU_spec base_ok.consts base_ok.gen q
  have h3 : PF.V PF.BASE PF.BASE.generator = 3 := by
    have : nat PF.BASE PF.BASE.generator = 3 := by decide +kernel
    rw [V_eq, this]; rfl
  unfold PF.root
  rw [e, hr0]
  show some (((nat PF.BASE _ : Nat) : ZMod PF.BASE.modulus.toNat)) = some _
  rw [← V_eq, p2, h3, e1]

theorem fieldRoot_ok : RootFn fieldRoot ∧ ∀ k < 64, fieldRoot (2 ^ k) = some (gen k) := fieldRoot_spec MODULUS modulus_base

/-! ## C79 -/

/-- C79: the contract never returns true: a proof is rejected by reverting and accepted by returning false. -/
theorem C79_returns (K : Keccak) (s : Surroundings) (proof : StarkProof) (cs : ConstraintSystem) (r : Bool) (h : verify_proof K s proof cs = some r) : r = false := by
  unfold verify_proof at h
  dsimp only at h
  obtain ⟨i, -, h⟩ := Option.bind_eq_some_iff.1 h
  obtain ⟨r', -, h⟩ := Option.bind_eq_some_iff.1 h
  split at h
  · obtain ⟨c, -, h⟩ := Option.bind_eq_some_iff.1 h
    obtain ⟨u, -, h⟩ := Option.bind_eq_some_iff.1 h
    obtain ⟨u', -, h⟩ := Option.bind_eq_some_iff.1 h
    obtain ⟨u'', -, h⟩ := Option.map_eq_some_iff.1 h
    exact h.symm
  · cases h

section
variable (env : Env Z) (hc : env.codec = montgomery) (hgen : env.generator = 3) (hroot : env.root = fieldRoot) (decode : Bytes → Option Recurrence.PublicInput) (b : DefaultCs.Behind)
  (s : Surroundings) (proof : StarkProof) (input : Recurrence.PublicInput) (hdec : decode proof.public_inputs = some input) (hv : input.value < MODULUS) (k : Nat) (hk : k + 4 ≤ 40)
  (c : Constraints Z) (hsys : Examples.Recurrence.constraints env.root env.codec.rep input.index (mont input.value) 2 = some c) (hrows : c.trace_nrows = 2 ^ k)
include hc hgen hroot hdec hv hk hsys hrows

/-- C79 (partial, as `C79_accepts_partial`): a proof on which the contract does not revert shows that the value is the one at the index in a run of the recurrence. -/
theorem C79_sound_partial (hs : s.Ok 20) (ht : Typed proof) (hr : AllReduced proof) (hl : RightLengths proof 20 2 4 2 (2 ^ (k + 4) / 2 ^ c.fri_layout.sum / 2 ^ 4))
    (h : verify_proof env.K s proof (recurrence env.K decode b) ≠ none) :
    ∃ P x, Carries proof c.fri_layout.length P ∧ Drawn env (contractSystem c) (k + 4) 4 2 P x ∧ (Regular k x →
      ∀ R C Ls e, Tables env (contractSystem c) (k + 4) P R C Ls → 2 ^ k + 2 * (e * 2 ^ c.fri_layout.sum) < 2 ^ (k + 4) →
        SomeCollision env (contractSystem c) (k + 4) P x R C Ls ∨ Lucky env (contractSystem c) k 4 2 (gen (k + 4)) (gen k) cells P x R C Ls e ∨
        ∃ T, Fits (Used (contractSystem c)) (2 ^ k) (e * 2 ^ c.fri_layout.sum) (2 ^ (k + 4)) (cosetPoint env (gen (k + 4)) (k + 4)) R T ∧
          mont input.value = (Examples.Recurrence.state 2 ((T 1).eval 1) input.index).1) := by
  obtain ⟨r1, r2⟩ := fieldRoot_ok
  have hrk : env.root (2 ^ k) = some (gen k) := by rw [hroot]; exact r2 k (by omega)
  have hrk4 : env.root (2 ^ (k + 4)) = some (gen (k + 4)) := by rw [hroot]; exact r2 (k + 4) (by omega)
  have hroot' : RootFn env.root := by rw [hroot]; exact r1
  obtain ⟨g, hg, hs', -, hd, -, hes⟩ := rec_system env.root _ input.index _ 2 c hsys
  obtain ⟨-, hcc⟩ := Examples.system_some _ _ _ _ _ _ hs'
  have hn : Merkle.next_power_of_two (input.index + 1) = 2 ^ k := by rw [← hrows, hcc]
  have hlay : c.fri_layout.sum ≤ k := by
    rw [hcc]
    show (Stark.default_fri_layout (Merkle.next_power_of_two (input.index + 1))).sum ≤ k
    rw [hn]
    exact Examples.layout_le k (by omega)
  have h3 : (3 : Z) ≠ 0 := by
    intro h3
    have := congrArg ZMod.val h3
    revert this
    decide +kernel
  obtain ⟨P, x, a1, a2, a3, a4⟩ := C79_accepts_partial env hc hgen decode b s proof input hdec hv k hk c hsys hrows hrk hs ht hr hl h
  refine ⟨P, x, a1, a2, fun hreg R C Ls e htab he => ?_⟩
  rcases sound env hroot' (by rw [hgen]; exact h3) (contractSystem c) k 4 2 e (by omega) hrows hlay hd he (gen (k + 4)) (gen k) hrk4 P.bytes cells P x (a4 hreg) R C Ls htab with h1 | h1 | ⟨T, h1, h2⟩
  · exact Or.inl h1
  · exact Or.inr (Or.inl h1)
  · refine Or.inr (Or.inr ⟨T, h1, ?_⟩)
    have hsat := rows_satisfy c (gen k) k (order_gen k (by omega)) T (2 ^ k) (fun i => fits_degree h1 i) x.point h2
    have := ((C78_system env.root hroot' env.codec.rep input.index 2 (by rw [hn]; exact Nat.pow_lt_pow_right (by norm_num) (by omega)) (mont input.value) c hsys (gen k) (by rw [hrows]; exact hrk)
      (fun r i => (T i).eval (gen k ^ r))).1 (by rw [hrows]; exact hsat)).2.2
    rw [pow_zero] at this
    exact this

end

end EvmVerifier
end Props
end OpenZKP
