import Verif.Stark.ReleaseForward
import Verif.Props.EvmForgery

/-!
Lemmas: the limb arithmetic is that of the field on reduced words (C10 to C13), and what it is on some others.
-/

namespace OpenZKP
namespace Stark
namespace Release
open FFT U256 Props Merkle Accept Evm Evm.PrimeField

theorem val_V (u : U256) (hu : PF.Canon PF.BASE u) : montgomery.val u = (PF.V PF.BASE u : ZMod MODULUS) := C76_words u hu

theorem word_of (w : U256) (hw : PF.Canon PF.BASE w) (x : ZMod MODULUS) (h : (PF.V PF.BASE w : ZMod MODULUS) = x) : w = montgomery.rep x := by
  rw [← h, ← val_V w hw]
  show w = montgomery.rep (mont w.toNat)
  rw [rep_mont _ (lt_of_lt_of_eq hw (by decide +kernel)), word_toNat]

theorem rep_canon (x : Z) : PF.Canon PF.BASE (montgomery.rep x) := montgomery.rep_lt x

theorem rep_V (x : Z) : (PF.V PF.BASE (montgomery.rep x) : ZMod MODULUS) = x := by rw [← val_V _ (rep_canon x), montgomery.val_rep]

theorem arith : Arith montgomery where
  rep_val u hu := (word_of u hu _ (val_V u hu).symm).symm
  zero := (word_of _ (PF.zero_spec base_ok.consts).1 0 (PF.zero_spec base_ok.consts).2).symm
  add x y := by
    obtain ⟨h1, h2⟩ := PF.add_spec base_ok.consts (rep_canon x) (rep_canon y)
    refine word_of _ h1 _ (Eq.trans h2 ?_)
    exact congrArg₂ (fun a b : ZMod MODULUS => a + b) (rep_V x) (rep_V y)
  sub x y := by
    obtain ⟨h1, h2⟩ := PF.sub_spec base_ok.consts (rep_canon x) (rep_canon y)
    refine word_of _ h1 _ (Eq.trans h2 ?_)
    exact congrArg₂ (fun a b : ZMod MODULUS => a - b) (rep_V x) (rep_V y)
  neg x := by
    obtain ⟨h1, h2⟩ := PF.neg_spec base_ok.consts (rep_canon x)
    refine word_of _ h1 _ (Eq.trans h2 ?_)
    exact congrArg (fun a : ZMod MODULUS => -a) (rep_V x)
  mul x y := by
    obtain ⟨h1, h2⟩ := PF.mul_spec base_ok.consts (rep_canon x) (rep_canon y)
    refine word_of _ h1 _ (Eq.trans h2 ?_)
    exact congrArg₂ (fun a b : ZMod MODULUS => a * b) (rep_V x) (rep_V y)
  pow x e := by
    obtain ⟨h1, h2⟩ := PF.powBits_spec base_ok.consts (rep_canon x) e (if e = 0 then none else some (Nat.log2 e)) e.testBit (by
      intro m hm
      split at hm
      · simp at hm
      · cases hm
        exact ⟨Nat.lt_log2_self, fun _ _ => rfl⟩) (by
      intro h
      split at h
      · assumption
      · simp at h)
    refine word_of _ h1 _ (Eq.trans h2 ?_)
    exact congrArg (fun a : ZMod MODULUS => a ^ e) (rep_V x)

theorem rep_one : montgomery.rep 1 = PF.one PF.BASE := by
  have h := arith.pow 0 0
  rw [pow_zero] at h
  exact h.symm

/-- a multiple of the modulus times a reduced word is zero -/
theorem mul_multiple (x : U256) (hx : MODULUS ∣ x.toNat) (y : Z) : mul x (montgomery.rep y) = montgomery.rep 0 := by
  obtain ⟨h1, h2⟩ := PF.mul_redc_V base_ok.consts x (rep_canon y)
  refine word_of _ h1 _ ?_
  have key : ∀ a b c : ZMod MODULUS, c = 0 → a * 2 ^ 256 = c * b → a = 0 := by
    intro a b c hc h
    rw [hc, zero_mul] at h
    exact (mul_eq_zero.1 h).resolve_right r_ne
  exact key _ _ _ ((ZMod.natCast_eq_zero_iff _ _).2 hx) h2

/-- the word of one, with the modulus added -/
def unreduced : U256 := word ((PF.one PF.BASE).toNat + MODULUS)

theorem unreduced_ge : ¬ unreduced.toNat < PF.BASE.modulus.toNat := by decide +kernel

theorem one_sub_unreduced : sub (montgomery.rep 1) unreduced = U256.ZERO := by
  rw [rep_one]
  decide +kernel

theorem zero_sub_unreduced (y : Z) : mul (add U256.ZERO (neg unreduced)) (montgomery.rep y) = montgomery.rep 0 :=
  mul_multiple _ (by decide +kernel) y

end Release
end Stark
end OpenZKP
