import Verif.Props.FieldRoots

/-!
# C13: the field elements form a field isomorphic to the integers modulo the prime

This is what allows the rest of the model (FFT, polynomials, curves, the proof system), which in the Rust code
is generic over `FieldLike`, to be stated over an arbitrary Lean `Field`.
-/

namespace OpenZKP.Props
open OpenZKP U256 PF

/-- Field elements: reduced representations. -/
def FE (P : Params) : Type := {x : U256 // Canon P x}

/-- C13: `to_uint` followed by reduction modulo `p` is a bijection from field elements to `ℤ/p`, and takes
the operations of `PrimeField` to those of `ℤ/p`. -/
theorem C13_field_iso (P : Params) (h : FieldOK P) :
    ∃ f : FE P ≃ ZMod P.modulus.toNat,
      (∀ x, f x = (nat P x.1 : ZMod P.modulus.toNat)) ∧
      (∀ x y z : FE P, (z.1 = add P x.1 y.1 ↔ f z = f x + f y) ∧ (z.1 = PF.sub P x.1 y.1 ↔ f z = f x - f y) ∧
        (z.1 = PF.mul P x.1 y.1 ↔ f z = f x * f y) ∧ (z.1 = PF.neg P x.1 ↔ f z = - f x)) ∧
      (∀ z : FE P, (z.1 = PF.zero ↔ f z = 0) ∧ (z.1 = one P ↔ f z = 1)) := by
  have hc := h.consts
  have : NeZero P.modulus.toNat := ⟨h.prime.ne_zero⟩
  let f : FE P → ZMod P.modulus.toNat := fun x => V P x.1
  have inj : Function.Injective f := fun x y e => Subtype.ext (V_inj hc x.2 y.2 e)
  have surj : Function.Surjective f := by
    intro z
    have hz : z.val < P.modulus.toNat := ZMod.val_lt z
    have hz2 : z.val < 2 ^ 256 := hz.trans (toNat_lt _)
    have hu := ofNat256_toNat hz2
    obtain ⟨a1, a2⟩ := from_uint_reduce_spec hc (ofNat256 z.val)
    refine ⟨⟨_, a1⟩, ?_⟩
    show V P _ = z
    rw [a2, hu, ZMod.natCast_zmod_val]
  have key : ∀ (z : FE P) (w : U256) (hw : Canon P w) (c : ZMod P.modulus.toNat), V P w = c →
      (z.1 = w ↔ f z = c) := by
    intro z w hw c e
    constructor
    · intro e2; show V P z.1 = c; rw [e2, e]
    · intro e2; exact V_inj hc z.2 hw (by rw [e]; exact e2)
  refine ⟨Equiv.ofBijective f ⟨inj, surj⟩, fun x => rfl, fun x y z => ⟨?_, ?_, ?_, ?_⟩, fun z => ⟨?_, ?_⟩⟩
  · obtain ⟨a, b⟩ := add_spec hc x.2 y.2; exact key z _ a _ b
  · obtain ⟨a, b⟩ := sub_spec hc x.2 y.2; exact key z _ a _ b
  · obtain ⟨a, b⟩ := mul_spec hc x.2 y.2; exact key z _ a _ b
  · obtain ⟨a, b⟩ := neg_spec hc x.2; exact key z _ a _ b
  · obtain ⟨a, b⟩ := zero_spec hc; exact key z _ a _ b
  · obtain ⟨a, b⟩ := one_spec hc; exact key z _ a _ b

/-- C13 applies to both fields of the library. -/
theorem C13_instances : FieldOK BASE ∧ FieldOK SCALAR := ⟨base_ok, scalar_ok⟩

end OpenZKP.Props
