import Verif.EC.Mixed
import Verif.Field.FieldLemmas
import Verif.Field.Primes
import Mathlib.Algebra.Field.ZMod

/-! # The concrete curve: `BETA`, `GENERATOR` and the order of the group -/

namespace OpenZKP
namespace EC

open WeierstrassCurve.Affine U256

/-- the base field as residues (see `C13_field_iso`) -/
abbrev Fp := ZMod PF.BASE.modulus.toNat

/-- the scalar field as residues -/
abbrev Fn := ZMod PF.SCALAR.modulus.toNat

theorem base_modulus : PF.BASE.modulus.toNat =
    3618502788666131213697322783095070105623107215331596699973092056135872020481 := by decide +kernel

theorem scalar_modulus : PF.SCALAR.modulus.toNat =
    3618502788666131213697322783095070105526743751716087489154079457884512865583 := by decide +kernel

instance fpFact : Fact (Nat.Prime PF.BASE.modulus.toNat) := ⟨by rw [base_modulus]; exact prime_base⟩
instance fnFact : Fact (Nat.Prime PF.SCALAR.modulus.toNat) := ⟨by rw [scalar_modulus]; exact prime_scalar⟩

/-- `BETA` — elliptic-curve/src/lib.rs:70-72, the Montgomery form there read as a residue -/
def BETA : Fp := ((PF.to_uint PF.BASE ⟨0x359ddd67b59a21ca, 0x6725f2237aab9006, 0xab8a1e002a41f947, 0x013931651774247f⟩).toNat : Nat)

/-- `GENERATOR` — elliptic-curve/src/lib.rs:76-83 -/
def GENERATOR : Affine Fp :=
  .Point ((PF.to_uint PF.BASE ⟨0xc9019623cf0273dd, 0x51a9bf65d4403dea, 0x0429bf5184041c7b, 0x033840300bf6cec1⟩).toNat : Nat)
    ((PF.to_uint PF.BASE ⟨0x569d0da34235308a, 0x0939e3442869bbe7, 0xfbd89a97cf4b33ad, 0x05a0e71610f55329⟩).toNat : Nat)

/-- `GENERATOR_TABLE` — elliptic-curve-crypto/src/lib.rs:62-68 -/
def GENERATOR_TABLE : Option (List (Affine Fp)) := window_table_affine GENERATOR 32

theorem BETA_eq : BETA = 0x06f21413efbe40de150e596d72f7a8c5609ad26c15c915c1f4cdfcb99cee9e89 := by decide +kernel

theorem GENERATOR_eq : GENERATOR =
    .Point 0x01ef15c18599971b7beced415a40f0c7deacfd9b0d1819e03d723d8bc943cfca
      0x005668060aa49730b7be4801df46ec62de53ecd11abe43a32873000c36e8dc1f := by decide +kernel

theorem two_ne : (2 : Fp) ≠ 0 := by decide +kernel

theorem disc_ne : (4 : Fp) + 27 * BETA ^ 2 ≠ 0 := by
  rw [BETA_eq]; decide +kernel

theorem generator_nonsingular : (curve BETA).Nonsingular
    (0x01ef15c18599971b7beced415a40f0c7deacfd9b0d1819e03d723d8bc943cfca : Fp)
    0x005668060aa49730b7be4801df46ec62de53ecd11abe43a32873000c36e8dc1f :=
  nonsingular_of_eq disc_ne (by rw [BETA_eq]; decide +kernel) two_ne

/-- the generator as a point of the curve -/
def G : Pt BETA := Point.some _ _ generator_nonsingular

theorem ofPoint_G : ofPoint G = GENERATOR := by rw [GENERATOR_eq]; rfl

set_option maxRecDepth 100000 in
theorem order_mul_eval : (jacobianMul (Jacobian.ofAffine GENERATOR) PF.SCALAR.modulus).z = 0 := by
  rw [GENERATOR_eq]; decide +kernel

theorem order_smul_G : PF.SCALAR.modulus.toNat • G = 0 := by
  have h := jacobianMul_eq two_ne (represents_ofAffine G) PF.SCALAR.modulus
  rw [ofPoint_G] at h
  have hz : Represents (jacobianMul (Jacobian.ofAffine GENERATOR) PF.SCALAR.modulus) (0 : Pt BETA) :=
    represents_zero_iff.2 order_mul_eval
  exact ofPoint_inj (h.symm.trans hz)

theorem G_ne_zero : G ≠ 0 := Point.some_ne_zero _

theorem order_G : addOrderOf G = PF.SCALAR.modulus.toNat :=
  addOrderOf_eq_prime order_smul_G G_ne_zero

end EC
end OpenZKP
