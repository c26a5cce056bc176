import Verif.Evm.FieldLemmas
import Verif.Stark.Verifier
import Verif.U256.ArithLemmas

/-!
# Words of the contracts as elements of the field

The contracts and the proofs have field elements in the representation of Montgomery: the word `v` stands for `v / 2^256`.
-/

namespace OpenZKP
namespace Evm
open PrimeField Stark

/-- the element a word stands for -/
def mont (v : Nat) : Z := (v : Z) * ((2 : Z) ^ 256)⁻¹

/-- the number in four words of 64 bits -/
def word (v : Nat) : U256 := ⟨UInt64.ofNat v, UInt64.ofNat (v / 2 ^ 64), UInt64.ofNat (v / 2 ^ 128), UInt64.ofNat (v / 2 ^ 192)⟩

theorem toNat_word (v : Nat) (hv : v < 2 ^ 256) : (word v).toNat = v := by
  simp only [word, U256.toNat, UInt64.toNat_ofNat']
  omega

theorem word_toNat (u : U256) : word u.toNat = u := U256.toNat_inj (toNat_word _ (U256.toNat_lt u))

theorem modulus_word : MODULUS < 2 ^ 256 := by decide +kernel

theorem mont_inj {a b : Nat} (ha : a < MODULUS) (hb : b < MODULUS) (h : mont a = mont b) : a = b :=
  cast_inj ha hb (mul_right_cancel₀ (inv_ne_zero r_ne) h)

/-- the word of an element -/
def repNat (x : Z) : Nat := ZMod.val (x * (2 : Z) ^ 256)

theorem repNat_lt (x : Z) : repNat x < MODULUS := ZMod.val_lt _

theorem mont_repNat (x : Z) : mont (repNat x) = x := by
  unfold mont repNat
  rw [ZMod.natCast_zmod_val, mul_assoc, mul_inv_cancel₀ r_ne, mul_one]

theorem repNat_mont (v : Nat) (hv : v < MODULUS) : repNat (mont v) = v := mont_inj (repNat_lt _) hv (mont_repNat _)

/-- the representation of Montgomery, which is that of the proofs (C13, C67) -/
def montgomery : Codec Z where
  rep x := word (repNat x)
  val u := mont u.toNat
  rep_lt x := by
    rw [toNat_word _ (lt_trans (repNat_lt x) modulus_word)]
    exact lt_of_lt_of_eq (repNat_lt x) (by decide +kernel)
  val_rep x := by rw [toNat_word _ (lt_trans (repNat_lt x) modulus_word), mont_repNat]

theorem rep_mont (v : Nat) (hv : v < MODULUS) : montgomery.rep (mont v) = word v := by
  unfold montgomery
  simp only [repNat_mont v hv]

theorem val_word (v : Nat) (hv : v < MODULUS) : montgomery.val (word v) = mont v := by
  unfold montgomery
  simp only [toNat_word v (lt_trans hv modulus_word)]

end Evm
end OpenZKP
