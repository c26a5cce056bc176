import Verif.EC.Concrete

/-! # Model of `crypto/elliptic-curve-crypto` -/

namespace OpenZKP
namespace EC

open WeierstrassCurve.Affine U256

/-- `to_uint` of a field element given as a residue — prime_field.rs:132-137 (the machine-level function is
`PF.to_uint`; `C13_field_iso` relates the two) -/
def toUint {m : Nat} (x : ZMod m) : U256 :=
  ⟨UInt64.ofNat x.val, UInt64.ofNat (x.val / 2 ^ 64), UInt64.ofNat (x.val / 2 ^ 128), UInt64.ofNat (x.val / 2 ^ 192)⟩

/-- `From<&PrivateKey> for PublicKey` — public_key.rs:43-50 -/
def public_key (key : Fn) : Option (Affine Fp) :=
  GENERATOR_TABLE.bind fun table => (base_mul table (toUint key)).map Jacobian.toAffine

/-- one iteration of the loop of `sign` — private_key.rs:32-49, for the nonce `k`: `some none` is `continue` -/
def signTry (table : List (Affine Fp)) (key digest k : Fn) : Option (Option (Fn × Fn)) :=
  if k = 0 then some none
  else (base_mul table (toUint k)).map fun j =>
    match Jacobian.toAffine j with
    | .Zero => none
    | .Point x _ =>
      let r : Fn := (x.val : Nat)
      if r = 0 then none
      else
        let s := r * key + digest
        (finv s).map fun inverse => (r, k * inverse)

/-- the loop of `sign` over the nonces — private_key.rs:31, 51 -/
def signLoop (table : List (Affine Fp)) (hash : Fn → Fn → Nat → Fn) (key digest : Fn) : List Nat → Option (Fn × Fn)
  | [] => none
  | nonce :: rest =>
    (signTry table key digest (hash key digest nonce)).bind fun o =>
      match o with
      | some s => some s
      | none => signLoop table hash key digest rest

/-- `sign` — private_key.rs:30-52.  The hash (SHA3 of key, digest and nonce, private_key.rs:54-67) is a
parameter; `none` is a panic. -/
def sign (hash : Fn → Fn → Nat → Fn) (key digest : Fn) : Option (Fn × Fn) :=
  GENERATOR_TABLE.bind fun table => signLoop table hash key digest (List.range 1000)

/-- `verify` — public_key.rs:22-40; the three assertions are panics, `none` -/
def verify (pubkey : Affine Fp) (digest : Fn) (signature : Fn × Fn) : Option Bool :=
  if signature.1 = 0 then none
  else if signature.2 = 0 then none
  else if Affine.is_on_curve BETA pubkey = false then none
  else
    let generator_factor := digest * signature.2
    let pubkey_factor := signature.1 * signature.2
    GENERATOR_TABLE.bind fun table =>
    (double_base_mul table (toUint generator_factor) pubkey (toUint pubkey_factor)).map fun j =>
      match Jacobian.toAffine j with
      | .Zero => false
      | .Point x _ => decide (((x.val : Nat) : Fn) = signature.1)

end EC
end OpenZKP
