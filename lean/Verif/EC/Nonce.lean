import Verif.EC.Ecdsa

/-! # The nonces of a signature -/

namespace OpenZKP
namespace EC

open U256

/-- the message which is hashed for a nonce: private key, digest and counter, 32 bytes each, most significant
first — private_key.rs:57-64 -/
def nonceMessage (key digest : Fn) (nonce : Nat) : List UInt8 :=
  to_bytes_be (toUint key) ++ (to_bytes_be (toUint digest) ++ to_bytes_be ⟨UInt64.ofNat nonce, 0, 0, 0⟩)

/-- `PrivateKey::hash` — private_key.rs:54-67.  `sha3` is SHA3-256, as a function to 256-bit integers: the 32
output bytes read most significant first; the conversion into the scalar field reduces modulo the order. -/
def nonceHash (sha3 : List UInt8 → U256) (key digest : Fn) (nonce : Nat) : Fn :=
  ((sha3 (nonceMessage key digest nonce)).toNat : Nat)

end EC
end OpenZKP
