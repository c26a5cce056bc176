import Verif.Field.PrimeField
import Verif.U256.Encoding

/-!
# Model of `algebra/primefield/src/rand.rs`

The random source is the list of the words `rng.gen::<U256>()` will return.  `none`: the loop is still running when the list ends (or, in the
debug profile, an assertion fails).
-/

namespace OpenZKP
namespace PF
open U256
variable (P : Params)

/-- `PrimeField::from_montgomery` — prime_field.rs:118-125; `none` is the failing `debug_assert!` of the debug profile -/
def ofMontgomery (dbg : Bool) (u : U256) : Option U256 := if dbg && !lt u P.modulus then none else some u

/-- `sample` — primefield/src/rand.rs:15-18 -/
def sample (dbg : Bool) (ws : List U256) : Option U256 :=
  ((Uniform.new ZERO P.modulus).sample ws).bind fun u => ofMontgomery P dbg u

end PF
end OpenZKP
