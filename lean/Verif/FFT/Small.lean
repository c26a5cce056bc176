import Verif.FFT.Model

/-!
# The transforms of four and eight values of `small.rs` (model)

Models the rest of `/repo/algebra/primefield/src/fft/small.rs`.  The module is public; `fft` itself does not use these two.  As in `FFT/Model.lean` a
slice is an access function; an index outside the slice, where the code panics, is a precondition.
-/

namespace OpenZKP.FFT

variable {F : Type} [CommRing F]

/-- `values[i] *= x` -/
def mulAt (v : Slice F) (i : Nat) (x : F) : Slice F := set v i (v i * x)

/-- `radix_4` — small.rs:38-48 -/
def radix_4 (twiddles : Slice F) (stride : Nat) (v : Slice F) (offset : Nat) : Slice F :=
  let v := radix_2 (2 * stride) v offset
  let v := radix_2 (2 * stride) v (offset + stride)
  let v := mulAt v (offset + 3 * stride) (twiddles 1)
  let v := radix_2 stride v offset
  radix_2 stride v (offset + 2 * stride)

/-- `radix_8` — small.rs:51-66 -/
def radix_8 (twiddles : Slice F) (stride : Nat) (v : Slice F) (offset : Nat) : Slice F :=
  let v := radix_4 twiddles (2 * stride) v offset
  let v := radix_4 twiddles (2 * stride) v (offset + stride)
  let v := mulAt v (offset + 3 * stride) (twiddles 1)
  let v := mulAt v (offset + 5 * stride) (twiddles 2)
  let v := mulAt v (offset + 7 * stride) (twiddles 3)
  let v := radix_2 stride v offset
  let v := radix_2 stride v (offset + 2 * stride)
  let v := radix_2 stride v (offset + 4 * stride)
  radix_2 stride v (offset + 6 * stride)

end OpenZKP.FFT
