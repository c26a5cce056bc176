import Verif.FFT.Model
import Verif.Par.Model

/-!
# The parallel loops of the Fourier transform (model)

Models the loops of `/repo/algebra/primefield/src/fft/radix_sqrt.rs` and `fft/mod.rs` that run on `rayon`, element access by element access and with
the bounds checks of the slices.  The tables of twiddles, the root and the cofactor are captured by shared reference and nothing writes them while
the loops run: they are parameters of the tasks, not cells.
-/

namespace OpenZKP.FFT
open Par

variable {A F : Type} [CommRing F]

/-- `radix_2` on a slice of `len` elements — small.rs:9-20 -/
def radix_2P (addr : Nat → A) (len stride i : Nat) : Prog A F Unit :=
  (Prog.get addr len i).bind fun temp =>
  (Prog.get addr len (i + stride)).bind fun y =>
  (Prog.set addr len i (temp + y)).bind fun _ =>
  (Prog.get addr len (i + stride)).bind fun y =>
  Prog.set addr len (i + stride) (temp - y)

/-- `radix_2_twiddle` — small.rs:23-36 -/
def radix_2_twiddleP (addr : Nat → A) (len : Nat) (twiddle : F) (stride i : Nat) : Prog A F Unit :=
  (Prog.get addr len i).bind fun temp =>
  (Prog.get addr len (i + stride)).bind fun y =>
  (Prog.set addr len (i + stride) (y * twiddle)).bind fun _ =>
  (Prog.get addr len (i + stride)).bind fun y =>
  (Prog.set addr len i (temp + y)).bind fun _ =>
  (Prog.get addr len (i + stride)).bind fun y =>
  Prog.set addr len (i + stride) (temp - y)

/-- the two outer loops — recursive.rs:39-52 -/
def outerP (addr : Nat → A) (len : Nat) (tw : Slice F) (twLen size offset count stride : Nat) : Prog A F Unit :=
  (Prog.loop (fun _ i => radix_2P addr len stride i) (List.range' offset count) ()).bind fun _ =>
  Prog.loop (fun _ k => Prog.loop (fun _ i => radix_2_twiddleP addr len (tw k) stride i) (List.range' (offset + 2 * stride * k) count) ())
    ((List.range (blocks size stride twLen)).drop 1) ()

/-- `fft_vec_recursive` — recursive.rs:9-54; `fuel` as in the sequential model -/
def fft_vec_recursiveP (addr : Nat → A) (len : Nat) (tw : Slice F) (twLen : Nat) : Nat → Nat → Nat → Nat → Prog A F Unit
  | 0, _, _, _ => .pure ()
  | fuel + 1, offset, count, stride =>
    let size := len / stride
    if size > 1 then
      (if stride = count ∧ count < 128 then fft_vec_recursiveP addr len tw twLen fuel offset (2 * count) (2 * stride)
        else (fft_vec_recursiveP addr len tw twLen fuel offset count (2 * stride)).bind fun _ =>
          fft_vec_recursiveP addr len tw twLen fuel (offset + stride) count (2 * stride)).bind fun _ =>
      outerP addr len tw twLen size offset count stride
    else .pure ()

/-- the loop over `row.iter_mut().skip(1)` — radix_sqrt.rs:65-71 -/
def twiddleRowP (addr : Nat → A) (len : Nat) (t : F) : Prog A F Unit :=
  (Prog.loop (fun c i => (Prog.get addr len i).bind fun x => (Prog.set addr len i (x * c)).bind fun _ => .pure (c * t)) (List.range' 1 (len - 1)) t).bind
    fun _ => .pure ()

/-- where element `j` of chunk `i` is — `par_chunks_mut(size)` -/
def chunkAddr (size i j : Nat) : Nat := i * size + j

/-- the task for row `i` of the inner transforms — radix_sqrt.rs:44-46 -/
def innerTask (length outer stretch : Nat) (tw : Slice F) (i : Nat) : Prog Nat F Unit :=
  fft_vec_recursiveP (chunkAddr outer i) (chunkLen length outer i) tw (outer / 2) (chunkLen length outer i) 0 stretch stretch

/-- the task for row `i` of the outer transforms — radix_sqrt.rs:59-75 -/
def outerTask (length inner outer : Nat) (root : F) (tw : Slice F) (i : Nat) : Prog Nat F Unit :=
  (if i > 0 then twiddleRowP (chunkAddr outer i) (chunkLen length outer i) (root ^ permute_index inner i) else .pure ()).bind fun _ =>
  fft_vec_recursiveP (chunkAddr outer i) (chunkLen length outer i) tw (outer / 2) (chunkLen length outer i) 0 1 1

/-- `radix_sqrt` — radix_sqrt.rs:13-77, its two parallel loops run by any schedule: every execution ends, and ends with `v'` -/
def RadixSqrtAlways (length : Nat) (v : Slice F) (root : F) (v' : Slice F) : Prop :=
  if length ≤ 1 then v' = v
  else
    let inner := 2 ^ (U256.ctz64Aux 64 length / 2)
    let outer := length / inner
    let stretch := outer / inner
    let tw := get_twiddles (root ^ inner) outer
    ∃ v1 v2 v3, transpose_square_stretch length v inner stretch = some v1 ∧
      Always (numChunks length outer) (innerTask length outer stretch tw) v1 v2 ∧
      transpose_square_stretch length v2 inner stretch = some v3 ∧
      Always (numChunks length outer) (outerTask length inner outer root tw) v3 v'

/-- `fft_root` — mod.rs:145-155, for any schedule -/
def FftRootAlways (len : Nat) (v : Slice F) (root : F) (v' : Slice F) : Prop :=
  if len ≥ 1024 then RadixSqrtAlways len v root v'
  else v' = fft_vec_recursive len (get_twiddles root len) (len / 2) len v 0 1 1

/-- the chunk size of `clone_shifted` — mod.rs:105-107; `threads` is `current_num_threads()` -/
def cloneChunkSize (sourceLen threads : Nat) : Nat := max 1024 (sourceLen / threads)

/-- the task for chunk `i` of `clone_shifted` — mod.rs:108-117: element `j` of the destination is the cell `inl j`, of the source `inr j` -/
def cloneTask (dstLen sourceLen chunk : Nat) (cofactor : F) (i : Nat) : Prog (Nat ⊕ Nat) F Unit :=
  (Prog.loop (fun c j =>
      (Prog.get (fun j => .inr (chunkAddr chunk i j)) (chunkLen sourceLen chunk i) j).bind fun x =>
      (Prog.set (fun j => .inl (chunkAddr chunk i j)) (chunkLen dstLen chunk i) j (x * c)).bind fun _ => .pure (c * cofactor))
    (List.range (min (chunkLen dstLen chunk i) (chunkLen sourceLen chunk i))) (cofactor ^ (i * chunk))).bind fun _ => .pure ()

/-- the number of tasks of `clone_shifted`: the shorter of the zipped iterators — mod.rs:108-110 -/
def cloneTasks (dstLen sourceLen chunk : Nat) : Nat := min (numChunks dstLen chunk) (numChunks sourceLen chunk)

end OpenZKP.FFT
