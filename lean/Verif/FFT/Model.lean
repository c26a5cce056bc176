import Verif.U256.Basic
import Verif.Field.Generic

/-!
# Fast Fourier transform (model)

Models `/repo/algebra/primefield/src/fft/{bit_reverse,transpose,small,recursive,radix_sqrt,mod}.rs`.

A slice is a total function from indices to elements together with its length (passed separately).  The
property theorems show that every routine leaves the indices outside the slice alone and that the result inside
depends only on the contents inside.  `usize` values are natural numbers; all of them stay below the slice length
times two.  Prefetch hints and trace output are not modelled.  `par_chunks_mut(..).for_each` applies a function
to each chunk; chunks are disjoint, so the order (or parallelism) is immaterial and the model applies it to all.
-/

namespace OpenZKP.FFT

variable {α : Type}

/-- a slice access function -/
abbrev Slice (α : Type) := Nat → α

/-- `v[i] = x` -/
def set (v : Slice α) (i : Nat) (x : α) : Slice α := fun k => if k = i then x else v k

/-- `v.swap(i, j)` -/
def swap (v : Slice α) (i j : Nat) : Slice α := set (set v i (v j)) j (v i)

/-- `usize::reverse_bits` for a word of `w` bits -/
def reverseBits : Nat → Nat → Nat
  | 0, _ => 0
  | w + 1, x => reverseBits w (x / 2) + 2 ^ w * (x % 2)

/-- `permute_index` — bit_reverse.rs:6-16 (debug assertions are preconditions) -/
def permute_index (size index : Nat) : Nat :=
  if size = 1 then 0 else reverseBits 64 index / 2 ^ (64 - U256.ctz64Aux 64 size)

/-- loop body of `permute` — bit_reverse.rs:22-25 -/
def permuteStep (n : Nat) (v : Slice α) (i : Nat) : Slice α :=
  if permute_index n i > i then swap v i (permute_index n i) else v

/-- `permute` — bit_reverse.rs:19-27 -/
def permute (n : Nat) (v : Slice α) : Slice α := (List.range n).foldl (permuteStep n) v

/-! ## transpose.rs -/

/-- the range `(a..b).step_by(2)` -/
def stepBy2 (a b : Nat) : List Nat := (List.range ((b - a + 1) / 2)).map (a + 2 * ·)

/-- inner loop body of `transpose_square_1` — transpose.rs:46-59 -/
def transpose1Col (size row : Nat) (m : Slice α) (col : Nat) : Slice α :=
  let i := row * size + col
  let j := col * size + row
  let m := swap m i j
  let m := swap m (i + 1) (j + size)
  let m := swap m (i + size) (j + 1)
  swap m (i + size + 1) (j + size + 1)

/-- outer loop body of `transpose_square_1` — transpose.rs:43-60 -/
def transpose1Row (size : Nat) (m : Slice α) (row : Nat) : Slice α :=
  let i := row * size + row
  ((stepBy2 row size).drop 1).foldl (transpose1Col size row) (swap m (i + 1) (i + size))

/-- `transpose_square_1` — transpose.rs:31-61; `none` is the panic on odd sizes -/
def transpose_square_1 (size : Nat) (m : Slice α) : Option (Slice α) :=
  if size % 2 ≠ 0 then none else some ((stepBy2 0 size).foldl (transpose1Row size) m)

/-- inner loop body of `transpose_square_2` — transpose.rs:69-79 -/
def transpose2Col (size row : Nat) (m : Slice α) (col : Nat) : Slice α :=
  let i := (row * size + col) * 2
  let j := (col * size + row) * 2
  swap (swap m i j) (i + 1) (j + 1)

/-- outer loop body of `transpose_square_2` — transpose.rs:68-80; `(row..size).skip(1)` -/
def transpose2Row (size : Nat) (m : Slice α) (row : Nat) : Slice α :=
  ((List.range' row (size - row)).drop 1).foldl (transpose2Col size row) m

/-- `transpose_square_2` — transpose.rs:63-81 -/
def transpose_square_2 (size : Nat) (m : Slice α) : Slice α := (List.range size).foldl (transpose2Row size) m

/-- `transpose_square_stretch` — transpose.rs:12-28; `none` is a panic -/
def transpose_square_stretch (len : Nat) (m : Slice α) (size stretch : Nat) : Option (Slice α) :=
  if len ≠ size * size * stretch then none
  else match stretch with
    | 1 => transpose_square_1 size m
    | 2 => some (transpose_square_2 size m)
    | _ => none

/-! ## small.rs and recursive.rs -/

variable {F : Type} [CommRing F]

/-- `radix_2` — small.rs:9-20 -/
def radix_2 (stride : Nat) (v : Slice F) (i : Nat) : Slice F :=
  let j := i + stride
  let temp := v i
  let v := set v i (temp + v j)
  set v j (temp - v j)

/-- `radix_2_twiddle` — small.rs:23-36 -/
def radix_2_twiddle (twiddle : F) (stride : Nat) (v : Slice F) (i : Nat) : Slice F :=
  let j := i + stride
  let temp := v i
  let v := set v j (v j * twiddle)
  let v := set v i (temp + v j)
  set v j (temp - v j)

/-- the first outer loop — recursive.rs:41-43 -/
def outerFirst (offset count stride : Nat) (v : Slice F) : Slice F :=
  (List.range' offset count).foldl (radix_2 stride) v

/-- one iteration of the second outer loop — recursive.rs:44-52; `k` is the position in the zipped iterator -/
def outerStep (tw : Slice F) (offset count stride : Nat) (v : Slice F) (k : Nat) : Slice F :=
  (List.range' (offset + 2 * stride * k) count).foldl (radix_2_twiddle (tw k) stride) v

/-- number of items of `(offset..offset + size*stride).step_by(2*stride).zip(twiddles)` -/
def blocks (size stride twLen : Nat) : Nat := min ((size * stride + 2 * stride - 1) / (2 * stride)) twLen

/-- the outer radix-2 step — recursive.rs:39-52 -/
def outer (tw : Slice F) (twLen size offset count stride : Nat) (v : Slice F) : Slice F :=
  ((List.range (blocks size stride twLen)).drop 1).foldl (outerStep tw offset count stride)
    (outerFirst offset count stride v)

/-- `fft_vec_recursive` — recursive.rs:9-54 with `max_loop = 128`; `fuel` bounds the depth of the recursion
(`size` halves at each level) -/
def fft_vec_recursive (len : Nat) (tw : Slice F) (twLen : Nat) : Nat → Slice F → Nat → Nat → Nat → Slice F
  | 0, v, _, _, _ => v
  | fuel + 1, v, offset, count, stride =>
    let size := len / stride
    if size > 1 then
      let v :=
        if stride = count ∧ count < 128 then
          fft_vec_recursive len tw twLen fuel v offset (2 * count) (2 * stride)
        else
          fft_vec_recursive len tw twLen fuel
            (fft_vec_recursive len tw twLen fuel v offset count (2 * stride)) (offset + stride) count (2 * stride)
      outer tw twLen size offset count stride v
    else v

/-- `get_twiddles` — mod.rs:159-172: the table, whose length is `size / 2` -/
def get_twiddles (root : F) (size : Nat) : Slice F := permute (size / 2) (fun i => root ^ i)

/-! ## radix_sqrt.rs -/

/-- `values.par_chunks_mut(size).enumerate().for_each(f)` on a slice of `len` elements, `size` dividing `len` -/
def chunks (len size : Nat) (f : Nat → Slice F → Slice F) (v : Slice F) : Slice F := fun i =>
  if i < len then f (i / size) (fun j => v (i / size * size + j)) (i % size) else v i

/-- multiplication of a row by the powers of the inner twiddle — radix_sqrt.rs:64-72 (loop over
`row.iter_mut().skip(1)` with a running product) -/
def twiddleRow (n : Nat) (t : F) (row : Slice F) : Slice F :=
  ((List.range' 1 (n - 1)).foldl (fun (s : Slice F × F) i => (set s.1 i (s.1 i * s.2), s.2 * t)) (row, t)).1

/-- step 5 of `radix_sqrt` on row `i` — radix_sqrt.rs:62-75 -/
def outerRow (inner outer : Nat) (root : F) (tw : Slice F) (i : Nat) (row : Slice F) : Slice F :=
  let row := if i > 0 then twiddleRow outer (root ^ permute_index inner i) row else row
  fft_vec_recursive outer tw (outer / 2) outer row 0 1 1

/-- `radix_sqrt` — radix_sqrt.rs:13-77; `none` is a panic -/
def radix_sqrt (length : Nat) (v : Slice F) (root : F) : Option (Slice F) :=
  if length ≤ 1 then some v
  else
    let inner := 2 ^ (U256.ctz64Aux 64 length / 2)
    let outer := length / inner
    let stretch := outer / inner
    let tw := get_twiddles (root ^ inner) outer
    (transpose_square_stretch length v inner stretch).bind fun v =>
    (transpose_square_stretch length
      (chunks length outer (fun _ row => fft_vec_recursive outer tw (outer / 2) outer row 0 stretch stretch) v)
      inner stretch).map fun v =>
    chunks length outer (outerRow inner outer root tw) v

/-! ## mod.rs -/

/-- `fft_root` — mod.rs:145-155 (feature `std`) -/
def fft_root (len : Nat) (v : Slice F) (root : F) : Option (Slice F) :=
  if len ≥ 1024 then radix_sqrt len v root
  else some (fft_vec_recursive len (get_twiddles root len) (len / 2) len v 0 1 1)

/-- `fft` — mod.rs:71-74, given the `root` function of the field; `none` is a panic -/
def fft (root : Nat → Option F) (len : Nat) (v : Slice F) : Option (Slice F) :=
  (root len).bind fun w => fft_root len v w

/-- running product over a slice: `v[i] *= c; c *= cofactor` — mod.rs:124-129, 137-141 -/
def shiftLoop (len : Nat) (cofactor : F) (v : Slice F) : Slice F :=
  ((List.range len).foldl (fun (s : Slice F × F) i => (set s.1 i (s.1 i * s.2), s.2 * cofactor)) (v, 1)).1

/-- `fft_cofactor` — mod.rs:121-131 -/
def fft_cofactor (root : Nat → Option F) (len : Nat) (v : Slice F) (cofactor : F) : Option (Slice F) :=
  fft root len (shiftLoop len cofactor v)

/-- `clone_shifted` (without `rayon`) — mod.rs:91-100: the new destination; `len` is the smaller length -/
def clone_shifted (len : Nat) (dst source : Slice F) (cofactor : F) : Slice F :=
  ((List.range len).foldl (fun (s : Slice F × F) i => (set s.1 i (source i * s.2), s.2 * cofactor)) (dst, 1)).1

/-- one chunk of `clone_shifted` with `rayon` — mod.rs:112-118 -/
def cloneChunk (n : Nat) (c0 cofactor : F) (dst source : Slice F) : Slice F :=
  ((List.range n).foldl (fun (s : Slice F × F) i => (set s.1 i (source i * s.2), s.2 * cofactor)) (dst, c0)).1

/-- `clone_shifted` with `rayon` — mod.rs:102-119, for equal lengths and any positive chunk size -/
def clone_shifted_par (len chunk : Nat) (dst source : Slice F) (cofactor : F) : Slice F := fun i =>
  if i < len then
    let k := i / chunk
    cloneChunk (min chunk (len - k * chunk)) (cofactor ^ (k * chunk)) cofactor
      (fun j => dst (k * chunk + j)) (fun j => source (k * chunk + j)) (i % chunk)
  else dst i

section inverse
variable {K : Type} [Field K] [DecidableEq K]

/-- `ifft` — mod.rs:76-89 -/
def ifft (root : Nat → Option K) (len : Nat) (v : Slice K) : Option (Slice K) :=
  (root len).bind fun w =>
  (finv (len : K)).bind fun il =>
  (fft_root len v (w ^ (len - 1))).map fun v => fun i => if i < len then v i * il else v i

/-- `ifft_cofactor` — mod.rs:133-143 -/
def ifft_cofactor (root : Nat → Option K) (len : Nat) (v : Slice K) (cofactor : K) : Option (Slice K) :=
  (ifft root len v).bind fun v => (finv cofactor).map fun c => shiftLoop len c v

end inverse

end OpenZKP.FFT
