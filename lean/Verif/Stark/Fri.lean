import Verif.Stark.Poly
import Verif.Stark.Channel
import Verif.U256.Conversion
import Verif.Field.Generic
import Mathlib.Data.List.Sort

/-!
# Model of the FRI folding and of the drawing of query positions

`crypto/stark/src/prover.rs` (`perform_fri_layering`, `get_indices`) and `crypto/stark/src/verifier.rs`
(`fri_fold`, `fri_single_fold`, `get_indices`).  `none` is a panic.
-/

namespace OpenZKP
namespace Stark
open FFT

section
variable {F : Type} [Field F] [DecidableEq F]

/-- one `.tuples().zip(x_inv).map(..)` stage — prover.rs:752-755: an unpaired last element is dropped and the stage
ends with the shorter of the two iterators -/
def foldPairs (c : F) : List F → List F → List F
  | p0 :: p1 :: ps, x_inv :: xs => ((p0 + p1) + c * x_inv * (p0 - p1)) :: foldPairs c ps xs
  | _, _ => []

/-- `n` stages with the coefficients `c`, `c^2`, `c^4`, ... — prover.rs:748-812 (the four match arms written once) -/
def foldStages (x_inv : List F) : Nat → F → List F → List F
  | 0, _, layer => layer
  | n + 1, c, layer => foldStages x_inv n (c ^ 2) (foldPairs c layer x_inv)

/-- the match of prover.rs:747-814: `unimplemented!()` outside `1..=4` -/
def foldLayer (x_inv : List F) (n_reductions : Nat) (c : F) (layer : List F) : Option (List F) :=
  if 1 ≤ n_reductions ∧ n_reductions ≤ 4 then some (foldStages x_inv n_reductions c layer) else none

/-- the inverses of the points — prover.rs:720-735, with the accumulator of iteration `i` written `root_inv ^ i`;
`Error::RootUnavailable` also gives `none` here -/
def friInverses (root : Nat → Option F) (n : Nat) : Option (List F) :=
  (root n).bind fun w => (finv w).map fun root_inv =>
  unsl (n / 2) (permute (n / 2) (sl ((List.range (n / 2)).map fun i => root_inv ^ i)))

/-- the coefficients of the last layer — prover.rs:817-822.  Slicing past the end and a division by zero panic; so does
`ifft` without a root (`unwrap`). -/
def friFinal (root : Nat → Option F) (blowup : Nat) (layer : List F) : Option (List F) :=
  if blowup = 0 then none else
  let n := layer.length / blowup
  (ifft root n (permute n (sl (layer.take n)))).map fun v => unsl n (permute n v)

/-- `fri_single_fold` — verifier.rs:469-476; the division panics for `x = 0` -/
def fri_single_fold (poly_at_x poly_at_neg_x x eval_point : F) : Option F :=
  (finv x).map fun x_inv => (poly_at_x + poly_at_neg_x) + eval_point * x_inv * (poly_at_x - poly_at_neg_x)

/-- the inner loop of `fri_fold` — verifier.rs:456-459, from pair `k` on; the indexing panics out of range -/
def friFoldPairs (eval_x : List F) (eval_point : F) (step index len : Nat) : Nat → List F → Option (List F)
  | _, [] => some []
  | _, [_] => none
  | k, p0 :: p1 :: rest =>
    (eval_x[permute_index (len / 2) (index + k) * step]?).bind fun x =>
    (fri_single_fold p0 p1 x eval_point).bind fun v =>
    (friFoldPairs eval_x eval_point step index len (k + 1) rest).map fun vs => v :: vs

/-- the outer loop of `fri_fold` — verifier.rs:453-466; `fuel` bounds the iterations (each halves the coset, so the
length of the coset suffices) -/
def friFoldLoop (eval_x : List F) : Nat → List F → F → Nat → Nat → Nat → Option F
  | 0, _, _, _, _, _ => none
  | fuel + 1, coset, eval_point, step, index, len =>
    if 1 < coset.length then
      (friFoldPairs eval_x eval_point step index len 0 coset).bind fun next =>
      friFoldLoop eval_x fuel next (eval_point ^ 2) (step * 2) (index / 2) (len / 2)
    else coset[0]?

/-- `fri_fold` — verifier.rs:443-467 -/
def fri_fold (coset : List F) (eval_point : F) (step index len : Nat) (eval_x : List F) : Option F :=
  friFoldLoop eval_x (coset.length + 1) coset eval_point step index len

end

/-! ## Query positions -/

/-- `2_u64.pow(bits) - 1` — verifier.rs:431-437 and `2_usize.pow(bits) - 1` — prover.rs:535.  The power overflows from
64 bits on: a panic with overflow checks, otherwise it wraps to 0 and the difference to the largest word. -/
def indexMask (dbg : Bool) (bits : Nat) : Option UInt64 :=
  if bits < 64 then some (UInt64.ofNat (2 ^ bits) - 1) else if dbg then none else some (0 - 1)

section
variable (K : Keccak)

/-- one iteration of the prover's loop — prover.rs:534-539: `as_usize` of the shifted values -/
def proverFour (val : U256) (mask : UInt64) : List Nat :=
  [(UInt64.ofNat (U256.as_uint 64 (U256.shr val (0x100 - 0x040))) &&& mask).toNat,
   (UInt64.ofNat (U256.as_uint 64 (U256.shr val (0x100 - 0x080))) &&& mask).toNat,
   (UInt64.ofNat (U256.as_uint 64 (U256.shr val (0x100 - 0x0C0))) &&& mask).toNat,
   (UInt64.ofNat (U256.as_uint 64 val) &&& mask).toNat]

/-- one iteration of the verifier's loop — verifier.rs:429-438: the lowest limbs -/
def verifierFour (val : U256) (mask : UInt64) : List Nat :=
  [((U256.shr val (0x100 - 0x040)).l0 &&& mask).toNat,
   ((U256.shr val (0x100 - 0x080)).l0 &&& mask).toNat,
   ((U256.shr val (0x100 - 0x0C0)).l0 &&& mask).toNat,
   (val.l0 &&& mask).toNat]

/-- the loop `while query_indices.len() < num` — prover.rs:533-540 and verifier.rs:428-438; every iteration adds four,
so `num` iterations suffice -/
def indexLoop (four : U256 → UInt64 → List Nat) (dbg : Bool) (num bits : Nat) :
    Nat → List Nat → PublicCoin → Option (List Nat × PublicCoin)
  | 0, acc, c => if acc.length < num then none else some (acc, c)
  | fuel + 1, acc, c =>
    if acc.length < num then
      (c.randomU256 K).bind fun r =>
      (indexMask dbg bits).bind fun mask =>
      indexLoop four dbg num bits fuel (acc ++ four r.1 mask) r.2
    else some (acc, c)

/-- `truncate` and `sort_unstable` — prover.rs:541-542, verifier.rs:439-440; sorting is modelled by insertion sort -/
def sortTruncate (num : Nat) (l : List Nat) : List Nat := (l.take num).insertionSort (· ≤ ·)

/-- `get_indices` of the prover — prover.rs:531-544 -/
def ProverChannel.get_indices (dbg : Bool) (num bits : Nat) (c : ProverChannel) : Option (List Nat × ProverChannel) :=
  (indexLoop K proverFour dbg num bits num [] c.coin).map fun r => (sortTruncate num r.1, { c with coin := r.2 })

/-- `get_indices` of the verifier — verifier.rs:426-441 -/
def VerifierChannel.get_indices (dbg : Bool) (num bits : Nat) (c : VerifierChannel) : Option (List Nat × VerifierChannel) :=
  (indexLoop K verifierFour dbg num bits num [] c.coin).map fun r => (sortTruncate num r.1, { c with coin := r.2 })

end

end Stark
end OpenZKP
