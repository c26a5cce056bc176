import Verif.Evm.Merkle
import Verif.Evm.Utils

/-!
# Model of the contract `Fri` (crypto/stark-verifier-ethereum/contracts/fri.sol)

`none` is a revert.  Indices of arrays are checked as in Solidity.  Sums of positions and sizes are those of natural numbers (positions are below `2^64`, so that the
words do not wrap).  Not modelled here: the events of `Trace` (see `Evm/FriEvents`).
-/

namespace OpenZKP
namespace Evm
namespace Fri
open PrimeField MerkleVerifier Stark

/-- what a call of `verify_merkle_proof` finds: gas for the rounds of the loop, the memory behind the decommitment, the scratch space -/
structure Mem where
  gas : Nat
  beyond : Nat → Bytes
  s0 : Bytes
  s1 : Bytes

/-- fri.sol:42 -/
def MAX_COSET_SIZE : Nat := 8
/-- fri.sol:46 -/
def OROOT1 : Nat := 0x063365fe0de874d9c90adb1e2f9c676e98c62155e4412e873ada5e1dee6feebb
/-- fri.sol:47 -/
def OROOT2 : Nat := 0x0625023929a2995b533120664329f8c7c5268e56ac8320da2a616626f41337e3
/-- fri.sol:48 -/
def OROOT3 : Nat := 0x03b912c31d6a226e4a15988c6b7ec1915474043aac68553537192090b43635cd
/-- fri.sol:49 -/
def OROOT4 : Nat := 0x0800000000000011000000000000000000000000000000000000000000000000
/-- fri.sol:50 -/
def OROOT5 : Nat := 0x01cc9a01f2178b3736f524e1d06398916739deaa1bbed178c525a1e211901146
/-- fri.sol:51 -/
def OROOT6 : Nat := 0x01dafdc6d65d66b5accedf99bcd607383ad971a9537cdf25d59e99d90becc81e
/-- fri.sol:52 -/
def OROOT7 : Nat := 0x0446ed3ce295dda2b5ea677394813e6eab8bfbc55397aacac8e6df6f4bc9ca34

/-- `LayerContext.roots` — fri.sol:112 -/
def roots : List Nat := [1, OROOT4, OROOT2, OROOT6, OROOT1, OROOT5, OROOT3, OROOT7]

/-- `fold` — fri.sol:307-318 -/
def fold (positive negative factor : Nat) : Nat :=
  let even := wadd positive negative
  let odd := wsub (wadd positive MODULUS) negative
  addmod even (mulmod factor odd MODULUS) MODULUS

/-- `fold_coset` — fri.sol:264-303: the folded value and the next `x_inv` -/
def fold_coset (coset : List Nat) (x_inv eval_point : Nat) : Option (Nat × Nat) :=
  let factor := mulmod eval_point x_inv MODULUS
  match coset with
  | [c0, c1, c2, c3, c4, c5, c6, c7] =>
    let a := fold c0 c1 factor
    let b := fold c2 c3 (mulmod factor OROOT6 MODULUS)
    let c := fold c4 c5 (mulmod factor OROOT7 MODULUS)
    let d := fold c6 c7 (mulmod factor OROOT5 MODULUS)
    let factor := mulmod factor factor MODULUS
    let a := fold a b factor
    let b := fold c d (mulmod factor OROOT6 MODULUS)
    let factor := mulmod factor factor MODULUS
    let result := fold a b factor
    let x_inv := mulmod x_inv x_inv MODULUS
    let x_inv := mulmod x_inv x_inv MODULUS
    some (result, mulmod x_inv x_inv MODULUS)
  | [c0, c1, c2, c3] =>
    let a := fold c0 c1 factor
    let b := fold c2 c3 (mulmod factor OROOT6 MODULUS)
    let factor := mulmod factor factor MODULUS
    let result := fold a b factor
    let x_inv := mulmod x_inv x_inv MODULUS
    some (result, mulmod x_inv x_inv MODULUS)
  | [c0, c1] => some (fold c0 c1 factor, mulmod x_inv x_inv MODULUS)
  | c0 :: _ => some (c0, 0)
  | [] => none

/-- the loop collecting a coset — fri.sol:228-245: the values of `count` positions from `index` on, and the next positions to read -/
def collect (values indices completion : List Nat) : Nat → Nat → Nat → Nat → Nat → Option (List Nat × Nat × Nat)
  | 0, _, _, read, comp => some ([], read, comp)
  | count + 1, index, next_index, read, comp =>
    if next_index = index then
      values[read]?.bind fun v =>
      let next_index := indices.getD (read + 1) next_index
      (collect values indices completion count (index + 1) next_index (read + 1) comp).map fun r => (v :: r.1, r.2)
    else
      completion[comp]?.bind fun v =>
      (collect values indices completion count (index + 1) next_index read (comp + 1)).map fun r => (v :: r.1, r.2)

/-- writing an element of an array -/
def store {α : Type} (l : List α) (i : Nat) (x : α) : Option (List α) := if i < l.length then some (l.set i x) else none

variable (K : Keccak)

/-- the arrays changed by `fold_layer` -/
structure Arrays where
  values : List Nat
  indices : List Nat
  x_inv : List Nat
  hashes : List Bytes

/-- the loop over the cosets and the end of `fold_layer` — fri.sol:208-259; `fuel` bounds the rounds (each reads at least one value) -/
def foldLayerLoop (coset_size eval_point : Nat) (completion : List Nat) : Nat → Arrays → Nat → Nat → Nat → Option Arrays
  | 0, _, _, _, _ => none
  | fuel + 1, a, read, write, comp =>
    if read < a.values.length then
      a.indices[read]?.bind fun next_index =>
      let coset_start := next_index - next_index % coset_size
      a.x_inv[read]?.bind fun x_inv =>
      roots[next_index - coset_start]?.bind fun r =>
      let x_inv := fmul x_inv r
      (collect a.values a.indices completion coset_size coset_start next_index read comp).bind fun c =>
      (store a.hashes write (merkle_leaf_hash K c.1)).bind fun hashes =>
      (fold_coset c.1 x_inv eval_point).bind fun f =>
      (store a.values write f.1).bind fun values =>
      (store a.x_inv write f.2).bind fun x_inv =>
      (store a.indices write (coset_start / coset_size)).bind fun indices =>
      foldLayerLoop coset_size eval_point completion fuel ⟨values, indices, x_inv, hashes⟩ c.2.1 (write + 1) c.2.2
    else
      (Utils.truncate a.values write).bind fun values =>
      (Utils.truncate a.indices write).map fun indices => { a with values, indices }

/-- `fold_layer` — fri.sol:198-261 -/
def fold_layer (a : Arrays) (completion : List Nat) (eval_point coset_size : Nat) : Option Arrays :=
  foldLayerLoop K coset_size eval_point completion (a.values.length + 1) a 0 0 0

/-- `FriContext` — fri.sol:20-30 -/
structure FriContext where
  fri_values : List (List Nat)
  fri_commitments : List Bytes
  fri_decommitments : List (List Bytes)
  fri_layout : List Nat
  eval_points : List Nat
  log_eval_domain_size : Nat
  queries : List Nat
  polynomial_at_queries : List Nat
  last_layer_coefficients : List Nat

/-- the loop over the layers — fri.sol:134-176: `layout` is the rest of the layout from layer `i` on; the result is the arrays, `log_size` and `generator` -/
def layers (ctx : FriContext) (mem : Nat → Mem) : List Nat → Nat → Arrays → Nat → Nat → Nat → Option (Arrays × Nat × Nat)
  | [], _, a, _, log_size, generator => some (a, log_size, generator)
  | n :: layout, i, a, size, log_size, generator =>
    let coset_size := wshl 1 n
    if coset_size ≤ MAX_COSET_SIZE then
      ctx.fri_values[i]?.bind fun completion =>
      ctx.eval_points[i]?.bind fun eval_point =>
      (fold_layer K a completion (from_montgomery eval_point) coset_size).bind fun a =>
      (Utils.truncate a.hashes a.indices.length).bind fun hashes =>
      let next_layer_size := size / coset_size
      let merkle_indices := a.indices.map fun j => j + next_layer_size
      ctx.fri_commitments[i]?.bind fun root =>
      ctx.fri_decommitments[i]?.bind fun decommitment =>
      if verify_merkle_proof K (mem i).gas (mem i).beyond (mem i).s0 (mem i).s1 root hashes merkle_indices decommitment = some true then
        layers ctx mem layout (i + 1) { a with hashes } next_layer_size (wsub log_size n) (fpow generator coset_size)
      else none
    else none

/-- the check of the last layer — fri.sol:183-191 -/
def lastLayer (ctx : FriContext) (a : Arrays) (log_size generator : Nat) : Option Unit :=
  (List.range a.values.length).foldlM (init := ()) fun _ i =>
    a.indices[i]?.bind fun q =>
    a.values[i]?.bind fun v =>
    let x := fpow generator (Utils.bit_reverse2 q log_size)
    if horner_eval ctx.last_layer_coefficients x = v then some () else none

/-- `fold_and_check_fri_layers` — fri.sol:109-194.  Copying the indices for the Merkle verification (which changes its arguments) is not modelled: `merkle_indices` has the
length of `queries`, so the copy does not revert.  Neither is what the verification leaves in `merkle_val`: the next layer overwrites as much of it as it reads. -/
def fold_and_check_fri_layers (ctx : FriContext) (mem : Nat → Mem) : Option Unit :=
  ctx.fri_layout[0]?.bind fun _ =>
  let size := wshl 1 ctx.log_eval_domain_size
  (PrimeField.root size).bind fun generator =>
  let x_inv := ctx.queries.map fun q => fpow generator (wsub size (Utils.bit_reverse2 q ctx.log_eval_domain_size))
  let a : Arrays := ⟨ctx.polynomial_at_queries, ctx.queries, x_inv, List.replicate ctx.queries.length []⟩
  (layers K ctx mem ctx.fri_layout 0 a size ctx.log_eval_domain_size generator).bind fun r =>
  lastLayer ctx r.1 r.2.1 r.2.2

end Fri
end Evm
end OpenZKP
