import Verif.Evm.Fri
import Verif.Evm.Events

/-!
# The folding of the verifier contract together with the events it emits (crypto/stark-verifier-ethereum/contracts/fri.sol)

The functions of `Evm/Fri` with the list of events beside the result.  An event is its name and its direction, as in `Evm/Events`; a revert leaves no events.
-/

namespace OpenZKP
namespace Evm
namespace FriEvents
open Fri PrimeField MerkleVerifier Stark
open Events (Event turns)

variable (K : Keccak)

/-- the loop over the cosets and the end of `fold_layer` with its events — fri.sol:213-259; `fuel` bounds the rounds -/
def foldLayerLoop (coset_size eval_point : Nat) (completion : List Nat) : Nat → Arrays → Nat → Nat → Nat → Option (List Event × Arrays)
  | 0, _, _, _, _ => none
  | fuel + 1, a, read, write, comp =>
    if read < a.values.length then
      a.indices[read]?.bind fun next_index =>
      let coset_start := next_index - next_index % coset_size
      a.x_inv[read]?.bind fun x_inv =>
      roots[next_index - coset_start]?.bind fun r =>
      let x_inv := fmul x_inv r
      (collect a.values a.indices completion coset_size coset_start next_index read comp).bind fun c =>
      (store a.hashes write (merkle_leaf_hash K c.1)).bind fun hashes =>
      (Fri.fold_coset c.1 x_inv eval_point).bind fun f =>
      (store a.values write f.1).bind fun values =>
      (store a.x_inv write f.2).bind fun x_inv =>
      (store a.indices write (coset_start / coset_size)).bind fun indices =>
      (foldLayerLoop coset_size eval_point completion fuel ⟨values, indices, x_inv, hashes⟩ c.2.1 (write + 1) c.2.2).map fun r =>
        (Events.trace "fold_layer_collect" true ++ Events.trace "fold_layer_collect" false ++ Events.fold_coset ++ r.1, r.2)
    else
      (Utils.truncate a.values write).bind fun values =>
      (Utils.truncate a.indices write).map fun indices => ([], { a with values, indices })

/-- `fold_layer` with its events — fri.sol:198-261 -/
def fold_layer (a : Arrays) (completion : List Nat) (eval_point coset_size : Nat) : Option (List Event × Arrays) :=
  (foldLayerLoop K coset_size eval_point completion (a.values.length + 1) a 0 0 0).map fun r =>
    (Events.trace "fold_layer" true ++ r.1 ++ Events.trace "fold_layer" false, r.2)

/-- the loop over the layers with its events — fri.sol:134-176 -/
def layers (ctx : FriContext) (mem : Nat → Mem) : List Nat → Nat → Arrays → Nat → Nat → Nat → Option (List Event × Arrays × Nat × Nat)
  | [], _, a, _, log_size, generator => some ([], a, log_size, generator)
  | n :: layout, i, a, size, log_size, generator =>
    let coset_size := wshl 1 n
    if coset_size ≤ MAX_COSET_SIZE then
      ctx.fri_values[i]?.bind fun completion =>
      ctx.eval_points[i]?.bind fun eval_point =>
      (fold_layer K a completion (from_montgomery eval_point) coset_size).bind fun ea =>
      let a := ea.2
      (Utils.truncate a.hashes a.indices.length).bind fun hashes =>
      let next_layer_size := size / coset_size
      let merkle_indices := a.indices.map fun j => j + next_layer_size
      ctx.fri_commitments[i]?.bind fun root =>
      ctx.fri_decommitments[i]?.bind fun decommitment =>
      if MerkleVerifier.verify_merkle_proof K (mem i).gas (mem i).beyond (mem i).s0 (mem i).s1 root hashes merkle_indices decommitment = some true then
        (layers ctx mem layout (i + 1) { a with hashes } next_layer_size (wsub log_size n) (fpow generator coset_size)).map fun r =>
          (ea.1 ++ Events.verify_merkle_proof ++ r.1, r.2)
      else none
    else none

/-- `fold_and_check_fri_layers` with its events — fri.sol:109-194; the loop over the last layer enters its section once for every value (fri.sol:183-191) -/
def fold_and_check_fri_layers (ctx : FriContext) (mem : Nat → Mem) : Option (List Event) :=
  ctx.fri_layout[0]?.bind fun _ =>
  let size := wshl 1 ctx.log_eval_domain_size
  (PrimeField.root size).bind fun generator =>
  let x_inv := ctx.queries.map fun q => fpow generator (wsub size (Utils.bit_reverse2 q ctx.log_eval_domain_size))
  let a : Arrays := ⟨ctx.polynomial_at_queries, ctx.queries, x_inv, List.replicate ctx.queries.length []⟩
  (layers K ctx mem ctx.fri_layout 0 a size ctx.log_eval_domain_size generator).bind fun r =>
  (lastLayer ctx r.2.1 r.2.2.1 r.2.2.2).map fun _ =>
    Events.trace "fold_and_check_fri_layers" true ++ Events.trace "init_x_inv" true ++ Events.trace "init_x_inv" false ++ r.1 ++
    Events.trace "last_layer" true ++ turns r.2.1.values.length (Events.trace "horner_eval" true ++ Events.trace "horner_eval" false) ++ Events.trace "last_layer" false ++
    Events.trace "fold_and_check_fri_layers" false

end FriEvents
end Evm
end OpenZKP
