import Verif.Stark.Verifier
import Verif.Stark.TraceTable
import Verif.Stark.Dag

/-!
# Model of `crypto/stark/src/prover.rs`

As in the model of the verifier, a panic is `Error.Panic`, products and sums of sizes are natural numbers, an `MmapVec` is a list.  `Oracles`
holds what the prover takes from elsewhere and is not determined by its input: the hash of the evaluation graph (see the model of
`algebraic_dag.rs`) and the result of the proof-of-work search (see the model of `proof_of_work.rs`; any answer).  Logging is left out, and so
are `dbg!` and the sum `oods_value`, which is only printed.
-/

namespace OpenZKP
namespace Stark
open FFT U256

/-- `Error` — prover.rs:25-29, with a constructor for panics -/
inductive ProverError where
  | RootUnavailable
  | MerkleFailed (e : Merkle.Error)
  | VerificationFailed (e : VerifierError)
  | Panic
  deriving DecidableEq

/-- the sources of values that are not determined by the arguments of `prove` -/
structure Oracles (F : Type) where
  seedHash : F → Nat → F
  traceHash : F → Nat → Int → F
  solve : Challenge → Option Nat

/-- a panic of a part of the model -/
def pPanic {α : Type} : Option α → Except ProverError α
  | some a => .ok a
  | none => .error .Panic

/-- `?` on a Merkle result — prover.rs:42-46 -/
def pMerkle {α : Type} : Except Merkle.Error α → Except ProverError α
  | .ok a => .ok a
  | .error .Panic => .error .Panic
  | .error e => .error (.MerkleFailed e)

/-- `Hash::default()` -/
def zeroHash : Bytes := List.replicate 32 0

section
variable {F : Type} [Field F] [DecidableEq F] (env : Env F)

/-- `get_random::<FieldElement>` — channel.rs:153-165 through channel.rs:186-193 -/
def ProverChannel.getField (c : ProverChannel) : Option (F × ProverChannel) :=
  (c.coin.randomField env.K).map fun r => (env.codec.val r.1, { c with coin := r.2 })

/-- `get_coefficients` — prover.rs:707-709 -/
def ProverChannel.getFields (n : Nat) (c : ProverChannel) : Option (List F × ProverChannel) :=
  (c.coin.randomFields env.K n).map fun r => (r.1.map env.codec.val, { c with coin := r.2 })

/-- `get_random::<ChallengeSeed>` — channel.rs:126-132 through channel.rs:186-193 -/
def ProverChannel.getSeed (c : ProverChannel) : Option (Bytes × ProverChannel) :=
  c.coin.randomSeed.map fun r => (r.1, { c with coin := r.2 })

/-- `Writable<&FieldElement>` — channel.rs:261-265 -/
def ProverChannel.writeField (c : ProverChannel) (x : F) : ProverChannel := c.writeU256 env.K (env.codec.rep x)

/-- `Writable<&[FieldElement]>` — channel.rs:249-259 -/
def ProverChannel.writeFields (c : ProverChannel) (xs : List F) : ProverChannel := c.writeLayer env.K (xs.map env.codec.rep)

/-- `Writable<Vec<U256>>` — channel.rs:269-275 — for a leaf of field elements -/
def ProverChannel.writeLeaf (c : ProverChannel) (xs : List F) : ProverChannel := c.writeU256s env.K (xs.map env.codec.rep)

/-- `PolyLDE::leaf` for every index — prover.rs:64-74; `PolyLDE::leaf_hash` (76-88) is the hash of the leaf -/
def ldeLeaves (columns : List (List F)) : Option (List (List F)) :=
  match columns with
  | [] => some []
  | column :: _ => (List.range column.length).mapM fun i => columns.mapM fun c => c[i]?

/-- `FriLeaves::leaf` for every index — prover.rs:103-118, with the `debug_assert_eq!`; `FriLeaves::leaf_hash` (120-132) is the hash of the
leaf -/
def friLeaves (coset_size : Nat) (layer : List F) : Option (List (List F)) :=
  if layer.length % coset_size ≠ 0 then none
  else some ((List.range (layer.length / coset_size)).map fun i => (layer.drop (i * coset_size)).take coset_size)

/-- `Tree::from_leaves` on leaves of field elements -/
def makeTree (leaves : List (List F)) : Except ProverError (Merkle.Tree Bytes) :=
  pMerkle (Merkle.from_leaves (nodeHash env.K) zeroHash (leaves.map (elementsHash env)))

/-- extension of and commitment to polynomials — prover.rs:388-399, 427-437: the columns, the leaves and the tree -/
def commitPolys (blowup : Nat) (polys : List (List F)) (ch : ProverChannel) :
    Except ProverError ((List (List F) × List (List F) × Merkle.Tree Bytes) × ProverChannel) :=
  (pPanic (polys.mapM fun p => Poly.low_degree_extension env.root env.generator p blowup)).bind fun columns =>
  (pPanic (ldeLeaves columns)).bind fun leaves =>
  (makeTree env leaves).map fun tree => ((columns, leaves, tree), ch.writeHash env.K tree.commitment.hash)

/-- `extract_trace_coset` — prover.rs:515-529: the table is filled cell by cell; dividing by a `size` of 0 does not happen, as there are no rows
then -/
def extract_trace_coset (columns : List (List F)) (size : Nat) : Option (TraceTable F) :=
  (columns[0]?).bind fun first =>
  let lde_size := first.length
  ((List.range size).mapM fun i => columns.mapM fun lde => lde[permute_index lde_size (i * lde_size / size)]?).map fun rows =>
  ⟨size, columns.length, rows.flatten⟩

/-- `get_constraint_polynomials` — prover.rs:546-650: the polynomials and the constraints after `substitute`.  `values` has exactly
`eval_degree * trace_length` elements, so the `assert!` on the rest is void. -/
def get_constraint_polynomials (o : Oracles F) (columns : List (List F)) (c : Constraints F) (coefficients : List F) (trace_length : Nat) :
    Option (List (List F) × Constraints F) :=
  c.degree.bind fun constraint_degree =>
  let eval_degree := Merkle.next_power_of_two constraint_degree
  let coset_size := trace_length * eval_degree
  (extract_trace_coset columns coset_size).bind fun trace_coset =>
  (c.combine coefficients).bind fun combined =>
  (combined.substitute_claim c.claim_polynomials).bind fun combined =>
  c.substitute.bind fun c' =>
  (Dag.evaluateOnCoset env.root o.seedHash o.traceHash env.generator coset_size eval_degree trace_coset combined).bind fun values =>
  (ifft env.root values.length (sl values)).bind fun v =>
  (finv env.generator).bind fun shift =>
  let coefficients := (unsl values.length (permute values.length v)).mapIdx fun i y => y * shift ^ i
  ((List.range eval_degree).mapM fun i =>
    Poly.new ((List.range trace_length).map fun j => coefficients.getD (j * eval_degree + i) 0)).map fun polys => (polys, c')

/-- `oods_combine` — prover.rs:652-704; the point drawn is returned too, for use in statements -/
def oods_combine (trace_polynomials : List (List F)) (trace_arguments : List (Nat × Int)) (constraint_polynomials : List (List F))
    (ch : ProverChannel) : Option ((F × List F) × ProverChannel) :=
  (trace_polynomials[0]?).bind fun first =>
  let trace_length := first.length
  (ch.getField env).bind fun r =>
  let oods_point := r.1
  (env.root trace_length).bind fun g =>
  (trace_arguments.mapM fun a : Nat × Int => trace_polynomials[a.1]?).bind fun args =>
  let points := trace_arguments.map fun a => oods_point * g ^ a.2
  let ch := (args.zip points).foldl (fun ch a => ch.writeField env (Poly.evaluate a.1 a.2)) r.2
  let oods_point_pow := oods_point ^ constraint_polynomials.length
  let ch := constraint_polynomials.foldl (fun ch p => ch.writeField env (Poly.evaluate p oods_point_pow)) ch
  (ch.getFields env trace_arguments.length).bind fun trace_coefficients =>
  (trace_coefficients.2.getFields env constraint_polynomials.length).bind fun constraint_coefficients =>
  (Poly.zeros trace_length).map fun zeros =>
  let combined := ((args.zip points).zip trace_coefficients.1).foldl (fun t a => Poly.divide_out_point_into a.1.1 a.1.2 a.2 t) zeros
  let combined := (constraint_polynomials.zip constraint_coefficients.1).foldl (fun t a => Poly.divide_out_point_into a.1 oods_point_pow a.2 t) combined
  ((oods_point, combined), constraint_coefficients.2)

/-- a committed FRI layer -/
structure FriTree (F : Type) where
  coset_size : Nat
  layer : List F
  tree : Merkle.Tree Bytes

/-- the loop of `perform_fri_layering` — prover.rs:737-822: the trees and the last layer -/
def friCommit (x_inv : List F) : List Nat → List F → ProverChannel → Except ProverError ((List (FriTree F) × List F) × ProverChannel)
  | [], layer, ch => .ok (([], layer), ch)
  | n_reductions :: layout, layer, ch =>
    if 64 ≤ n_reductions then .error .Panic
    else
      let coset_size := 2 ^ n_reductions
      (pPanic (friLeaves coset_size layer)).bind fun leaves =>
      (makeTree env leaves).bind fun tree =>
      (pPanic ((ch.writeHash env.K tree.commitment.hash).getField env)).bind fun c =>
      (pPanic (foldLayer x_inv n_reductions c.1 layer)).bind fun next_layer =>
      (friCommit x_inv layout next_layer c.2).map fun r => ((⟨coset_size, layer, tree⟩ :: r.1.1, r.1.2), r.2)

/-- `perform_fri_layering` — prover.rs:711-833 -/
def perform_fri_layering (first_layer : List F) (fri_layout : List Nat) (blowup : Nat) (ch : ProverChannel) :
    Except ProverError (List (FriTree F) × ProverChannel) :=
  match env.root first_layer.length with
  | none => .error .RootUnavailable
  | some _ =>
    (pPanic (friInverses env.root first_layer.length)).bind fun x_inv =>
    (friCommit env x_inv fri_layout first_layer ch).bind fun r =>
    (pPanic (friFinal env.root blowup r.1.2)).map fun points => (r.1.1, r.2.writeFields env points)

/-- writing leaves and their Merkle proof — prover.rs:488-491, 495-498 -/
def openLeaves (leaves : List (List F)) (tree : Merkle.Tree Bytes) (indices : List Nat) (ch : ProverChannel) : Except ProverError ProverChannel :=
  (pPanic (indices.mapM fun i => leaves[i]?)).bind fun values =>
  let ch := values.foldl (fun ch v => ch.writeLeaf env v) ch
  (pMerkle (Merkle.openAt (nodeHash env.K) tree indices)).map fun proof => ch.writeHashes env.K proof.hashes

/-- the values of a layer that were not opened before — prover.rs:851-860 -/
def writeCosets (layer : List F) (previous : List Nat) : List Nat → ProverChannel → Option ProverChannel
  | [], ch => some ch
  | n :: ns, ch =>
    match env.search previous n with
    | some _ => writeCosets layer previous ns ch
    | none => (layer[n]?).bind fun x => writeCosets layer previous ns (ch.writeField env x)

/-- `decommit_fri_layers_and_trees` — prover.rs:835-865 -/
def decommit_fri_layers_and_trees : List (FriTree F) → List Nat → ProverChannel → Except ProverError ProverChannel
  | [], _, ch => .ok ch
  | t :: trees, previous, ch =>
    let new_indices := Merkle.dedupBy id (previous.map (· / t.coset_size))
    (pPanic (writeCosets env t.layer previous (new_indices.flatMap fun i => (List.range t.coset_size).map fun j => i * t.coset_size + j) ch)).bind fun ch =>
    (pMerkle (Merkle.openAt (nodeHash env.K) t.tree new_indices)).bind fun proof =>
    decommit_fri_layers_and_trees trees new_indices (ch.writeHashes env.K proof.hashes)

/-- what is needed from the commitment phase; the coefficients and the point drawn are kept for use in statements -/
structure Committed (F : Type) where
  trace_leaves : List (List F)
  trace_tree : Merkle.Tree Bytes
  constraint_leaves : List (List F)
  constraint_tree : Merkle.Tree Bytes
  fri_trees : List (FriTree F)
  queries : List Nat
  constraint_coefficients : List F
  oods_point : F

/-- the first part of `prove` — prover.rs:372-484: everything up to the drawing of the queries -/
def commitPhase (o : Oracles F) (c : Constraints F) (trace : TraceTable F) : Except ProverError (Committed F × ProverChannel) :=
  (pPanic (trace.interpolate env.root)).bind fun trace_polynomials =>
  (commitPolys env c.blowup trace_polynomials (ProverChannel.init env.K c.channel_seed)).bind fun t =>
  (pPanic (t.2.getFields env (2 * c.expressions.length))).bind fun constraint_coefficients =>
  (pPanic (get_constraint_polynomials env o t.1.1 c constraint_coefficients.1 trace.trace_length)).bind fun p =>
  (commitPolys env p.2.blowup p.1 constraint_coefficients.2).bind fun s =>
  (pPanic p.2.trace_arguments).bind fun trace_arguments =>
  (pPanic (oods_combine env trace_polynomials trace_arguments p.1 s.2)).bind fun oods =>
  (pPanic (Poly.low_degree_extension env.root env.generator oods.1.2 p.2.blowup)).bind fun first_fri_layer =>
  (perform_fri_layering env first_fri_layer p.2.fri_layout p.2.blowup oods.2).bind fun fri =>
  (pPanic fri.2.getSeed).bind fun pow_seed =>
  (pPanic (with_difficulty env.K pow_seed.1 p.2.pow_bits)).bind fun challenge =>
  (pPanic (o.solve challenge)).bind fun response =>
  if challenge.verify env.K response = false then .error .Panic
  else
    (pPanic (csub (64 - Merkle.leading_zeros (trace.trace_length * p.2.blowup)) 1)).bind fun bits =>
    (pPanic ((pow_seed.2.writeResponse env.K response).get_indices env.K true p.2.num_queries bits)).map fun queries =>
    (⟨t.1.2.1, t.1.2.2, s.1.2.1, s.1.2.2, fri.1, queries.1, constraint_coefficients.1, oods.1.1⟩, queries.2)

/-- the second part of `prove` — prover.rs:486-502: the decommitments -/
def decommitPhase (s : Committed F) (ch : ProverChannel) : Except ProverError ProverChannel :=
  (openLeaves env s.trace_leaves s.trace_tree s.queries ch).bind fun ch =>
  (openLeaves env s.constraint_leaves s.constraint_tree s.queries ch).bind fun ch =>
  decommit_fri_layers_and_trees env s.fri_trees s.queries ch

/-- `prove` — prover.rs:347-512: ends with a verification of the proof -/
def prove (o : Oracles F) (c : Constraints F) (trace : TraceTable F) : Except ProverError Bytes :=
  (commitPhase env o c trace).bind fun s =>
  (decommitPhase env s.1 s.2).bind fun ch =>
  match verify env c ch.proof with
  | .ok _ => .ok ch.proof
  | .error .Panic => .error .Panic
  | .error e => .error (.VerificationFailed e)

end

end Stark
end OpenZKP
