import Verif.Stark.Component
import Verif.Stark.Verifier
import Verif.Stark.Prover
import Verif.EC.Model

/-!
# Model of the example `crypto/stark/examples/pedersen_merkle` and of `prove` and `verify` of components

`uint` and `element` are the conversions between field elements and integers (`U256::from(&FieldElement)`, `FieldElement::from(U256)`).  The constants of
`pedersen_points.rs` and `periodic_columns.rs` are a parameter (`Tables`); their values are in Examples/PedersenTables.lean.  `none` is a panic.

Not modelled: the command line of `main.rs`, the instance of `starkware_example.rs`.
-/

namespace OpenZKP
namespace Stark
namespace Component
variable {F : Type} [Field F] [DecidableEq F] {C W : Type}

/-- the constraint system that `prove` and `verify` make for a claim — component/mod.rs:88-95, 99-107; the seed of the channel is empty -/
def system (root : Nat → Option F) (c : Component F C W) (claim : C) : Option (Constraints F) :=
  c.polynomial_size.bind fun size =>
  (c.constraints claim).bind fun expressions =>
  match Constraints.from_expressions root size c.num_polynomials [] expressions with
  | .ok constraints => some constraints
  | .error _ => none

/-- `Component::prove` — component/mod.rs:87-97 -/
def prove (env : Env F) (o : Oracles F) (c : Component F C W) (witness : W) : Except ProverError Bytes :=
  (pPanic (c.system env.root (c.claim witness))).bind fun constraints =>
  (pPanic (c.trace_table witness)).bind fun trace =>
  Stark.prove env o constraints trace

/-- `Component::verify` — component/mod.rs:99-107 -/
def verify (env : Env F) (c : Component F C W) (claim : C) (proof : Bytes) : Except VerifierError Unit :=
  (orPanic (c.system env.root claim)).bind fun constraints => Stark.verify env constraints proof

end Component
end Stark

namespace Examples
namespace Pedersen
open Stark EC

/-- the constants — pedersen_points.rs:28-2058, periodic_columns.rs:5-1042 -/
structure Tables (F : Type) where
  shift : Affine F
  points : List (Affine F)
  left_x : List F
  left_y : List F
  right_x : List F
  right_y : List F

section
variable {F : Type} [Field F] [DecidableEq F]

/-- a loop of `merkle_hash` — pedersen_points.rs:10-15, 16-21 -/
def hashLoop (points : List (Affine F)) (offset : Nat) : Nat → Nat → U256 → Jacobian F → Option (Jacobian F)
  | 0, _, _, point => some point
  | n + 1, i, source, point =>
    (if U256.bit source 0 then (points[offset + i]?).map fun p => Jacobian.addMixed point p else some point).bind fun point =>
    hashLoop points offset n (i + 1) (U256.shr source 1) point

/-- `merkle_hash` — pedersen_points.rs:6-26 -/
def merkle_hash (uint : F → U256) (T : Tables F) (left right : F) : Option F :=
  (hashLoop T.points 1 253 0 (uint left) (Jacobian.ofAffine T.shift)).bind fun point =>
  (hashLoop T.points 253 253 0 (uint right) point).bind fun point =>
  match Jacobian.toAffine point with
  | .Zero => none
  | .Point x _ => some x

/-- `get_slope` — component.rs:17-21 -/
def get_slope : Affine F → Affine F → Option F
  | .Point x_1 y_1, .Point x_2 y_2 => fdiv (y_1 - y_2) (x_1 - x_2)
  | _, _ => none

/-! ## `MerkleTreeLayer` -/

/-- `MerkleTreeLayer::constraints` — component.rs:62-140 -/
def layerConstraints (root : Nat → Option F) (T : Tables F) : Option (List (Expr F)) :=
  match T.shift with
  | .Zero => none
  | .Point shift_point_x shift_point_y =>
    (Poly.new T.left_x).bind fun left_x =>
    (Poly.new T.left_y).bind fun left_y =>
    (Poly.new T.right_x).bind fun right_x =>
    (Poly.new T.right_y).bind fun right_y =>
    (root 256).map fun omega =>
    let periodic_left_x : Expr F := .Polynomial left_x .X
    let periodic_left_y : Expr F := .Polynomial left_y .X
    let periodic_right_x : Expr F := .Polynomial right_x .X
    let periodic_right_y : Expr F := .Polynomial right_y .X
    let row := fun i : Nat => Expr.sub .X (.Constant (omega ^ i))
    let all_rows : Expr F := Expr.sub (Expr.pow .X 256) (.Constant 1)
    let on_no_hash_rows := fun a => Expr.div a (row 255)
    let on_hash_start_rows := fun a => Expr.div a (row 0)
    let on_hash_loop_rows := fun a => Expr.div (Expr.mul a (row 255)) all_rows
    let on_fe_end_rows := fun a => Expr.div a (row 252)
    let left_bit : Expr F := Expr.sub (.Trace 0 0) (Expr.mul (.Trace 0 1) (.Constant 2))
    let right_bit : Expr F := Expr.sub (.Trace 4 0) (Expr.mul (.Trace 4 1) (.Constant 2))
    [ on_hash_start_rows (Expr.sub (.Trace 6 0) (.Constant shift_point_x)),
      on_hash_start_rows (Expr.sub (.Trace 7 0) (.Constant shift_point_y)),
      on_hash_loop_rows (Expr.mul left_bit (Expr.sub left_bit (.Constant 1))),
      on_hash_loop_rows (Expr.sub (Expr.mul left_bit (Expr.sub (.Trace 7 0) periodic_left_y))
        (Expr.mul (.Trace 1 1) (Expr.sub (.Trace 6 0) periodic_left_x))),
      on_hash_loop_rows (Expr.sub (Expr.mul (.Trace 1 1) (.Trace 1 1))
        (Expr.mul left_bit (Expr.add (Expr.add (.Trace 6 0) periodic_left_x) (.Trace 2 1)))),
      on_hash_loop_rows (Expr.sub (Expr.mul left_bit (Expr.add (.Trace 7 0) (.Trace 3 1)))
        (Expr.mul (.Trace 1 1) (Expr.sub (.Trace 6 0) (.Trace 2 1)))),
      on_hash_loop_rows (Expr.mul (Expr.sub (.Constant 1) left_bit) (Expr.sub (.Trace 6 0) (.Trace 2 1))),
      on_hash_loop_rows (Expr.mul (Expr.sub (.Constant 1) left_bit) (Expr.sub (.Trace 7 0) (.Trace 3 1))),
      on_fe_end_rows (.Trace 0 0),
      on_no_hash_rows (.Trace 0 0),
      on_hash_loop_rows (Expr.mul right_bit (Expr.sub right_bit (.Constant 1))),
      on_hash_loop_rows (Expr.sub (Expr.mul right_bit (Expr.sub (.Trace 3 1) periodic_right_y))
        (Expr.mul (.Trace 5 1) (Expr.sub (.Trace 2 1) periodic_right_x))),
      on_hash_loop_rows (Expr.sub (Expr.mul (.Trace 5 1) (.Trace 5 1))
        (Expr.mul right_bit (Expr.add (Expr.add (.Trace 2 1) periodic_right_x) (.Trace 6 1)))),
      on_hash_loop_rows (Expr.sub (Expr.mul right_bit (Expr.add (.Trace 3 1) (.Trace 7 1)))
        (Expr.mul (.Trace 5 1) (Expr.sub (.Trace 2 1) (.Trace 6 1)))),
      on_hash_loop_rows (Expr.mul (Expr.sub (.Constant 1) right_bit) (Expr.sub (.Trace 2 1) (.Trace 6 1))),
      on_hash_loop_rows (Expr.mul (Expr.sub (.Constant 1) right_bit) (Expr.sub (.Trace 3 1) (.Trace 7 1))),
      on_fe_end_rows (.Trace 4 0),
      on_no_hash_rows (.Trace 4 0)]

/-- the variables of the loop of `MerkleTreeLayer::trace` — component.rs:152-158 -/
structure LayerState (F : Type) where
  left_source : U256
  right_source : U256
  left_point : Affine F
  right_point : Affine F
  left_slope : F
  right_slope : F

/-- one of the two conditional additions: slope and sum — component.rs:161-165, 167-171 -/
def addBit (points : List (Affine F)) (point : Affine F) (bit : Bool) (index : Nat) : Option (F × Affine F) :=
  if bit then
    (points[index]?).bind fun p =>
    (get_slope point p).bind fun slope =>
    (Affine.add point p).map fun sum => (slope, sum)
  else some (0, point)

/-- the body of the loop up to the writes — component.rs:157-174 -/
def layerStep (points : List (Affine F)) (bit_index : Nat) (s : LayerState F) : Option (LayerState F) :=
  if bit_index > 0 then
    (addBit points s.right_point (U256.bit s.left_source 0) bit_index).bind fun left =>
    (addBit points left.2 (U256.bit s.right_source 0) (bit_index + 252)).map fun right =>
    ⟨U256.shr s.left_source 1, U256.shr s.right_source 1, left.2, right.2, left.1, right.1⟩
  else some { s with left_slope := 0, right_slope := 0 }

/-- `x().cloned().unwrap_or_else(FieldElement::zero)` -/
def coordX : Affine F → F
  | .Zero => 0
  | .Point x _ => x

/-- `y().cloned().unwrap_or_else(FieldElement::zero)` -/
def coordY : Affine F → F
  | .Zero => 0
  | .Point _ y => y

/-- the writes of a turn — component.rs:175-198 -/
def layerCells (element : U256 → F) (bit_index : Nat) (s : LayerState F) : List (Nat × Nat × F) :=
  [(0, bit_index, element s.left_source), (1, bit_index, s.left_slope), (2, bit_index, coordX s.left_point), (3, bit_index, coordY s.left_point),
    (4, bit_index, element s.right_source), (5, bit_index, s.right_slope), (6, bit_index, coordX s.right_point), (7, bit_index, coordY s.right_point)]

/-- the loop of `MerkleTreeLayer::trace` — component.rs:156-199 -/
def layerLoop (element : U256 → F) (points : List (Affine F)) : Nat → Nat → LayerState F → Option (List (Nat × Nat × F))
  | 0, _, _ => some []
  | n + 1, bit_index, s =>
    (layerStep points bit_index s).bind fun s =>
    (layerLoop element points n (bit_index + 1) s).map fun ws => layerCells element bit_index s ++ ws

/-- `MerkleTreeLayer::trace` — component.rs:142-200 -/
def layerTrace (uint : F → U256) (element : U256 → F) (T : Tables F) (w : F × F × Bool) : Option (List (Nat × Nat × F)) :=
  let (leaf, sibling, direction) := w
  let (left, right) := if direction then (sibling, leaf) else (leaf, sibling)
  layerLoop element T.points 256 0 ⟨uint left, uint right, .Zero, T.shift, 0, 0⟩

/-- `MerkleTreeLayer` — component.rs:23-201 -/
def MerkleTreeLayer (root : Nat → Option F) (uint : F → U256) (element : U256 → F) (T : Tables F) : Component F Unit (F × F × Bool) where
  num_polynomials := 8
  polynomial_size := some 256
  claim := fun _ => ()
  constraints := fun _ => layerConstraints root T
  trace := layerTrace uint element T

/-! ## Claims and witnesses -/

/-- `Claim` — inputs.rs:7-11 -/
structure Claim (F : Type) where
  path_length : Nat
  leaf : F
  root : F

/-- `Witness` — inputs.rs:15-19 -/
structure Witness (F : Type) where
  path : List (Bool × F)
  leaf : F
  root : F

/-- one step up — inputs.rs:25-31, component.rs:288-292 -/
def stepUp (hash : F → F → Option F) (leaf : F) (node : Bool × F) : Option F :=
  if node.1 then hash node.2 leaf else hash leaf node.2

/-- `Witness::new` — inputs.rs:22-33 -/
def Witness.new (hash : F → F → Option F) (leaf : F) (path : List (Bool × F)) : Option (Witness F) :=
  (path.foldlM (stepUp hash) leaf).map fun root => ⟨path, leaf, root⟩

/-- `From<&Witness> for Claim` — inputs.rs:36-44 -/
def Claim.ofWitness (w : Witness F) : Claim F := ⟨w.path.length, w.leaf, w.root⟩

/-! ## `MerkleTree` -/

/-- the expressions of `MerkleTree::constraints` made for the claim — component.rs:250-276; `layers` are the constraints of the layers, `omega` is
`FieldElement::root(trace_length)` -/
def treeConstraints (layers : List (Expr F)) (omega : F) (path_length : Nat) (claim : Claim F) : Option (List (Expr F)) :=
  let trace_length := 256 * path_length
  let row := fun i : Nat => Expr.sub .X (.Constant (omega ^ i))
  (csub trace_length 1).bind fun last_row =>
  (csub trace_length path_length).bind fun before_last =>
  (csub path_length 1).map fun last_layer =>
  let constraints := layers.insertIdx 0 (Expr.div (Expr.mul (Expr.mul (Expr.sub (.Trace 6 0) (.Trace 0 1)) (Expr.sub (.Trace 6 0) (.Trace 4 1))) (row last_row))
    (Expr.sub (Expr.pow .X path_length) (.Constant (omega ^ before_last))))
  let constraints := constraints.insertIdx 0 (Expr.div (Expr.mul (Expr.sub (.Constant claim.leaf) (.Trace 0 0)) (Expr.sub (.Constant claim.leaf) (.Trace 4 0))) (row 0))
  let constraints := constraints.insertIdx 1 (Expr.div (Expr.sub (.Constant claim.root) (.Trace 6 0)) (row (255 + last_layer * 256)))
  (List.range 8).foldl (fun constraints i => constraints.insertIdx i (.Trace i 0)) constraints

/-- the witnesses of the layers — component.rs:282-295 -/
def layerWitnesses (hash : F → F → Option F) : F → List (Bool × F) → Option (List (F × F × Bool))
  | _, [] => some []
  | leaf, (direction, sibling) :: path =>
    (stepUp hash leaf (direction, sibling)).bind fun next =>
    (layerWitnesses hash next path).map fun ws => (leaf, sibling, direction) :: ws

/-- `MerkleTree` — component.rs:203-298, with layers made by `Vertical::new(layer, depth)` -/
def MerkleTree (dbg : Bool) (root : Nat → Option F) (uint : F → U256) (element : U256 → F) (T : Tables F) (depth : Nat) :
    Option (Component F (Claim F) (Witness F)) :=
  (Component.Vertical.new dbg (MerkleTreeLayer root uint element T) depth).map fun layers => {
    num_polynomials := layers.num_polynomials
    polynomial_size := layers.polynomial_size
    claim := Claim.ofWitness
    constraints := fun claim =>
      (layers.constraints (List.replicate depth ())).bind fun constraints =>
      layers.polynomial_size.bind fun trace_length =>
      (root trace_length).bind fun omega =>
      treeConstraints constraints omega depth claim
    trace := fun witness =>
      (layerWitnesses (merkle_hash uint T) witness.leaf witness.path).bind layers.trace }

end
end Pedersen
end Examples
end OpenZKP
