import Verif.Stark.TraceTable
import Verif.Merkle.Model

/-!
# Model of `crypto/stark/src/algebraic_dag.rs`

`none` is a panic.  The two uses of Keccak are parameters: `seedHash` (the seed from the cofactor and the coset size) and `traceHash`
(the random value of a trace cell from the seed, the column and the offset).  Row arithmetic in `isize` is on integers.  `&mut self` methods return
the new graph.
-/

namespace OpenZKP
namespace Stark
namespace Dag
open Merkle (isPow2)

/-- `CHUNK_SIZE` — algebraic_dag.rs:15 -/
def CHUNK_SIZE : Nat := 16

/-- `LOOKUP_SIZE` — algebraic_dag.rs:41 -/
def LOOKUP_SIZE : Nat := 1024

/-- `Operation` — algebraic_dag.rs:88-99; an `Index` is a number, a `Table` a list -/
inductive Operation (F : Type) where
  | Constant (c : F)
  | Coset (c : F) (s : Nat)
  | Trace (c : Nat) (o : Int)
  | Add (a b : Nat)
  | Neg (a : Nat)
  | Mul (a b : Nat)
  | Inv (a : Nat)
  | Exp (a e : Nat)
  | Poly (p : List F) (a : Nat)
  | Lookup (v : List F)
  deriving DecidableEq

/-- `Node` — algebraic_dag.rs:67-84 -/
structure Node (F : Type) where
  op : Operation F
  hash : F
  period : Nat
  note : F
  values : List F
  deriving DecidableEq

/-- `AlgebraicGraph` — algebraic_dag.rs:45-63 -/
structure AlgebraicGraph (F : Type) where
  cofactor : F
  coset_size : Nat
  trace_blowup : Nat
  seed : F
  nodes : List (Node F)
  row : Nat
  deriving DecidableEq

variable {F : Type} [Field F] [DecidableEq F]

namespace AlgebraicGraph

/-- `new` — algebraic_dag.rs:159-173 -/
def new (seedHash : F → Nat → F) (cofactor : F) (coset_size trace_blowup : Nat) : Option (AlgebraicGraph F) :=
  if isPow2 coset_size then some ⟨cofactor, coset_size, trace_blowup, seedHash cofactor coset_size, [], 0⟩ else none

/-- the hash of a node — `Index<Index>`, algebraic_dag.rs:138-144 -/
def hashAt (g : AlgebraicGraph F) (i : Nat) : Option F := (g.nodes[i]?).map Node.hash

/-- the operation of a node -/
def opAt (g : AlgebraicGraph F) (i : Nat) : Option (Operation F) := (g.nodes[i]?).map Node.op

/-- the period of a node -/
def periodAt (g : AlgebraicGraph F) (i : Nat) : Option Nat := (g.nodes[i]?).map Node.period

/-- `hash` — algebraic_dag.rs:180-206 -/
def hash (traceHash : F → Nat → Int → F) (g : AlgebraicGraph F) : Operation F → Option F
  | .Constant a => some a
  | .Trace i o => some (traceHash g.seed i o)
  | .Add a b => (g.hashAt a).bind fun a => (g.hashAt b).map fun b => a + b
  | .Neg a => (g.hashAt a).map fun a => -a
  | .Mul a b => (g.hashAt a).bind fun a => (g.hashAt b).map fun b => a * b
  | .Inv a => (g.hashAt a).bind finv
  | .Exp a i => (g.hashAt a).map fun a => a ^ i
  | .Poly p a => (g.hashAt a).map fun a => Poly.evaluate p a
  | .Coset c s =>
    if s ≠ 0 ∧ g.coset_size % s = 0 then (finv g.cofactor).map fun inv => c * (g.seed * inv) ^ (g.coset_size / s) else none
  | .Lookup _ => none

/-- the match on two operands in the `Add` case of `simplify` — algebraic_dag.rs:220-227 -/
def simplifyAdd (a b : Nat) : Operation F → Operation F → Operation F
  | .Constant c, .Constant d => .Constant (c + d)
  | .Coset c1 s1, .Coset c2 s2 => if s1 = s2 then .Coset (c1 + c2) s1 else .Add a b
  | _, _ => .Add a b

/-- the match on two operands in the `Mul` case of `simplify` — algebraic_dag.rs:235-245 -/
def simplifyMul (a b : Nat) : Operation F → Operation F → Operation F
  | .Constant c, .Constant d => .Constant (c * d)
  | .Coset c1 s1, .Coset c2 s2 =>
    if s1 = 1 then .Coset (c1 * c2) s2
    else if s2 = 1 then .Coset (c2 * c1) s1
    else if s1 = s2 then .Coset (c1 * c2) (s1 / 2) else .Mul a b
  | .Constant c, .Coset d s => .Coset (c * d) s
  | .Coset d s, .Constant c => .Coset (c * d) s
  | _, _ => .Mul a b

/-- `simplify` — algebraic_dag.rs:217-276; the remainder by zero panics -/
def simplify (g : AlgebraicGraph F) : Operation F → Option (Operation F)
  | .Add a b => (g.opAt a).bind fun x => (g.opAt b).map fun y => simplifyAdd a b x y
  | .Neg a => (g.opAt a).map fun x =>
    match x with
    | .Constant c => .Constant (-c)
    | .Coset b o => .Coset (-b) o
    | _ => .Neg a
  | .Mul a b => (g.opAt a).bind fun x => (g.opAt b).map fun y => simplifyMul a b x y
  | .Exp a e => (g.opAt a).bind fun x =>
    match x with
    | .Constant c => some (.Constant (c ^ e))
    | .Coset b o => if e = 0 then none else if o % e = 0 then some (.Coset (b ^ e) (o / e)) else some (.Exp a e)
    | _ => some (.Exp a e)
  | .Inv a => (g.opAt a).bind fun x =>
    match x with
    | .Constant c => (finv c).map .Constant
    | .Coset c 1 => (finv c).map fun c => .Coset c 1
    | .Coset c 2 => (finv c).map fun c => .Coset c 2
    | _ => some (.Inv a)
  | .Poly p a => (g.opAt a).map fun x =>
    match x with
    | .Constant c => .Constant (Poly.evaluate p c)
    | .Coset c 1 => .Coset (Poly.evaluate p c) 1
    | _ => .Poly p a
  | n => some n

/-- `period` — algebraic_dag.rs:278-292 -/
def period (g : AlgebraicGraph F) : Operation F → Option Nat
  | .Constant _ => some 1
  | .Coset _ s => some s
  | .Trace _ _ => some g.coset_size
  | .Add a b | .Mul a b => (g.periodAt a).bind fun a => (g.periodAt b).map fun b => max a b
  | .Neg a | .Inv a | .Exp a _ | .Poly _ a => g.periodAt a
  | .Lookup v => some v.length

/-- `op` — algebraic_dag.rs:298-328 -/
def op (traceHash : F → Nat → Int → F) (g : AlgebraicGraph F) (operation : Operation F) : Option (AlgebraicGraph F × Nat) :=
  (g.hash traceHash operation).bind fun hash =>
  match g.nodes.findIdx? fun n => n.hash == hash with
  | some index => some (g, index)
  | none =>
    (if hash = 0 then some (.Constant 0) else if hash = 1 then some (.Constant 1) else g.simplify operation).bind fun operation =>
    (g.period operation).map fun period =>
    ({ g with nodes := g.nodes ++ [⟨operation, hash, period, 0, List.replicate CHUNK_SIZE 0⟩] }, g.nodes.length)

/-- `expression` — algebraic_dag.rs:332-367 -/
def expression (traceHash : F → Nat → Int → F) : Expr F → AlgebraicGraph F → Option (AlgebraicGraph F × Nat)
  | .X, g => g.op traceHash (.Coset g.cofactor g.coset_size)
  | .Constant a, g => g.op traceHash (.Constant a)
  | .Trace i j, g => g.op traceHash (.Trace i j)
  | .Polynomial p a, g => (expression traceHash a g).bind fun (g, a) => g.op traceHash (.Poly p a)
  | .ClaimPolynomial _ _ _ _, _ => none
  | .Add a b, g =>
    (expression traceHash a g).bind fun (g, a) => (expression traceHash b g).bind fun (g, b) => g.op traceHash (.Add a b)
  | .Neg a, g => (expression traceHash a g).bind fun (g, a) => g.op traceHash (.Neg a)
  | .Mul a b, g =>
    (expression traceHash a g).bind fun (g, a) => (expression traceHash b g).bind fun (g, b) => g.op traceHash (.Mul a b)
  | .Inv a, g => (expression traceHash a g).bind fun (g, a) => g.op traceHash (.Inv a)
  | .Exp a e, g => (expression traceHash a g).bind fun (g, a) => g.op traceHash (.Exp a e)

/-- the nodes an operation refers to, in order — the matches of algebraic_dag.rs:407-414 and 430-439 -/
def _root_.OpenZKP.Stark.Dag.Operation.children : Operation F → List Nat
  | .Add a b | .Mul a b => [a, b]
  | .Neg a | .Inv a | .Exp a _ | .Poly _ a => [a]
  | _ => []

/-- the match of algebraic_dag.rs:430-439: replaces the references -/
def _root_.OpenZKP.Stark.Dag.Operation.renumber (numbers : List Nat) : Operation F → Option (Operation F)
  | .Add a b => (numbers[a]?).bind fun a => (numbers[b]?).map fun b => .Add a b
  | .Mul a b => (numbers[a]?).bind fun a => (numbers[b]?).map fun b => .Mul a b
  | .Neg a => (numbers[a]?).map fun a => .Neg a
  | .Inv a => (numbers[a]?).map fun a => .Inv a
  | .Exp a e => (numbers[a]?).map fun a => .Exp a e
  | .Poly p a => (numbers[a]?).map fun a => .Poly p a
  | n => some n

/-- `recurse` — algebraic_dag.rs:405-415; the depth is bounded by `fuel` -/
def recurse (nodes : List (Node F)) : Nat → List Bool → Nat → Option (List Bool)
  | 0, _, _ => none
  | fuel + 1, used, i =>
    if i < used.length then
      (nodes[i]?).bind fun node => node.op.children.foldlM (recurse nodes fuel) (used.set i true)
    else none

/-- the loop of algebraic_dag.rs:422-429 -/
def renumbering : List Bool → Nat → List Nat
  | [], _ => []
  | true :: used, counter => counter :: renumbering used (counter + 1)
  | false :: used, counter => 0 :: renumbering used counter

/-- `retain` with the flags — algebraic_dag.rs:440-444 -/
def retain {α : Type} : List Bool → List α → List α
  | true :: used, x :: l => x :: retain used l
  | false :: used, _ :: l => retain used l
  | _, _ => []

/-- `tree_shake` — algebraic_dag.rs:403-447 -/
def tree_shake (g : AlgebraicGraph F) (tip : Nat) : Option (AlgebraicGraph F × Nat) :=
  (recurse g.nodes (tip + 1) (List.replicate g.nodes.length false) tip).bind fun used =>
  let numbers := renumbering used 0
  (g.nodes.mapM fun node : Node F => (node.op.renumber numbers).map fun op => { node with op := op }).bind fun nodes =>
  (numbers[tip]?).map fun index => ({ g with nodes := retain used nodes }, index)

/-- the body of the loop of `init` — algebraic_dag.rs:456-491 -/
def initNode (root : Nat → Option F) (row : Nat) (node : Node F) : Option (Node F) :=
  match node.op with
  | .Constant a => some { node with values := List.replicate CHUNK_SIZE a }
  | .Coset c s =>
    (root s).bind fun root =>
    let values := (List.range CHUNK_SIZE).map fun i => c * root ^ row * root ^ i
    if CHUNK_SIZE < s then
      (finv (root ^ CHUNK_SIZE)).map fun inv => { node with note := root ^ CHUNK_SIZE, values := values.map fun v => v * inv }
    else some { node with values := values }
  | .Lookup v =>
    if v.length ≤ CHUNK_SIZE then
      if v.length ≠ 0 ∧ CHUNK_SIZE % v.length = 0 then
        ((List.range CHUNK_SIZE).mapM fun i => v[(row + i) % v.length]?).map fun values => { node with values := values }
      else none
    else some node
  | _ => some node

/-- `init` — algebraic_dag.rs:451-493 -/
def init (root : Nat → Option F) (g : AlgebraicGraph F) (start : Nat) : Option (AlgebraicGraph F) :=
  if start % CHUNK_SIZE = 0 then
    (g.nodes.mapM (initNode root start)).map fun nodes => { g with row := start, nodes := nodes }
  else none

/-- the row of the trace table read for offset `o` — algebraic_dag.rs:511-527; the remainder takes the sign of the dividend, and a negative
row is out of bounds -/
def traceRow (trace_blowup rows row : Nat) (o : Int) : Option Nat :=
  if rows = 0 then none
  else
    let r := Int.tmod (rows + row + trace_blowup * o) rows
    if 0 ≤ r then some r.toNat else none

/-- the body of the loop of `next` — algebraic_dag.rs:506-578 -/
def nextNode (trace_blowup row : Nat) (trace_table : TraceTable F) (previous : List (Node F)) (node : Node F) : Option (Node F) :=
  let at' := fun a => (previous[a]?).map Node.values
  match node.op with
  | .Trace c o =>
    ((List.range CHUNK_SIZE).mapM fun i =>
      (traceRow trace_blowup trace_table.trace_length (row + i) o).bind fun r => trace_table.get r c).map fun values => { node with values := values }
  | .Add a b => (at' a).bind fun a => (at' b).map fun b => { node with values := List.zipWith (· + ·) a b }
  | .Neg a => (at' a).map fun a => { node with values := a.map (- ·) }
  | .Mul a b => (at' a).bind fun a => (at' b).map fun b => { node with values := List.zipWith (· * ·) a b }
  | .Inv a => (at' a).bind fun a => (invert_batch_src_dst a node.values).map fun values => { node with values := values }
  | .Exp a e => (at' a).map fun a => { node with values := a.map (· ^ e) }
  | .Poly p a => (at' a).map fun a => { node with values := a.map (Poly.evaluate p) }
  | .Coset _ s => if CHUNK_SIZE < s then some { node with values := node.values.map (· * node.note) } else some node
  | .Lookup v =>
    if CHUNK_SIZE < v.length then
      ((List.range CHUNK_SIZE).mapM fun i => v[(row + i) % v.length]?).map fun values => { node with values := values }
    else some node
  | .Constant _ => some node

/-- the loop of `next` — algebraic_dag.rs:505-579 -/
def nextNodes (trace_blowup row : Nat) (trace_table : TraceTable F) : List (Node F) → List (Node F) → Option (List (Node F))
  | previous, [] => some previous
  | previous, node :: rest =>
    (nextNode trace_blowup row trace_table previous node).bind fun node => nextNodes trace_blowup row trace_table (previous ++ [node]) rest

/-- `next` — algebraic_dag.rs:498-582 -/
def next (g : AlgebraicGraph F) (trace_table : TraceTable F) : Option (F × AlgebraicGraph F) :=
  if 0 < g.row % CHUNK_SIZE then
    (g.nodes.getLast?).bind fun node => (node.values[g.row % CHUNK_SIZE]?).map fun result => (result, { g with row := g.row + 1 })
  else
    (nextNodes g.trace_blowup g.row trace_table [] g.nodes).bind fun nodes =>
    (nodes.getLast?).bind fun node => (node.values[0]?).map fun result => (result, { g with nodes := nodes, row := g.row + 1 })

/-- `count` successive calls of `next` -/
def take (trace_table : TraceTable F) : Nat → AlgebraicGraph F → Option (List F)
  | 0, _ => some []
  | count + 1, g => (g.next trace_table).bind fun (result, g) => (take trace_table count g).map fun rest => result :: rest

/-- `make_lookup` — algebraic_dag.rs:369-381 -/
def make_lookup (root : Nat → Option F) (g : AlgebraicGraph F) (index : Nat) : Option (List F) :=
  (g.periodAt index).bind fun period =>
  if period ≤ 1024 then
    (g.tree_shake index).bind fun (subdag, _) =>
    (subdag.init root 0).bind fun subdag => take (TraceTable.new 0 0) period subdag
  else none

/-- the loop of `lookup_tables` — algebraic_dag.rs:389-399, from node `i` on, `count` nodes to go -/
def lookupLoop (root : Nat → Option F) (treshold : Nat) : Nat → Nat → AlgebraicGraph F → Option (AlgebraicGraph F)
  | 0, _, g => some g
  | count + 1, i, g =>
    (g.nodes[i]?).bind fun node =>
    if treshold < node.period then lookupLoop root treshold count (i + 1) g
    else
      match node.op with
      | .Coset _ _ => lookupLoop root treshold count (i + 1) g
      | _ =>
        (g.make_lookup root i).bind fun table =>
        lookupLoop root treshold count (i + 1) { g with nodes := g.nodes.set i { node with op := .Lookup table } }

/-- `lookup_tables` — algebraic_dag.rs:383-400 -/
def lookup_tables (root : Nat → Option F) (g : AlgebraicGraph F) : Option (AlgebraicGraph F) :=
  lookupLoop root (min LOOKUP_SIZE (g.coset_size / 2)) g.nodes.length 0 g

end AlgebraicGraph

/-- the chunks of `par_chunks_mut`: where each starts and its length -/
def chunks (size chunk : Nat) : List (Nat × Nat) :=
  (List.range ((size + chunk - 1) / chunk)).map fun i => (i * chunk, min chunk (size - i * chunk))

/-- `get_constraint_polynomials` — prover.rs:581-615: builds the graph for an expression and evaluates it on every row of the coset, in
independent chunks of 65536 rows -/
def evaluateOnCoset (root : Nat → Option F) (seedHash : F → Nat → F) (traceHash : F → Nat → Int → F) (cofactor : F)
    (coset_size trace_blowup : Nat) (trace_coset : TraceTable F) (e : Expr F) : Option (List F) :=
  (AlgebraicGraph.new seedHash cofactor trace_coset.trace_length trace_blowup).bind fun dag =>
  (dag.expression traceHash e).bind fun (dag, result) =>
  (dag.lookup_tables root).bind fun dag =>
  (dag.tree_shake result).bind fun (dag, _) =>
  (dag.init root 0).bind fun dag =>
  ((chunks coset_size 65536).mapM fun (start, count) => (dag.init root start).bind fun dag => dag.take trace_coset count).map List.flatten

end Dag
end Stark
end OpenZKP
