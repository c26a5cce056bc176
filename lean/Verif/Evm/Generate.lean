import Verif.Evm.FieldLemmas
import Verif.Evm.DefaultCs
import Verif.Stark.Constraints

/-!
# Model of the generator of contracts (crypto/stark/src/solidity_verifier.rs) and of the contracts it generates (crypto/stark/assets)

`none` is a panic in the generator and a revert in the contracts.  Files, templates and the text of the contracts are not modelled: where the generator writes an expression of the
language Yul as text the model has its tree (`Yul`), and a generated contract is its context (the values filled in the template) together with an interpreter for the template.
Expressions are ordered by a 64-bit hash (rational_expression.rs:338-414, SipHash of the standard library): the hash is a parameter `key`; that hashing a `Polynomial` of a trace cell panics is
not modelled.  The parts of the wrapper contract marked as to be written by hand (`FIX ME`) are not modelled.
-/

namespace OpenZKP
namespace Evm
namespace Generate
open Stark PrimeField

/-! ## Maps and sets of the standard library, ordered by a key -/

/-- `BTreeMap::insert` (standard library) on the pairs in ascending order; an equal key stays and gets the new value -/
def mapInsert {K V : Type} (key : K → Nat) (e : K) (v : V) : List (K × V) → List (K × V)
  | [] => [(e, v)]
  | (f, w) :: l => if key e < key f then (e, v) :: (f, w) :: l else if key e = key f then (f, v) :: l else (f, w) :: mapInsert key e v l

/-- `BTreeMap::get` (standard library) -/
def mapGet {K V : Type} (key : K → Nat) (e : K) (l : List (K × V)) : Option V := (l.find? fun p => key p.1 = key e).map Prod.snd

/-- `BTreeSet::insert` (standard library), and `BTreeMap::insert` of the value `true` -/
def setInsert {K : Type} (key : K → Nat) (e : K) : List K → List K
  | [] => [e]
  | f :: l => if key e < key f then e :: f :: l else if key e = key f then f :: l else f :: setInsert key e l

/-- `extend` (standard library) -/
def setExtend {K : Type} (key : K → Nat) (s t : List K) : List K := t.foldl (fun s e => setInsert key e s) s

/-! ## The searches -/

abbrev E := Expr (ZMod MODULUS)

/-- `trace_search` — solidity_verifier.rs:194-210 -/
def trace_search (key : E → Nat) : E → List E
  | .X | .Constant _ => []
  | .Trace i j => [.Trace i j]
  | .Add a b | .Mul a b => setExtend key (trace_search key a) (trace_search key b)
  | .ClaimPolynomial _ _ a _ | .Polynomial _ a | .Inv a | .Exp a _ | .Neg a => trace_search key a

/-- `inv_search` — solidity_verifier.rs:212-226 -/
def inv_search (key : E → Nat) : E → List E
  | .X | .Constant _ | .Trace _ _ => []
  | .Add a b | .Mul a b => setExtend key (inv_search key a) (inv_search key b)
  | .Inv a => [.Inv a]
  | .ClaimPolynomial _ _ a _ | .Polynomial _ a | .Exp a _ | .Neg a => inv_search key a

/-- `periodic_search` — solidity_verifier.rs:228-242 -/
def periodic_search (key : E → Nat) : E → List E
  | .X | .Constant _ | .Trace _ _ | .ClaimPolynomial _ _ _ _ => []
  | .Polynomial p a => [.Polynomial p a]
  | .Add a b | .Mul a b => setExtend key (periodic_search key a) (periodic_search key b)
  | .Inv a | .Exp a _ | .Neg a => periodic_search key a

/-- `claim_polynomial_search` — solidity_verifier.rs:244-259 -/
def claim_polynomial_search (key : E → Nat) : E → List E
  | .ClaimPolynomial i n a name => [.ClaimPolynomial i n a name]
  | .X | .Constant _ | .Trace _ _ | .Polynomial _ _ => []
  | .Add a b | .Mul a b => setExtend key (claim_polynomial_search key a) (claim_polynomial_search key b)
  | .Inv a | .Exp a _ | .Neg a => claim_polynomial_search key a

/-! ## Expressions of the language Yul -/

/-- the expressions the generator writes; the modulus is always `mload(callvalue())`, and `callvalue()` is zero -/
inductive Yul where
  | lit (n : Nat)
  | mload (p : Nat)
  | calldataload (p : Nat)
  | addmod (a b : Yul)
  | sub (a : Yul)
  | mulmod (a b : Yul)
  | exp2 (a : Yul)
  | exp3 (a : Yul)
  | exp4 (a : Yul)
  | small_expmod (a : Yul) (n : Nat)
  | mid_expmod (a : Yul) (n : Nat)
  deriving DecidableEq, Repr

/-- the power `k` of an expression that is not a power itself — solidity_verifier.rs:165-184 -/
def encodePower (k : Nat) (a : Option Yul) : Option Yul :=
  if k = 0 then some (.lit 1)
  else if k = 1 then a
  else if k = 2 then a.map .exp2
  else if k = 3 then a.map .exp3
  else if k = 4 then a.map .exp4
  else if k < 16 then a.map (.small_expmod · k)
  else a.map (.mid_expmod · k)

/-- what the map has for an expression, or else the encoding — solidity_verifier.rs:135-137 -/
def orElse (key : E → Nat) (m : List (E × Yul)) (e : E) (otherwise : Option Yul) : Option Yul :=
  match mapGet key e m with
  | some s => some s
  | none => otherwise

/-- the encoding of an expression (`none`), or of a power of it that is not in the map (`some k`) -/
def raise (self : Option Yul) : Option Nat → Option Yul
  | none => self
  | some k => encodePower k self

/-- `soldity_encode` — solidity_verifier.rs:130-192: of the expression (`none`), or of its power `k` when that is not in the map (`some k`), which the code does by calling itself on
the power.  The product of exponents panics on overflow (profiles without overflow checks wrap; not modelled). -/
def encode (key : E → Nat) (m : List (E × Yul)) : E → Option Nat → Option Yul
  | .X, k => raise (orElse key m .X none) k
  | .Constant c, k => raise (orElse key m (.Constant c) (some (.lit c.val))) k
  | .Trace i j, k => raise (orElse key m (.Trace i j) none) k
  | .Polynomial p a, k => raise (orElse key m (.Polynomial p a) none) k
  | .ClaimPolynomial i n a name, k => raise (orElse key m (.ClaimPolynomial i n a name) none) k
  | .Add a b, k => raise (orElse key m (.Add a b) ((encode key m a none).bind fun x => (encode key m b none).map fun y => .addmod x y)) k
  | .Neg a, k => raise (orElse key m (.Neg a) ((encode key m a none).map .sub)) k
  | .Mul a b, k => raise (orElse key m (.Mul a b) ((encode key m a none).bind fun x => (encode key m b none).map fun y => .mulmod x y)) k
  | .Inv a, k => raise (orElse key m (.Inv a) none) k
  | .Exp a f, none => orElse key m (.Exp a f) (encode key m a (some f))
  | .Exp a f, some k => if k * f < 2 ^ 64 then orElse key m (.Exp a (k * f)) (encode key m a (some (k * f))) else none

/-- `soldity_encode` — solidity_verifier.rs:130-192 -/
def soldity_encode (key : E → Nat) (m : List (E × Yul)) (e : E) : Option Yul := encode key m e none

/-! ## The contract that evaluates the constraints -/

/-- `Constraint` — solidity_verifier.rs:50-56 -/
structure ConstraintContext where
  first_coefficient_location : Nat
  second_coefficient_location : Nat
  degree_adjustment_location : Yul
  expression : Yul

/-- `OodsPolyContext` — solidity_verifier.rs:58-77, with `DegreeAdjustment` (location, exponent) and `BatchInvert` (location, expression) — 38-48 -/
structure OodsPolyContext where
  degree_adjustments : List (Nat × Nat)
  batch_inverted : List (Nat × Yul)
  constraints : List ConstraintContext
  expmod_context : Nat
  products_to_values : Nat
  partial_product_end_ptr : Nat
  partial_product_start_ptr : Nat
  first_partial_product_ptr : Nat
  last_partial_product_ptr : Nat

/-- the loops that give places in the calldata to expressions — solidity_verifier.rs:675-700: from the word `index` on -/
def addInputs (key : E → Nat) : List E → Nat → List (E × Yul) → List (E × Yul)
  | [], _, m => m
  | e :: es, index, m => addInputs key es (index + 1) (mapInsert key e (.calldataload (index * 32)) m)

/-- the loop over the adjustments of the degree — solidity_verifier.rs:711-725 -/
def addAdjustments (key : E → Nat) : List Nat → Nat → List (E × Yul) → List (Nat × Nat) → Nat × List (E × Yul) × List (Nat × Nat)
  | [], index, m, acc => (index, m, acc)
  | d :: ds, index, m, acc =>
    if (mapGet key (.Exp .X d) m).isNone then addAdjustments key ds (index + 1) (mapInsert key (.Exp .X d) (.mload (index * 32)) m) (acc ++ [(index * 32, d)])
    else addAdjustments key ds index m acc

/-- the loop over the inverses — solidity_verifier.rs:733-750 -/
def addInverses (key : E → Nat) : List E → Nat → Nat → List (E × Yul) → List (Nat × Yul) → Option (List (E × Yul) × List (Nat × Yul))
  | [], _, _, m, acc => some (m, acc)
  | e :: es, index, inverse_position, m, acc =>
    match e with
    | .Inv a => (soldity_encode key m a).bind fun s =>
      addInverses key es (index + 1) (inverse_position + 1) (mapInsert key (.Inv a) (.mload (inverse_position * 32)) m) (acc ++ [(index * 32, s)])
    | _ => none

/-- the loop over the constraints — solidity_verifier.rs:759-776 -/
def addConstraints (key : E → Nat) (m : List (E × Yul)) : List (E × Nat) → Nat → Option (List ConstraintContext)
  | [], _ => some []
  | (e, d) :: es, coefficient_index =>
    (mapGet key (.Exp .X d) m).bind fun location =>
    (soldity_encode key m e).bind fun expression =>
    (addConstraints key m es (coefficient_index + 2)).map fun rest =>
    ⟨coefficient_index * 32, (coefficient_index + 1) * 32, location, expression⟩ :: rest

/-- `write_oods_poly` — solidity_verifier.rs:645-776: the context -/
def write_oods_poly (key : E → Nat) (num_constraints : Nat) (claims inverses traces periodic : List E) (adjustment_degrees : List Nat) (expressions : List E) : Option OodsPolyContext :=
  let m := mapInsert key .X (.calldataload 0) []
  let m := addInputs key claims 1 m
  let m := addInputs key periodic (1 + claims.length) m
  let m := addInputs key traces (1 + claims.length + periodic.length + num_constraints * 2) m
  let (inverse_start_index, m, degree_adjustments) := addAdjustments key adjustment_degrees 1 m []
  let index := inverse_start_index + inverses.length
  (addInverses key inverses index inverse_start_index m []).bind fun (m, batch_inverted) =>
  (addConstraints key m (expressions.zip adjustment_degrees) (1 + claims.length + periodic.length)).map fun constraints =>
  { degree_adjustments := degree_adjustments
    batch_inverted := batch_inverted
    constraints := constraints
    expmod_context := (index + inverses.length) * 32
    products_to_values := inverses.length * 32
    partial_product_end_ptr := (inverse_start_index + inverses.length) * 32
    partial_product_start_ptr := inverse_start_index * 32
    first_partial_product_ptr := inverse_start_index * 32
    last_partial_product_ptr := (inverse_start_index + inverses.length) * 32 }

/-! ## Its template: assets/OodsPoly.sol -/

/-- memory: the word at an address (all addresses are multiples of 32) -/
abbrev Mem := Nat → Nat

/-- `mstore` -/
def Mem.store (m : Mem) (p v : Nat) : Mem := fun q => if q = p then v else m q

/-- `calldataload` of a word (the calldata is made of words); zero behind the end -/
def load (data : List Nat) (p : Nat) : Nat := data.getD (p / 32) 0

/-- `expmod` — OodsPoly.sol:16-29, with its context at `p`; the precompiled contract does not fail -/
def expmod (p : Nat) (base exponent : Nat) (m : Mem) : Mem × Nat :=
  let m := m.store p 0x20
  let m := m.store (p + 0x20) 0x20
  let m := m.store (p + 0x40) 0x20
  let m := m.store (p + 0x60) base
  let m := m.store (p + 0x80) exponent
  let m := m.store (p + 0xa0) (m 0)
  let m := m.store p (modexp (m (p + 0x60)) (m (p + 0x80)) (m (p + 0xa0)))
  (m, m p)

/-- the value of an expression, and the memory after evaluating it; arguments are evaluated from the right — `exp2`, `exp3`, `exp4`, `small_expmod`, `mid_expmod` are
OodsPoly.sol:46-77 -/
def eval (p : Nat) (data : List Nat) : Yul → Mem → Mem × Nat
  | .lit n, m => (m, n)
  | .mload q, m => (m, m q)
  | .calldataload q, m => (m, load data q)
  | .addmod a b, m =>
    let q := m 0
    let (m, y) := eval p data b m
    let (m, x) := eval p data a m
    (m, Evm.addmod x y q)
  | .sub a, m =>
    let (m, x) := eval p data a m
    (m, wsub (m 0) x)
  | .mulmod a b, m =>
    let q := m 0
    let (m, y) := eval p data b m
    let (m, x) := eval p data a m
    (m, Evm.mulmod x y q)
  | .exp2 a, m =>
    let (m, x) := eval p data a m
    (m, Evm.mulmod x x (m 0))
  | .exp3 a, m =>
    let (m, x) := eval p data a m
    (m, Evm.mulmod (Evm.mulmod x x (m 0)) x (m 0))
  | .exp4 a, m =>
    let (m, x) := eval p data a m
    let result := Evm.mulmod x x (m 0)
    (m, Evm.mulmod result result (m 0))
  | .small_expmod a n, m =>
    let (m, x) := eval p data a m
    (m, (List.range n).foldl (fun result _ => Evm.mulmod result x (m 0)) 1)
  | .mid_expmod a n, m =>
    let (m, x) := eval p data a m
    expmod p x n m

/-- the statements `mstore(location, expression)` — OodsPoly.sol:79-87 -/
def storeAll (p : Nat) (data : List Nat) : List (Nat × Yul) → Mem → Mem
  | [], m => m
  | (location, e) :: l, m =>
    let (m, v) := eval p data e m
    storeAll p data l (m.store location v)

/-- the first loop of the batch inversion — OodsPoly.sol:97-106; the first argument bounds the turns (gas) -/
def productLoop (end_ptr products_to_values : Nat) : Nat → Nat → Mem → Nat → Option (Mem × Nat)
  | 0, _, _, _ => none
  | gas + 1, ptr, m, prod =>
    if ptr < end_ptr then
      let m := m.store ptr prod
      productLoop end_ptr products_to_values gas (ptr + 0x20) m (Evm.mulmod prod (m (ptr + products_to_values)) (m 0))
    else some (m, prod)

/-- the second loop of the batch inversion — OodsPoly.sol:116-142 -/
def inverseLoop (first products_to_values : Nat) : Nat → Nat → Mem → Nat → Option Mem
  | 0, _, _, _ => none
  | gas + 1, ptr, m, prod_inv =>
    if first < ptr then
      let ptr := ptr - 0x20
      let m := m.store ptr (Evm.mulmod (m ptr) prod_inv (m 0))
      inverseLoop first products_to_values gas ptr m (Evm.mulmod prod_inv (m (ptr + products_to_values)) (m 0))
    else some m

/-- the statement for a constraint — OodsPoly.sol:146-150 -/
def addTerm (p : Nat) (data : List Nat) (c : ConstraintContext) (s : Mem × Nat) : Mem × Nat :=
  let (m, val) := eval p data c.expression s.1
  let (m, adjustment) := eval p data c.degree_adjustment_location m
  (m, Evm.addmod s.2 (Evm.mulmod val (wadd (load data c.first_coefficient_location) (Evm.mulmod (load data c.second_coefficient_location) adjustment (m 0))) (m 0)) (m 0))

/-- a call of the contract with these words as calldata: OodsPoly.sol; the memory is zero at first -/
def OodsPolyContext.call (c : OodsPolyContext) (gas callvalue : Nat) (data : List Nat) : Option Nat :=
  if callvalue ≠ 0 then none
  else
    let m : Mem := Mem.store (fun _ => 0) 0 0x800000000000011000000000000000000000000000000000000000000000001
    let m := storeAll c.expmod_context data (c.degree_adjustments.map fun a => (a.1, .mid_expmod (.calldataload 0) a.2)) m
    let m := storeAll c.expmod_context data c.batch_inverted m
    (productLoop c.partial_product_end_ptr c.products_to_values gas c.partial_product_start_ptr m 1).bind fun (m, prod) =>
    let (m, prod_inv) := expmod c.expmod_context prod (wsub (m 0) 2) m
    (inverseLoop c.first_partial_product_ptr c.products_to_values gas c.last_partial_product_ptr m prod_inv).map fun m =>
    (c.constraints.foldl (fun s t => addTerm c.expmod_context data t s) (m, 0)).2

/-! ## The contract with the layout of the trace -/

/-- `lexicographic_compare` — solidity_verifier.rs:778-798: not after; `none` panics -/
def lexicographicLe : E → E → Option Bool
  | .Trace i j, .Trace x y => some (decide (i < x) || (decide (i = x) && decide (j ≤ y)))
  | _, _ => none

/-- insertion in a stable sort by `lexicographic_compare` -/
def sortInsert (e : E) : List E → Option (List E)
  | [] => some [e]
  | f :: l => (lexicographicLe e f).bind fun le => if le then some (e :: f :: l) else (sortInsert e l).map (f :: ·)

/-- `sort_by` (standard library) with `lexicographic_compare` (the sort is stable, so it is insertion sort in its effect) -/
def sortTraces : List E → Option (List E)
  | [] => some []
  | e :: l => (sortTraces l).bind (sortInsert e)

/-- `isize as usize` -/
def asUsize (j : Int) : Nat := (j % 2 ^ 64).toNat

/-- insertion in ascending order without repetition: `sort_unstable` and `dedup` (standard library) -/
def rowInsert (r : Nat) : List Nat → List Nat
  | [] => [r]
  | s :: l => if r < s then r :: s :: l else if r = s then s :: l else s :: rowInsert r l

/-- the row of a key of the trace — solidity_verifier.rs:602-609 -/
def rowOf : E → Option Nat
  | .Trace _ j => some (asUsize j)
  | _ => none

/-- the two words of a cell in the layout of the columns — solidity_verifier.rs:625-637 -/
def cellLayout (rows : List Nat) : E → Option (List Nat)
  | .Trace i j => if j < 0 then none else some [i * 32, 32 * rows.idxOf j.toNat]
  | _ => none

/-- `autogen_trace_layout` — solidity_verifier.rs:577-643, read as the constants of the contract `Trace.sol` inherits from (default_cs.sol) -/
def autogen_trace_layout (trace_keys : List E) (n_cols constraint_degree blowup : Nat) : Option DefaultCs.System :=
  (trace_keys.mapM rowOf).bind fun rows =>
  let rows := rows.foldl (fun l r => rowInsert r l) []
  (trace_keys.mapM (cellLayout rows)).map fun cells => ⟨constraint_degree, rows.length, n_cols, blowup, rows, cells.flatten⟩

/-! ## Periodic columns: assets/Periodic.sol -/

/-- the statements for the coefficients after the first — Periodic.sol:9-17 -/
def periodicSteps (x : Nat) : List Nat → Nat → Nat
  | [], y => y
  | [c], y => Evm.addmod (Evm.mulmod x y MODULUS) c MODULUS
  | c :: cs, y => periodicSteps x cs (wadd (Evm.mulmod x y MODULUS) c)

/-- `evaluate` — Periodic.sol:4-18, with the coefficients `autogen_periodic` — solidity_verifier.rs:496-531 — writes: from the highest down -/
def periodic (p : List (ZMod MODULUS)) (x : Nat) : Nat :=
  match p.reverse.map ZMod.val with
  | [] => 0
  | c :: cs => periodicSteps x cs c

/-- `extract_power` — solidity_verifier.rs:482-494 -/
def extract_power : E → Option Nat
  | .X => some 1
  | .Exp a power => (extract_power a).map (power * ·)
  | _ => none

/-! ## The wrapper contract: assets/Wrapper.sol -/

/-- `PeriodicColumnEvaluation` — solidity_verifier.rs:103-108; the contract is the one with number `name` -/
structure PeriodicColumnEvaluation where
  name : Nat
  index : Nat
  exponent : Nat

/-- `WrapperContext` — solidity_verifier.rs:110-128, with the coefficients of the periodic contracts; for the names of the public inputs the model has the expressions they are for -/
structure WrapperContext where
  public_inputs : List E
  number_of_constraints : Nat
  total_input_memory_size : Nat
  trace_layout_len : Nat
  number_of_public_inputs : Nat
  coefficient_offset : Nat
  periodic_contracts : List (List (ZMod MODULUS))
  periodic_column_evaluations : List PeriodicColumnEvaluation
  constraint_input_size : Nat

/-- the loop that numbers the polynomials — solidity_verifier.rs:429-447 -/
def namePolynomials (pkey : List (ZMod MODULUS) → Nat) : List E → List (List (ZMod MODULUS) × Nat) → List (List (ZMod MODULUS)) → Option (List (List (ZMod MODULUS) × Nat) × List (List (ZMod MODULUS)))
  | [], m, contracts => some (m, contracts)
  | .Polynomial p _ :: es, m, contracts =>
    if (mapGet pkey p m).isNone then namePolynomials pkey es (mapInsert pkey p contracts.length m) (contracts ++ [p]) else namePolynomials pkey es m contracts
  | _ :: _, _, _ => none

/-- the loop over the periodic columns — solidity_verifier.rs:451-471 -/
def evaluations (pkey : List (ZMod MODULUS) → Nat) (m : List (List (ZMod MODULUS) × Nat)) : List E → Nat → Option (List PeriodicColumnEvaluation)
  | [], _ => some []
  | .Polynomial p a :: es, index =>
    (mapGet pkey p m).bind fun name => (extract_power a).bind fun exponent => (evaluations pkey m es (index + 1)).map fun rest => ⟨name, index, exponent⟩ :: rest
  | _ :: _, _ => none

/-- `autogen_wrapper_contract` — solidity_verifier.rs:380-480 -/
def autogen_wrapper_contract (pkey : List (ZMod MODULUS) → Nat) (claims periodic_polys : List E) (num_constraints trace_layout_len : Nat) : Option WrapperContext :=
  if claims.all (fun e => match e with | .ClaimPolynomial _ _ _ _ => true | _ => false) then
    (namePolynomials pkey periodic_polys [] []).bind fun (m, contracts) =>
    (evaluations pkey m periodic_polys (1 + claims.length)).map fun evaluations =>
    { public_inputs := claims
      number_of_constraints := num_constraints
      total_input_memory_size := 1 + claims.length + periodic_polys.length + 2 * num_constraints + trace_layout_len
      trace_layout_len := trace_layout_len
      number_of_public_inputs := claims.length
      coefficient_offset := 1 + claims.length + periodic_polys.length
      periodic_contracts := contracts
      periodic_column_evaluations := evaluations
      constraint_input_size := 32 * (1 + claims.length + periodic_polys.length + 2 * num_constraints + trace_layout_len) }
  else none

/-- writing `values` from position `i` on; outside it reverts — Wrapper.sol:118-129 -/
def fill : List Nat → Nat → List Nat → Option (List Nat)
  | [], _, context => some context
  | v :: vs, i, context => (DefaultCs.write context i v).bind fun context => fill vs (i + 1) context

/-- the calls of the periodic contracts — Wrapper.sol:113-115 -/
def fillPeriodic (contracts : List (List (ZMod MODULUS))) (x : Nat) : List PeriodicColumnEvaluation → List Nat → Option (List Nat)
  | [], context => some context
  | pc :: pcs, context =>
    (contracts[pc.name]?).bind fun p => (DefaultCs.write context pc.index (periodic p (fpow x pc.exponent))).bind fun context => fillPeriodic contracts x pcs context

/-- `evaluate_oods_point` — Wrapper.sol:95-150, without the call: the words it calls the constraint contract with.  `public_values` are the values to be written by hand for the claim
polynomials. -/
def WrapperContext.callContext (w : WrapperContext) (oods_point : Nat) (public_values constraint_coefficients trace_oods_values : List Nat) : Option (List Nat) :=
  let x := fmul_mont oods_point 1
  let context := List.replicate w.total_input_memory_size 0
  (DefaultCs.write context 0 x).bind fun context =>
  (fill (public_values.take w.number_of_public_inputs) 1 context).bind fun context =>
  (fillPeriodic w.periodic_contracts x w.periodic_column_evaluations context).bind fun context =>
  (fill constraint_coefficients w.coefficient_offset context).bind fun context =>
  (fill (trace_oods_values.map fun v => fmul_mont v 1) (w.coefficient_offset + constraint_coefficients.length) context).map fun context =>
  context.take (w.constraint_input_size / 32)

/-! ## `generate` -/

/-- the contracts generated for a system -/
structure Generated where
  oods_poly : OodsPolyContext
  trace : DefaultCs.System
  wrapper : WrapperContext

/-- the sets of keys, collected over the constraints — solidity_verifier.rs:307-316 -/
def collect (key : E → Nat) (search : E → List E) (es : List E) : List E := es.foldl (fun s e => setExtend key s (search e)) []

/-- `generate` — solidity_verifier.rs:297-378, with `autogen_oods_contract` — 533-575; errors of files and templates are not modelled -/
def generate (key : E → Nat) (pkey : List (ZMod MODULUS) → Nat) (c : Constraints (ZMod MODULUS)) : Option Generated :=
  let claims := collect key (claim_polynomial_search key) c.expressions
  let periodic := collect key (periodic_search key) c.expressions
  let inverses := collect key (inv_search key) c.expressions
  (sortTraces (collect key (trace_search key) c.expressions)).bind fun trace_keys =>
  (autogen_wrapper_contract pkey claims periodic c.expressions.length trace_keys.length).bind fun wrapper =>
  (c.expressions.mapM fun e => csub e.trace_degree.1 e.trace_degree.2).bind fun degrees =>
  (Constraints.maxOf degrees).bind fun max_degree =>
  (csub (c.trace_nrows * max_degree) 1).bind fun target_degree =>
  (csub c.trace_nrows 1).bind fun trace_degree =>
  (c.expressions.mapM fun e => csub (target_degree + (e.degree trace_degree).2) (e.degree trace_degree).1).bind fun adjustment_degrees =>
  (autogen_trace_layout trace_keys c.trace_ncolumns max_degree c.blowup).bind fun trace =>
  (write_oods_poly key c.expressions.length claims inverses trace_keys periodic adjustment_degrees c.expressions).map fun oods_poly => ⟨oods_poly, trace, wrapper⟩

end Generate
end Evm
end OpenZKP
