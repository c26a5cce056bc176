import Verif.Stark.Dag
import Verif.Par.Model

/-!
# The parallel loop that evaluates the constraints (model)

Models the loop of `get_constraint_polynomials`, `/repo/crypto/stark/src/prover.rs:598-614`.  The graph is cloned by each task and the trace table is
behind a shared reference: neither is written by another task.
-/

namespace OpenZKP
namespace Stark
namespace Dag
open Par

variable {F : Type} [Field F] [DecidableEq F]

/-- the task for chunk `i` — prover.rs:606-614 -/
def evaluateTask (root : Nat → Option F) (coset_size : Nat) (dag : AlgebraicGraph F) (trace_coset : TraceTable F) (i : Nat) : Prog Nat F Unit :=
  (Prog.ofOption (dag.init root (i * 65536))).bind fun dag =>
  (Prog.loop (fun dag j =>
      (Prog.ofOption (dag.next trace_coset)).bind fun r =>
      (Prog.set (fun j => i * 65536 + j) (chunkLen coset_size 65536 i) j r.1).bind fun _ => .pure r.2)
    (List.range (chunkLen coset_size 65536 i)) dag).bind fun _ => .pure ()

/-- `get_constraint_polynomials` — prover.rs:581-615, as `evaluateOnCoset`, for any schedule of the chunks -/
def EvaluateAlways (root : Nat → Option F) (seedHash : F → Nat → F) (traceHash : F → Nat → Int → F) (cofactor : F)
    (coset_size trace_blowup : Nat) (trace_coset : TraceTable F) (e : Expr F) (values : Nat → F) : Prop :=
  ∃ g0 g1 result g2 g3 r g4, AlgebraicGraph.new seedHash cofactor trace_coset.trace_length trace_blowup = some g0 ∧
    g0.expression traceHash e = some (g1, result) ∧ g1.lookup_tables root = some g2 ∧ g2.tree_shake result = some (g3, r) ∧ g3.init root 0 = some g4 ∧
    Always (numChunks coset_size 65536) (evaluateTask root coset_size g4 trace_coset) (fun _ => 0) values

end Dag
end Stark
end OpenZKP
