import Verif.Evm.FriEvents
import Verif.Props.EvmFri
import Mathlib.Tactic.Ring

/-!
# C104: the gas log of the verifier contract
-/

namespace OpenZKP
namespace Props
open Evm.Events

/-- Specification: reading a log with a stack of the sections that are open.  An entry opens its section; an exit must name the section opened last, and closes it. -/
def openSections : List Event → List String → Option (List String)
  | [], s => some s
  | ⟨name, true⟩ :: l, s => openSections l (name :: s)
  | ⟨name, false⟩ :: l, s =>
    match s with
    | [] => none
    | top :: s => if top = name then openSections l s else none

/-- Specification: a log that nests; every section is closed once, in the order of nesting, and nothing else is closed -/
def Nests (l : List Event) : Prop := openSections l [] = some []

/-- Specification: the number of times a section is entered in a log -/
def entries (name : String) (l : List Event) : Nat := l.count ⟨name, true⟩

/-- a log that leaves any stack as it is -/
private def Neutral (l : List Event) : Prop := ∀ r s, openSections (l ++ r) s = openSections r s

private theorem Neutral.nil : Neutral [] := fun _ _ => rfl

private theorem Neutral.append {a b : List Event} (ha : Neutral a) (hb : Neutral b) : Neutral (a ++ b) := fun r s => by
  rw [List.append_assoc, ha, hb]

private theorem Neutral.wrap {a : List Event} (name : String) (ha : Neutral a) : Neutral (trace name true ++ a ++ trace name false) := fun r s => by
  have h : openSections (trace name true ++ a ++ trace name false ++ r) s = openSections (a ++ (⟨name, false⟩ :: r)) (name :: s) := by
    simp [trace, openSections]
  rw [h, ha]; simp [openSections]

private theorem Neutral.leaf (name : String) : Neutral (trace name true ++ trace name false) := by
  have := Neutral.wrap name Neutral.nil
  rwa [List.append_nil] at this

private theorem Neutral.flatMap {α : Type} (f : α → List Event) : ∀ l : List α, (∀ x, Neutral (f x)) → Neutral (l.flatMap f)
  | [], _ => Neutral.nil
  | x :: l, h => by rw [List.flatMap_cons]; exact (h x).append (Neutral.flatMap f l h)

private theorem Neutral.turns {a : List Event} (n : Nat) (h : Neutral a) : Neutral (turns n a) := Neutral.flatMap _ _ fun _ => h

private theorem Neutral.nests {a : List Event} (h : Neutral a) : Nests a := by
  have := h [] []
  rwa [List.append_nil] at this

private theorem neutral_inverses (n : Nat) : Neutral (oods_prepare_inverses n) := by
  unfold oods_prepare_inverses
  rw [List.append_assoc _ (trace "oods_batch_invert" true)]
  exact (Neutral.wrap _ (Neutral.turns n (Neutral.wrap _ Neutral.nil))).append (Neutral.leaf _)

private theorem neutral_points (n : Nat) : Neutral (get_polynomial_points n) := by
  unfold get_polynomial_points
  refine (Neutral.wrap _ (neutral_inverses n)).append (Neutral.turns n ?_)
  rw [List.append_assoc _ (trace "get_polynomial_points_loop_2" true)]
  exact (Neutral.leaf _).append (Neutral.leaf _)

private theorem neutral_commitments : Neutral check_commitments := by
  unfold check_commitments
  rw [List.append_assoc (trace "check_commitments" true)]
  exact Neutral.wrap _ ((Neutral.leaf _).append (Neutral.leaf _))

private theorem neutral_layer (c : Nat) : Neutral (fold_layer c) :=
  Neutral.wrap _ (Neutral.turns c ((Neutral.leaf _).append (Neutral.leaf _)))

private theorem neutral_layers (l : List Nat) : Neutral (fold_layers l) :=
  Neutral.flatMap _ _ fun c => (neutral_layer c).append (Neutral.leaf _)

private theorem neutral_fold (n : Nat) (l : List Nat) : Neutral (fold_and_check_fri_layers n l) := by
  have h := Neutral.wrap "fold_and_check_fri_layers" (((Neutral.leaf "init_x_inv").append (neutral_layers l)).append
    (Neutral.wrap "last_layer" (Neutral.turns (l.getLast?.getD n) (Neutral.leaf "horner_eval"))))
  unfold fold_and_check_fri_layers
  simpa only [List.append_assoc] using h

private theorem neutral_verify (n : Nat) (l : List Nat) : Neutral (verify_proof n l) := by
  have h := Neutral.wrap "verify_proof" ((Neutral.leaf "initalize_system").append ((Neutral.leaf "write_data_and_read_random").append
    ((Neutral.leaf "get_queries").append ((Neutral.wrap "constraint_calculations" (neutral_points n)).append (neutral_commitments.append
      ((Neutral.wrap "fri_check" (neutral_fold n l)).append (Neutral.leaf "check_out_of_domain_sample")))))))
  unfold verify_proof fri_check check_out_of_domain_sample_result constraint_calculations
  simpa only [List.append_assoc] using h

/-- **C104.** The log of a verification that is accepted nests, for every number of queries and every list of layers: every section that is entered is left, in the order of nesting. -/
theorem C104_nests (n : Nat) (layers : List Nat) : Nests (verify_proof n layers) := (neutral_verify n layers).nests

private theorem entries_append (name : String) (a b : List Event) : entries name (a ++ b) = entries name a + entries name b := List.count_append

private theorem entries_turns (name : String) (n : Nat) (a : List Event) : entries name (turns n a) = n * entries name a := by
  unfold turns
  induction n with
  | zero => simp [entries]
  | succ n ih => rw [List.range_succ, List.flatMap_append, entries_append, ih]; simp; ring

private theorem entries_layers (name : String) : ∀ l : List Nat, entries name (fold_layers l) =
    l.length * (entries name (trace "fold_layer" true ++ trace "fold_layer" false) + entries name verify_merkle_proof) +
    l.sum * entries name (trace "fold_layer_collect" true ++ trace "fold_layer_collect" false ++ fold_coset)
  | [] => by simp [fold_layers, entries]
  | c :: l => by
    have ih := entries_layers name l
    unfold fold_layers at ih ⊢
    rw [List.flatMap_cons, entries_append, ih]
    simp only [fold_layer, entries_append, entries_turns, List.length_cons, List.sum_cons]
    ring

/-- **C104, what the log accounts for.** In the log of an accepted verification the verification and each of its steps are entered once; a Merkle proof is entered for the two commitments of the trace and the
    constraints and for every layer; a layer is entered once, each of its cosets is collected once and folded once; a point is looked up and both loops are entered for every query; the last layer is evaluated once for every coset of the last layer. -/
theorem C104_counts (n : Nat) (layers : List Nat) :
    (∀ name ∈ ["verify_proof", "initalize_system", "write_data_and_read_random", "get_queries", "constraint_calculations", "oods_prepare_inverses", "query_shifting_loop", "oods_batch_invert",
      "check_commitments", "fri_check", "fold_and_check_fri_layers", "init_x_inv", "last_layer", "check_out_of_domain_sample"], entries name (verify_proof n layers) = 1) ∧
    (∀ name ∈ ["eval_x_lookup", "get_polynomial_points_loop_1", "get_polynomial_points_loop_2"], entries name (verify_proof n layers) = n) ∧
    entries "verify_merkle_proof" (verify_proof n layers) = layers.length + 2 ∧
    entries "fold_layer" (verify_proof n layers) = layers.length ∧
    entries "fold_layer_collect" (verify_proof n layers) = layers.sum ∧
    entries "fold_coset" (verify_proof n layers) = layers.sum ∧
    entries "horner_eval" (verify_proof n layers) = layers.getLast?.getD n := by
  simp only [verify_proof, constraint_calculations, get_polynomial_points, oods_prepare_inverses, lookup, trace_mod, check_commitments, fri_check, fold_and_check_fri_layers,
    check_out_of_domain_sample_result, entries_append, entries_turns, entries_layers]
  simp [entries, trace, verify_merkle_proof, fold_coset]
  try omega

private theorem turns_succ (n : Nat) (a : List Event) : turns (n + 1) a = a ++ turns n a := by
  unfold turns
  rw [List.range_succ_eq_map, List.flatMap_cons, List.flatMap_map]

private theorem truncate_length {α : Type} {l l' : List α} {n : Nat} (h : Evm.Utils.truncate l n = some l') : l'.length = n := by
  unfold Evm.Utils.truncate at h
  split at h
  · cases h; simpa
  · cases h

private theorem loop_events (K : Stark.Keccak) (size x : Nat) (completion : List Nat) : ∀ (fuel : Nat) (a : Evm.Fri.Arrays) (read write comp : Nat),
    (Evm.FriEvents.foldLayerLoop K size x completion fuel a read write comp).map Prod.snd = Evm.Fri.foldLayerLoop K size x completion fuel a read write comp ∧
    ∀ r, Evm.FriEvents.foldLayerLoop K size x completion fuel a read write comp = some r → write ≤ r.2.indices.length ∧ r.2.values.length = r.2.indices.length ∧
      r.1 = turns (r.2.indices.length - write) (trace "fold_layer_collect" true ++ trace "fold_layer_collect" false ++ fold_coset)
  | 0, _, _, _, _ => ⟨rfl, fun _ h => by cases h⟩
  | fuel + 1, a, read, write, comp => by
    unfold Evm.FriEvents.foldLayerLoop Evm.Fri.foldLayerLoop
    by_cases hread : read < a.values.length
    · rw [if_pos hread, if_pos hread]
      constructor
      · simp only [Option.map_bind, Function.comp_def, Option.map_map]
        simp only [← (loop_events K size x completion fuel _ _ _ _).1]
      · intro r h
        simp only [Option.bind_eq_some_iff, Option.map_eq_some_iff] at h
        obtain ⟨_, _, _, _, _, _, _, _, _, _, _, _, _, _, _, _, _, _, r', hr', rfl⟩ := h
        obtain ⟨h1, h2, h3⟩ := (loop_events K size x completion fuel _ _ _ _).2 _ hr'
        refine ⟨Nat.le_of_succ_le h1, h2, ?_⟩
        obtain ⟨k, hk⟩ : ∃ k, r'.2.indices.length = write + 1 + k := ⟨_, (Nat.add_sub_cancel' h1).symm⟩
        simp only [hk] at h3 ⊢
        rw [show write + 1 + k - (write + 1) = k by omega] at h3
        rw [show write + 1 + k - write = k + 1 by omega, turns_succ, h3]
    · rw [if_neg hread, if_neg hread]
      constructor
      · simp only [Option.map_bind, Function.comp_def, Option.map_map]
      · intro r h
        simp only [Option.bind_eq_some_iff, Option.map_eq_some_iff] at h
        obtain ⟨v, hv, i, hi, rfl⟩ := h
        have h1 := truncate_length hv
        have h2 := truncate_length hi
        simp only [h1, h2, le_refl, Nat.sub_self, true_and]
        rfl

private theorem layer_events (K : Stark.Keccak) (a : Evm.Fri.Arrays) (completion : List Nat) (x size : Nat) :
    (Evm.FriEvents.fold_layer K a completion x size).map Prod.snd = Evm.Fri.fold_layer K a completion x size ∧
    ∀ r, Evm.FriEvents.fold_layer K a completion x size = some r → r.2.values.length = r.2.indices.length ∧ r.1 = fold_layer r.2.indices.length := by
  have h := loop_events K size x completion (a.values.length + 1) a 0 0 0
  constructor
  · rw [Evm.Fri.fold_layer, ← h.1, Evm.FriEvents.fold_layer, Option.map_map]; rfl
  · intro r hr
    obtain ⟨r', hr', rfl⟩ := Option.map_eq_some_iff.1 hr
    obtain ⟨_, h2, h3⟩ := h.2 _ hr'
    exact ⟨h2, by simp only [h3, Nat.sub_zero]; rfl⟩

private theorem layers_events (K : Stark.Keccak) (ctx : Evm.Fri.FriContext) (mem : Nat → Evm.Fri.Mem) : ∀ (layout : List Nat) (i : Nat) (a : Evm.Fri.Arrays) (size log_size g : Nat),
    (Evm.FriEvents.layers K ctx mem layout i a size log_size g).map Prod.snd = Evm.Fri.layers K ctx mem layout i a size log_size g ∧
    ∀ r, Evm.FriEvents.layers K ctx mem layout i a size log_size g = some r → ∃ cosets : List Nat, cosets.length = layout.length ∧ r.1 = fold_layers cosets ∧
      r.2.1.values.length = cosets.getLast?.getD a.values.length
  | [], _, a, _, _, _ => ⟨rfl, fun r h => by cases h; exact ⟨[], rfl, rfl, rfl⟩⟩
  | n :: layout, i, a, size, log_size, g => by
    unfold Evm.FriEvents.layers Evm.Fri.layers
    by_cases hc : Evm.wshl 1 n ≤ Evm.Fri.MAX_COSET_SIZE
    · rw [if_pos hc, if_pos hc]
      constructor
      · simp only [← (layer_events K _ _ _ _).1, ← (layers_events K ctx mem layout _ _ _ _ _).1, Option.map_bind, Option.bind_map, Function.comp_def, apply_ite (Option.map _), Option.map_map, Option.map_none]
      · intro r h
        simp only [Option.bind_eq_some_iff, Option.ite_none_right_eq_some, Option.map_eq_some_iff] at h
        obtain ⟨_, _, _, _, ea, hea, _, _, _, _, _, _, _, r', hr', rfl⟩ := h
        obtain ⟨h1, h2⟩ := (layer_events K _ _ _ _).2 _ hea
        obtain ⟨cs, h3, h4, h5⟩ := (layers_events K ctx mem layout _ _ _ _ _).2 _ hr'
        refine ⟨ea.2.indices.length :: cs, by simp [h3], ?_, ?_⟩
        · simp only [h2, h4, fold_layers, List.flatMap_cons]
        · simp only [h5, h1, List.getLast?_cons, Option.getD_some]
    · rw [if_neg hc, if_neg hc]
      exact ⟨rfl, fun _ h => by cases h⟩

/-- **C104, the numbers of turns.** The folding with its events accepts what the folding accepts; its log is the one of the layout, with a layer for every entry of the layout and as many turns as there are cosets. -/
theorem C104_fri (K : Stark.Keccak) (ctx : Evm.Fri.FriContext) (mem : Nat → Evm.Fri.Mem) :
    (Evm.FriEvents.fold_and_check_fri_layers K ctx mem).map (fun _ => ()) = Evm.Fri.fold_and_check_fri_layers K ctx mem ∧
    ∀ log, Evm.FriEvents.fold_and_check_fri_layers K ctx mem = some log → Nests log ∧
      ∃ cosets : List Nat, cosets.length = ctx.fri_layout.length ∧ log = fold_and_check_fri_layers ctx.queries.length cosets := by
  constructor
  · unfold Evm.FriEvents.fold_and_check_fri_layers Evm.Fri.fold_and_check_fri_layers
    simp only [← (layers_events K ctx mem _ _ _ _ _ _).1, Option.map_bind, Option.bind_map, Function.comp_def, Option.map_map]
    simp
  · intro log h
    have key : ∃ cosets : List Nat, cosets.length = ctx.fri_layout.length ∧ log = fold_and_check_fri_layers ctx.queries.length cosets := by
      unfold Evm.FriEvents.fold_and_check_fri_layers at h
      simp only [Option.bind_eq_some_iff, Option.map_eq_some_iff] at h
      obtain ⟨l0, hl0, _, _, r, hr, _, _, rfl⟩ := h
      obtain ⟨cs, h1, h2, h3⟩ := (layers_events K ctx mem _ _ _ _ _ _).2 _ hr
      refine ⟨cs, h1, ?_⟩
      have hne : cs ≠ [] := by
        rintro rfl
        rw [List.length_nil] at h1
        rw [List.length_eq_zero_iff.1 h1.symm] at hl0
        cases hl0
      rw [List.getLast?_eq_getLast_of_ne_nil hne, Option.getD_some] at h3
      simp only [fold_and_check_fri_layers, h2, h3, List.getLast?_eq_getLast_of_ne_nil hne, Option.getD_some]
    obtain ⟨cs, h1, rfl⟩ := key
    exact ⟨(neutral_fold _ _).nests, cs, h1, rfl⟩

/-- the proof of `C76` that is accepted has a log: one layer with two queries -/
example : ∃ log, Evm.FriEvents.fold_and_check_fri_layers FriExample.env.K FriExample.ctx FriExample.mem = some log ∧ Nests log ∧ entries "fold_layer" log = 1 := by
  have h := C104_fri FriExample.env.K FriExample.ctx FriExample.mem
  rw [FriExample.accepted] at h
  obtain ⟨log, hlog, _⟩ := Option.map_eq_some_iff.1 h.1
  obtain ⟨hn, cs, hc, rfl⟩ := h.2 log hlog
  refine ⟨_, hlog, hn, ?_⟩
  simp only [fold_and_check_fri_layers, entries_append, entries_turns, entries_layers, hc]
  simp [entries, trace, verify_merkle_proof, fold_coset, FriExample.ctx]

/-- a log of 20 queries in three layers -/
example : (verify_proof 20 [15, 9, 4]).length = 284 ∧ Nests (verify_proof 20 [15, 9, 4]) := ⟨by decide +kernel, C104_nests _ _⟩

/-- a section left out of order, one left open and one closed twice do not nest -/
example : ¬ Nests [⟨"a", true⟩, ⟨"b", true⟩, ⟨"a", false⟩, ⟨"b", false⟩] ∧ ¬ Nests [⟨"a", true⟩] ∧ ¬ Nests [⟨"a", true⟩, ⟨"a", false⟩, ⟨"a", false⟩] := by
  simp [Nests, openSections]

end Props
end OpenZKP
