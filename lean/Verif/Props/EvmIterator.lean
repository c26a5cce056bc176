import Verif.Evm.Iterator
import Mathlib.Data.List.Count
import Mathlib.Tactic.NormNum

/-!
# C102: iterators of the contracts give the elements in order
-/

namespace OpenZKP
namespace Props
namespace EvmIterator
open Evm Evm.Iterators

/-! ## Specification: what the calls before say of an iterator and of an array -/

/-- the arrays the iterators were made for, in the order they were made -/
def made : List Call → List Nat
  | [] => []
  | .init data :: l => data :: made l
  | _ :: l => made l

/-- the arrays after the assignments -/
def contents (arrays : List (List Nat)) : List Call → List (List Nat)
  | [] => arrays
  | .store data place value :: l => contents (arrays.modify data fun a => a.set place value) l
  | _ :: l => contents arrays l

/-- how often `next` was called for iterator `i` -/
def taken (i : Nat) (calls : List Call) : Nat := calls.count (.next i)

/-- what a call has to give after the calls `before`; `none`: it reverts -/
def expected (arrays : List (List Nat)) (before : List Call) : Call → Option Answer
  | .init r => (contents arrays before)[r]?.map fun _ => .none
  | .next i => (made before)[i]?.bind fun r => (contents arrays before)[r]?.bind fun a => a[taken i before]?.map .value
  | .has_next i => (made before)[i]?.bind fun r => (contents arrays before)[r]?.map fun a => .bool (decide (taken i before < a.length))
  | .store r place _ => (contents arrays before)[r]?.bind fun a => if place < a.length then some .none else none

/-! ## Lemmas -/

theorem made_append (l k : List Call) : made (l ++ k) = made l ++ made k := by
  induction l with
  | nil => rfl
  | cons c l ih => cases c <;> simp [made, ih]

theorem contents_append (l k : List Call) (a : List (List Nat)) : contents a (l ++ k) = contents (contents a l) k := by
  induction l generalizing a with
  | nil => rfl
  | cons c l ih => cases c <;> simp [contents, ih]

theorem run_append (l k : List Call) (m : Memory) : run m (l ++ k) = (run m l).bind fun r => (run r.2 k).map fun s => (r.1 ++ s.1, s.2) := by
  induction l generalizing m with
  | nil => simp [run]
  | cons c l ih =>
    simp only [List.cons_append, run, ih]
    cases step m c with
    | none => rfl
    | some r =>
      simp only [Option.bind_some]
      cases run r.2 l with
      | none => rfl
      | some s =>
        simp only [Option.bind_some, Option.map_some]
        cases run s.2 k <;> rfl

/-- what holds of the memory after `calls` -/
def Inv (arrays : List (List Nat)) (calls : List Call) (m : Memory) : Prop :=
  m.arrays = contents arrays calls ∧ m.iterators.length = (made calls).length ∧ (∀ i, (made calls).length ≤ i → taken i calls = 0) ∧ (∀ a ∈ m.arrays, a.length < W) ∧
  ∀ i r, (made calls)[i]? = some r → m.iterators[i]? = some (⟨taken i calls, r⟩ : IteratorUint) ∧ ∃ a, m.arrays[r]? = some a ∧ taken i calls ≤ a.length

theorem taken_append (i : Nat) (l : List Call) (c : Call) : taken i (l ++ [c]) = taken i l + if c = .next i then 1 else 0 := by
  unfold taken
  rw [List.count_append, List.count_singleton]
  by_cases h : c = .next i <;> simp [h]

theorem no_iterator (arrays : List (List Nat)) (calls : List Call) (m : Memory) (h : Inv arrays calls m) (i : Nat) (hi : (made calls)[i]? = none) : m.iterators[i]? = none := by
  rw [List.getElem?_eq_none_iff] at hi ⊢
  exact h.2.1 ▸ hi

/-- an answer is the one to expect, and the memory stays as the calls say -/
theorem step_spec (arrays : List (List Nat)) (calls : List Call) (m : Memory) (h : Inv arrays calls m) (c : Call) :
    (step m c).map Prod.fst = expected arrays calls c ∧ ∀ r, step m c = some r → Inv arrays (calls ++ [c]) r.2 := by
  obtain ⟨h1, h2, h3, h4, h5⟩ := h
  cases c with
  | init d =>
    simp only [step, init_iterator, expected, ← h1]
    cases e : m.arrays[d]? with
    | none => simp
    | some a =>
      refine ⟨rfl, ?_⟩
      rintro r hr
      simp only [Option.map_some, Option.some.injEq] at hr
      subst hr
      refine ⟨?_, ?_, ?_, h4, ?_⟩
      · rw [contents_append]; exact h1
      · simp [made_append, made, h2]
      · intro i hi
        rw [made_append, List.length_append] at hi
        rw [taken_append, h3 i (by omega)]
        simp
      · intro i r hi
        rw [made_append] at hi
        rw [taken_append, if_neg (by simp), Nat.add_zero]
        rcases lt_trichotomy i (made calls).length with k | k | k
        · rw [List.getElem?_append_left k] at hi
          rw [List.getElem?_append_left (by omega)]
          exact h5 i r hi
        · rw [List.getElem?_append_right (by omega)] at hi ⊢
          · subst k
            simp only [made, Nat.sub_self, List.getElem?_cons_zero, Option.some.injEq] at hi
            rw [h2, Nat.sub_self, h3 _ (le_refl _), ← hi]
            exact ⟨rfl, a, e, Nat.zero_le _⟩
        · rw [List.getElem?_eq_none (by simp [made]; omega)] at hi
          cases hi
  | next i =>
    simp only [step, Iterators.next, expected, ← h1]
    cases e : (made calls)[i]? with
    | none => simp [no_iterator arrays calls m ⟨h1, h2, h3, h4, h5⟩ i e]
    | some r =>
      rw [(h5 i r e).1]
      simp only [Option.bind_some]
      cases e2 : m.arrays[r]? with
      | none => simp
      | some a =>
        simp only [Option.bind_some]
        cases e3 : a[taken i calls]? with
        | none => simp
        | some v =>
          refine ⟨rfl, ?_⟩
          rintro s hs
          simp only [Option.map_some, Option.some.injEq] at hs
          subst hs
          have hlt : taken i calls < a.length := (List.getElem?_eq_some_iff.1 e3).1
          have hw := h4 a (List.mem_of_getElem? e2)
          have hi : i < (made calls).length := (List.getElem?_eq_some_iff.1 e).1
          have hm : made (calls ++ [.next i]) = made calls := by rw [made_append]; simp [made]
          refine ⟨?_, ?_, ?_, h4, ?_⟩
          · rw [contents_append]; exact h1
          · rw [hm, List.length_set, h2]
          · intro j hj
            rw [hm] at hj
            rw [taken_append, h3 j hj, if_neg (by simp; omega)]
          · intro j r' hj
            rw [hm] at hj
            rw [taken_append]
            by_cases k : i = j
            · subst k
              rw [if_pos rfl, List.getElem?_set_self (by omega)]
              rw [e] at hj
              simp only [Option.some.injEq] at hj
              subst hj
              unfold wadd
              rw [Nat.mod_eq_of_lt (by omega)]
              exact ⟨rfl, a, e2, hlt⟩
            · rw [List.getElem?_set_ne k, if_neg (by simpa using k), Nat.add_zero]
              exact h5 j r' hj
  | has_next i =>
    simp only [step, Iterators.has_next, expected, ← h1]
    have hm : made (calls ++ [.has_next i]) = made calls := by rw [made_append]; simp [made]
    have ht : ∀ j, taken j (calls ++ [.has_next i]) = taken j calls := fun j => by rw [taken_append]; simp
    cases e : (made calls)[i]? with
    | none => simp [no_iterator arrays calls m ⟨h1, h2, h3, h4, h5⟩ i e]
    | some r =>
      rw [(h5 i r e).1]
      simp only [Option.bind_some]
      cases e2 : m.arrays[r]? with
      | none => simp
      | some a =>
        refine ⟨rfl, ?_⟩
        rintro s hs
        simp only [Option.map_some, Option.some.injEq] at hs
        subst hs
        refine ⟨by rw [contents_append]; exact h1, by rw [hm]; exact h2, ?_, h4, ?_⟩
        · intro j hj
          rw [hm] at hj
          rw [ht]; exact h3 j hj
        · intro j r' hj
          rw [hm] at hj
          rw [ht]; exact h5 j r' hj
  | store d p v =>
    simp only [step, expected, ← h1]
    have hm : made (calls ++ [.store d p v]) = made calls := by rw [made_append]; simp [made]
    have ht : ∀ j, taken j (calls ++ [.store d p v]) = taken j calls := fun j => by rw [taken_append]; simp
    cases e : m.arrays[d]? with
    | none => simp
    | some a =>
      simp only [Option.bind_some]
      by_cases hp : p < a.length
      · rw [if_pos hp, if_pos hp]
        refine ⟨rfl, ?_⟩
        rintro s hs
        simp only [Option.some.injEq] at hs
        subst hs
        have hd := (List.getElem?_eq_some_iff.1 e).1
        refine ⟨?_, by rw [hm]; exact h2, ?_, ?_, ?_⟩
        · rw [contents_append, ← h1]
          simp only [contents]
          rw [List.modify_eq_set_getElem?, e]
          rfl
        · intro j hj
          rw [hm] at hj
          rw [ht]; exact h3 j hj
        · intro b hb
          rcases List.mem_or_eq_of_mem_set hb with k | k
          · exact h4 b k
          · rw [k, List.length_set]
            exact h4 a (List.mem_of_getElem? e)
        · intro j r' hj
          rw [hm] at hj
          rw [ht]
          obtain ⟨q1, b, q2, q3⟩ := h5 j r' hj
          refine ⟨q1, ?_⟩
          by_cases k : d = r'
          · subst k
            rw [e] at q2
            simp only [Option.some.injEq] at q2
            subst q2
            exact ⟨_, List.getElem?_set_self hd, by rw [List.length_set]; exact q3⟩
          · exact ⟨b, by rw [List.getElem?_set_ne k]; exact q2, q3⟩
      · rw [if_neg hp, if_neg hp]
        simp

theorem run_spec (arrays : List (List Nat)) (l done : List Call) (m : Memory) (h : Inv arrays done m) :
    (run m l).map Prod.fst = (List.range l.length).mapM fun k => l[k]?.bind (expected arrays (done ++ l.take k)) := by
  induction l generalizing done m with
  | nil => rfl
  | cons c l ih =>
    obtain ⟨a, b⟩ := step_spec arrays done m h c
    rw [run, List.length_cons, List.range_succ_eq_map, List.mapM_cons, List.mapM_map]
    simp only [List.getElem?_cons_zero, Option.bind_some, List.take_zero, List.append_nil, ← a]
    cases e : step m c with
    | none => rfl
    | some r =>
      have := ih (done ++ [c]) r.2 (b r e)
      simp only [Option.map_some, Option.bind_some]
      have e2 : (fun k => (l[k]?.bind (expected arrays (done ++ [c] ++ l.take k)))) = ((fun k => (c :: l)[k]?.bind (expected arrays (done ++ (c :: l).take k))) ∘ Nat.succ) := by
        funext k
        simp [List.append_assoc]
      rw [e2] at this
      rw [← this]
      cases run r.2 l <;> rfl

theorem inv_start (arrays : List (List Nat)) (hl : ∀ a ∈ arrays, a.length < W) : Inv arrays [] ⟨[], arrays⟩ :=
  ⟨rfl, rfl, fun _ _ => rfl, hl, fun i r h => by simp [made] at h⟩

theorem inv_run (arrays : List (List Nat)) (l done : List Call) (m : Memory) (h : Inv arrays done m) (r) (hr : run m l = some r) : Inv arrays (done ++ l) r.2 := by
  induction l generalizing done m r with
  | nil => simp only [run, Option.some.injEq] at hr; subst hr; simpa using h
  | cons c l ih =>
    rw [run] at hr
    obtain ⟨s, hs, hr⟩ := Option.bind_eq_some_iff.1 hr
    obtain ⟨t, ht, hr⟩ := Option.map_eq_some_iff.1 hr
    subst hr
    have := ih (done ++ [c]) s.2 ((step_spec arrays done m h c).2 s hs) t ht
    simpa using this

theorem drain_spec (i r : Nat) (a : List Nat) (ha : a.length < W) (gas n : Nat) (m : Memory) (h1 : m.iterators[i]? = some ⟨n, r⟩) (h2 : m.arrays[r]? = some a) (hn : n ≤ a.length)
    (hg : a.length - n < gas) : drain gas m i = some (a.drop n, { m with iterators := m.iterators.set i ⟨a.length, r⟩ }) := by
  induction gas generalizing n m with
  | zero => omega
  | succ gas ih =>
    have hi := (List.getElem?_eq_some_iff.1 h1).1
    simp only [drain, Iterators.has_next, Iterators.next, h1, h2, Option.bind_some, Option.map_some]
    by_cases k : n < a.length
    · rw [if_pos (by simpa using k), List.getElem?_eq_getElem k]
      simp only [Option.map_some, Option.bind_some]
      have hw : wadd n 1 = n + 1 := Nat.mod_eq_of_lt (by omega)
      rw [hw, ih (n + 1) { m with iterators := m.iterators.set i ⟨n + 1, r⟩ } (List.getElem?_set_self hi) h2 k (by omega), List.drop_eq_getElem_cons k]
      simp
    · have : n = a.length := by omega
      subst this
      rw [if_neg (by simp), List.drop_length]
      have : m.iterators.set i ⟨a.length, r⟩ = m.iterators := by
        obtain ⟨q, h1⟩ := List.getElem?_eq_some_iff.1 h1
        rw [← h1, List.set_getElem_self]
      rw [this]

/-! ## C102 -/

/-- C102: in every history each call of an iterator is answered with the element its own calls of `next` have come to, in the array as it then is, whatever was done with the other
iterators, and a call reverts exactly if there is none. -/
theorem C102_history (arrays : List (List Nat)) (hl : ∀ a ∈ arrays, a.length < 2 ^ 256) (calls : List Call) :
    (run ⟨[], arrays⟩ calls).map Prod.fst = (List.range calls.length).mapM fun k => calls[k]?.bind (expected arrays (calls.take k)) := by
  have := run_spec arrays calls [] ⟨[], arrays⟩ (inv_start arrays hl)
  simpa using this

/-- C102: after every history the loop over an iterator gives the elements that are left, in order, and ends; after it the iterator is at the end of its array, and no array and no other
iterator has changed. -/
theorem C102_drain (arrays : List (List Nat)) (hl : ∀ a ∈ arrays, a.length < 2 ^ 256) (before : List Call) (answers : List Answer) (m : Memory)
    (h : run ⟨[], arrays⟩ before = some (answers, m)) (i r : Nat) (hi : (made before)[i]? = some r) (gas : Nat) :
    ∃ a, (contents arrays before)[r]? = some a ∧ taken i before ≤ a.length ∧
      (a.length - taken i before < gas → drain gas m i = some (a.drop (taken i before), { m with iterators := m.iterators.set i ⟨a.length, r⟩ })) := by
  have inv := inv_run arrays before [] ⟨[], arrays⟩ (inv_start arrays hl) _ h
  rw [List.nil_append] at inv
  obtain ⟨q1, -, -, q4, q5⟩ := inv
  obtain ⟨p1, a, p2, p3⟩ := q5 i r hi
  exact ⟨a, q1 ▸ p2, p3, drain_spec i r a (q4 a (List.mem_of_getElem? p2)) gas _ m p1 p2 p3⟩

/-- two iterators over one array and one over another, used in turn, with an assignment in between -/
example : (run ⟨[], [[10, 11, 12], [20]]⟩ [.init 0, .init 1, .init 0, .next 0, .next 2, .next 0, .store 0 2 99, .next 1, .has_next 1, .has_next 0, .next 0, .next 2, .has_next 0]).map Prod.fst =
    some [.none, .none, .none, .value 10, .value 10, .value 11, .none, .value 20, .bool false, .bool true, .value 99, .value 11, .bool false] := by decide +kernel

/-- past the end -/
example : run ⟨[], [[10]]⟩ [.init 0, .next 0, .next 0] = none ∧ run ⟨[], [[]]⟩ [.init 0, .next 0] = none := by decide +kernel

/-- the hypotheses of `C102_drain` -/
example : (∃ answers m, run ⟨[], [[10, 11, 12], [20]]⟩ [.init 1, .init 0, .next 1] = some (answers, m) ∧ (drain 3 m 1).map Prod.fst = some [11, 12]) ∧
    (made [.init 1, .init 0, .next 1])[1]? = some 0 ∧ taken 1 [.init 1, .init 0, .next 1] = 1 := by
  refine ⟨⟨_, _, rfl, ?_⟩, ?_⟩ <;> decide +kernel

end EvmIterator
end Props
end OpenZKP
