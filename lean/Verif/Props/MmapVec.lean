import Verif.Utils.MmapVec
import Mathlib.Data.List.Perm.Basic
import Mathlib.Data.List.Count

/-!
# Memory mapped vectors: C53, C62
-/

namespace OpenZKP
namespace Props
open Utils
variable {T : Type}

/-! ## Specification -/

/-- The operations of a history. -/
inductive VecOp (T : Type) where
  | push (x : T)
  | extend (xs : List T)
  | extendFromSlice (xs : List T)
  | truncate (n : Nat)
  | clear
  | resize (n : Nat) (fill : T)
  | set (i : Nat) (x : T)
  | get (i : Nat)
  | len
  | isEmpty
  | slice
  /-- go on with a clone -/
  | clone

/-- What an operation returns. -/
inductive VecOut (T : Type) where
  | unit
  | value (x : T)
  | number (n : Nat)
  | bool (b : Bool)
  | list (l : List T)

/-- Specification: the operation on an ordinary vector which may hold at most `cap` values; `none` is a panic. -/
def vecStep (cap : Nat) (l : List T) : VecOp T → Option (List T × VecOut T)
  | .push x => if l.length + 1 ≤ cap then some (l ++ [x], .unit) else none
  | .extend xs => if l.length + xs.length ≤ cap then some (l ++ xs, .unit) else none
  | .extendFromSlice xs => if l.length + xs.length ≤ cap then some (l ++ xs, .unit) else none
  | .truncate n => some (l.take n, .unit)
  | .clear => some ([], .unit)
  | .resize n fill => if n ≤ cap then some (l.take n ++ List.replicate (n - l.length) fill, .unit) else none
  | .set i x => if i < l.length then some (l.set i x, .unit) else none
  | .get i => (l[i]?).map fun x => (l, .value x)
  | .len => some (l, .number l.length)
  | .isEmpty => some (l, .bool l.isEmpty)
  | .slice => some (l, .list l)
  | .clone => some (l, .unit)

/-- The outputs of a history, up to the panic if there is one (`none` at the end of the list). -/
def outputs {S O P : Type} (step : S → P → Option (S × O)) : S → List P → List (Option O)
  | _, [] => []
  | s, p :: ps => match step s p with
    | none => [none]
    | some (s', o) => some o :: outputs step s' ps

/-! ## C53 -/

/-- the same operation on the modelled vector -/
def mmapStep (zero : T) (v : MmapVec T) : VecOp T → Option (MmapVec T × VecOut T)
  | .push x => (v.push x).map fun v => (v, .unit)
  | .extend xs => (v.extend xs).map fun v => (v, .unit)
  | .extendFromSlice xs => (v.extend_from_slice xs).map fun v => (v, .unit)
  | .truncate n => some (v.truncate n, .unit)
  | .clear => some (v.clear, .unit)
  | .resize n fill => (v.resize n fill).map fun v => (v, .unit)
  | .set i x => (v.set i x).map fun v => (v, .unit)
  | .get i => (v.get zero i).map fun x => (v, .value x)
  | .len => some (v, .number v.len)
  | .isEmpty => some (v, .bool v.is_empty)
  | .slice => some (v, .list (v.as_slice zero))
  | .clone => (v.clone zero).map fun v => (v, .unit)

/-- the vector holds the list -/
def Holds (zero : T) (cap : Nat) (v : MmapVec T) (l : List T) : Prop :=
  v.slots.length = cap ∧ v.capacity = cap ∧ v.length = l.length ∧ l.length ≤ cap ∧ v.as_slice zero = l

theorem set_holds (zero : T) (cap : Nat) (v : MmapVec T) (hs : v.slots.length = cap) (hc : v.capacity = cap) (hl : v.length ≤ cap) (i : Nat) (x : T)
    (hi : i < v.length) :
    ∃ v', v.set i x = some v' ∧ v'.slots.length = cap ∧ v'.capacity = cap ∧ v'.length = v.length ∧
      v'.as_slice zero = (v.as_slice zero).set i x := by
  unfold MmapVec.set
  rw [if_pos hi, List.getElem?_eq_getElem (by omega)]
  refine ⟨_, rfl, by simpa using hs, hc, rfl, ?_⟩
  unfold MmapVec.as_slice
  dsimp only
  rw [List.take_set, List.map_set]; rfl

theorem push_holds (zero : T) (cap : Nat) (v : MmapVec T) (l : List T) (h : Holds zero cap v l) (x : T) :
    if l.length + 1 ≤ cap then ∃ v', v.push x = some v' ∧ Holds zero cap v' (l ++ [x]) else v.push x = none := by
  obtain ⟨h1, h2, h3, h4, h5⟩ := h
  split
  · rename_i hlt
    unfold MmapVec.push
    rw [if_neg (by omega)]
    dsimp only
    obtain ⟨v', a1, a2, a3, a4, a5⟩ := set_holds zero cap { v with length := v.length + 1 } h1 h2 (by dsimp only; omega) v.length x (by dsimp only; omega)
    refine ⟨v', a1, a2, a3, by rw [a4]; simp [h3], by simpa using hlt, ?_⟩
    rw [a5]
    obtain ⟨y, e⟩ : ∃ y, MmapVec.as_slice zero { v with length := v.length + 1 } = l ++ [y] := by
      obtain ⟨z, hz⟩ : ∃ z, v.slots[v.length]? = some z := ⟨_, List.getElem?_eq_getElem (by omega)⟩
      refine ⟨z.getD zero, ?_⟩
      rw [← h5]
      unfold MmapVec.as_slice
      dsimp only
      rw [List.take_add_one, hz]
      simp
    rw [e, h3, List.set_append_right _ _ (by omega)]
    simp
  · unfold MmapVec.push
    rw [if_pos (by omega)]

theorem pushMany_holds (zero : T) (cap : Nat) (xs : List T) (v : MmapVec T) (l : List T) (h : Holds zero cap v l) :
    if l.length + xs.length ≤ cap then ∃ v', v.pushMany xs = some v' ∧ Holds zero cap v' (l ++ xs) else v.pushMany xs = none := by
  induction xs generalizing v l with
  | nil =>
    rw [if_pos (by simpa using h.2.2.2.1)]
    exact ⟨v, rfl, by simpa using h⟩
  | cons x xs ih =>
    have hp := push_holds zero cap v l h x
    rw [MmapVec.pushMany]
    by_cases h1 : l.length + 1 ≤ cap
    · rw [if_pos h1] at hp
      obtain ⟨v', e, hv'⟩ := hp
      have := ih v' (l ++ [x]) hv'
      rw [e, Option.bind_some]
      by_cases h2 : l.length + (x :: xs).length ≤ cap
      · rw [if_pos h2]
        simp only [List.length_cons] at h2
        rw [if_pos (by simp; omega)] at this
        simpa using this
      · rw [if_neg h2]
        simp only [List.length_cons] at h2
        rw [if_neg (by simp; omega)] at this
        exact this
    · rw [if_neg h1] at hp
      rw [if_neg (by simp only [List.length_cons]; omega), hp]; rfl

theorem assignFrom_holds (zero : T) (cap : Nat) (xs : List T) (v : MmapVec T) (hs : v.slots.length = cap) (hc : v.capacity = cap) (hl : v.length ≤ cap)
    (start : Nat) (h : start + xs.length ≤ v.length) :
    ∃ v', v.assignFrom start xs = some v' ∧ v'.slots.length = cap ∧ v'.capacity = cap ∧ v'.length = v.length ∧
      v'.as_slice zero = (v.as_slice zero).take start ++ xs ++ (v.as_slice zero).drop (start + xs.length) := by
  induction xs generalizing v start with
  | nil => exact ⟨v, rfl, hs, hc, rfl, by simp⟩
  | cons x xs ih =>
    simp only [List.length_cons] at h
    obtain ⟨v', a1, a2, a3, a4, a5⟩ := set_holds zero cap v hs hc hl start x (by omega)
    obtain ⟨v'', b1, b2, b3, b4, b5⟩ := ih v' a2 a3 (by omega) (start + 1) (by omega)
    refine ⟨v'', by rw [MmapVec.assignFrom, a1, Option.bind_some, b1], b2, b3, by omega, ?_⟩
    have hlen : (v.as_slice zero).length = v.length := by unfold MmapVec.as_slice; simp; omega
    rw [b5, a5, List.drop_set_of_lt (by omega), List.take_add_one, List.take_set_of_le (Nat.le_refl _), List.getElem?_set_self (by omega)]
    simp only [Option.toList_some, List.append_assoc, List.singleton_append, List.length_cons, List.cons_append]
    rw [show start + 1 + xs.length = start + (xs.length + 1) by omega, List.nil_append]

/-- each operation does what it does on an ordinary vector -/
theorem step_holds (zero : T) (cap : Nat) (v : MmapVec T) (l : List T) (h : Holds zero cap v l) (p : VecOp T) :
    (vecStep cap l p = none ∧ mmapStep zero v p = none) ∨
    ∃ l' v' o, vecStep cap l p = some (l', o) ∧ mmapStep zero v p = some (v', o) ∧ Holds zero cap v' l' := by
  have h' := h
  obtain ⟨h1, h2, h3, h4, h5⟩ := h'
  have hslice : ∀ n ≤ v.length, MmapVec.as_slice zero { v with length := n } = l.take n := by
    intro n hn
    rw [← h5]
    unfold MmapVec.as_slice
    dsimp only
    rw [← List.map_take, List.take_take, Nat.min_eq_left hn]
  have htrunc : ∀ n, Holds zero cap (v.truncate n) (l.take n) := by
    intro n
    unfold MmapVec.truncate
    split
    · rename_i hn
      rw [List.take_of_length_le (by omega)]; exact h
    · rename_i hn
      refine ⟨h1, h2, ?_, ?_, ?_⟩
      · show n = _; rw [List.length_take]; omega
      · rw [List.length_take]; omega
      · rw [← hslice n (by omega)]; rfl
  cases p with
  | push x =>
    have := push_holds zero cap v l h x
    simp only [vecStep, mmapStep]
    split at this
    · rename_i hlt
      obtain ⟨v', e, hv⟩ := this
      exact Or.inr ⟨_, v', _, if_pos hlt, by rw [e]; rfl, hv⟩
    · rename_i hlt
      exact Or.inl ⟨if_neg hlt, by rw [this]; rfl⟩
  | extend xs =>
    have := pushMany_holds zero cap xs v l h
    simp only [vecStep, mmapStep, MmapVec.extend]
    split at this
    · rename_i hlt
      obtain ⟨v', e, hv⟩ := this
      exact Or.inr ⟨_, v', _, if_pos hlt, by rw [e]; rfl, hv⟩
    · rename_i hlt
      exact Or.inl ⟨if_neg hlt, by rw [this]; rfl⟩
  | extendFromSlice xs =>
    simp only [vecStep, mmapStep]
    by_cases hlt : l.length + xs.length ≤ cap
    · right
      unfold MmapVec.extend_from_slice
      rw [if_neg (show ¬ (v.length + xs.length > v.capacity) by omega)]
      dsimp only
      obtain ⟨v', a1, a2, a3, a4, a5⟩ := assignFrom_holds zero cap xs { v with length := v.length + xs.length } h1 h2 (by dsimp only; omega) v.length
        (by dsimp only; omega)
      refine ⟨_, v', _, if_pos hlt, by rw [a1]; rfl, a2, a3, by rw [a4]; simp [h3], by simpa using hlt, ?_⟩
      rw [a5]
      have e1 : (MmapVec.as_slice zero { v with length := v.length + xs.length }).take v.length = l := by
        rw [← h5]
        unfold MmapVec.as_slice
        dsimp only
        rw [← List.map_take, List.take_take, Nat.min_eq_left (by omega)]
      have e2 : (MmapVec.as_slice zero { v with length := v.length + xs.length }).drop (v.length + xs.length) = [] := by
        apply List.drop_eq_nil_of_le
        unfold MmapVec.as_slice
        rw [List.length_map, List.length_take]
        dsimp only
        omega
      rw [e1, e2, List.append_nil]
    · left
      unfold MmapVec.extend_from_slice
      rw [if_pos (show v.length + xs.length > v.capacity by omega), if_neg hlt]
      exact ⟨rfl, rfl⟩
  | truncate n => exact Or.inr ⟨_, _, _, rfl, rfl, htrunc n⟩
  | clear =>
    have := htrunc 0
    rw [List.take_zero] at this
    exact Or.inr ⟨_, _, _, rfl, rfl, this⟩
  | resize n fill =>
    simp only [vecStep, mmapStep]
    by_cases hlt : n ≤ cap
    · right
      unfold MmapVec.resize
      rw [if_neg (show ¬ (n > v.capacity) by omega), if_pos hlt]
      have := pushMany_holds zero cap (List.replicate (n - v.length) fill) v l h
      rw [if_pos (by rw [List.length_replicate]; omega)] at this
      obtain ⟨v', e, g1, g2, g3, g4, g5⟩ := this
      rw [List.length_append, List.length_replicate] at g3
      rw [h3] at e g5
      refine ⟨_, { v' with length := n }, _, rfl, by rw [h3, e]; rfl, g1, g2, ?_, ?_, ?_⟩
      · simp only [List.length_append, List.length_take, List.length_replicate]; omega
      · simp only [List.length_append, List.length_take, List.length_replicate]; omega
      · have : MmapVec.as_slice zero { v' with length := n } = (MmapVec.as_slice zero v').take n := by
          unfold MmapVec.as_slice
          dsimp only
          rw [← List.map_take, List.take_take, Nat.min_eq_left (by omega)]
        rw [this, g5, List.take_append, List.take_replicate]
        congr 2
        omega
    · left
      unfold MmapVec.resize
      rw [if_pos (show n > v.capacity by omega), if_neg hlt]
      exact ⟨rfl, rfl⟩
  | set i x =>
    simp only [vecStep, mmapStep]
    by_cases hi : i < l.length
    · obtain ⟨v', a1, a2, a3, a4, a5⟩ := set_holds zero cap v h1 h2 (by omega) i x (by omega)
      exact Or.inr ⟨_, v', _, if_pos hi, by rw [a1]; rfl, a2, a3, by rw [a4]; simp [h3], by simpa using h4, by rw [a5, h5]⟩
    · left
      unfold MmapVec.set
      rw [if_neg hi, if_neg (show ¬ (i < v.length) by omega)]
      exact ⟨rfl, rfl⟩
  | get i =>
    simp only [vecStep, mmapStep, MmapVec.get, h5]
    cases hx : l[i]? with
    | none => exact Or.inl ⟨rfl, rfl⟩
    | some x => exact Or.inr ⟨l, v, _, rfl, rfl, h⟩
  | len => exact Or.inr ⟨l, v, _, rfl, by simp only [mmapStep, MmapVec.len, h3], h⟩
  | isEmpty =>
    refine Or.inr ⟨l, v, _, rfl, ?_, h⟩
    simp only [mmapStep, MmapVec.is_empty, h3]
    cases l <;> simp
  | slice => exact Or.inr ⟨l, v, _, rfl, by simp only [mmapStep, h5], h⟩
  | clone =>
    right
    simp only [vecStep, mmapStep, MmapVec.clone, MmapVec.extend]
    have hnew : Holds zero cap (MmapVec.with_capacity cap) ([] : List T) := by
      refine ⟨by simp [MmapVec.with_capacity], rfl, rfl, by simp, by simp [MmapVec.with_capacity, MmapVec.as_slice]⟩
    have := pushMany_holds zero cap l _ [] hnew
    rw [if_pos (by simpa using h4)] at this
    obtain ⟨v', e, hv⟩ := this
    rw [h2, h5, e]
    exact ⟨l, v', _, rfl, rfl, by simpa using hv⟩

theorem run_holds (zero : T) (cap : Nat) (ps : List (VecOp T)) (v : MmapVec T) (l : List T) (h : Holds zero cap v l) :
    outputs (mmapStep zero) v ps = outputs (vecStep cap) l ps := by
  induction ps generalizing v l with
  | nil => rfl
  | cons p ps ih =>
    rcases step_holds zero cap v l h p with ⟨h1, h2⟩ | ⟨l', v', o, h1, h2, h3⟩
    · simp only [outputs, h1, h2]
    · simp only [outputs, h1, h2, ih v' l' h3]

/-- C53: every history, from a new vector with any capacity, returns what it returns on an ordinary vector, up to and including the panic
when the capacity would be exceeded (or an index is out of range). -/
theorem C53_history (zero : T) (cap : Nat) (ps : List (VecOp T)) :
    outputs (mmapStep zero) (MmapVec.with_capacity cap) ps = outputs (vecStep cap) [] ps := by
  apply run_holds
  exact ⟨by simp [MmapVec.with_capacity], rfl, rfl, by simp, by simp [MmapVec.with_capacity, MmapVec.as_slice]⟩

/-- C53: the same from a zero initialised vector. -/
theorem C53_history_zero (zero : T) (len : Nat) (ps : List (VecOp T)) :
    outputs (mmapStep zero) (MmapVec.zero_initialized len) ps = outputs (vecStep len) (List.replicate len zero) ps := by
  apply run_holds
  exact ⟨by simp [MmapVec.zero_initialized, MmapVec.with_capacity], rfl, by simp [MmapVec.zero_initialized], by simp,
    by simp [MmapVec.zero_initialized, MmapVec.with_capacity, MmapVec.as_slice]⟩

/-- C53: the comparison of two vectors compares their contents. -/
theorem C53_eq [DecidableEq T] (zero : T) (v w : MmapVec T) (l m : List T) (cap cap' : Nat) (hv : Holds zero cap v l) (hw : Holds zero cap' w m) :
    v.eq zero w = true ↔ l = m := by
  obtain ⟨_, _, h3, _, h5⟩ := hv
  obtain ⟨_, _, g3, _, g5⟩ := hw
  unfold MmapVec.eq
  rw [h3, g3, h5, g5]
  constructor
  · intro h
    split at h
    · simp at h
    · rename_i hlen
      push Not at hlen
      apply List.ext_getElem hlen
      intro i hi hj
      have := List.all_eq_true.1 h (l[i], m[i]) (by
        rw [List.mem_iff_getElem]
        exact ⟨i, by simp; omega, by simp⟩)
      simpa using this
  · rintro rfl
    rw [if_neg (by simp)]
    rw [List.all_eq_true]
    intro p hp
    obtain ⟨i, hi, e⟩ := List.mem_iff_getElem.1 hp
    rw [List.getElem_zip] at e
    simp [← e]

/-! ## C62: destructors -/

/-- C62: pushing after truncating runs the destructor of the truncated value a second time. -/
theorem C62_violated : ∃ v v' v'' : MmapVec Nat, (MmapVec.with_capacity 1).push 7 = some v ∧ v.truncate 0 = v' ∧ v'.push 8 = some v'' ∧
    v''.drops = [7, 7] := ⟨_, _, _, rfl, rfl, rfl, by decide⟩

/-- all values in the memory, live or not -/
def stored (v : MmapVec T) : List T := v.slots.flatMap Option.toList

theorem stored_set (v v' : MmapVec T) (i : Nat) (x : T) (h : v.set i x = some v') : (v'.drops ++ stored v').Perm (v.drops ++ stored v ++ [x]) := by
  unfold MmapVec.set at h
  split at h
  · rename_i hi
    split at h
    · rename_i old ho
      cases h
      unfold stored
      dsimp only
      obtain ⟨hlt, he⟩ := List.getElem?_eq_some_iff.1 ho
      have e1 : v.slots = v.slots.take i ++ old :: v.slots.drop (i + 1) := by
        conv_lhs => rw [← List.take_append_drop i v.slots, List.drop_eq_getElem_cons hlt, he]
      have e2 : v.slots.set i (some x) = v.slots.take i ++ some x :: v.slots.drop (i + 1) := List.set_eq_take_append_cons_drop .. |>.trans (by rw [if_pos hlt])
      rw [e2]
      conv_rhs => rw [e1]
      simp only [List.flatMap_append, List.flatMap_cons, Option.toList_some, List.append_assoc]
      apply List.Perm.append_left
      generalize v.slots.take i = a
      generalize v.slots.drop (i + 1) = b
      classical
      rw [List.perm_iff_count]
      intro y
      simp only [List.count_append]
      omega
    · cases h
  · cases h

theorem stored_pushMany (xs : List T) (v v' : MmapVec T) (h : v.pushMany xs = some v') : (v'.drops ++ stored v').Perm (v.drops ++ stored v ++ xs) := by
  induction xs generalizing v with
  | nil => cases h; simp
  | cons x xs ih =>
    rw [MmapVec.pushMany] at h
    obtain ⟨u, h1, h2⟩ := Option.bind_eq_some_iff.1 h
    have e1 : (u.drops ++ stored u).Perm (v.drops ++ stored v ++ [x]) := by
      unfold MmapVec.push at h1
      split at h1
      · cases h1
      · exact stored_set { v with length := v.length + 1 } u v.length x h1
    have e2 := ih u h2
    refine e2.trans ?_
    rw [← List.singleton_append, ← List.append_assoc]
    exact e1.append_right xs

theorem stored_assignFrom (xs : List T) (v v' : MmapVec T) (i : Nat) (h : v.assignFrom i xs = some v') :
    (v'.drops ++ stored v').Perm (v.drops ++ stored v ++ xs) := by
  induction xs generalizing v i with
  | nil => cases h; simp
  | cons x xs ih =>
    rw [MmapVec.assignFrom] at h
    obtain ⟨u, h1, h2⟩ := Option.bind_eq_some_iff.1 h
    have e2 := ih u (i + 1) h2
    refine e2.trans ?_
    rw [← List.singleton_append, ← List.append_assoc]
    exact (stored_set v u i x h1).append_right xs

/-- Specification: the values given to a vector holding `len` values by one operation. -/
def given (len : Nat) : VecOp T → List T
  | .push x => [x]
  | .extend xs | .extendFromSlice xs => xs
  | .resize n fill => List.replicate (n - len) fill
  | .set _ x => [x]
  | _ => []

/-- Specification: a history and what it gives to the vector. -/
inductive History (zero : T) (cap : Nat) : MmapVec T → List T → Prop
  | start : History zero cap (MmapVec.with_capacity cap) []
  | step (v v' : MmapVec T) (l : List T) (p : VecOp T) (o : VecOut T) : History zero cap v l →
      (∀ n, p ≠ .truncate n) → p ≠ .clear → p ≠ .clone → mmapStep zero v p = some (v', o) → History zero cap v' (l ++ given v.length p)

/-- C62 (partial: no `truncate`, `clear` or `clone`): in every history, no value is dropped more often than it was given to the vector, and values
dropped or still in the memory are exactly those given. -/
theorem C62_drops_partial (zero : T) (cap : Nat) (v : MmapVec T) (l : List T) (h : History zero cap v l) : (v.drops ++ stored v).Perm l := by
  induction h with
  | start =>
    have : stored (MmapVec.with_capacity cap : MmapVec T) = [] := by
      unfold stored MmapVec.with_capacity
      induction cap <;> simp_all [List.replicate_succ]
    rw [this]; simp [MmapVec.with_capacity]
  | step v v' l p o _ h1 h2 h3 h4 ih =>
    have key : (v'.drops ++ stored v').Perm (v.drops ++ stored v ++ given v.length p) := by
      cases p with
      | push x =>
        obtain ⟨u, e1, e2⟩ := Option.map_eq_some_iff.1 h4
        cases e2
        unfold MmapVec.push at e1
        split at e1
        · cases e1
        · exact stored_set { v with length := v.length + 1 } v' v.length x e1
      | extend xs =>
        obtain ⟨u, e1, e2⟩ := Option.map_eq_some_iff.1 h4
        cases e2
        exact stored_pushMany xs v v' e1
      | extendFromSlice xs =>
        obtain ⟨u, e1, e2⟩ := Option.map_eq_some_iff.1 h4
        cases e2
        unfold MmapVec.extend_from_slice at e1
        split at e1
        · cases e1
        · exact stored_assignFrom xs { v with length := v.length + xs.length } v' v.length e1
      | truncate n => exact absurd rfl (h1 n)
      | clear => exact absurd rfl h2
      | resize n fill =>
        obtain ⟨u, e1, e2⟩ := Option.map_eq_some_iff.1 h4
        cases e2
        unfold MmapVec.resize at e1
        split at e1
        · cases e1
        · obtain ⟨u, e3, e4⟩ := Option.map_eq_some_iff.1 e1
          cases e4
          exact stored_pushMany _ v u e3
      | set i x =>
        obtain ⟨u, e1, e2⟩ := Option.map_eq_some_iff.1 h4
        cases e2
        exact stored_set v v' i x e1
      | get i =>
        obtain ⟨u, e1, e2⟩ := Option.map_eq_some_iff.1 h4
        cases e2
        simp [given]
      | len => cases h4; simp [given]
      | isEmpty => cases h4; simp [given]
      | slice => cases h4; simp [given]
      | clone => exact absurd rfl h3
    exact key.trans (ih.append_right _)

-- a history that fills, overwrites, shrinks and refills a vector; and one that runs into the capacity
example : outputs (mmapStep 0) (MmapVec.with_capacity 3) [.push 5, .extend [6, 7], .slice, .resize 1 0, .set 0 9, .extendFromSlice [1], .slice, .get 1, .len]
    = [some .unit, some .unit, some (.list [5, 6, 7]), some .unit, some .unit, some .unit, some (.list [9, 1]), some (.value 1), some (.number 2)] := rfl
example : outputs (mmapStep 0) (MmapVec.with_capacity 1) [.push 5, .push 6, .len] = [some .unit, none] := rfl
example : History 0 1 (⟨[some 8], 1, 1, [7]⟩ : MmapVec Nat) [7, 8] := by
  have h1 : History 0 1 (⟨[some 7], 1, 1, []⟩ : MmapVec Nat) [7] :=
    .step _ _ [] (.push 7) .unit .start (by simp) (by simp) (by simp) rfl
  exact .step _ _ [7] (.set 0 8) .unit h1 (by simp) (by simp) (by simp) rfl

end Props
end OpenZKP
