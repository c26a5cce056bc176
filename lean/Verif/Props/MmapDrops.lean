import Verif.Props.MmapVec

/-!
# Memory mapped vectors: how often destructors run (C62), with truncation
-/

namespace OpenZKP
namespace Props
open Utils

variable {T : Type}

/-- the first `k` slots have been written -/
def WrittenTo (k : Nat) (v : MmapVec T) : Prop := ∀ i < k, v.slots[i]? ≠ some none

theorem set_facts (v v' : MmapVec T) (i : Nat) (x : T) (h : v.set i x = some v') :
    v'.length = v.length ∧ i < v.length ∧ i < v.slots.length ∧ v'.slots = v.slots.set i (some x) := by
  unfold MmapVec.set at h
  split at h
  · rename_i hi
    split at h
    · rename_i old ho
      cases h
      exact ⟨rfl, hi, (List.getElem?_eq_some_iff.1 ho).1, rfl⟩
    · cases h
  · cases h

theorem written_set (k : Nat) (v v' : MmapVec T) (i : Nat) (x : T) (h : v.set i x = some v') (hw : WrittenTo k v) :
    WrittenTo k v' ∧ (i = k → WrittenTo (k + 1) v') := by
  obtain ⟨_, _, h3, h4⟩ := set_facts v v' i x h
  have e : ∀ j, v'.slots[j]? = if i = j then some (some x) else v.slots[j]? := fun j => by
    rw [h4, List.getElem?_set]; simp [h3]
  refine ⟨fun j hj => ?_, fun hi j hj => ?_⟩
  · rw [e]; split
    · simp
    · exact hw j hj
  · rw [e]; split
    · simp
    · exact hw j (by omega)

theorem written_push (v v' : MmapVec T) (x : T) (h : v.push x = some v') (hw : WrittenTo v.length v) :
    v'.length = v.length + 1 ∧ WrittenTo v'.length v' := by
  unfold MmapVec.push at h
  split at h
  · cases h
  · have hw' : WrittenTo v.length ({ v with length := v.length + 1 } : MmapVec T) := hw
    have h1 := set_facts _ _ _ _ h
    refine ⟨h1.1, ?_⟩
    rw [h1.1]
    exact (written_set v.length _ _ _ _ h hw').2 rfl

theorem written_pushMany (xs : List T) (v v' : MmapVec T) (h : v.pushMany xs = some v') (hw : WrittenTo v.length v) :
    v'.length = v.length + xs.length ∧ WrittenTo v'.length v' := by
  induction xs generalizing v with
  | nil => cases h; exact ⟨rfl, hw⟩
  | cons x xs ih =>
    rw [MmapVec.pushMany] at h
    obtain ⟨u, h1, h2⟩ := Option.bind_eq_some_iff.1 h
    obtain ⟨e1, e2⟩ := written_push v u x h1 hw
    obtain ⟨e3, e4⟩ := ih u h2 e2
    exact ⟨by rw [e3, e1, List.length_cons]; omega, e4⟩

theorem written_assignFrom (xs : List T) (v v' : MmapVec T) (i : Nat) (h : v.assignFrom i xs = some v') (hw : WrittenTo i v) :
    v'.length = v.length ∧ WrittenTo (i + xs.length) v' := by
  induction xs generalizing v i with
  | nil => cases h; exact ⟨rfl, hw⟩
  | cons x xs ih =>
    rw [MmapVec.assignFrom] at h
    obtain ⟨u, h1, h2⟩ := Option.bind_eq_some_iff.1 h
    obtain ⟨e3, e4⟩ := ih u (i + 1) h2 ((written_set i v u i x h1 hw).2 rfl)
    refine ⟨e3.trans (set_facts v u i x h1).1, ?_⟩
    rw [List.length_cons, show i + (xs.length + 1) = i + 1 + xs.length by omega]
    exact e4

/-- where all slots are written, the values in them are the contents -/
theorem values_eq (zero : T) (v : MmapVec T) (hw : WrittenTo v.length v) :
    (v.slots.take v.length).flatMap Option.toList = v.as_slice zero ∧
    ∀ n, ((v.slots.take v.length).drop n).flatMap Option.toList = (v.as_slice zero).drop n := by
  have h : ∀ s ∈ v.slots.take v.length, s ≠ none := by
    intro s hs
    obtain ⟨i, hi, e⟩ := List.mem_iff_getElem.1 hs
    rintro rfl
    rw [List.getElem_take] at e
    simp only [List.length_take] at hi
    exact hw i (by omega) (List.getElem?_eq_some_iff.2 ⟨by omega, e⟩)
  have key : ∀ l : List (Option T), (∀ s ∈ l, s ≠ none) → l.flatMap Option.toList = l.map fun s => s.getD zero := by
    intro l hl
    induction l with
    | nil => rfl
    | cons s l ih =>
      rw [List.flatMap_cons, List.map_cons, ih fun s hs => hl s (List.mem_cons_of_mem _ hs)]
      cases s with
      | none => exact absurd rfl (hl none List.mem_cons_self)
      | some x => rfl
  refine ⟨key _ h, fun n => ?_⟩
  rw [key _ fun s hs => h s (List.mem_of_mem_drop hs), MmapVec.as_slice, List.map_drop]

/-- Specification: the values an operation cuts off a vector with these contents. -/
def cutOff (contents : List T) : VecOp T → List T
  | .truncate n => contents.drop n
  | .clear => contents
  | _ => []

/-- one operation, other than `clone`: the slots below the length stay written, and the values dropped or in the memory are those before, those given and a
second time those cut off -/
theorem step_facts (zero : T) (v v' : MmapVec T) (p : VecOp T) (o : VecOut T) (hp : p ≠ .clone) (h : mmapStep zero v p = some (v', o))
    (hw : WrittenTo v.length v) :
    WrittenTo v'.length v' ∧ (v'.drops ++ stored v').Perm (v.drops ++ stored v ++ (given v.length p ++ cutOff (v.as_slice zero) p)) := by
  have trunc : ∀ n, WrittenTo (v.truncate n).length (v.truncate n) ∧
      ((v.truncate n).drops ++ stored (v.truncate n)).Perm (v.drops ++ stored v ++ (v.as_slice zero).drop n) := by
    intro n
    unfold MmapVec.truncate
    split
    · rename_i hn
      refine ⟨hw, ?_⟩
      rw [List.drop_eq_nil_of_le]
      · simp
      · simp only [MmapVec.as_slice, List.length_map, List.length_take]; omega
    · rename_i hn
      refine ⟨fun i hi => hw i (by dsimp only at hi; omega), ?_⟩
      dsimp only
      rw [(values_eq zero v hw).2 n]
      show (v.drops ++ (v.as_slice zero).drop n ++ stored v).Perm _
      rw [List.append_assoc, List.append_assoc]
      exact List.Perm.append_left _ List.perm_append_comm
  cases p with
  | push x =>
    obtain ⟨u, e1, e2⟩ := Option.map_eq_some_iff.1 h
    cases e2
    refine ⟨(written_push v v' x e1 hw).2, ?_⟩
    unfold MmapVec.push at e1
    split at e1
    · cases e1
    · simpa [given, cutOff, stored] using stored_set { v with length := v.length + 1 } v' v.length x e1
  | extend xs =>
    obtain ⟨u, e1, e2⟩ := Option.map_eq_some_iff.1 h
    cases e2
    exact ⟨(written_pushMany xs v v' e1 hw).2, by simpa [given, cutOff, stored] using stored_pushMany xs v v' e1⟩
  | extendFromSlice xs =>
    obtain ⟨u, e1, e2⟩ := Option.map_eq_some_iff.1 h
    cases e2
    unfold MmapVec.extend_from_slice at e1
    split at e1
    · cases e1
    · obtain ⟨a1, a2⟩ := written_assignFrom xs { v with length := v.length + xs.length } v' v.length e1 hw
      exact ⟨by rw [a1]; exact a2, by simpa [given, cutOff, stored] using stored_assignFrom xs { v with length := v.length + xs.length } v' v.length e1⟩
  | truncate n => cases h; simpa [given, cutOff] using trunc n
  | clear => cases h; simpa [given, cutOff, MmapVec.clear] using trunc 0
  | resize n fill =>
    obtain ⟨u, e1, e2⟩ := Option.map_eq_some_iff.1 h
    cases e2
    unfold MmapVec.resize at e1
    split at e1
    · cases e1
    · obtain ⟨u, e3, e4⟩ := Option.map_eq_some_iff.1 e1
      cases e4
      obtain ⟨a1, a2⟩ := written_pushMany _ v u e3 hw
      rw [List.length_replicate] at a1
      exact ⟨fun i hi => a2 i (by dsimp only at hi; omega), by simpa [given, cutOff, stored] using stored_pushMany _ v u e3⟩
  | set i x =>
    obtain ⟨u, e1, e2⟩ := Option.map_eq_some_iff.1 h
    cases e2
    refine ⟨?_, by simpa [given, cutOff, stored] using stored_set v v' i x e1⟩
    rw [(set_facts v v' i x e1).1]
    exact (written_set _ v v' i x e1 hw).1
  | get i =>
    obtain ⟨u, e1, e2⟩ := Option.map_eq_some_iff.1 h
    cases e2
    exact ⟨hw, by simp [given, cutOff]⟩
  | len => cases h; exact ⟨hw, by simp [given, cutOff]⟩
  | isEmpty => cases h; exact ⟨hw, by simp [given, cutOff]⟩
  | slice => cases h; exact ⟨hw, by simp [given, cutOff]⟩
  | clone => exact absurd rfl hp

/-- Specification: a history of any operations on a vector, with the values given to it and the values cut off. -/
inductive LongHistory (zero : T) (cap : Nat) : MmapVec T → List T → List T → Prop
  | start : LongHistory zero cap (MmapVec.with_capacity cap) [] []
  | step (v v' : MmapVec T) (l c : List T) (p : VecOp T) (o : VecOut T) : LongHistory zero cap v l c → p ≠ .clone → mmapStep zero v p = some (v', o) →
      LongHistory zero cap v' (l ++ given v.length p) (c ++ cutOff (v.as_slice zero) p)
  /-- a clone is a new vector, given clones of the values -/
  | clone (v v' : MmapVec T) (l c : List T) : LongHistory zero cap v l c → v.clone zero = some v' → LongHistory zero cap v' (v.as_slice zero) []

theorem stored_new (cap : Nat) : stored (MmapVec.with_capacity cap : MmapVec T) = [] := by
  unfold stored MmapVec.with_capacity
  induction cap <;> simp_all [List.replicate_succ]

theorem clone_facts (zero : T) (v v' : MmapVec T) (h : v.clone zero = some v') :
    WrittenTo v'.length v' ∧ (v'.drops ++ stored v').Perm (v.as_slice zero) := by
  have h' : (MmapVec.with_capacity v.capacity : MmapVec T).pushMany (v.as_slice zero) = some v' := h
  refine ⟨(written_pushMany _ _ v' h' fun i hi => by simp [MmapVec.with_capacity] at hi).2, ?_⟩
  have := stored_pushMany _ _ v' h'
  rw [stored_new] at this
  simpa [MmapVec.with_capacity] using this

theorem long_written (zero : T) (cap : Nat) (v : MmapVec T) (l c : List T) (h : LongHistory zero cap v l c) : WrittenTo v.length v := by
  induction h with
  | start => intro i hi; simp [MmapVec.with_capacity] at hi
  | step v v' l c p o _ hp h ih => exact (step_facts zero v v' p o hp h ih).1
  | clone v v' l c _ h _ => exact (clone_facts zero v v' h).1

/-- C62, the exact account for every history: the values whose destructor has run, together with those still in the memory, are those given and a second time those cut off by
`truncate` and `clear`: every value cut off is still in the memory, and its destructor runs again when its place is used again. -/
theorem C62_account (zero : T) (cap : Nat) (v : MmapVec T) (l c : List T) (h : LongHistory zero cap v l c) :
    (v.drops ++ stored v).Perm (l ++ c) := by
  induction h with
  | start => rw [stored_new]; simp [MmapVec.with_capacity]
  | step v v' l c p o hv hp h ih =>
    refine ((step_facts zero v v' p o hp h (long_written zero cap v l c hv)).2.trans (ih.append_right _)).trans ?_
    classical
    rw [List.perm_iff_count]
    intro y
    simp only [List.count_append]
    omega
  | clone v v' l c _ h _ => simpa using (clone_facts zero v v' h).2

/-- Specification: a history in which nothing is added after the first time that something was cut off; it may still be overwritten, cut off again and made shorter. -/
inductive CutLast (zero : T) (cap : Nat) : MmapVec T → List T → Bool → Prop
  | start : CutLast zero cap (MmapVec.with_capacity cap) [] false
  | step (v v' : MmapVec T) (l : List T) (b : Bool) (p : VecOp T) (o : VecOut T) : CutLast zero cap v l b → p ≠ .clone → mmapStep zero v p = some (v', o) →
      (b = true → v'.length ≤ v.length) → CutLast zero cap v' (l ++ given v.length p) (b || !(cutOff (v.as_slice zero) p).isEmpty)
  | clone (v v' : MmapVec T) (l : List T) (b : Bool) : CutLast zero cap v l b → v.clone zero = some v' → CutLast zero cap v' (v.as_slice zero) false

/-- the live values after one operation that does not add any -/
theorem shrink_facts (zero : T) (v v' : MmapVec T) (p : VecOp T) (o : VecOut T) (hp : p ≠ .clone) (h : mmapStep zero v p = some (v', o))
    (hw : WrittenTo v.length v) (hl : v'.length ≤ v.length) :
    (v'.drops ++ v'.as_slice zero).Subperm (v.drops ++ v.as_slice zero ++ given v.length p) := by
  have trunc : ∀ n, ((v.truncate n).drops ++ (v.truncate n).as_slice zero).Subperm (v.drops ++ v.as_slice zero) := by
    intro n
    unfold MmapVec.truncate
    split
    · exact List.Subperm.refl _
    · rename_i hn
      dsimp only
      rw [(values_eq zero v hw).2 n]
      have e : MmapVec.as_slice zero { slots := v.slots, length := n, capacity := v.capacity, drops := v.drops ++ (v.as_slice zero).drop n } = (v.as_slice zero).take n := by
        simp only [MmapVec.as_slice]
        rw [← List.map_take, List.take_take, Nat.min_eq_left (by omega)]
      rw [e, List.append_assoc]
      refine List.Perm.subperm (List.Perm.append_left _ ?_)
      conv_rhs => rw [← List.take_append_drop n (v.as_slice zero)]
      exact List.perm_append_comm
  have same : (v.drops ++ v.as_slice zero).Subperm (v.drops ++ v.as_slice zero ++ given v.length p) :=
    (List.sublist_append_left _ _).subperm
  cases p with
  | push x =>
    obtain ⟨u, e1, e2⟩ := Option.map_eq_some_iff.1 h
    cases e2
    have := (written_push v v' x e1 hw).1
    omega
  | extend xs =>
    obtain ⟨u, e1, e2⟩ := Option.map_eq_some_iff.1 h
    cases e2
    have := (written_pushMany xs v v' e1 hw).1
    cases xs with
    | nil => cases e1; exact same
    | cons x xs => simp at this; omega
  | extendFromSlice xs =>
    obtain ⟨u, e1, e2⟩ := Option.map_eq_some_iff.1 h
    cases e2
    unfold MmapVec.extend_from_slice at e1
    split at e1
    · cases e1
    · have := (written_assignFrom xs { v with length := v.length + xs.length } v' v.length e1 hw).1
      cases xs with
      | nil => cases e1; exact same
      | cons x xs => simp at this; omega
  | truncate n => cases h; simpa [given] using trunc n
  | clear => cases h; simpa [given, MmapVec.clear] using trunc 0
  | resize n fill =>
    obtain ⟨u, e1, e2⟩ := Option.map_eq_some_iff.1 h
    cases e2
    unfold MmapVec.resize at e1
    split at e1
    · cases e1
    · obtain ⟨u, e3, e4⟩ := Option.map_eq_some_iff.1 e1
      cases e4
      dsimp only at hl
      rw [show n - v.length = 0 by omega] at e3
      cases e3
      refine List.Subperm.trans (List.Sublist.subperm ?_) same
      refine List.Sublist.append_left ?_ _
      simp only [MmapVec.as_slice]
      rw [show v.slots.take n = (v.slots.take v.length).take n by rw [List.take_take, Nat.min_eq_left hl], List.map_take]
      exact List.take_sublist _ _
  | set i x =>
    obtain ⟨u, e1, e2⟩ := Option.map_eq_some_iff.1 h
    cases e2
    unfold MmapVec.set at e1
    split at e1
    · rename_i hi
      split at e1
      · rename_i old ho
        cases e1
        obtain ⟨hlt, he⟩ := List.getElem?_eq_some_iff.1 ho
        cases old with
        | none => exact absurd ho (hw i hi)
        | some y =>
          refine List.Perm.subperm ?_
          have hlen : i < (v.as_slice zero).length := by simp only [MmapVec.as_slice, List.length_map, List.length_take]; omega
          have hy : (v.as_slice zero)[i] = y := by simp [MmapVec.as_slice, he]
          have e : MmapVec.as_slice zero { slots := v.slots.set i (some x), length := v.length, capacity := v.capacity, drops := v.drops ++ (some y).toList } =
              (v.as_slice zero).set i x := by
            simp only [MmapVec.as_slice]
            rw [List.take_set, List.map_set]; rfl
          rw [e]
          dsimp only
          rw [List.set_eq_take_append_cons_drop, if_pos hlen]
          have e1 : v.as_slice zero = (v.as_slice zero).take i ++ y :: (v.as_slice zero).drop (i + 1) := by
            conv_lhs => rw [← List.take_append_drop i (v.as_slice zero), List.drop_eq_getElem_cons hlen, hy]
          conv_rhs => rw [e1]
          classical
          rw [List.perm_iff_count]
          intro z
          simp only [List.count_append, List.count_cons, Option.toList_some, given, List.count_nil]
          omega
      · cases e1
    · cases e1
  | get i =>
    obtain ⟨u, e1, e2⟩ := Option.map_eq_some_iff.1 h
    cases e2
    exact same
  | len => cases h; exact same
  | isEmpty => cases h; exact same
  | slice => cases h; exact same
  | clone => exact absurd rfl hp

/-- C62 (partial: nothing is added after something was cut off): in every such history, the values whose destructor has run together with those the vector still holds are among
those given to it, each at most as often: no destructor runs twice, and no destroyed value is handed out. -/
theorem C62_cut_last_partial (zero : T) (cap : Nat) (v : MmapVec T) (l : List T) (b : Bool) (h : CutLast zero cap v l b) :
    (v.drops ++ v.as_slice zero).Subperm l := by
  suffices H : WrittenTo v.length v ∧ (v.drops ++ v.as_slice zero).Subperm l ∧ (b = false → (v.drops ++ stored v).Perm l) from H.2.1
  have live : ∀ v : MmapVec T, WrittenTo v.length v → (v.drops ++ v.as_slice zero).Subperm (v.drops ++ stored v) := by
    intro v hw
    refine List.Sublist.subperm (List.Sublist.append_left ?_ _)
    rw [← (values_eq zero v hw).1]
    unfold stored
    conv_rhs => rw [← List.take_append_drop v.length v.slots, List.flatMap_append]
    exact List.sublist_append_left _ _
  induction h with
  | start =>
    refine ⟨fun i hi => by simp [MmapVec.with_capacity] at hi, ?_, fun _ => ?_⟩
    · simp [MmapVec.with_capacity, MmapVec.as_slice]
    · rw [stored_new]; simp [MmapVec.with_capacity]
  | step v v' l b p o _ hp h hb ih =>
    obtain ⟨hw, h1, h2⟩ := ih
    obtain ⟨hw', hs⟩ := step_facts zero v v' p o hp h hw
    have hcut : b = false → cutOff (v.as_slice zero) p = [] → (v'.drops ++ stored v').Perm (l ++ given v.length p) := by
      intro hb hc
      rw [hc, List.append_nil] at hs
      exact hs.trans ((h2 hb).append_right _)
    refine ⟨hw', ?_, fun hf => ?_⟩
    · by_cases hl : v'.length ≤ v.length
      · exact (shrink_facts zero v v' p o hp h hw hl).trans (List.subperm_append_right _ |>.2 h1)
      · have hb' : b = false := by
          cases b with
          | false => rfl
          | true => exact absurd (hb rfl) hl
        have hc : cutOff (v.as_slice zero) p = [] := by
          cases p with
          | truncate n =>
            exfalso; apply hl; cases h
            unfold MmapVec.truncate; split
            · exact Nat.le_refl _
            · dsimp only; omega
          | clear =>
            exfalso; apply hl; cases h
            unfold MmapVec.clear MmapVec.truncate; split
            · exact Nat.le_refl _
            · dsimp only; omega
          | _ => rfl
        exact (live v' hw').trans (hcut hb' hc).subperm
    · rw [Bool.or_eq_false_iff] at hf
      refine hcut hf.1 ?_
      simpa using hf.2
  | clone v v' l b _ h _ =>
    obtain ⟨h1, h2⟩ := clone_facts zero v v' h
    exact ⟨h1, (live v' h1).trans h2.subperm, fun _ => h2⟩

-- two values are given, the second is cut off and the first then overwritten: two destructors have run, each for a value given
example : CutLast 0 2 (⟨[some 9, some 8], 1, 2, [8, 7]⟩ : MmapVec Nat) [7, 8, 9] true := by
  have h1 : CutLast 0 2 (⟨[some 7, some 8], 2, 2, []⟩ : MmapVec Nat) [7, 8] false :=
    .step _ _ [] false (.extend [7, 8]) .unit .start (by simp) rfl (by simp)
  have h2 : CutLast 0 2 (⟨[some 7, some 8], 1, 2, [8]⟩ : MmapVec Nat) [7, 8] true :=
    .step _ _ [7, 8] false (.truncate 1) .unit h1 (by simp) rfl (by simp)
  exact .step _ _ [7, 8] true (.set 0 9) .unit h2 (by simp) rfl (by simp)
-- the history of `C62_violated`: 7 was given once, cut off once, and dropped twice
example : LongHistory 0 1 (⟨[some 8], 1, 1, [7, 7]⟩ : MmapVec Nat) [7, 8] [7] := by
  have h1 : LongHistory 0 1 (⟨[some 7], 1, 1, []⟩ : MmapVec Nat) [7] [] := .step _ _ [] [] (.push 7) .unit .start (by simp) rfl
  have h2 : LongHistory 0 1 (⟨[some 7], 0, 1, [7]⟩ : MmapVec Nat) [7] [7] := .step _ _ [7] [] (.truncate 0) .unit h1 (by simp) rfl
  exact .step _ _ [7] [7] (.push 8) .unit h2 (by simp) rfl

end Props
end OpenZKP
