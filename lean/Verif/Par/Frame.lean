import Verif.Par.Model

/-! # Tasks with disjoint footprints: every interleaving gives the same memory -/

namespace OpenZKP.Par

variable {A α β γ ι : Type}

namespace Prog

/-- the accesses of a program: it writes only cells in `W` and reads only cells in `W` or `R` -/
def Uses (W R : A → Prop) : Prog A α β → Prop
  | .pure _ => True
  | .panic => True
  | .read a k => (W a ∨ R a) ∧ ∀ x, Uses W R (k x)
  | .write a _ k => W a ∧ Uses W R k

theorem uses_bind {W R : A → Prop} (p : Prog A α β) (f : β → Prog A α γ) (hp : Uses W R p) (hf : ∀ b, Uses W R (f b)) : Uses W R (p.bind f) := by
  induction p with
  | pure b => exact hf b
  | panic => trivial
  | read a k ih => exact ⟨hp.1, fun x => ih x (hp.2 x)⟩
  | write a x k ih => exact ⟨hp.1, ih hp.2⟩

theorem uses_loop {W R : A → Prop} (body : β → ι → Prog A α β) (h : ∀ b i, Uses W R (body b i)) : ∀ (l : List ι) (b : β), Uses W R (loop body l b)
  | [], _ => trivial
  | i :: l, b => uses_bind _ _ (h b i) (uses_loop body h l)

theorem uses_get {W R : A → Prop} (addr : Nat → A) (len j : Nat) (h : ∀ j < len, W (addr j) ∨ R (addr j)) : Uses W R (get (α := α) addr len j) := by
  unfold get
  split
  · next hj => exact ⟨h j hj, fun _ => trivial⟩
  · trivial

theorem uses_set {W R : A → Prop} (addr : Nat → A) (len j : Nat) (x : α) (h : ∀ j < len, W (addr j)) : Uses W R (set addr len j x) := by
  unfold set
  split
  · next hj => exact ⟨h j hj, trivial⟩
  · trivial

variable [DecidableEq A]

theorem run_bind (p : Prog A α β) (f : β → Prog A α γ) (m : A → α) : (p.bind f).run m = (p.run m).bind fun r => (f r.1).run r.2 := by
  induction p generalizing m with
  | pure b => rfl
  | panic => rfl
  | read a k ih => exact ih (m a) m
  | write a x k ih => exact ih _

/-- number of accesses of a program run alone -/
def cost : Prog A α β → (A → α) → Nat
  | .pure _, _ => 0
  | .panic, _ => 0
  | .read a k, m => cost (k (m a)) m + 1
  | .write a x k, m => cost k (fun a' => if a' = a then x else m a') + 1

theorem run_frame {W R : A → Prop} (p : Prog A α β) (hp : Uses W R p) (m m' : A → α) (h : ∀ a, W a ∨ R a → m a = m' a) :
    p.cost m = p.cost m' ∧ match p.run m, p.run m' with
      | some r, some r' => r.1 = r'.1 ∧ (∀ a, W a ∨ R a → r.2 a = r'.2 a)
      | none, none => True
      | _, _ => False := by
  induction p generalizing m m' with
  | pure b => exact ⟨rfl, rfl, h⟩
  | panic => exact ⟨rfl, trivial⟩
  | read a k ih =>
    unfold cost run
    rw [h a hp.1]
    have := ih (m' a) (hp.2 _) m m' h
    exact ⟨by rw [this.1], this.2⟩
  | write a x k ih =>
    unfold cost run
    have := ih hp.2 (fun a' => if a' = a then x else m a') (fun a' => if a' = a then x else m' a')
      (fun a' ha' => by split <;> first | rfl | exact h a' ha')
    exact ⟨by rw [this.1], this.2⟩

theorem run_outside {W R : A → Prop} (p : Prog A α β) (hp : Uses W R p) (m : A → α) (r : β × (A → α)) (hr : p.run m = some r) (a : A) (ha : ¬ W a) :
    r.2 a = m a := by
  induction p generalizing m with
  | pure b => cases hr; rfl
  | panic => cases hr
  | read a' k ih => exact ih (m a') (hp.2 _) m hr
  | write a' x k ih =>
    rw [ih hp.2 _ hr]
    exact if_neg (fun e : a = a' => ha (e ▸ hp.1))

end Prog

variable [DecidableEq A]

/-- what is left of task `i`, run alone from now on, would leave in its own cells what it would have left from the start -/
structure Inv (W : Nat → A → Prop) (R : A → Prop) (r : Nat → A → α) (m0 : A → α) (s : State A α) : Prop where
  uses : ∀ i, (s.tasks i).Uses (W i) R
  result : ∀ i, ∃ m', (s.tasks i).run s.mem = some ((), m') ∧ ∀ a, W i a → m' a = r i a
  outside : ∀ a, (∀ i, ¬ W i a) → s.mem a = m0 a

theorem step_cost {W : Nat → A → Prop} {R : A → Prop} (hdisj : ∀ i j, i ≠ j → ∀ a, W i a → ¬ W j a) (hR : ∀ i a, R a → ¬ W i a)
    {r : Nat → A → α} {m0 : A → α} {s : State A α} (inv : Inv W R r m0 s) (i : Nat) :
    Inv W R r m0 (step s i) ∧ ((step s i).tasks i).cost (step s i).mem = (s.tasks i).cost s.mem - 1 ∧
      ∀ j, j ≠ i → ((step s i).tasks j).cost (step s i).mem = (s.tasks j).cost s.mem := by
  have hu := inv.uses i
  obtain ⟨m', hm', hr'⟩ := inv.result i
  -- the other tasks do not see the step
  have other : ∀ m1 : A → α, (∀ a, ¬ W i a → m1 a = s.mem a) → ∀ j, j ≠ i →
      (s.tasks j).cost m1 = (s.tasks j).cost s.mem ∧ ∃ m', (s.tasks j).run m1 = some ((), m') ∧ ∀ a, W j a → m' a = r j a := by
    intro m1 h1 j hj
    obtain ⟨mj, hmj, hrj⟩ := inv.result j
    have h2 := Prog.run_frame (s.tasks j) (inv.uses j) m1 s.mem (by
      intro a ha
      apply h1
      rcases ha with ha | ha
      · exact hdisj j i hj a ha
      · exact hR i a ha)
    refine ⟨h2.1, ?_⟩
    rw [hmj] at h2
    cases h3 : (s.tasks j).run m1 with
    | none => rw [h3] at h2; exact h2.2.elim
    | some x =>
      rw [h3] at h2
      obtain ⟨u, mx⟩ := x
      exact ⟨mx, rfl, fun a ha => (h2.2.2 a (Or.inl ha)).trans (hrj a ha)⟩
  unfold step
  cases h : s.tasks i with
  | pure b => exact ⟨inv, by simp [h, Prog.cost], fun _ _ => rfl⟩
  | panic => exact ⟨inv, by simp [h, Prog.cost], fun _ _ => rfl⟩
  | read a k =>
    rw [h] at hu hm'
    dsimp only
    refine ⟨⟨?_, ?_, inv.outside⟩, ?_, ?_⟩
    · intro j
      by_cases hj : j = i
      · subst hj; simpa [setTask] using hu.2 _
      · simpa [setTask, hj] using inv.uses j
    · intro j
      by_cases hj : j = i
      · subst hj; exact ⟨m', by simpa [setTask, Prog.run] using hm', hr'⟩
      · simpa [setTask, hj] using inv.result j
    · simp [setTask, Prog.cost]
    · intro j hj; simp [setTask, hj]
  | write a x k =>
    rw [h] at hu hm'
    dsimp only
    have ho := other (fun a' => if a' = a then x else s.mem a') (fun a' ha' => if_neg (fun e : a' = a => ha' (e ▸ hu.1)))
    refine ⟨⟨?_, ?_, ?_⟩, ?_, ?_⟩
    · intro j
      by_cases hj : j = i
      · subst hj; simpa [setTask] using hu.2
      · simpa [setTask, hj] using inv.uses j
    · intro j
      by_cases hj : j = i
      · subst hj; exact ⟨m', by simpa [setTask, Prog.run] using hm', hr'⟩
      · simpa [setTask, hj] using (ho j hj).2
    · intro a' ha'
      rw [← inv.outside a' ha']
      exact if_neg (fun e : a' = a => ha' i (e ▸ hu.1))
    · simp [setTask, Prog.cost]
    · intro j hj
      simpa [setTask, hj] using (ho j hj).1

theorem exec_inv {W : Nat → A → Prop} {R : A → Prop} (hdisj : ∀ i j, i ≠ j → ∀ a, W i a → ¬ W j a) (hR : ∀ i a, R a → ¬ W i a)
    {r : Nat → A → α} {m0 : A → α} (schedule : List Nat) : ∀ (s : State A α), Inv W R r m0 s →
    Inv W R r m0 (exec schedule s) ∧ ∀ i, ((exec schedule s).tasks i).cost (exec schedule s).mem = (s.tasks i).cost s.mem - schedule.count i := by
  induction schedule with
  | nil => intro s inv; exact ⟨inv, fun i => rfl⟩
  | cons k l ih =>
    intro s inv
    obtain ⟨h1, h2, h3⟩ := step_cost hdisj hR inv k
    obtain ⟨h4, h5⟩ := ih _ h1
    refine ⟨h4, fun i => ?_⟩
    have : exec (k :: l) s = exec l (step s k) := rfl
    rw [this, h5]
    by_cases hi : i = k
    · subst hi
      rw [h2, List.count_cons_self]; omega
    · rw [h3 i hi, List.count_cons_of_ne (by simpa using fun e => hi e.symm)]

/-- **Race-free tasks.**  If the tasks write disjoint cells, read only their own cells and cells nobody writes, and none panics when run alone, then every
execution ends in the memory in which each task's cells are what that task, run alone, leaves there. -/
theorem always_of_disjoint (n : Nat) (body : Nat → Prog A α Unit) (W : Nat → A → Prop) (R : A → Prop) (m m' : A → α)
    (hdisj : ∀ i j, i ≠ j → ∀ a, W i a → ¬ W j a) (hR : ∀ i a, R a → ¬ W i a) (huses : ∀ i < n, (body i).Uses (W i) R)
    (hrun : ∀ i < n, ∃ mi, (body i).run m = some ((), mi) ∧ ∀ a, W i a → mi a = m' a) (hrest : ∀ a, (∀ i < n, ¬ W i a) → m' a = m a) :
    Always n body m m' := by
  -- tasks beyond the last own nothing
  let W' : Nat → A → Prop := fun i a => i < n ∧ W i a
  have hd : ∀ i j, i ≠ j → ∀ a, W' i a → ¬ W' j a := fun i j hij a h1 h2 => hdisj i j hij a h1.2 h2.2
  have hr : ∀ i a, R a → ¬ W' i a := fun i a h1 h2 => hR i a h1 h2.2
  have inv0 : Inv W' R (fun _ => m') m ⟨m, forEach n body⟩ := by
    refine ⟨fun i => ?_, fun i => ?_, fun _ _ => rfl⟩
    · dsimp only [forEach]
      split
      · next h =>
        have := huses i h
        have e : W' i = W i := funext fun a => propext ⟨fun h => h.2, fun h' => ⟨h, h'⟩⟩
        rw [e]; exact this
      · trivial
    · dsimp only [forEach]
      split
      · next h =>
        obtain ⟨mi, h1, h2⟩ := hrun i h
        exact ⟨mi, h1, fun a ha => h2 a ha.2⟩
      · next h => exact ⟨m, rfl, fun a ha => absurd ha.1 h⟩
  have key := fun schedule => exec_inv hd hr schedule _ inv0
  refine ⟨?_, ?_, ?_⟩
  · intro schedule i hp
    obtain ⟨x, hx, _⟩ := (key schedule).1.result i
    rw [hp] at hx; cases hx
  · -- enough turns for the longest task
    have hmax : ∃ turns, ∀ i < n, (body i).cost m ≤ turns := by
      have aux : ∀ k, ∃ turns, ∀ i < k, (body i).cost m ≤ turns := by
        intro k
        induction k with
        | zero => exact ⟨0, fun i hi => absurd hi (Nat.not_lt_zero i)⟩
        | succ k ih =>
          obtain ⟨t, ht⟩ := ih
          refine ⟨max t ((body k).cost m), fun i hi => ?_⟩
          by_cases h : i = k
          · subst h; exact Nat.le_max_right _ _
          · exact Nat.le_trans (ht i (by omega)) (Nat.le_max_left _ _)
      exact aux n
    obtain ⟨turns, ht⟩ := hmax
    refine ⟨turns, fun schedule hs i => ?_⟩
    obtain ⟨h1, h2⟩ := key schedule
    have h3 := h2 i
    have h0 : ((exec schedule ⟨m, forEach n body⟩).tasks i).cost (exec schedule ⟨m, forEach n body⟩).mem = 0 := by
      rw [h3]
      by_cases h : i < n
      · have e : forEach n body i = body i := if_pos h
        have := ht i h
        have := hs i h
        dsimp only
        rw [e]; omega
      · have e : forEach n body i = .pure () := if_neg h
        dsimp only
        rw [e]; simp [Prog.cost]
    obtain ⟨x, hx, _⟩ := h1.result i
    cases h : (exec schedule ⟨m, forEach n body⟩).tasks i with
    | pure b => rfl
    | panic => rw [h] at hx; cases hx
    | read a k => rw [h] at h0; simp [Prog.cost] at h0
    | write a x k => rw [h] at h0; simp [Prog.cost] at h0
  · intro schedule hf
    have h1 := (key schedule).1
    funext a
    by_cases h : ∃ i, W' i a
    · obtain ⟨i, hi⟩ := h
      obtain ⟨x, hx, hxa⟩ := h1.result i
      rw [hf i] at hx
      cases hx
      exact hxa a hi
    · have h' : ∀ i, ¬ W' i a := fun i hi => h ⟨i, hi⟩
      rw [h1.outside a h', hrest a fun i hi hw => h' i ⟨hi, hw⟩]

/-- there is an execution to speak of: for instance the tasks one after the other -/
theorem always_exists {n : Nat} {body : Nat → Prog A α Unit} {m m' : A → α} (h : Always n body m m') :
    ∃ schedule, Finished (exec schedule ⟨m, forEach n body⟩) ∧ (exec schedule ⟨m, forEach n body⟩).mem = m' := by
  obtain ⟨-, ⟨turns, ht⟩, hm⟩ := h
  refine ⟨(List.range n).flatMap fun i => List.replicate turns i, ?_, hm _ ?_⟩ <;>
  · apply ht
    intro i hi
    rw [List.count_flatMap]
    have : ∀ l : List Nat, i ∈ l → turns ≤ (l.map (List.count i ∘ fun i => List.replicate turns i)).sum := by
      intro l
      induction l with
      | nil => intro h; cases h
      | cons k l ih =>
        intro h
        rw [List.map_cons, List.sum_cons]
        rcases List.mem_cons.1 h with rfl | h
        · simp
        · have := ih h; omega
    exact this _ (List.mem_range.2 hi)

theorem always_unique {n : Nat} {body : Nat → Prog A α Unit} {m m1 m2 : A → α} (h1 : Always n body m m1) (h2 : Always n body m m2) : m1 = m2 := by
  obtain ⟨s, hs, e⟩ := always_exists h1
  rw [← e, h2.2.2 s hs]

end OpenZKP.Par
