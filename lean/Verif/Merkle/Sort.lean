import Verif.Merkle.Model

namespace OpenZKP
namespace Merkle

section
variable {ε β γ : Type}

theorem mapM_ok (f : β → Except ε γ) (g : β → γ) (l : List β) (h : ∀ x ∈ l, f x = .ok (g x)) :
    l.mapM f = .ok (l.map g) := by
  induction l with
  | nil => rfl
  | cons x l ih =>
    rw [List.mapM_cons, h x (by simp), ih (fun y hy => h y (by simp [hy]))]
    rfl

theorem mapM_ok_inv (f : β → Except ε γ) (l : List β) (r : List γ) (h : l.mapM f = .ok r) :
    List.Forall₂ (fun x y => f x = .ok y) l r := by
  induction l generalizing r with
  | nil =>
    cases h
    exact .nil
  | cons x l ih =>
    rw [List.mapM_cons] at h
    cases hx : f x with
    | error e => rw [hx] at h; cases h
    | ok y =>
      rw [hx] at h
      cases hl : l.mapM f with
      | error e => rw [hl] at h; cases h
      | ok r' =>
        rw [hl] at h
        cases h
        exact .cons hx (ih r' hl)

theorem dedupAfter_sublist (key : β → Nat) (last : β) (l : List β) : (dedupAfter key last l).Sublist l := by
  induction l generalizing last with
  | nil => exact List.Sublist.slnil
  | cons x l ih =>
    unfold dedupAfter
    split
    · exact (ih last).cons _
    · exact (ih x).cons_cons _

theorem dedupBy_sublist (key : β → Nat) (l : List β) : (dedupBy key l).Sublist l := by
  cases l with
  | nil => exact List.Sublist.slnil
  | cons x l => exact (dedupAfter_sublist key x l).cons_cons _

theorem dedupAfter_strict (key : β → Nat) (last : β) (l : List β)
    (h : (last :: l).Pairwise (fun a b => key a ≤ key b)) :
    (last :: dedupAfter key last l).Pairwise (fun a b => key a < key b) := by
  induction l generalizing last with
  | nil => simp [dedupAfter]
  | cons x l ih =>
    rw [List.pairwise_cons] at h
    unfold dedupAfter
    split
    · next e =>
      refine ih last ?_
      rw [List.pairwise_cons]
      exact ⟨fun y hy => h.1 y (by simp [hy]), (List.pairwise_cons.1 h.2).2⟩
    · next e =>
      have hlx : key last < key x := lt_of_le_of_ne (h.1 x (by simp)) (Ne.symm e)
      have := ih x h.2
      rw [List.pairwise_cons]
      refine ⟨?_, this⟩
      intro y hy
      rcases List.mem_cons.1 hy with rfl | hy
      · exact hlx
      · exact hlx.trans ((List.pairwise_cons.1 this).1 y hy)

theorem dedupBy_strict (key : β → Nat) (l : List β) (h : l.Pairwise (fun a b => key a ≤ key b)) :
    (dedupBy key l).Pairwise (fun a b => key a < key b) := by
  cases l with
  | nil => exact List.Pairwise.nil
  | cons x l => exact dedupAfter_strict key x l h

theorem dedupAfter_keys (key : β → Nat) (last : β) (l : List β) :
    ∀ x ∈ l, ∃ y ∈ last :: dedupAfter key last l, key y = key x := by
  induction l generalizing last with
  | nil => simp
  | cons x l ih =>
    intro z hz
    unfold dedupAfter
    split
    · next e =>
      rcases List.mem_cons.1 hz with rfl | hz
      · exact ⟨last, by simp, e.symm⟩
      · exact ih last z hz
    · next e =>
      rcases List.mem_cons.1 hz with rfl | hz
      · exact ⟨z, by simp, rfl⟩
      · obtain ⟨y, hy, hk⟩ := ih x z hz
        exact ⟨y, by simp at hy ⊢; tauto, hk⟩

theorem dedupBy_keys (key : β → Nat) (l : List β) : ∀ x ∈ l, ∃ y ∈ dedupBy key l, key y = key x := by
  cases l with
  | nil => simp
  | cons x l =>
    intro z hz
    rcases List.mem_cons.1 hz with rfl | hz
    · exact ⟨z, by simp [dedupBy], rfl⟩
    · exact dedupAfter_keys key x l z hz

end

section
variable {α : Type} [DecidableEq α]

theorem dedupAfter_complete (last : Nat × α) (l : List (Nat × α)) (h : noMismatch (last :: l) = true) :
    ∀ x ∈ l, x ∈ last :: dedupAfter Prod.fst last l := by
  induction l generalizing last with
  | nil => simp
  | cons x l ih =>
    unfold noMismatch at h
    simp only [Bool.and_eq_true, Bool.or_eq_true, bne_iff_ne, beq_iff_eq, ne_eq] at h
    intro z hz
    unfold dedupAfter
    split
    · next e =>
      have hx : x = last := Prod.ext e ((h.1.resolve_left (fun hn => hn e.symm)).symm)
      subst hx
      rcases List.mem_cons.1 hz with rfl | hz
      · simp
      · exact ih x h.2 z hz
    · next e =>
      rcases List.mem_cons.1 hz with rfl | hz
      · simp
      · have := ih x h.2 z hz
        simp at this ⊢; tauto

theorem dedupBy_complete (l : List (Nat × α)) (h : noMismatch l = true) : ∀ x ∈ l, x ∈ dedupBy Prod.fst l := by
  cases l with
  | nil => simp
  | cons x l =>
    intro z hz
    rcases List.mem_cons.1 hz with rfl | hz
    · simp [dedupBy]
    · exact dedupAfter_complete x l h z hz

theorem noMismatch_of (f : Nat → α) (l : List (Nat × α)) (h : ∀ x ∈ l, x.2 = f x.1) : noMismatch l = true := by
  induction l with
  | nil => rfl
  | cons x l ih =>
    cases l with
    | nil => rfl
    | cons y l =>
      unfold noMismatch
      rw [ih (fun z hz => h z (by simp [hz])), Bool.and_true, Bool.or_eq_true]
      by_cases e : x.1 = y.1
      · right; rw [beq_iff_eq, h x (by simp), h y (by simp), e]
      · left; simpa using e

end

/-- two strictly ascending lists with the same elements are equal -/
theorem strict_ext {l r : List Nat} (hl : l.Pairwise (· < ·)) (hr : r.Pairwise (· < ·)) (h : ∀ x, x ∈ l ↔ x ∈ r) :
    l = r := by
  have hp : l.Perm r := (List.perm_ext_iff_of_nodup (hl.imp (fun h => Nat.ne_of_lt h)) (hr.imp (fun h => Nat.ne_of_lt h))).2 h
  exact hp.eq_of_pairwise (fun a b _ _ h1 h2 => absurd (h1.trans h2) (lt_irrefl _)) hl hr

theorem sort_dedup_spec (l : List Nat) :
    (dedupBy id (l.insertionSort (· ≤ ·))).Pairwise (· < ·) ∧
    ∀ x, x ∈ dedupBy id (l.insertionSort (· ≤ ·)) ↔ x ∈ l := by
  refine ⟨dedupBy_strict id _ (List.pairwise_insertionSort (· ≤ ·) l), fun x => ⟨?_, ?_⟩⟩
  · intro h
    exact (List.mem_insertionSort (r := (· ≤ ·))).1 ((dedupBy_sublist id _).subset h)
  · intro h
    obtain ⟨y, hy, e⟩ := dedupBy_keys id (l.insertionSort (· ≤ ·)) x ((List.mem_insertionSort (r := (· ≤ ·))).2 h)
    simp only [id] at e
    rwa [← e]

end Merkle
end OpenZKP
