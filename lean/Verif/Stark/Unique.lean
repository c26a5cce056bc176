import Verif.Stark.Converse

/-!
Lemmas: the bytes of a proof determine its parts.
-/

namespace OpenZKP
namespace Stark
namespace Accept
open FFT U256 Props Merkle

theorem flatten_inj32 : ∀ (a b : List Bytes), a.length = b.length → (∀ h ∈ a, h.length = 32) → (∀ h ∈ b, h.length = 32) → a.flatten = b.flatten → a = b
  | [], [], _, _, _, _ => rfl
  | x :: a, y :: b, hl, h1, h2, h => by
    rw [List.flatten_cons, List.flatten_cons] at h
    obtain ⟨e1, e2⟩ := List.append_inj h (by rw [h1 x (by simp), h2 y (by simp)])
    rw [e1, flatten_inj32 a b (by simpa using hl) (fun z hz => h1 z (by simp [hz])) (fun z hz => h2 z (by simp [hz])) e2]

theorem flatten_length32 : ∀ (a : List Bytes), (∀ h ∈ a, h.length = 32) → a.flatten.length = 32 * a.length
  | [], _ => rfl
  | x :: a, h1 => by
    rw [List.flatten_cons, List.length_append, h1 x (by simp), flatten_length32 a fun z hz => h1 z (by simp [hz]), List.length_cons]
    omega

theorem rows_length (n : Nat) : ∀ (a : List (List U256)), (∀ r ∈ a, r.length = n) → (a.flatMap words).length = 32 * n * a.length
  | [], _ => by simp
  | x :: a, h1 => by
    rw [List.flatMap_cons, List.length_append, words_length, h1 x (by simp), rows_length n a fun z hz => h1 z (by simp [hz]), List.length_cons]
    ring

theorem rows_inj (n : Nat) : ∀ (a b : List (List U256)), a.length = b.length → (∀ r ∈ a, r.length = n) → (∀ r ∈ b, r.length = n) →
    a.flatMap words = b.flatMap words → a = b
  | [], [], _, _, _, _ => rfl
  | x :: a, y :: b, hl, h1, h2, h => by
    rw [List.flatMap_cons, List.flatMap_cons] at h
    have l1 := h1 x (by simp)
    have l2 := h2 y (by simp)
    obtain ⟨e1, e2⟩ := List.append_inj h (by rw [words_length, words_length, l1, l2])
    rw [words_inj x y (l1.trans l2.symm) e1, rows_inj n a b (by simpa using hl) (fun z hz => h1 z (by simp [hz])) (fun z hz => h2 z (by simp [hz])) e2]

/-- the same hashes are enough for the same indices -/
theorem enough_length {size : Nat} {r r' : Bytes} {h h' : List Bytes} {is : List Nat} (e : Enough size r h is) (e' : Enough size r' h' is) : h.length = h'.length := by
  unfold Enough proof_size at e e'
  exact Except.ok.inj (e.symm.trans e')

section
variable {F : Type} [Field F] [DecidableEq F] (env : Env F)

omit [Field F] [DecidableEq F] in
theorem draws_unique {c : PublicCoin} {n : Nat} {xs ys : List F} (h : Draws env c n xs) (h' : Draws env c n ys) : xs = ys := by
  obtain ⟨us, c1, h1, rfl⟩ := h
  obtain ⟨vs, c2, h2, rfl⟩ := h'
  rw [h1] at h2
  cases h2
  rfl

theorem fri_unique (last last' : List F) : ∀ (layout : List Nat) (ls ls' : List Layer) (as as' : List F) (w w' : F) (m : Nat) (f f' : Nat → F) (Q : List Nat),
    (∀ l ∈ ls, ∀ h ∈ l.hashes, h.length = 32) → (∀ l ∈ ls', ∀ h ∈ l.hashes, h.length = 32) → ls.map (·.root) = ls'.map (·.root) →
    FriOk env last layout ls as w m f Q → FriOk env last' layout ls' as' w' m f' Q → FriCounted layout ls m Q → FriCounted layout ls' m Q →
    (ls.flatMap fun l => words l.values ++ l.hashes.flatten) = (ls'.flatMap fun l => words l.values ++ l.hashes.flatten) → ls = ls' := by
  intro layout
  induction layout with
  | nil =>
    intro ls ls' as as' w w' m f f' Q _ _ _ _ _ c1 c2 _
    cases ls with
    | cons l ls => simp [FriCounted] at c1
    | nil =>
    cases ls' with
    | cons l ls => simp [FriCounted] at c2
    | nil => rfl
  | cons n layout ih =>
    intro ls ls' as as' w w' m f f' Q h1 h1' hr o1 o2 c1 c2 hb
    cases ls with
    | nil => simp [FriCounted] at c1
    | cons l ls =>
    cases ls' with
    | nil => simp [FriCounted] at c2
    | cons l' ls' =>
    cases as with
    | nil => simp [FriOk] at o1
    | cons a as =>
    cases as' with
    | nil => simp [FriOk] at o2
    | cons a' as' =>
    rw [FriOk] at o1 o2
    rw [FriCounted] at c1 c2
    obtain ⟨V, J, j1, j2, _, j3, _, j4⟩ := o1
    obtain ⟨V', J', j1', j2', _, j3', _, j4'⟩ := o2
    obtain ⟨I, i1, i2, i3, i4⟩ := c1
    obtain ⟨I', i1', i2', i3', i4'⟩ := c2
    have e1 : J' = J := strict_unique _ _ j1' j1 fun j => (j2' j).trans (j2 j).symm
    have e2 : I = J := strict_unique _ _ i1 j1 fun j => (i2 j).trans (j2 j).symm
    have e3 : I' = J := strict_unique _ _ i1' j1 fun j => (i2' j).trans (j2 j).symm
    subst e1 e2 e3
    rw [List.map_cons, List.map_cons, List.cons.injEq] at hr
    rw [List.flatMap_cons, List.flatMap_cons, List.append_assoc, List.append_assoc] at hb
    have lv : l.values.length = l'.values.length := by
      have a1 := congrArg List.length j3
      have a2 := congrArg List.length j3'
      simp only [List.length_map] at a1 a2
      rw [a1, a2]
    obtain ⟨b1, hb⟩ := List.append_inj hb (by rw [words_length, words_length, lv])
    have lh := enough_length i3 i3'
    have x1 := h1 l (by simp)
    have x2 := h1' l' (by simp)
    obtain ⟨b2, hb⟩ := List.append_inj hb (by rw [flatten_length32 _ x1, flatten_length32 _ x2, lh])
    have ee : l = l' := by
      obtain ⟨r, vs, hs⟩ := l
      obtain ⟨r', vs', hs'⟩ := l'
      dsimp only at *
      rw [hr.1, words_inj _ _ lv b1, flatten_inj32 _ _ lh x1 x2 b2]
    rw [ee, ih ls ls' as as' _ _ _ _ _ _ (fun z hz => h1 z (by simp [hz])) (fun z hz => h1' z (by simp [hz])) hr.2 j4 j4' i4 i4' hb]

theorem unique (c : Constraints F) (k b : Nat) (w g : F) (p : Bytes) (args args' : List (Nat × Int)) (P P' : Contents) (x x' : Challenges F)
    (h : Accepts env c k b w g p args P x) (h' : Accepts env c k b w g p args' P' x') (hc : P.Counted c.fri_layout (k + b) x.queries)
    (hc' : P'.Counted c.fri_layout (k + b) x'.queries) : args = args' ∧ P = P' ∧ x = x' := by
  have ea : args = args' := sorted_unique _ _ h.args_sorted h'.args_sorted fun a => (h.args_all a).trans (h'.args_all a).symm
  subst ea
  obtain ⟨d, hd, hs⟩ := h.sized
  obtain ⟨d', hd', hs'⟩ := h'.sized
  rw [hd] at hd'
  cases hd'
  have hb : P.bytes = P'.bytes := by rw [← h.bytes, ← h'.bytes]
  unfold Contents.bytes at hb
  obtain ⟨e1, hb⟩ := List.append_inj hb (by rw [hs.trace_root, hs'.trace_root])
  obtain ⟨e2, hb⟩ := List.append_inj hb (by rw [hs.constraint_root, hs'.constraint_root])
  obtain ⟨e3, hb⟩ := List.append_inj hb (by rw [words_length, words_length, hs.trace_values.1, hs'.trace_values.1])
  obtain ⟨e4, hb⟩ := List.append_inj hb (by rw [words_length, words_length, hs.constraint_values.1, hs'.constraint_values.1])
  have r1 : ∀ h ∈ P.fri.map (·.root), h.length = 32 := by
    intro h hh; obtain ⟨l, hl, rfl⟩ := List.mem_map.1 hh; exact (hs.fri.2 l hl).1
  have r2 : ∀ h ∈ P'.fri.map (·.root), h.length = 32 := by
    intro h hh; obtain ⟨l, hl, rfl⟩ := List.mem_map.1 hh; exact (hs'.fri.2 l hl).1
  have r3 : (P.fri.map (·.root)).length = (P'.fri.map (·.root)).length := by rw [List.length_map, List.length_map, hs.fri.1, hs'.fri.1]
  obtain ⟨e5, hb⟩ := List.append_inj hb (by rw [List.flatMap_def, List.flatMap_def, flatten_length32 _ r1, flatten_length32 _ r2, r3])
  rw [List.flatMap_def, List.flatMap_def] at e5
  have e5 := flatten_inj32 _ _ r3 r1 r2 e5
  obtain ⟨e6, hb⟩ := List.append_inj hb (by rw [words_length, words_length, hs.last_layer.1, hs'.last_layer.1])
  obtain ⟨e7, hb⟩ := List.append_inj hb (by rw [to_be_bytes_length, to_be_bytes_length])
  have e3 := words_inj _ _ (hs.trace_values.1.trans hs'.trace_values.1.symm) e3
  have e4 := words_inj _ _ (hs.constraint_values.1.trans hs'.constraint_values.1.symm) e4
  have e6 := words_inj _ _ (hs.last_layer.1.trans hs'.last_layer.1.symm) e6
  have hhead : P.head = P'.head := by unfold Contents.head; rw [e1, e2, e3, e4]
  have hbody : P.body = P'.body := by unfold Contents.body; rw [hhead, e5, e6]
  have hx : x = x' := by
    have d1 := h.drawn
    have d2 := h'.drawn
    obtain ⟨a1, a2, a3, a4, a5⟩ := x
    obtain ⟨b1, b2, b3, b4, b5⟩ := x'
    have x1 : a1 = b1 := draws_unique env d1.coefficients (by rw [e1]; exact d2.coefficients)
    have x2 : [a2] = [b2] := draws_unique env d1.point (by rw [e1, e2]; exact d2.point)
    have x3 : a3 = b3 := draws_unique env d1.oods (by rw [hhead, e4]; exact d2.oods)
    have x5 : a5 = b5 := by
      refine List.Perm.eq_of_pairwise (fun a b _ _ h1 h2 => Nat.le_antisymm h1 h2) d1.queries.1 d2.queries.1 (d1.queries.2.trans ?_)
      rw [hbody, e7]
      exact d2.queries.2.symm
    have x4 : a4 = b4 := by
      have f1 : a4.length = _ := d1.folds.1
      have f2 : b4.length = _ := d2.folds.1
      have hl : P.fri.length = P'.fri.length := hs.fri.1.trans hs'.fri.1.symm
      apply List.ext_getElem (by rw [f1, f2, hl])
      intro i h1 h2
      have y1 := d1.folds.2 i (by rw [← f1]; exact h1)
      have y2 := d2.folds.2 i (by rw [← f2]; exact h2)
      rw [List.map_take] at y1 y2
      rw [hhead, e5] at y1
      have := draws_unique env y1 y2
      rw [List.cons.injEq] at this
      have := this.1
      dsimp only at this
      rwa [List.getD_eq_getElem _ _ h1, List.getD_eq_getElem _ _ h2] at this
    rw [x1, (List.cons.inj x2).1, x3, x4, x5]
  subst hx
  obtain ⟨e8, hb⟩ := List.append_inj hb (by
    rw [rows_length _ _ fun r hr => (hs.trace_rows.2 r hr).1, rows_length _ _ fun r hr => (hs'.trace_rows.2 r hr).1, hs.trace_rows.1, hs'.trace_rows.1])
  have l9 := enough_length hc.trace hc'.trace
  obtain ⟨e9, hb⟩ := List.append_inj hb (by rw [flatten_length32 _ hs.trace_hashes, flatten_length32 _ hs'.trace_hashes, l9])
  obtain ⟨e10, hb⟩ := List.append_inj hb (by
    rw [rows_length _ _ fun r hr => (hs.constraint_rows.2 r hr).1, rows_length _ _ fun r hr => (hs'.constraint_rows.2 r hr).1, hs.constraint_rows.1,
      hs'.constraint_rows.1])
  have l11 := enough_length hc.constraint hc'.constraint
  obtain ⟨e11, hb⟩ := List.append_inj hb (by rw [flatten_length32 _ hs.constraint_hashes, flatten_length32 _ hs'.constraint_hashes, l11])
  have e8 := rows_inj _ _ _ (hs.trace_rows.1.trans hs'.trace_rows.1.symm) (fun r hr => (hs.trace_rows.2 r hr).1) (fun r hr => (hs'.trace_rows.2 r hr).1) e8
  have e10 := rows_inj _ _ _ (hs.constraint_rows.1.trans hs'.constraint_rows.1.symm) (fun r hr => (hs.constraint_rows.2 r hr).1)
    (fun r hr => (hs'.constraint_rows.2 r hr).1) e10
  have e9 := flatten_inj32 _ _ l9 hs.trace_hashes hs'.trace_hashes e9
  have e11 := flatten_inj32 _ _ l11 hs.constraint_hashes hs'.constraint_hashes e11
  obtain ⟨f, _, f1⟩ := h.fri
  obtain ⟨f', _, f1'⟩ := h'.fri
  have e12 := fri_unique env _ _ _ _ _ _ _ _ _ _ _ _ _ (fun l hl => (hs.fri.2 l hl).2.2) (fun l hl => (hs'.fri.2 l hl).2.2) e5 f1 f1' hc.fri hc'.fri hb
  have hn : P.nonce = P'.nonce := by
    have := congrArg beValue e7
    have p64 : (256 : Nat) ^ 8 = 2 ^ 64 := by norm_num
    rwa [to_be_bytes_value, to_be_bytes_value, p64, Nat.mod_eq_of_lt hs.nonce, Nat.mod_eq_of_lt hs'.nonce] at this
  refine ⟨rfl, ?_, rfl⟩
  obtain ⟨q1, q2, q3, q4, q5, q6, q7, q8, q9, q10, q11⟩ := P
  obtain ⟨s1, s2, s3, s4, s5, s6, s7, s8, s9, s10, s11⟩ := P'
  dsimp only at e1 e2 e3 e4 e6 hn e8 e9 e10 e11 e12
  rw [e1, e2, e3, e4, e6, hn, e8, e9, e10, e11, e12]

end
end Accept
end Stark
end OpenZKP
