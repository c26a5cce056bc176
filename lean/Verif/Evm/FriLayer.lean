import Verif.Evm.Fri
import Mathlib.Data.List.Range
import Mathlib.Tactic.Linarith
import Mathlib.Tactic.Ring

/-!
# FRI in the contracts: folding a layer in place, as a function on lists
-/

namespace OpenZKP
namespace Evm
namespace Fri
open PrimeField MerkleVerifier Stark

/-- index, value and `x_inv` of a position -/
abbrev Entry := Nat × Nat × Nat

/-- collecting a coset from the entries and completion values that are left -/
def collectL : Nat → Nat → List Entry → List Nat → Option (List Nat × List Entry × List Nat)
  | 0, _, R, C => some ([], R, C)
  | count + 1, index, e :: R, C =>
    if e.1 = index then (collectL count (index + 1) R C).map fun r => (e.2.1 :: r.1, r.2)
    else
      match C with
      | c :: C => (collectL count (index + 1) (e :: R) C).map fun r => (c :: r.1, r.2)
      | [] => none
  | count + 1, index, [], c :: C => (collectL count (index + 1) [] C).map fun r => (c :: r.1, r.2)
  | _ + 1, _, [], [] => none

theorem collectL_cons (count index : Nat) (e : Entry) (R : List Entry) (C : List Nat) :
    collectL (count + 1) index (e :: R) C =
      if e.1 = index then (collectL count (index + 1) R C).map fun r => (e.2.1 :: r.1, r.2)
      else
        match C with
        | c :: C => (collectL count (index + 1) (e :: R) C).map fun r => (c :: r.1, r.2)
        | [] => none := by
  cases C <;> simp only [collectL]

/-- the entries of three arrays -/
def entries (indices values x_inv : List Nat) : List Entry := indices.zip (values.zip x_inv)

theorem entries_length (indices values x_inv : List Nat) (h1 : values.length = indices.length) (h2 : values.length ≤ x_inv.length) :
    (entries indices values x_inv).length = values.length := by
  unfold entries
  rw [List.length_zip, List.length_zip]
  omega

theorem entries_cons {indices values x_inv : List Nat} {read : Nat} {e : Entry} {R : List Entry} (h : (entries indices values x_inv).drop read = e :: R) :
    indices[read]? = some e.1 ∧ values[read]? = some e.2.1 ∧ x_inv[read]? = some e.2.2 ∧ (entries indices values x_inv).drop (read + 1) = R := by
  have h1 : (entries indices values x_inv)[read]? = some e := by
    have := congrArg List.head? h
    rwa [List.head?_drop] at this
  have h2 : (entries indices values x_inv).drop (read + 1) = R := by
    have := congrArg List.tail h
    rwa [List.tail_drop] at this
  refine ⟨?_, ?_, ?_, h2⟩
  all_goals
    unfold entries at h1
    rw [List.getElem?_zip_eq_some] at h1
    obtain ⟨a, b⟩ := h1
    rw [List.getElem?_zip_eq_some] at b
  · exact a
  · exact b.1
  · exact b.2

theorem drop_cons {α : Type} {l : List α} {i : Nat} {x : α} {r : List α} (h : l.drop i = x :: r) : l[i]? = some x ∧ l.drop (i + 1) = r := by
  constructor
  · have := congrArg List.head? h
    rwa [List.head?_drop] at this
  · have := congrArg List.tail h
    rwa [List.tail_drop] at this

theorem getElem?_of_drop_nil {α : Type} {l : List α} {i : Nat} (h : l.drop i = []) : l[i]? = none := by
  rw [List.getElem?_eq_none_iff]
  exact List.drop_eq_nil_iff.1 h

theorem collect_eq (values indices x_inv completion : List Nat) (h1 : values.length = indices.length) (h2 : values.length ≤ x_inv.length) :
    ∀ (count index next read comp : Nat) (R : List Entry) (C : List Nat), (entries indices values x_inv).drop read = R → completion.drop comp = C →
    (∀ e, R.head? = some e → e.1 = next) → (R = [] → next < index) →
    match collectL count index R C with
    | none => collect values indices completion count index next read comp = none
    | some r => ∃ read' comp', collect values indices completion count index next read comp = some (r.1, read', comp') ∧
        (entries indices values x_inv).drop read' = r.2.1 ∧ completion.drop comp' = r.2.2 ∧ read ≤ read' := by
  intro count
  induction count with
  | zero =>
    intro index next read comp R C hR hC _ _
    exact ⟨read, comp, rfl, hR, hC, le_refl _⟩
  | succ count ih =>
    intro index next read comp R C hR hC hn he
    cases R with
    | nil =>
      have hlt := he rfl
      rw [collect, if_neg (by omega)]
      cases C with
      | nil =>
        rw [getElem?_of_drop_nil hC]
        rfl
      | cons c C =>
        obtain ⟨g1, g2⟩ := drop_cons hC
        have := ih (index + 1) next read (comp + 1) [] C hR g2 (fun e h => by cases h) (fun _ => by omega)
        rw [g1]
        simp only [collectL, Option.bind_some]
        cases hc : collectL count (index + 1) [] C with
        | none => rw [hc] at this; dsimp only at this; simp [this]
        | some r =>
          rw [hc] at this
          obtain ⟨r', c', g3, g4, g5, g6⟩ := this
          exact ⟨r', c', by rw [g3]; rfl, g4, g5, g6⟩
    | cons e R =>
      have hen := hn e rfl
      obtain ⟨k1, k2, k3, k4⟩ := entries_cons hR
      rw [collect]
      by_cases hei : e.1 = index
      · rw [if_pos (by omega), k2]
        simp only [collectL, Option.bind_some, if_pos hei]
        have := ih (index + 1) (indices.getD (read + 1) next) (read + 1) comp R C k4 hC (by
          intro e' he'
          cases R with
          | nil => cases he'
          | cons e2 R =>
            simp only [List.head?_cons, Option.some.injEq] at he'
            subst he'
            rw [List.getD_eq_getElem?_getD, (entries_cons k4).1]
            rfl) (by
          rintro rfl
          have := List.drop_eq_nil_iff.1 k4
          rw [entries_length _ _ _ h1 h2] at this
          rw [List.getD_eq_getElem?_getD, List.getElem?_eq_none (by omega), Option.getD_none]
          omega)
        cases hc : collectL count (index + 1) R C with
        | none => rw [hc] at this; dsimp only at this; rw [this]; rfl
        | some r =>
          rw [hc] at this
          obtain ⟨r', c', g3, g4, g5, g6⟩ := this
          exact ⟨r', c', by rw [g3]; rfl, g4, g5, by omega⟩
      · rw [if_neg (by omega)]
        cases C with
        | nil =>
          rw [getElem?_of_drop_nil hC]
          simp [collectL, if_neg hei]
        | cons c C =>
          obtain ⟨g1, g2⟩ := drop_cons hC
          rw [g1]
          simp only [collectL, Option.bind_some, if_neg hei]
          have := ih (index + 1) next read (comp + 1) (e :: R) C hR g2 hn (by simp)
          cases hc : collectL count (index + 1) (e :: R) C with
          | none => rw [hc] at this; dsimp only at this; simp [this]
          | some r =>
            rw [hc] at this
            obtain ⟨r', c', g3, g4, g5, g6⟩ := this
            exact ⟨r', c', by rw [g3]; rfl, g4, g5, g6⟩

/-- the cosets of a layer: position, values, and fold with the next `x_inv` -/
def layerL (size eval_point : Nat) : Nat → List Entry → List Nat → Option (List (Nat × List Nat × Nat × Nat))
  | 0, _, _ => none
  | _ + 1, [], _ => some []
  | fuel + 1, e :: R, C =>
    roots[e.1 % size]?.bind fun r =>
    (collectL size (e.1 - e.1 % size) (e :: R) C).bind fun c =>
    (fold_coset c.1 (fmul e.2.2 r) eval_point).bind fun f =>
    (layerL size eval_point fuel c.2.1 c.2.2).map fun l => ((e.1 - e.1 % size) / size, c.1, f) :: l

/-- writing elements of an array from a position on -/
def overwrite {α : Type} (l : List α) (i : Nat) (new : List α) : List α := l.take i ++ new ++ l.drop (i + new.length)

theorem overwrite_nil {α : Type} (l : List α) (i : Nat) : overwrite l i [] = l := by
  unfold overwrite
  rw [List.append_nil, List.length_nil, Nat.add_zero, List.take_append_drop]

theorem overwrite_cons {α : Type} (l : List α) (i : Nat) (hi : i < l.length) (x : α) (new : List α) : overwrite (l.set i x) (i + 1) new = overwrite l i (x :: new) := by
  unfold overwrite
  have e2 : l.set i x = l.take i ++ x :: l.drop (i + 1) := List.set_eq_take_append_cons_drop.trans (if_pos hi)
  have h1 : (l.set i x).take (i + 1) = l.take i ++ [x] := by
    rw [e2, show l.take i ++ x :: l.drop (i + 1) = (l.take i ++ [x]) ++ l.drop (i + 1) by simp, List.take_left' (by simp; omega)]
  have h2 : (l.set i x).drop (i + 1 + new.length) = l.drop (i + (new.length + 1)) := by
    rw [List.drop_set_of_lt (by omega)]
    congr 1
    omega
  rw [h1, h2, List.length_cons]
  simp

theorem entries_set (indices values x_inv : List Nat) (i : Nat) (a b c : Nat) : ∀ read, i < read →
    (entries (indices.set i a) (values.set i b) (x_inv.set i c)).drop read = (entries indices values x_inv).drop read := by
  intro read h
  have hz : ∀ {β : Type} (l : List Nat) (m : List β), (l.zip m).drop read = (l.drop read).zip (m.drop read) := by
    intro β l m
    exact List.drop_zipWith
  unfold entries
  simp only [hz, List.drop_set_of_lt h]

variable (K : Keccak)

theorem foldLayerLoop_eq (size eval_point : Nat) (hsize : 0 < size) (completion : List Nat) :
    ∀ (fuel : Nat) (a : Arrays) (read write comp : Nat), a.values.length = a.indices.length → a.values.length ≤ a.x_inv.length → a.values.length ≤ a.hashes.length →
    write ≤ read → write ≤ a.values.length →
    foldLayerLoop K size eval_point completion fuel a read write comp =
      (layerL size eval_point fuel ((entries a.indices a.values a.x_inv).drop read) (completion.drop comp)).map fun l =>
        ⟨a.values.take write ++ l.map (fun g => g.2.2.1), a.indices.take write ++ l.map (fun g => g.1), overwrite a.x_inv write (l.map fun g => g.2.2.2),
          overwrite a.hashes write (l.map fun g => merkle_leaf_hash K g.2.1)⟩ := by
  intro fuel
  induction fuel with
  | zero => intro a read write comp _ _ _ _ _; rfl
  | succ fuel ih =>
    intro a read write comp h1 h2 h3 hw hwl
    have hel := entries_length a.indices a.values a.x_inv h1 h2
    rw [foldLayerLoop]
    by_cases hr : read < a.values.length
    · rw [if_pos hr]
      cases hR : (entries a.indices a.values a.x_inv).drop read with
      | nil =>
        have := List.drop_eq_nil_iff.1 hR
        omega
      | cons e R =>
        obtain ⟨k1, k2, k3, k4⟩ := entries_cons hR
        rw [k1, Option.bind_some, k3, Option.bind_some]
        have hsub : e.1 - (e.1 - e.1 % size) = e.1 % size := by
          have := Nat.mod_le e.1 size
          omega
        rw [hsub, layerL]
        cases hrt : roots[e.1 % size]? with
        | none => rfl
        | some r =>
          simp only [Option.bind_some]
          have hcol := collect_eq a.values a.indices a.x_inv completion h1 h2 size (e.1 - e.1 % size) e.1 read comp (e :: R) (completion.drop comp) hR rfl
            (fun e' he' => by simp only [List.head?_cons, Option.some.injEq] at he'; rw [he']) (by simp)
          cases hc : collectL size (e.1 - e.1 % size) (e :: R) (completion.drop comp) with
          | none =>
            rw [hc] at hcol
            dsimp only at hcol
            rw [hcol]
            rfl
          | some c =>
            rw [hc] at hcol
            obtain ⟨read', comp', g1, g2, g3, g4⟩ := hcol
            rw [g1]
            simp only [Option.bind_some]
            -- at least one entry was read
            have hlt : read < read' := by
              rcases Nat.lt_or_ge read read' with h | h
              · exact h
              · exfalso
                have hrr : read' = read := by omega
                rw [hrr, hR] at g2
                have hprog : ∀ (cnt idx : Nat) (R : List Entry) (C : List Nat) (r : List Nat × List Entry × List Nat), collectL cnt idx R C = some r →
                    r.2.1.length ≤ R.length ∧ ∀ e R', R = e :: R' → idx ≤ e.1 → e.1 < idx + cnt → r.2.1.length < R.length := by
                  intro cnt
                  induction cnt with
                  | zero =>
                    intro idx R C r h
                    obtain rfl := Option.some.inj h
                    exact ⟨le_refl _, fun e R' _ _ _ => by omega⟩
                  | succ cnt ihc =>
                    intro idx R C r h
                    cases R with
                    | nil =>
                      cases C with
                      | nil => cases h
                      | cons c C =>
                        rw [collectL, Option.map_eq_some_iff] at h
                        obtain ⟨r', h', rfl⟩ := h
                        exact ⟨(ihc _ _ _ _ h').1, fun e R' he => by cases he⟩
                    | cons e' R =>
                      rw [collectL_cons] at h
                      split at h
                      · rw [Option.map_eq_some_iff] at h
                        obtain ⟨r', h', rfl⟩ := h
                        have := (ihc _ _ _ _ h').1
                        exact ⟨by simp; omega, fun _ _ _ _ _ => by simp; omega⟩
                      · next hne =>
                        cases C with
                        | nil => cases h
                        | cons c C =>
                          simp only [Option.map_eq_some_iff] at h
                          obtain ⟨r', h', rfl⟩ := h
                          refine ⟨(ihc _ _ _ _ h').1, fun e R' he h1 h2 => ?_⟩
                          have hee : e' = e := by simpa using (List.cons.inj he).1
                          subst hee
                          exact (ihc _ _ _ _ h').2 e' R rfl (by omega) (by omega)
                have := (hprog _ _ _ _ _ hc).2 e R rfl (Nat.sub_le _ _) (by have := Nat.mod_lt e.1 hsize; omega)
                rw [← g2] at this
                omega
            unfold store
            rw [if_pos (by omega), Option.bind_some]
            cases hf : fold_coset c.1 (fmul e.2.2 r) eval_point with
            | none => rfl
            | some f =>
              simp only [Option.bind_some]
              rw [if_pos (by omega), Option.bind_some, if_pos (by omega), Option.bind_some, if_pos (by omega), Option.bind_some]
              rw [ih _ _ _ _ (by simp [h1]) (by simp [h2]) (by simp [h3]) (by omega) (by simp; omega)]
              dsimp only
              rw [entries_set _ _ _ _ _ _ _ _ (by omega), g2, g3, Option.map_map]
              congr 1
              funext l
              simp only [Function.comp_apply, List.map_cons, Arrays.mk.injEq]
              have htake : ∀ (l : List Nat) (x : Nat), write < l.length → (l.set write x).take (write + 1) = l.take write ++ [x] := by
                intro l x hl
                rw [List.set_eq_take_append_cons_drop.trans (if_pos hl),
                  show l.take write ++ x :: l.drop (write + 1) = (l.take write ++ [x]) ++ l.drop (write + 1) by simp, List.take_left' (by simp; omega)]
              refine ⟨?_, ?_, ?_, ?_⟩
              · rw [htake _ _ (by omega)]; simp
              · rw [htake _ _ (by omega)]; simp
              · exact overwrite_cons _ _ (by omega) _ _
              · exact overwrite_cons _ _ (by omega) _ _
    · rw [if_neg hr]
      have hR : (entries a.indices a.values a.x_inv).drop read = [] := List.drop_eq_nil_iff.2 (by omega)
      rw [hR, layerL]
      unfold Utils.truncate
      rw [if_pos hwl, if_pos (by omega)]
      simp [overwrite_nil]

/-- `fold_layer` on lists -/
theorem fold_layer_eq (a : Arrays) (completion : List Nat) (eval_point size : Nat) (hsize : 0 < size) (h1 : a.values.length = a.indices.length)
    (h2 : a.values.length ≤ a.x_inv.length) (h3 : a.values.length ≤ a.hashes.length) :
    fold_layer K a completion eval_point size =
      (layerL size eval_point (a.values.length + 1) (entries a.indices a.values a.x_inv) completion).map fun l =>
        ⟨l.map (fun g => g.2.2.1), l.map (fun g => g.1), overwrite a.x_inv 0 (l.map fun g => g.2.2.2), overwrite a.hashes 0 (l.map fun g => merkle_leaf_hash K g.2.1)⟩ := by
  unfold fold_layer
  rw [foldLayerLoop_eq K size eval_point hsize completion _ a 0 0 0 h1 h2 h3 (le_refl _) (Nat.zero_le _)]
  simp

/-! ## what is collected -/

theorem collectL_sound : ∀ (count index : Nat) (R : List Entry) (C : List Nat) (r : List Nat × List Entry × List Nat), collectL count index R C = some r →
    (R.map Prod.fst).Pairwise (· < ·) → (∀ e ∈ R, index ≤ e.1) →
    r.1.length = count ∧ ∃ P used, R = P ++ r.2.1 ∧ C = used ++ r.2.2 ∧ (∀ e ∈ P, e.1 < index + count) ∧ (∀ e ∈ r.2.1, index + count ≤ e.1) ∧
      ∀ V : Nat → Nat, r.1 = (List.range' index count).map V →
        used = ((List.range' index count).filter (· ∉ R.map Prod.fst)).map V ∧ ∀ e ∈ P, e.2.1 = V e.1 := by
  intro count
  induction count with
  | zero =>
    intro index R C r h hp hi
    obtain rfl := Option.some.inj h
    exact ⟨rfl, [], [], rfl, rfl, by simp, hi, fun V _ => ⟨rfl, by simp⟩⟩
  | succ count ih =>
    intro index R C r h hp hi
    -- an index that is not in the entries
    have skip : index ∉ R.map Prod.fst → ∀ (c : Nat) (C' : List Nat) (r' : List Nat × List Entry × List Nat), C = c :: C' → collectL count (index + 1) R C' = some r' →
        r = (c :: r'.1, r'.2) → r.1.length = count + 1 ∧ ∃ P used, R = P ++ r.2.1 ∧ C = used ++ r.2.2 ∧ (∀ e ∈ P, e.1 < index + (count + 1)) ∧ (∀ e ∈ r.2.1, index + (count + 1) ≤ e.1) ∧
        ∀ V : Nat → Nat, r.1 = (List.range' index (count + 1)).map V →
          used = ((List.range' index (count + 1)).filter (· ∉ R.map Prod.fst)).map V ∧ ∀ e ∈ P, e.2.1 = V e.1 := fun hni c C' r' hC h' hr => by
      obtain ⟨b1, P, used, b2, b3, b4, b5, b6⟩ := ih (index + 1) R C' r' h' hp (fun e he => by
        have := hi e he
        have hne : e.1 ≠ index := fun h => hni (h ▸ List.mem_map_of_mem he)
        omega)
      refine ⟨?_, P, c :: used, ?_, ?_, ?_, ?_, ?_⟩
      · rw [hr]; simp [b1]
      · rw [hr]; exact b2
      · rw [hr, hC, b3]; rfl
      · intro e he; have := b4 e he; omega
      · rw [hr]; intro e he; have := b5 e he; omega
      · intro V hV
        rw [hr, List.range'_succ, List.map_cons] at hV
        obtain ⟨hv1, hv2⟩ := List.cons.inj hV
        obtain ⟨c1, c2⟩ := b6 V hv2
        refine ⟨?_, c2⟩
        rw [List.range'_succ, List.filter_cons_of_pos (by simpa using hni), List.map_cons, ← c1, hv1]
    cases R with
    | nil =>
      cases C with
      | nil => cases h
      | cons c C =>
        rw [collectL, Option.map_eq_some_iff] at h
        obtain ⟨r', h', rfl⟩ := h
        exact skip (by simp) c C r' rfl h' rfl
    | cons e R =>
      rw [List.map_cons, List.pairwise_cons] at hp
      rw [collectL_cons] at h
      split at h
      · next he =>
        rw [Option.map_eq_some_iff] at h
        obtain ⟨r', h', rfl⟩ := h
        obtain ⟨b1, P, used, b2, b3, b4, b5, b6⟩ := ih (index + 1) R C r' h' hp.2 (fun e' he' => by
          have := hp.1 e'.1 (List.mem_map_of_mem he')
          omega)
        refine ⟨by simp [b1], e :: P, used, by rw [b2]; rfl, b3, ?_, fun e' he' => by have := b5 e' he'; omega, ?_⟩
        · intro e' he'
          rcases List.mem_cons.1 he' with rfl | he'
          · omega
          · have := b4 e' he'; omega
        · intro V hV
          rw [List.range'_succ, List.map_cons] at hV
          obtain ⟨hv1, hv2⟩ := List.cons.inj hV
          obtain ⟨c1, c2⟩ := b6 V hv2
          constructor
          · rw [List.range'_succ, List.filter_cons_of_neg (by simp [he]), c1]
            congr 1
            apply List.filter_congr
            intro x hx
            have hxi : index + 1 ≤ x := (List.mem_range'_1.1 hx).1
            simp only [List.map_cons, List.mem_cons, decide_not]
            congr 2
            rw [eq_iff_iff]
            constructor
            · intro h; exact Or.inr h
            · rintro (h | h)
              · omega
              · exact h
          · intro e' he'
            rcases List.mem_cons.1 he' with rfl | he'
            · rw [hv1, he]
            · exact c2 e' he'
      · next he =>
        cases C with
        | nil => cases h
        | cons c C =>
          simp only [Option.map_eq_some_iff] at h
          obtain ⟨r', h', rfl⟩ := h
          refine skip ?_ c C r' rfl h' rfl
          intro hm
          rw [List.map_cons, List.mem_cons] at hm
          rcases hm with hm | hm
          · exact he hm.symm
          · have h1 := hp.1 _ hm
            have h2 := hi e (by simp)
            omega

theorem collectL_complete (V : Nat → Nat) : ∀ (count index : Nat) (P R : List Entry) (C : List Nat), ((P ++ R).map Prod.fst).Pairwise (· < ·) →
    (∀ e ∈ P, index ≤ e.1 ∧ e.1 < index + count ∧ e.2.1 = V e.1) → (∀ e ∈ R, index + count ≤ e.1) →
    collectL count index (P ++ R) (((List.range' index count).filter (· ∉ (P ++ R).map Prod.fst)).map V ++ C) = some ((List.range' index count).map V, R, C) := by
  intro count
  induction count with
  | zero =>
    intro index P R C _ hP _
    cases P with
    | nil => rfl
    | cons e P => have := hP e (by simp); omega
  | succ count ih =>
    intro index P R C hp hP hR
    cases P with
    | nil =>
      rw [List.nil_append] at hp ⊢
      have hni : index ∉ R.map Prod.fst := by
        intro hm
        obtain ⟨e, he, h⟩ := List.mem_map.1 hm
        have := hR e he
        omega
      have := ih (index + 1) [] R C hp (by simp) (fun e he => by have := hR e he; omega)
      rw [List.nil_append] at this
      rw [List.range'_succ, List.filter_cons_of_pos (by simpa using hni), List.map_cons, List.cons_append]
      cases R with
      | nil => rw [collectL, this]; rfl
      | cons e R =>
        have he : e.1 ≠ index := fun h => hni (by simp [h])
        rw [collectL_cons, if_neg he]
        simp only [this]
        rfl
    | cons e P =>
      have hp0 := hp
      rw [List.cons_append, List.map_cons, List.pairwise_cons] at hp
      have heP := hP e (by simp)
      by_cases he : e.1 = index
      · have hf : (List.range' index (count + 1)).filter (· ∉ (e :: P ++ R).map Prod.fst) = (List.range' (index + 1) count).filter (· ∉ (P ++ R).map Prod.fst) := by
          rw [List.range'_succ, List.filter_cons_of_neg (by simp [he])]
          apply List.filter_congr
          intro x hx
          have hxi : index + 1 ≤ x := (List.mem_range'_1.1 hx).1
          simp only [List.cons_append, List.map_cons, List.mem_cons, decide_not]
          congr 2
          rw [eq_iff_iff]
          constructor
          · rintro (h | h)
            · omega
            · exact h
          · intro h; exact Or.inr h
        rw [hf, List.cons_append, collectL_cons, if_pos he, ih (index + 1) P R C hp.2 (fun e' he' => by
          have h1 := hP e' (List.mem_cons_of_mem _ he')
          have h2 := hp.1 e'.1 (List.mem_map_of_mem (List.mem_append_left _ he'))
          exact ⟨by omega, by omega, h1.2.2⟩) (fun e' he' => by have := hR e' he'; omega)]
        rw [List.range'_succ, List.map_cons, ← he, ← heP.2.2]
        rfl
      · have hni : index ∉ (e :: P ++ R).map Prod.fst := by
          intro hm
          rw [List.cons_append, List.map_cons, List.mem_cons] at hm
          rcases hm with hm | hm
          · exact he hm.symm
          · have := hp.1 _ hm; omega
        rw [List.range'_succ, List.filter_cons_of_pos (by simpa using hni), List.map_cons, List.cons_append, List.cons_append, collectL_cons, if_neg he]
        have := ih (index + 1) (e :: P) R C hp0 (fun e' he' => by
          have h1 := hP e' he'
          have hne : e'.1 ≠ index := fun h => hni (h ▸ List.mem_map_of_mem (List.mem_append_left _ he'))
          exact ⟨by omega, by omega, h1.2.2⟩) (fun e' he' => by have := hR e' he'; omega)
        rw [List.cons_append] at this
        simp only [this]
        rfl

/-! ## the cosets of a layer -/

theorem start_eq (size q : Nat) : q - q % size = q / size * size := by
  have := Nat.div_add_mod q size
  have h2 : q / size * size = size * (q / size) := Nat.mul_comm _ _
  omega

theorem div_of_range {size j x : Nat} (h1 : j * size ≤ x) (h2 : x < j * size + size) : x / size = j := by
  have hs : 0 < size := by omega
  apply Nat.div_eq_of_lt_le h1
  rw [Nat.add_mul, Nat.one_mul]
  exact h2

theorem lt_div_of_ge {size j x : Nat} (hs : 0 < size) (h : j * size + size ≤ x) : j < x / size := by
  rw [Nat.lt_iff_add_one_le, Nat.le_div_iff_mul_le hs, Nat.add_mul, Nat.one_mul]
  exact h

/-- the positions of cosets that are not among the entries -/
def missing (size : Nat) (J : List Nat) (R : List Entry) : List Nat := (J.flatMap fun j => List.range' (j * size) size).filter (· ∉ R.map Prod.fst)

theorem missing_append (size : Nat) (hs : 0 < size) (j : Nat) (J : List Nat) (P R : List Entry) (hP : ∀ e ∈ P, e.1 < j * size + size) (hJ : ∀ k ∈ J, j < k) :
    missing size (j :: J) (P ++ R) = (List.range' (j * size) size).filter (· ∉ (P ++ R).map Prod.fst) ++ missing size J R := by
  unfold missing
  rw [List.flatMap_cons, List.filter_append]
  congr 1
  apply List.filter_congr
  intro x hx
  obtain ⟨k, hk, hxk⟩ := List.mem_flatMap.1 hx
  have h1 := (List.mem_range'_1.1 hxk).1
  have h2 := hJ k hk
  have h3 : (j + 1) * size ≤ k * size := Nat.mul_le_mul_right _ h2
  rw [Nat.add_mul, Nat.one_mul] at h3
  simp only [List.map_append, List.mem_append, decide_not]
  congr 2
  rw [eq_iff_iff]
  constructor
  · rintro (h | h)
    · obtain ⟨e, he, rfl⟩ := List.mem_map.1 h
      have := hP e he
      omega
    · exact h
  · intro h; exact Or.inr h

theorem layerL_sound (size eval_point : Nat) (hs : 0 < size) : ∀ (fuel : Nat) (R : List Entry) (C : List Nat) (gs : List (Nat × List Nat × Nat × Nat)),
    layerL size eval_point fuel R C = some gs → (R.map Prod.fst).Pairwise (· < ·) →
    ∃ used rest, C = used ++ rest ∧ (gs.map Prod.fst).Pairwise (· < ·) ∧ (∀ j, j ∈ gs.map Prod.fst ↔ ∃ e ∈ R, j = e.1 / size) ∧
      (∀ g ∈ gs, g.2.1.length = size ∧ ∃ e ∈ R, g.1 = e.1 / size ∧ ∃ r, roots[e.1 % size]? = some r ∧ fold_coset g.2.1 (fmul e.2.2 r) eval_point = some g.2.2) ∧
      ∀ V : Nat → Nat, (∀ g ∈ gs, g.2.1 = (List.range' (g.1 * size) size).map V) →
        used = (missing size (gs.map Prod.fst) R).map V ∧ ∀ e ∈ R, e.2.1 = V e.1 := by
  intro fuel
  induction fuel with
  | zero => intro R C gs h; cases h
  | succ fuel ih =>
    intro R C gs h hp
    cases R with
    | nil =>
      obtain rfl := Option.some.inj h
      exact ⟨[], C, rfl, List.Pairwise.nil, by simp, by simp, fun V _ => ⟨rfl, by simp⟩⟩
    | cons e R =>
      rw [layerL, Option.bind_eq_some_iff] at h
      obtain ⟨r, hr, h⟩ := h
      rw [Option.bind_eq_some_iff] at h
      obtain ⟨c, hc, h⟩ := h
      rw [Option.bind_eq_some_iff] at h
      obtain ⟨f, hf, h⟩ := h
      rw [Option.map_eq_some_iff] at h
      obtain ⟨l, hl, rfl⟩ := h
      rw [start_eq] at hc
      have hge : ∀ e' ∈ e :: R, e.1 ≤ e'.1 := by
        intro e' he'
        rw [List.map_cons, List.pairwise_cons] at hp
        rcases List.mem_cons.1 he' with rfl | h
        · exact le_refl _
        · exact le_of_lt (hp.1 _ (List.mem_map_of_mem h))
      have hle : e.1 / size * size ≤ e.1 := Nat.div_mul_le_self _ _
      obtain ⟨b1, P, used0, b2, b3, b4, b5, b6⟩ := collectL_sound size (e.1 / size * size) (e :: R) C c hc hp (fun e' he' => le_trans hle (hge e' he'))
      have hjj : (e.1 - e.1 % size) / size = e.1 / size := by rw [start_eq, Nat.mul_div_cancel _ hs]
      have hp2 : (c.2.1.map Prod.fst).Pairwise (· < ·) := by
        rw [b2, List.map_append, List.pairwise_append] at hp
        exact hp.2.1
      obtain ⟨used, rest, d1, d2, d3, d4, d5⟩ := ih c.2.1 c.2.2 l hl hp2
      have hlater : ∀ j ∈ l.map Prod.fst, e.1 / size < j := by
        intro j hj
        obtain ⟨e', he', rfl⟩ := (d3 j).1 hj
        exact lt_div_of_ge hs (b5 e' he')
      have hPdiv : ∀ e' ∈ P, e'.1 / size = e.1 / size := by
        intro e' he'
        have hin : e' ∈ e :: R := b2 ▸ List.mem_append_left _ he'
        exact div_of_range (le_trans hle (hge e' hin)) (b4 e' he')
      refine ⟨used0 ++ used, rest, by rw [b3, d1, List.append_assoc], ?_, ?_, ?_, ?_⟩
      · rw [List.map_cons, List.pairwise_cons, hjj]
        exact ⟨hlater, d2⟩
      · intro j
        rw [List.map_cons, List.mem_cons, hjj]
        constructor
        · rintro (rfl | hj)
          · exact ⟨e, by simp, rfl⟩
          · obtain ⟨e', he', h⟩ := (d3 j).1 hj
            exact ⟨e', b2 ▸ List.mem_append_right _ he', h⟩
        · rintro ⟨e', he', rfl⟩
          rw [b2, List.mem_append] at he'
          rcases he' with he' | he'
          · exact Or.inl (hPdiv e' he')
          · exact Or.inr ((d3 _).2 ⟨e', he', rfl⟩)
      · intro g hg
        rcases List.mem_cons.1 hg with rfl | hg
        · exact ⟨b1, e, by simp, hjj, r, hr, hf⟩
        · obtain ⟨g1, e', he', g2⟩ := d4 g hg
          exact ⟨g1, e', b2 ▸ List.mem_append_right _ he', g2⟩
      · intro V hV
        have h0 := hV _ (by simp : ((e.1 - e.1 % size) / size, c.1, f) ∈ _)
        dsimp only at h0
        rw [hjj] at h0
        obtain ⟨x1, x2⟩ := b6 V h0
        obtain ⟨y1, y2⟩ := d5 V (fun g hg => hV g (List.mem_cons_of_mem _ hg))
        constructor
        · rw [List.map_cons, hjj, b2, missing_append size hs _ _ _ _ b4 hlater, List.map_append, ← y1, x1, ← b2]
        · intro e' he'
          rw [b2, List.mem_append] at he'
          rcases he' with he' | he'
          · exact x2 e' he'
          · exact y2 e' he'

theorem split_sorted (b : Nat) : ∀ R : List Entry, (R.map Prod.fst).Pairwise (· < ·) → ∃ P R', R = P ++ R' ∧ (∀ e ∈ P, e.1 < b) ∧ ∀ e ∈ R', b ≤ e.1 := by
  intro R
  induction R with
  | nil => intro _; exact ⟨[], [], rfl, by simp, by simp⟩
  | cons e R ih =>
    intro hp
    rw [List.map_cons, List.pairwise_cons] at hp
    by_cases he : e.1 < b
    · obtain ⟨P, R', h1, h2, h3⟩ := ih hp.2
      refine ⟨e :: P, R', by rw [h1]; rfl, ?_, h3⟩
      intro e' he'
      rcases List.mem_cons.1 he' with rfl | h
      · exact he
      · exact h2 e' h
    · refine ⟨[], e :: R, rfl, by simp, ?_⟩
      intro e' he'
      rcases List.mem_cons.1 he' with rfl | h
      · omega
      · have := hp.1 _ (List.mem_map_of_mem h)
        omega

theorem layerL_complete (size eval_point : Nat) (hs : 0 < size) (V : Nat → Nat) (G : Nat → Nat × Nat) (rest : List Nat) : ∀ (fuel : Nat) (R : List Entry) (J : List Nat),
    R.length < fuel → (R.map Prod.fst).Pairwise (· < ·) → J.Pairwise (· < ·) → (∀ j, j ∈ J ↔ ∃ e ∈ R, j = e.1 / size) → (∀ e ∈ R, e.2.1 = V e.1) →
    (∀ e ∈ R, ∃ r, roots[e.1 % size]? = some r ∧
      fold_coset ((List.range' (e.1 / size * size) size).map V) (fmul e.2.2 r) eval_point = some (G (e.1 / size))) →
    layerL size eval_point fuel R ((missing size J R).map V ++ rest) = some (J.map fun j => (j, (List.range' (j * size) size).map V, G j)) := by
  intro fuel
  induction fuel with
  | zero => intro R J h; omega
  | succ fuel ih =>
    intro R J hlen hp hJp hJ hV hG
    cases R with
    | nil =>
      have : J = [] := by
        rw [List.eq_nil_iff_forall_not_mem]
        intro j hj
        obtain ⟨e, he, _⟩ := (hJ j).1 hj
        cases he
      rw [this]
      rfl
    | cons e R =>
      have hge : ∀ e' ∈ e :: R, e.1 ≤ e'.1 := by
        intro e' he'
        rw [List.map_cons, List.pairwise_cons] at hp
        rcases List.mem_cons.1 he' with rfl | h
        · exact le_refl _
        · exact le_of_lt (hp.1 _ (List.mem_map_of_mem h))
      have hle : e.1 / size * size ≤ e.1 := Nat.div_mul_le_self _ _
      have hjj : (e.1 - e.1 % size) / size = e.1 / size := by rw [start_eq, Nat.mul_div_cancel _ hs]
      cases J with
      | nil => exact absurd ((hJ (e.1 / size)).2 ⟨e, by simp, rfl⟩) (by simp)
      | cons j J =>
        rw [List.pairwise_cons] at hJp
        have hj : j = e.1 / size := by
          apply le_antisymm
          · rcases List.mem_cons.1 ((hJ (e.1 / size)).2 ⟨e, by simp, rfl⟩) with h | h
            · exact le_of_eq h.symm
            · exact le_of_lt (hJp.1 _ h)
          · obtain ⟨e', he', h⟩ := (hJ j).1 (by simp)
            rw [h]
            exact Nat.div_le_div_right (hge e' he')
        obtain ⟨P, R', h1, h2, h3⟩ := split_sorted (j * size + size) (e :: R) hp
        have hPdiv : ∀ e' ∈ P, e'.1 / size = j := by
          intro e' he'
          have hin : e' ∈ e :: R := h1 ▸ List.mem_append_left _ he'
          exact div_of_range (hj ▸ le_trans hle (hge e' hin)) (h2 e' he')
        obtain ⟨r, hr, hf⟩ := hG e (by simp)
        have hcol := collectL_complete V size (j * size) P R' ((missing size J R').map V ++ rest) (h1 ▸ hp) (by
          intro e' he'
          have hin : e' ∈ e :: R := h1 ▸ List.mem_append_left _ he'
          exact ⟨hj ▸ le_trans hle (hge e' hin), h2 e' he', hV e' hin⟩) h3
        have hmiss : (missing size (j :: J) (e :: R)).map V ++ rest =
            ((List.range' (j * size) size).filter (· ∉ (P ++ R').map Prod.fst)).map V ++ ((missing size J R').map V ++ rest) := by
          rw [h1, missing_append size hs j J P R' h2 hJp.1, List.map_append, List.append_assoc]
        have hlen2 : R'.length < fuel := by
          have hP1 : P ≠ [] := by
            rintro rfl
            rw [List.nil_append] at h1
            have := h3 e (h1 ▸ by simp)
            have h4 := Nat.lt_div_mul_add (a := e.1) hs
            rw [← hj] at h4
            omega
          have := congrArg List.length h1
          rw [List.length_append] at this
          have := List.length_pos_of_ne_nil hP1
          simp only [List.length_cons] at *
          omega
        have hrec := ih R' J hlen2 (by rw [h1, List.map_append, List.pairwise_append] at hp; exact hp.2.1) hJp.2 (by
          intro k
          constructor
          · intro hk
            obtain ⟨e', he', h⟩ := (hJ k).1 (List.mem_cons_of_mem _ hk)
            rw [h1, List.mem_append] at he'
            rcases he' with he' | he'
            · have := hJp.1 k hk
              rw [h, hPdiv e' he'] at this
              omega
            · exact ⟨e', he', h⟩
          · rintro ⟨e', he', h⟩
            rcases List.mem_cons.1 ((hJ k).2 ⟨e', h1 ▸ List.mem_append_right _ he', h⟩) with h' | h'
            · have := lt_div_of_ge hs (h3 e' he')
              omega
            · exact h') (fun e' he' => hV e' (h1 ▸ List.mem_append_right _ he')) (fun e' he' => hG e' (h1 ▸ List.mem_append_right _ he'))
        rw [layerL, hr, Option.bind_some, start_eq, ← hj, hmiss, h1, hcol]
        simp only [Option.bind_some]
        rw [← hj] at hf
        rw [hf, Option.bind_some, hrec, Nat.mul_div_cancel _ hs]
        rfl

end Fri
end Evm
end OpenZKP
