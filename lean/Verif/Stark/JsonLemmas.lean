import Verif.Stark.Serialize
import Verif.Stark.Json

/-!
Lemmas: the pieces written by `serialize` are JSON; a text with nothing between a colon and a comma is not.
-/

namespace OpenZKP
namespace Json
open Stark U256

theorem blank_nil : Blank [] := by intro c hc; simp at hc
theorem blank_newline : Blank ['\n'] := by intro c hc; simp at hc; simp [hc]
theorem blank_space : Blank [' '] := by intro c hc; simp at hc; simp [hc]
theorem blank_both : Blank [' ', '\n'] := by intro c hc; simp at hc; rcases hc with rfl | rfl <;> simp

theorem hexChar_plain : ∀ d < 16, hexChar d ≠ '"' ∧ hexChar d ≠ '\\' ∧ 0x20 ≤ (hexChar d).toNat := by decide

theorem hex_plain (b : List UInt8) : ∀ c ∈ hexEncode b, c ≠ '"' ∧ c ≠ '\\' ∧ 0x20 ≤ c.toNat := by
  intro c hc
  unfold hexEncode at hc
  obtain ⟨x, _, hx⟩ := List.mem_flatMap.1 hc
  have hlt := x.toNat_lt
  rcases List.mem_cons.1 hx with rfl | hx
  · exact hexChar_plain _ (by omega)
  · rcases List.mem_cons.1 hx with rfl | hx
    · exact hexChar_plain _ (by omega)
    · simp at hx

theorem text_hex (b : List UInt8) : Text (bytes b) (solHex b) := by
  refine Text.str ⟨fun c hc => ?_, rfl⟩
  rcases List.mem_cons.1 hc with rfl | hc
  · decide
  · rcases List.mem_cons.1 hc with rfl | hc
    · decide
    · exact hex_plain b c hc

theorem elements_vec : ∀ (x : List Char) (xs : List (List Char)) (v : Value) (vs : List Value), List.Forall₂ Text (v :: vs) (x :: xs) → ∀ w, Blank w →
    Elements (v :: vs) (w ++ (((x :: xs).dropLast.flatMap fun d => d ++ [',', '\n']) ++ (((x :: xs).getLastD []) ++ ['\n']))) := by
  intro x xs
  induction xs generalizing x with
  | nil =>
    intro v vs h w hw
    cases h with
    | cons h1 h2 =>
    cases h2
    have := Elements.one hw h1 blank_newline
    exact this
  | cons y ys ih =>
    intro v vs h w hw
    cases h with
    | cons h1 h2 =>
    cases h2 with
    | cons h2 h3 =>
    have := Elements.cons hw h1 blank_nil (ih y _ _ (.cons h2 h3) ['\n'] blank_newline)
    have e : (x :: y :: ys).dropLast = x :: (y :: ys).dropLast := rfl
    have e2 : (x :: y :: ys).getLastD [] = (y :: ys).getLastD [] := by simp [List.getLastD]
    rw [e, e2, List.flatMap_cons]
    simp only [List.append_assoc, List.cons_append, List.nil_append] at this ⊢
    exact this

theorem text_vec (xs : List (List Char)) (vs : List Value) (hne : xs ≠ []) (h : List.Forall₂ Text vs xs) : Text (.arr vs) (solVec xs) := by
  cases h with
  | nil => exact absurd rfl hne
  | @cons v x vs xs h1 h2 =>
    have := Text.arr (elements_vec x xs v vs (.cons h1 h2) ['\n'] blank_newline)
    unfold solVec
    simp only [List.append_assoc, List.cons_append, List.nil_append] at this ⊢
    exact this

theorem forall₂_map {α : Type} (f : α → Value) (g : α → List Char) (l : List α) (h : ∀ a ∈ l, Text (f a) (g a)) : List.Forall₂ Text (l.map f) (l.map g) := by
  induction l with
  | nil => exact .nil
  | cons a l ih => exact .cons (h a (by simp)) (ih fun b hb => h b (by simp [hb]))

theorem text_map {α : Type} (f : α → Value) (g : α → List Char) (l : List α) (hne : l ≠ []) (h : ∀ a ∈ l, Text (f a) (g a)) :
    Text (.arr (l.map f)) (solVec (l.map g)) :=
  text_vec _ _ (by simpa using hne) (forall₂_map f g l h)

/-- a name that needs no escapes -/
def plain (s : List Char) : Bool := s.all fun c => c ≠ '"' && c ≠ '\\' && decide (0x20 ≤ c.toNat)

theorem quoted {s : List Char} (h : plain s = true) : Quoted s (('"' :: s) ++ ['"']) := by
  refine ⟨fun c hc => ?_, rfl⟩
  have := List.all_eq_true.1 h c hc
  simp only [Bool.and_eq_true, decide_eq_true_eq] at this
  exact ⟨this.1.1, this.1.2, this.2⟩

theorem member_eq (name : String) (value : List Char) (after : String) :
    solMember name value after = (('"' :: name.toList) ++ ['"']) ++ ([] ++ ':' :: ([' '] ++ (value ++ after.toList))) := by
  unfold solMember chars
  rw [String.toList_append, String.toList_append]
  have e1 : ("\"" : String).toList = ['"'] := rfl
  have e2 : ("\": " : String).toList = ['"', ':', ' '] := rfl
  rw [e1, e2]
  simp

/-- a member with a comma after it, before more members (`w` is white space left over from the member before) -/
theorem members_cons (name : String) (hn : plain name.toList = true) {v : Value} {t : List Char} (h : Text v t) {l : List (List Char × Value)} {ts : List Char}
    {w : List Char} (hw : Blank w) (hl : ∀ w, Blank w → Members l (w ++ ts)) : Members ((name.toList, v) :: l) (w ++ (solMember name t ", \n" ++ ts)) := by
  have := Members.cons hw (quoted hn) blank_nil blank_space h blank_nil (hl [' ', '\n'] blank_both)
  rw [member_eq]
  have e : (", \n" : String).toList = [',', ' ', '\n'] := rfl
  rw [e]
  simp only [List.append_assoc, List.cons_append, List.nil_append] at this ⊢
  exact this

theorem members_comma (name : String) (hn : plain name.toList = true) {v : Value} {t : List Char} (h : Text v t) {l : List (List Char × Value)} {ts : List Char}
    {w : List Char} (hw : Blank w) (hl : ∀ w, Blank w → Members l (w ++ ts)) : Members ((name.toList, v) :: l) (w ++ (solMember name t "," ++ ts)) := by
  have := Members.cons hw (quoted hn) blank_nil blank_space h blank_nil (hl [] blank_nil)
  rw [member_eq]
  have e : ("," : String).toList = [','] := rfl
  rw [e]
  simp only [List.append_assoc, List.cons_append, List.nil_append] at this ⊢
  exact this

theorem members_last (name : String) (hn : plain name.toList = true) {v : Value} {t : List Char} (h : Text v t) {w : List Char} (hw : Blank w) :
    Members [(name.toList, v)] (w ++ solMember name t " \n") := by
  have := Members.one hw (quoted hn) blank_nil blank_space h blank_both
  rw [member_eq]
  have e : (" \n" : String).toList = [' ', '\n'] := rfl
  rw [e]
  simp only [List.append_assoc, List.cons_append, List.nil_append] at this ⊢
  exact this

/-! ## What is not JSON -/

/-- reading a text outside (`last` is the last character that is not white space) or inside of a string: `false` when a comma follows a colon -/
def scan : Bool → Char → List Char → Bool
  | _, _, [] => true
  | true, last, c :: t => if c = '"' then scan false '"' t else scan true last t
  | false, last, c :: t =>
    if c = '"' then scan true '"' t
    else if c = ' ' ∨ c = '\n' ∨ c = '\r' ∨ c = '\t' then scan false last t
    else if c = ',' ∧ last = ':' then false
    else scan false c t

theorem scan_blank (w : List Char) (hw : Blank w) (last : Char) (rest : List Char) : scan false last (w ++ rest) = scan false last rest := by
  induction w with
  | nil => rfl
  | cons c w ih =>
    have h := hw c (by simp)
    rw [List.cons_append, scan, if_neg (by rintro rfl; revert h; decide), if_pos h, ih fun d hd => hw d (by simp [hd])]

theorem scan_inside (s : List Char) (hs : ∀ c ∈ s, c ≠ '"') (last : Char) (rest : List Char) : scan true last (s ++ '"' :: rest) = scan false '"' rest := by
  induction s generalizing last with
  | nil => rw [List.nil_append, scan, if_pos rfl]
  | cons c s ih => rw [List.cons_append, scan, if_neg (hs c (by simp)), ih fun d hd => hs d (by simp [hd])]

theorem scan_quoted {s t : List Char} (h : Quoted s t) (last : Char) (rest : List Char) : scan false last (t ++ rest) = scan false '"' rest := by
  obtain ⟨h1, rfl⟩ := h
  rw [List.cons_append, List.cons_append, List.append_assoc, scan, if_pos rfl, List.cons_append, List.nil_append, scan_inside s fun c hc => (h1 c hc).1]

/-- a text is read to its end, leaving a character that is not a colon -/
def Reads (t : List Char) : Prop := ∃ e, e ≠ ':' ∧ ∀ last rest, scan false last (t ++ rest) = scan false e rest

theorem scan_char (c last : Char) (rest : List Char) (h1 : c ≠ '"') (h2 : ¬ (c = ' ' ∨ c = '\n' ∨ c = '\r' ∨ c = '\t')) (h3 : ¬ (c = ',' ∧ last = ':')) :
    scan false last (c :: rest) = scan false c rest := by
  rw [scan, if_neg h1, if_neg h2, if_neg h3]

mutual
theorem reads_text {v : Value} {t : List Char} : Text v t → Reads t
  | .str h => ⟨'"', by decide, fun last rest => scan_quoted h last rest⟩
  | .none (w := w) h => ⟨']', by decide, fun last rest => by
      rw [List.cons_append, List.cons_append, List.append_assoc, scan_char _ _ _ (by decide) (by decide) (by rintro ⟨h, _⟩; revert h; decide), scan_blank w h]
      exact scan_char _ _ _ (by decide) (by decide) (by decide)⟩
  | .arr h => by
      obtain ⟨e, he, h⟩ := reads_elements h
      refine ⟨']', by decide, fun last rest => ?_⟩
      rw [List.cons_append, List.cons_append, List.append_assoc, scan_char _ _ _ (by decide) (by decide) (by rintro ⟨h, _⟩; revert h; decide), h]
      exact scan_char _ _ _ (by decide) (by decide) (by rintro ⟨h, _⟩; revert h; decide)
  | .empty (w := w) h => ⟨'}', by decide, fun last rest => by
      rw [List.cons_append, List.cons_append, List.append_assoc, scan_char _ _ _ (by decide) (by decide) (by rintro ⟨h, _⟩; revert h; decide), scan_blank w h]
      exact scan_char _ _ _ (by decide) (by decide) (by decide)⟩
  | .obj h => by
      obtain ⟨e, he, h⟩ := reads_members h
      refine ⟨'}', by decide, fun last rest => ?_⟩
      rw [List.cons_append, List.cons_append, List.append_assoc, scan_char _ _ _ (by decide) (by decide) (by rintro ⟨h, _⟩; revert h; decide), h]
      exact scan_char _ _ _ (by decide) (by decide) (by rintro ⟨h, _⟩; revert h; decide)
theorem reads_elements {l : List Value} {t : List Char} : Elements l t → Reads t
  | .one (w := w) (w' := w') h1 h2 h3 => by
      obtain ⟨e, he, h⟩ := reads_text h2
      refine ⟨e, he, fun last rest => ?_⟩
      rw [List.append_assoc, List.append_assoc, scan_blank w h1, h, scan_blank w' h3]
  | .cons (w := w) (w' := w') h1 h2 h3 h4 => by
      obtain ⟨e, he, h⟩ := reads_text h2
      obtain ⟨e', he', h'⟩ := reads_elements h4
      refine ⟨e', he', fun last rest => ?_⟩
      rw [List.append_assoc, List.append_assoc, List.append_assoc, scan_blank w h1, h, scan_blank w' h3, List.cons_append,
        scan_char _ _ _ (by decide) (by decide) (fun h => he h.2), h']
theorem reads_members {l : List (List Char × Value)} {t : List Char} : Members l t → Reads t
  | .one (w := w) (w1 := w1) (w2 := w2) (w' := w') h1 hq b1 b2 h2 h3 => by
      obtain ⟨e, he, h⟩ := reads_text h2
      refine ⟨e, he, fun last rest => ?_⟩
      simp only [List.append_assoc, List.cons_append]
      rw [scan_blank w h1, scan_quoted hq, scan_blank w1 b1, scan_char _ _ _ (by decide) (by decide) (by rintro ⟨h, _⟩; revert h; decide), scan_blank w2 b2, h,
        scan_blank w' h3]
  | .cons (w := w) (w1 := w1) (w2 := w2) (w' := w') h1 hq b1 b2 h2 h3 h4 => by
      obtain ⟨e, he, h⟩ := reads_text h2
      obtain ⟨e', he', h'⟩ := reads_members h4
      refine ⟨e', he', fun last rest => ?_⟩
      simp only [List.append_assoc, List.cons_append]
      rw [scan_blank w h1, scan_quoted hq, scan_blank w1 b1, scan_char _ _ _ (by decide) (by decide) (by rintro ⟨h, _⟩; revert h; decide), scan_blank w2 b2, h,
        scan_blank w' h3, scan_char _ _ _ (by decide) (by decide) (fun h => he h.2), h']
end

theorem scan_text {v : Value} {t : List Char} (h : Text v t) : scan false ' ' t = true := by
  obtain ⟨e, _, h⟩ := reads_text h
  have := h ' ' []
  rw [List.append_nil] at this
  rw [this]
  rfl

theorem scan_name (name : String) (hn : plain name.toList = true) (last : Char) (value : List Char) (after : String) (rest : List Char) :
    scan false last (solMember name value after ++ rest) = scan false ':' (value ++ (after.toList ++ rest)) := by
  rw [member_eq]
  simp only [List.append_assoc, List.nil_append]
  have q := scan_quoted (quoted hn) last (':' :: ([' '] ++ (value ++ (after.toList ++ rest))))
  simp only [List.append_assoc, List.cons_append, List.nil_append] at q ⊢
  rw [q, scan_char _ _ _ (by decide) (by decide) (by rintro ⟨h, _⟩; revert h; decide)]
  exact scan_blank [' '] blank_space _ _

/-- a member with a text for its value is passed over -/
theorem scan_member (name : String) (hn : plain name.toList = true) {v : Value} {t : List Char} (h : Text v t) (last : Char) (rest : List Char) :
    scan false last (solMember name t ", \n" ++ rest) = scan false ',' rest := by
  obtain ⟨e, he, h⟩ := reads_text h
  rw [scan_name name hn, h]
  have e2 : (", \n" : String).toList = [',', ' ', '\n'] := rfl
  rw [e2, List.cons_append, scan_char _ _ _ (by decide) (by decide) (fun h => he h.2)]
  exact scan_blank [' ', '\n'] blank_both _ _

/-- a member with nothing for its value is not -/
theorem scan_missing (name : String) (hn : plain name.toList = true) (last : Char) (rest : List Char) :
    scan false last (solMember name [] ", \n" ++ rest) = false := by
  rw [scan_name name hn]
  rfl

end Json
end OpenZKP
