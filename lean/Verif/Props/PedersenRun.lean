import Verif.Props.PedersenMerkle

/-!
# A run of pedersen_merkle over the field of 65537 elements

Shows that the hypotheses of the theorems of C84 can be met: all the points for the left input are equal, and all those for the right input.
-/

namespace OpenZKP
namespace Examples
namespace Run
open Stark FFT Polynomial Props Stark.Accept
open OpenZKP.Props.Small (Z K rep_toNat)

variable {c : Constraints Z} {k d columns : Nat} {E : Expr Z} {g : Z} {qs : List (Expr Z × Expr Z)}

/-- a provable table is proved and the proof accepted -/
theorem proved_of (hs : SystemIs root c k columns g qs d) (h : Computed c k d E) (hk : k + 4 ≤ 16)
    (t : TraceTable Z) (ht : TableOk t) (hlen : t.trace_length = 2 ^ k) (hprov : Provable env o c k g t) : ∃ p, Stark.prove env o c t = .ok p ∧ Stark.verify env c p = .ok () := by
  obtain ⟨ps, i1, i2, i3⟩ := C46_interpolate root root_ok t ht k hs.size hlen g (by
    unfold TraceTable.generator
    rw [hlen]
    exact hs.generator)
  have hw : env.root (2 ^ k * 16) = some (3 ^ (65536 / (2 ^ k * 16))) := if_pos (by
    rw [show 2 ^ k * 16 = 2 ^ (k + 4) by rw [pow_add]; norm_num]
    exact pow_dvd_pow 2 (n := 16) hk)
  exact hprov (run_ok hs h) ⟨_, hw⟩ (by
      intro x hx h0
      have hx := point_ne hs x hx
      rw [pow_add, pow_mul, h0, one_pow] at hx
      exact h.points.2.2.2 (by rw [pow_add]; exact hx.symm)) (fun j => toPoly (ps.getD j [])) (by
    intro j hj
    obtain ⟨q, q1, q2, q3⟩ := i3 j hj
    have : ps.getD j [] = q := by rw [List.getD, q1]; rfl
    simp only [this]
    refine ⟨?_, ?_⟩
    · have := toPoly_degree_lt q
      rw [q2] at this
      rw [hlen]
      exact this
    · intro i hi
      rw [hlen] at hi
      exact q3 i hi) (fun co hco => by rw [drawn t co hco]; exact graph_ok hs h _ _) (fun s ch hh => by rw [oods_point t s ch hh]; exact out_of_domain hs h _)

/-- the mark as a number -/
def code (a : Expr Z) : Nat := match Props.mark 77 o.traceHash a with
  | none => 0
  | some x => x.val + 1

theorem code_inj (a b : Expr Z) (h : Props.mark 77 o.traceHash a = Props.mark 77 o.traceHash b) : code a = code b := by
  unfold code
  rw [h]

/-- looks for expressions with a mark that was seen and another form -/
def scan : List (Expr Z) → List (Nat × Expr Z) → Bool
  | [], _ => true
  | a :: l, seen =>
    match code a with
    | 0 => false
    | n + 1 =>
      match seen.find? fun p => Nat.beq p.1 n with
      | some p => decide (norm a = p.2) && scan l seen
      | none => scan l ((n, norm a) :: seen)

theorem scan_ok (l : List (Expr Z)) (seen : List (Nat × Expr Z)) (h : scan l seen = true) (hseen : ∀ p ∈ seen, ∀ p' ∈ seen, p.1 = p'.1 → p = p') :
    ∃ all : List (Nat × Expr Z), (∀ p ∈ all, ∀ p' ∈ all, p.1 = p'.1 → p = p') ∧ (∀ p ∈ seen, p ∈ all) ∧ ∀ a ∈ l, ∃ n, code a = n + 1 ∧ (n, norm a) ∈ all := by
  induction l generalizing seen with
  | nil => exact ⟨seen, hseen, fun p hp => hp, by simp⟩
  | cons a l ih =>
    unfold scan at h
    split at h
    · cases h
    rename_i n hn
    split at h
    · rename_i p hp
      rw [Bool.and_eq_true] at h
      obtain ⟨all, h1, h2, h3⟩ := ih seen h.2 hseen
      refine ⟨all, h1, h2, fun b hb => ?_⟩
      rcases List.mem_cons.1 hb with rfl | hb
      · refine ⟨n, hn, ?_⟩
        have e : p.1 = n := Nat.eq_of_beq_eq_true (by simpa using List.find?_some hp)
        rw [← e, of_decide_eq_true h.1]
        exact h2 _ (List.mem_of_find?_eq_some hp)
      · exact h3 b hb
    · rename_i hp
      have hnone : ∀ p ∈ seen, p.1 ≠ n := by
        intro p hmem e
        have := List.find?_eq_none.1 hp p hmem
        rw [e] at this
        simp at this
      obtain ⟨all, h1, h2, h3⟩ := ih _ h (by
        intro p hp p' hp' e
        rcases List.mem_cons.1 hp with rfl | hp <;> rcases List.mem_cons.1 hp' with rfl | hp'
        · rfl
        · exact absurd e.symm (hnone p' hp')
        · exact absurd e (hnone p hp)
        · exact hseen p hp p' hp' e)
      refine ⟨all, h1, fun p hp => h2 p (List.mem_cons_of_mem _ hp), fun b hb => ?_⟩
      rcases List.mem_cons.1 hb with rfl | hb
      · exact ⟨n, hn, h2 _ List.mem_cons_self⟩
      · exact h3 b hb

theorem marks_of (E : Expr Z) (h : scan (.Constant 0 :: .Constant 1 :: subexpressions E) [] = true) : MarksOk E := by
  obtain ⟨all, h1, -, h3⟩ := scan_ok _ [] h (by simp)
  intro p hp p' hp' e
  obtain ⟨a, ha, rfl⟩ := List.mem_map.1 hp
  obtain ⟨b, hb, rfl⟩ := List.mem_map.1 hp'
  obtain ⟨n, e1, m1⟩ := h3 a ha
  obtain ⟨n', e2, m2⟩ := h3 b hb
  have : n = n' := by
    have := code_inj a b e
    omega
  have := h1 _ m1 _ m2 this
  rw [Prod.mk.injEq] at this
  exact this.2

end Run
end Examples

namespace Props
namespace PedersenMerkle
namespace TreeRun
open Stark FFT Polynomial Examples Examples.Pedersen EC Stark.Accept WeierstrassCurve.Affine
open OpenZKP.Props.Small (Z K rep_toNat)
open Run
open Merkle (next_power_of_two)

def T : Tables Z where
  shift := .Point 4 1983
  points := .Point 4 1983 :: (List.replicate 252 (.Point 49401 57594) ++ List.replicate 253 (.Point 11 16458))
  left_x := [49401]
  left_y := [57594]
  right_x := [11]
  right_y := [16458]

def comp0 : Option (Component Z (Claim Z) (Witness Z)) := MerkleTree false root rep (fun u => (u.toNat : Z)) T (2 ^ 1)

def claim : Claim Z := ⟨2, 1, 4⟩

def c0 : Option (Constraints Z) := comp0.bind fun comp => comp.system root claim
def c : Constraints Z := c0.getD ⟨[], 0, 0, [], 0, 0, 0, [], []⟩

theorem some_c : c0 = some c := by
  unfold c
  cases h : c0 with
  | some c0 => rfl
  | none =>
    have : c0.isSome = true := by decide +kernel
    rw [h] at this
    cases this

def E : Expr Z := (c.combine (List.replicate (2 * c.expressions.length) 28784)).getD .X

theorem marks : MarksOk E := marks_of E (by decide +kernel)

theorem computed : Computed c 9 2 E where
  combine := by
    unfold E
    cases h : c.combine (List.replicate (2 * c.expressions.length) 28784) with
    | some c0 => rfl
    | none =>
      have : (c.combine (List.replicate (2 * c.expressions.length) 28784)).isSome = true := by decide +kernel
      rw [h] at this
      cases this
  claims := by decide +kernel
  mark := by decide +kernel
  marks := marks
  degree_pos := by norm_num
  degrees := by decide +kernel
  constraints := by decide +kernel
  arguments := by decide +kernel
  points := by
    rw [show 2 ^ 9 = 8 * 64 by norm_num, show 2 ^ (9 + 4) = 64 * 128 by norm_num, show next_power_of_two 2 = 2 by decide +kernel, ← pow_mul, show 2 * (64 * 128) = 64 * (64 * 4) by norm_num, mul_comm 8 64, pow_mul _ 64 128, pow_mul _ 64 128, pow_mul _ 64 (64 * 4), pow_mul _ 64 8, show (28784 : Z) ^ 64 = 10492 by decide +kernel, show (3 : Z) ^ 64 = 19139 by decide +kernel]
    decide +kernel

theorem on_shift : (curve (1 : Z)).Nonsingular 4 1983 := nonsingular_of_eq (by decide +kernel) (by decide +kernel) (by decide +kernel)
theorem on_left : (curve (1 : Z)).Nonsingular 49401 57594 := nonsingular_of_eq (by decide +kernel) (by decide +kernel) (by decide +kernel)
theorem on_right : (curve (1 : Z)).Nonsingular 11 16458 := nonsingular_of_eq (by decide +kernel) (by decide +kernel) (by decide +kernel)

def B : Bases (1 : Z) where
  shift := .some _ _ on_shift
  left := fun _ => .some _ _ on_left
  right := fun _ => .some _ _ on_right

theorem tables_hold : TablesHold T (3 ^ 256) B where
  shift := rfl
  shift_ne := Point.some_ne_zero _
  left := by
    intro i hi
    show (_ :: (List.replicate 252 _ ++ _))[i + 1]? = _
    rw [List.getElem?_cons_succ, List.getElem?_append_left (by rw [List.length_replicate]; exact hi), List.getElem?_replicate, if_pos hi]
    rfl
  right := by
    intro i hi
    show (_ :: (List.replicate 252 _ ++ List.replicate 253 _))[i + 253]? = _
    rw [List.getElem?_cons_succ, List.getElem?_append_right (by rw [List.length_replicate]; omega), List.getElem?_replicate, List.length_replicate, if_pos (by omega)]
    rfl
  left_column := by
    intro i hi
    show Affine.Point (49401 : Z) 57594 = .Point (0 * _ + 49401) (0 * _ + 57594)
    rw [zero_mul, zero_add, zero_add]
  right_column := by
    intro i hi
    show Affine.Point (11 : Z) 16458 = .Point (0 * _ + 11) (0 * _ + 16458)
    rw [zero_mul, zero_add, zero_add]

theorem conversions : Conversions rep (fun u => (u.toNat : Z)) where
  lt := by
    intro x
    rw [show (rep x).toNat = x.val from rep_toNat x]
    exact lt_trans (ZMod.val_lt x) (by norm_num)
  cast := by
    intro x
    rw [show (rep x).toNat = x.val from rep_toNat x]
    exact ZMod.natCast_zmod_val x
  element := fun _ => rfl

theorem small_ne (k : Nat) (h0 : 0 < k) (h8 : k < 8) : (k : Z) ≠ 0 := by
  interval_cases k <;> decide +kernel

theorem regular (x y : Z) (hx : (rep x).toNat = 0 ∨ (rep x).toNat = 1) (hy : (rep y).toNat = 0) : Regular B rep x y := by
  have hne : B.shift ≠ B.left 0 ∧ B.shift ≠ -B.left 0 := by
    constructor
    · intro e
      have := congrArg ofPoint e
      revert this
      show Affine.Point (4 : Z) 1983 = .Point 49401 57594 → False
      decide +kernel
    · intro e
      have := congrArg (fun p => coordX (ofPoint p)) e
      rw [show -B.left 0 = _ from Point.neg_some ..] at this
      revert this
      show (4 : Z) = 49401 → False
      decide +kernel
  have hbit : ∀ i, (rep x).toNat.testBit i = true → i = 0 := by
    intro i hi
    rcases hx with hx | hx
    · rw [hx] at hi; simp at hi
    · rw [hx] at hi
      by_contra hne
      rw [Nat.testBit_lt_two_pow (Nat.one_lt_two_pow hne)] at hi
      cases hi
  refine ⟨?_, ?_, ?_⟩
  · rintro ⟨i, -, ⟨hb, e⟩ | ⟨hb, -⟩⟩
    · obtain rfl := hbit i hb
      refine hne.1 (Eq.trans ?_ e)
      simp [partialSum]
    · rw [hy] at hb; simp at hb
  · rintro ⟨i, -, ⟨hb, e⟩ | ⟨hb, -⟩⟩
    · obtain rfl := hbit i hb
      refine hne.2 (Eq.trans ?_ e)
      simp [partialSum]
    · rw [hy] at hb; simp at hb
  · rintro ⟨i, -, ⟨hb, e⟩ | ⟨hb, -⟩⟩
    · obtain rfl := hbit i hb
      have : leftSum B (rep x).toNat 0 = B.shift := by simp [leftSum]
      rw [this] at e
      exact e.elim hne.1 hne.2
    · rw [hy] at hb; simp at hb

theorem hash_one : merkle_hash rep T 1 0 = some 0 := by decide +kernel
theorem hash_zero : merkle_hash rep T 0 0 = some 4 := by decide +kernel

theorem two_steps {F : Type} [Field F] (hash : F → F → Option F) (l0 l1 l2 s1 s2 : F) (h1 : hash l0 s1 = some l1) (h2 : hash l1 s2 = some l2) :
    Witness.new hash l0 [(false, s1), (false, s2)] = some ⟨[(false, s1), (false, s2)], l0, l2⟩ := by
  simp [Witness.new, stepUp, h1, h2]

theorem two_layers {F : Type} [Field F] [DecidableEq F] (hash : F → F → Option F) (R : F → F → Prop) (l0 l1 s1 s2 : F) (h1 : hash l0 s1 = some l1) (r1 : R l0 s1) (r2 : R l1 s2)
    (b : Nat) (node : Bool × F) (v : F) (hb : [(false, s1), (false, s2)][b]? = some node) (hv : ([(false, s1), (false, s2)].take b).foldlM (stepUp hash) l0 = some v) :
    R (inputs node v).1 (inputs node v).2 := by
  match b with
  | 0 =>
    cases hb
    cases hv
    exact r1
  | 1 =>
    cases hb
    simp [stepUp, h1] at hv
    subst hv
    exact r2
  | b + 2 => simp at hb

theorem witness : Witness.new (merkle_hash rep T) 1 [(false, 0), (false, 0)] = some ⟨[(false, 0), (false, 0)], 1, 4⟩ := two_steps _ _ _ _ _ _ hash_one hash_zero

/-- a proof is made and accepted -/
theorem proved : ∃ comp p, comp0 = some comp ∧ comp.prove env o ⟨[(false, 0), (false, 0)], 1, 4⟩ = .ok p ∧ comp.verify env claim p = .ok () := by
  have hc0 := some_c
  unfold c0 at hc0
  obtain ⟨comp, hcomp, hc⟩ := Option.bind_eq_some_iff.1 hc0
  have hg : env.root (2 ^ (1 + 8)) = some (3 ^ 128) := by decide +kernel
  obtain ⟨hclaim, -⟩ := tree_component false root rep _ T _ comp hcomp
  have hcl : comp.claim ⟨[(false, 0), (false, 0)], 1, 4⟩ = claim := by rw [hclaim]; rfl
  obtain ⟨t, h1, h2, h3⟩ := C84_prove env root_ok root_compat gen_ne search_some o false rep _ conversions T (3 ^ 256) (by decide +kernel) B tables_hold small_ne 1 (by norm_num) comp hcomp 1 _ rfl _
    witness (two_layers _ _ 1 0 0 0 hash_one (regular 1 0 (Or.inr (by decide +kernel)) (by decide +kernel)) (regular 0 0 (Or.inl (by decide +kernel)) (by decide +kernel))) c (by rw [hcl]; exact hc) (3 ^ 128) hg
  obtain ⟨_, _, _, hs⟩ := tree_is root root_ok root_compat false rep _ T 1 (by norm_num) comp hcomp claim c hc (3 ^ 128) hg
  obtain ⟨p, p1, p2⟩ := proved_of hs computed (by norm_num) t h1.2.2.2 h1.2.1 h3
  refine ⟨comp, p, hcomp, ?_, ?_⟩
  · unfold Component.prove
    rw [hcl, show comp.system env.root claim = some c from hc, h1.1]
    exact p1
  · unfold Component.verify
    rw [show comp.system env.root claim = some c from hc]
    exact p2

end TreeRun

open Examples Examples.Pedersen in
-- an accepted proof of a path of length 2
example : ∃ comp p c, TreeRun.comp0 = some comp ∧ comp.verify Run.env TreeRun.claim p = .ok () ∧ comp.system Run.root TreeRun.claim = some c ∧
    Shows Run.env c 9 2 p fun t => HasPath (merkle_hash Run.rep TreeRun.T) 2 1 4 t ∨ NonCanonical Run.rep 2 t ∨ Degenerate TreeRun.B Run.rep 2 t := by
  obtain ⟨comp, p, h1, -, h2⟩ := TreeRun.proved
  obtain ⟨c, h3, h4⟩ := C84_accepted_partial Run.env Run.root_ok Run.root_compat Run.search_ok Run.gen_ne false Run.rep _ TreeRun.conversions TreeRun.T (3 ^ 256) (by decide +kernel) TreeRun.B
    TreeRun.tables_hold TreeRun.small_ne 1 (by norm_num) comp h1 TreeRun.claim p h2
  exact ⟨comp, p, c, h1, h2, h3, h4⟩
end PedersenMerkle
end Props
end OpenZKP
