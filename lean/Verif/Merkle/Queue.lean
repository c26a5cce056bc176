import Verif.Merkle.IndexLemmas
import Mathlib.Data.Finset.Lattice.Fold
import Mathlib.Data.Finset.Card
import Mathlib.Order.Interval.Finset.Nat

/-! # The queue of `open` and `verify` -/

namespace OpenZKP
namespace Merkle

open Finset

/-- the order of the nodes in the queue: a level in ascending order, then already processed parents, which
are to the left of the parents still to come -/
def QRel (x y : Nat) : Prop :=
  (Nat.log 2 x = Nat.log 2 y ∧ x < y) ∨ (Nat.log 2 x = Nat.log 2 y + 1 ∧ y < x / 2)

theorem sibling_log {c : Nat} (h : 2 ≤ c) : Nat.log 2 (c ^^^ 1) = Nat.log 2 c := by
  rw [xor_one]
  have hc : 1 ≤ c / 2 := by omega
  split
  · next he =>
    have e1 : c = 2 * (c / 2) := by omega
    have := log_double hc
    have := log_double_add hc
    rw [e1, log_double hc, log_double_add hc]
  · next he =>
    have e1 : c = 2 * (c / 2) + 1 := by omega
    have e2 : c - 1 = 2 * (c / 2) := by omega
    rw [e2, log_double hc]
    conv_rhs => rw [e1]
    rw [log_double_add hc]

theorem log_pos' {c : Nat} (h : 2 ≤ c) : 1 ≤ Nat.log 2 c := Nat.log_pos (by norm_num) h

/-- a right node is never followed by its (left) sibling -/
theorem right_front {c y : Nat} (hc : 2 ≤ c) (hodd : c % 2 = 1) (h : QRel c y) : y ≠ c ^^^ 1 := by
  intro e
  have hl := sibling_log hc
  rw [← e] at hl
  rcases h with ⟨_, h2⟩ | ⟨h1, _⟩
  · rw [e, xor_one, if_neg (by omega)] at h2; omega
  · omega

theorem parent_ne_sibling {c : Nat} (hc : 2 ≤ c) : c / 2 ≠ c ^^^ 1 := by
  intro e
  have hl := sibling_log hc
  rw [← e, log_half] at hl
  have := log_pos' hc
  omega

/-- pushing the parent keeps the order, when the sibling is not in the queue -/
theorem push_parent {c y : Nat} (hc : 2 ≤ c) (h : QRel c y) (hs : c % 2 = 0 → y ≠ c + 1) : QRel y (c / 2) := by
  have hp := log_pos' hc
  unfold QRel at h ⊢
  rw [log_half]
  rcases h with ⟨h1, h2⟩ | ⟨h1, h2⟩
  · right
    refine ⟨by omega, ?_⟩
    by_cases he : c % 2 = 0
    · have := hs he; omega
    · omega
  · left
    exact ⟨by omega, h2⟩

/-- in a queue whose front is not the sibling, the sibling does not occur -/
theorem sibling_not_mem {c : Nat} {q : List Nat} (hc : 2 ≤ c) (he : c % 2 = 0) (hq : (c :: q).Pairwise QRel)
    (hf : ∀ f, q.head? = some f → f ≠ c + 1) : ∀ y ∈ q, y ≠ c + 1 := by
  intro y hy e
  subst e
  cases q with
  | nil => simp at hy
  | cons f q =>
    have hne := hf f rfl
    have hcf : QRel c f := (List.pairwise_cons.1 hq).1 f (by simp)
    have hm : (c + 1) ∈ q := by
      rcases List.mem_cons.1 hy with h | h
      · exact absurd h.symm hne
      · exact h
    have hfy : QRel f (c + 1) := (List.pairwise_cons.1 (List.pairwise_cons.1 hq).2).1 _ hm
    have hl := sibling_log hc
    rw [xor_one, if_pos he] at hl
    rcases hcf with ⟨h1, h2⟩ | ⟨h1, h2⟩ <;> rcases hfy with ⟨h3, h4⟩ | ⟨h3, h4⟩ <;> omega

/-- iterations needed -/
def work (q : List Nat) : Nat := (q.map fun x => Nat.log 2 x + 1).sum

theorem work_append (q r : List Nat) : work (q ++ r) = work q + work r := by
  unfold work; rw [List.map_append, List.sum_append]

theorem work_cons (x : Nat) (q : List Nat) : work (x :: q) = Nat.log 2 x + 1 + work q := by
  unfold work; rw [List.map_cons, List.sum_cons]

/-! ## strict ancestors -/

/-- strict ancestors of a node -/
def anc (x : Nat) : Finset Nat := (Finset.Icc 1 (Nat.log 2 x)).image (fun j => x / 2 ^ j)

theorem mem_anc {x a : Nat} (hx : 1 ≤ x) : a ∈ anc x ↔ 1 ≤ a ∧ ∃ j, 1 ≤ j ∧ x / 2 ^ j = a := by
  unfold anc
  simp only [mem_image, mem_Icc]
  constructor
  · rintro ⟨j, ⟨h1, h2⟩, rfl⟩
    refine ⟨?_, j, h1, rfl⟩
    exact (Nat.one_le_div_iff (by positivity)).2 ((Nat.le_log_iff_pow_le (by norm_num) (by omega)).1 h2)
  · rintro ⟨ha, j, h1, rfl⟩
    refine ⟨j, ⟨h1, ?_⟩, rfl⟩
    exact (Nat.le_log_iff_pow_le (by norm_num) (by omega)).2 ((Nat.one_le_div_iff (by positivity)).1 ha)

theorem anc_le {x j : Nat} (hx : 1 ≤ x) (h : 1 ≤ x / 2 ^ j) : j ≤ Nat.log 2 x :=
  (Nat.le_log_iff_pow_le (by norm_num) (by omega)).2 ((Nat.one_le_div_iff (by positivity)).1 h)

theorem anc_step {c : Nat} (hc : 2 ≤ c) : anc c = insert (c / 2) (anc (c / 2)) := by
  ext a
  rw [mem_insert, mem_anc (by omega), mem_anc (by omega)]
  constructor
  · rintro ⟨ha, j, hj, rfl⟩
    rcases Nat.lt_or_ge 1 j with h | h
    · right
      refine ⟨ha, j - 1, by omega, ?_⟩
      rw [Nat.div_div_eq_div_mul, ← pow_succ']
      congr 2; omega
    · left
      obtain rfl : j = 1 := by omega
      rw [pow_one]
  · rintro (rfl | ⟨ha, j, hj, rfl⟩)
    · exact ⟨by omega, 1, le_rfl, by rw [pow_one]⟩
    · refine ⟨ha, j + 1, by omega, ?_⟩
      rw [Nat.div_div_eq_div_mul, ← pow_succ']

theorem anc_log {x a : Nat} (hx : 1 ≤ x) (h : a ∈ anc x) : Nat.log 2 a < Nat.log 2 x := by
  unfold anc at h
  simp only [mem_image, mem_Icc] at h
  obtain ⟨j, ⟨h1, h2⟩, rfl⟩ := h
  rw [log_div]; omega

/-- all strict ancestors of the nodes of a queue -/
def ancs (q : List Nat) : Finset Nat := q.toFinset.biUnion anc

theorem ancs_cons (x : Nat) (q : List Nat) : ancs (x :: q) = anc x ∪ ancs q := by
  unfold ancs
  rw [List.toFinset_cons, biUnion_insert]

theorem ancs_append_singleton (x : Nat) (q : List Nat) : ancs (q ++ [x]) = anc x ∪ ancs q := by
  unfold ancs
  rw [List.toFinset_append, List.toFinset_cons, List.toFinset_nil, insert_empty_eq, union_biUnion, singleton_biUnion,
    union_comm]

theorem mem_ancs {q : List Nat} {a : Nat} : a ∈ ancs q ↔ ∃ y ∈ q, a ∈ anc y := by
  unfold ancs; simp

/-- the parent of a node is not an ancestor of the other nodes -/
theorem parent_not_anc {c y : Nat} (hc : 2 ≤ c) (hy : 1 ≤ y) (h : QRel c y) (hs : c % 2 = 0 → y ≠ c + 1) :
    c / 2 ∉ anc y := by
  intro hm
  have hp := log_pos' hc
  have hl := anc_log hy hm
  rw [log_half] at hl
  rcases h with ⟨h1, h2⟩ | ⟨h1, h2⟩
  · obtain ⟨_, j, hj, e⟩ := (mem_anc hy).1 hm
    have hj' := anc_le hy (show 1 ≤ y / 2 ^ j by rw [e]; omega)
    have := congrArg (Nat.log 2) e
    rw [log_div, log_half] at this
    obtain rfl : j = 1 := by omega
    rw [pow_one] at e
    by_cases he : c % 2 = 0
    · have := hs he; omega
    · omega
  · omega

theorem ancs_unmerged {c : Nat} {q : List Nat} (hc : 2 ≤ c) (hq : (c :: q).Pairwise QRel) (h1 : ∀ y ∈ q, 1 ≤ y)
    (hs : c % 2 = 0 → ∀ y ∈ q, y ≠ c + 1) :
    (ancs (c :: q)).card = (ancs (q ++ [c / 2])).card + 1 := by
  rw [ancs_cons, ancs_append_singleton, anc_step hc, insert_union, card_insert_of_notMem]
  rw [mem_union, mem_ancs]
  rintro (h | ⟨y, hy, h⟩)
  · exact absurd (anc_log (by omega) h) (lt_irrefl _)
  · exact parent_not_anc hc (h1 y hy) ((List.pairwise_cons.1 hq).1 y hy) (fun he => hs he y hy) h

theorem ancs_merged {c : Nat} {q : List Nat} (hc : 2 ≤ c) (he : c % 2 = 0)
    (hq : (c :: (c + 1) :: q).Pairwise QRel) (h1 : ∀ y ∈ q, 1 ≤ y) :
    (ancs (c :: (c + 1) :: q)).card = (ancs (q ++ [c / 2])).card + 1 := by
  rw [ancs_cons, ancs_cons, ancs_append_singleton, anc_step hc, anc_step (show 2 ≤ c + 1 by omega),
    show (c + 1) / 2 = c / 2 by omega]
  have : insert (c / 2) (anc (c / 2)) ∪ (insert (c / 2) (anc (c / 2)) ∪ ancs q) =
      insert (c / 2) (anc (c / 2) ∪ ancs q) := by
    ext a; simp
  rw [this, card_insert_of_notMem]
  rw [mem_union, mem_ancs]
  rintro (h | ⟨y, hy, h⟩)
  · exact absurd (anc_log (by omega) h) (lt_irrefl _)
  · have hcy := (List.pairwise_cons.1 hq).1 y (by simp [hy])
    have hc1y := (List.pairwise_cons.1 (List.pairwise_cons.1 hq).2).1 y hy
    have hl := sibling_log hc
    rw [xor_one, if_pos he] at hl
    refine parent_not_anc hc (h1 y hy) hcy (fun _ => ?_) h
    rintro rfl
    rcases hc1y with ⟨_, h2⟩ | ⟨h2, _⟩ <;> omega

/-! ## number of hashes of an opening -/

/-- a strictly ascending list on one level: adding a first node adds the ancestors below the last common
ancestor -/
theorem ancs_add {d x y : Nat} {r : List Nat} (hx : Nat.log 2 x = d) (hx1 : 1 ≤ x) (hr : ∀ z ∈ y :: r, 1 ≤ z ∧ Nat.log 2 z = d)
    (hxy : x < y) (hyr : ∀ z ∈ r, y < z) :
    (ancs (x :: y :: r)).card = (ancs (y :: r)).card + Nat.log 2 (x ^^^ y) := by
  set l := Nat.log 2 (x ^^^ y) with hl
  have hsame := fun j => same_ancestor x y j (Nat.ne_of_lt hxy)
  have hld : l ≤ d := by
    have hy := hr y (by simp)
    have hxlt := (level_bounds hx1).2
    have hylt := (level_bounds hy.1).2
    rw [hx] at hxlt; rw [hy.2] at hylt
    have hne0 : x ^^^ y ≠ 0 := by rw [Ne, Nat.xor_eq_zero_iff]; omega
    have := Nat.log_lt_of_lt_pow hne0 (Nat.xor_lt_two_pow hxlt hylt)
    omega
  have hset : ancs (x :: y :: r) = (Icc 1 l).image (fun j => x / 2 ^ j) ∪ ancs (y :: r) := by
    ext a
    rw [ancs_cons, mem_union, mem_union]
    constructor
    · rintro (h | h)
      · unfold anc at h
        simp only [mem_image, mem_Icc] at h ⊢
        obtain ⟨j, ⟨h1, h2⟩, rfl⟩ := h
        rcases Nat.lt_or_ge l j with hj | hj
        · right
          rw [mem_ancs]
          refine ⟨y, by simp, ?_⟩
          rw [(hsame j).2 hj]
          unfold anc
          rw [mem_image]
          exact ⟨j, mem_Icc.2 ⟨h1, by rw [(hr y (by simp)).2]; omega⟩, rfl⟩
        · left; exact ⟨j, ⟨h1, hj⟩, rfl⟩
      · right; exact h
    · rintro (h | h)
      · left
        unfold anc
        simp only [mem_image, mem_Icc] at h ⊢
        obtain ⟨j, ⟨h1, h2⟩, rfl⟩ := h
        exact ⟨j, ⟨h1, by omega⟩, rfl⟩
      · right; exact h
  rw [hset, card_union_of_disjoint, card_image_of_injOn, Nat.card_Icc]
  · omega
  · intro i hi j hj e
    simp only [coe_Icc, Set.mem_Icc] at hi hj
    have := congrArg (Nat.log 2) e
    simp only [log_div, hx] at this
    omega
  · rw [disjoint_left]
    intro a ha hb
    simp only [mem_image, mem_Icc] at ha
    obtain ⟨j, ⟨h1, h2⟩, rfl⟩ := ha
    obtain ⟨z, hz, hza⟩ := mem_ancs.1 hb
    obtain ⟨hz1, hzl⟩ := hr z hz
    obtain ⟨hone, i, hi, e⟩ := (mem_anc hz1).1 hza
    have hi' := anc_le hz1 (show 1 ≤ z / 2 ^ i by rw [e]; exact hone)
    have hlog := congrArg (Nat.log 2) e
    have hgt := anc_log hz1 hza
    rw [log_div, hx, hzl] at hgt
    rw [log_div, log_div, hx, hzl] at hlog
    have hij : i = j := by omega
    subst hij
    have hyz : y ≤ z := by
      rcases List.mem_cons.1 hz with rfl | h
      · exact le_rfl
      · exact (hyr z h).le
    have a1 : x / 2 ^ i ≤ y / 2 ^ i := Nat.div_le_div_right hxy.le
    have a2 : y / 2 ^ i ≤ z / 2 ^ i := Nat.div_le_div_right hyz
    have := (hsame i).1 (by omega)
    omega

theorem ancs_single {x : Nat} : (ancs [x]).card = Nat.log 2 x := by
  rw [show ancs [x] = anc x by simp [ancs]]
  unfold anc
  rw [card_image_of_injOn, Nat.card_Icc]
  · omega
  · intro i hi j hj e
    simp only [coe_Icc, Set.mem_Icc] at hi hj
    have := congrArg (Nat.log 2) e
    simp only [log_div] at this
    omega

/-- on a strictly ascending list of one level the loop of `proof_size` computes
`#ancestors + 1 - #nodes` -/
theorem proofSizeLoop_spec {d : Nat} (hd : d ≤ 63) (l : List Nat) (hne : l ≠ []) (hs : l.Pairwise (· < ·))
    (hl : ∀ z ∈ l, 1 ≤ z ∧ Nat.log 2 z = d) :
    ((ancs l).card : Int) + 1 - l.length ≤ d * l.length ∧
    ∀ s : Nat, 0 ≤ (s : Int) - d * l.length + ((ancs l).card + 1 - l.length) →
      ∃ t : Nat, proofSizeLoop s l = .ok t ∧ (t : Int) = s - d * l.length + ((ancs l).card + 1 - l.length) := by
  induction l with
  | nil => exact absurd rfl hne
  | cons x l ih =>
    cases l with
    | nil =>
      have := (hl x (by simp)).2
      rw [ancs_single, this]
      refine ⟨by simp, ?_⟩
      intro s h
      exact ⟨s, rfl, by simp⟩
    | cons y r =>
      rw [List.pairwise_cons] at hs
      obtain ⟨hxs, hs⟩ := hs
      have hx := hl x (by simp)
      have hy := hl y (by simp)
      have hxy := hxs y (by simp)
      obtain ⟨ih1, ih2⟩ := ih (by simp) hs (fun z hz => hl z (by simp [hz]))
      have hc := ancs_add hx.2 hx.1 (fun z hz => hl z (by simp at hz ⊢; tauto)) hxy (fun z hz => (List.pairwise_cons.1 hs).1 z hz)
      have hxb := level_bounds hx.1
      have hyb := level_bounds hy.1
      rw [hx.2] at hxb
      rw [hy.2] at hyb
      have hlca := lca_eq hd hxb hyb (Nat.ne_of_lt hxy)
      have hld : Nat.log 2 (x ^^^ y) < d := by
        by_contra hge
        push Not at hge
        -- both have the same root
        have h1 : x / 2 ^ d = 1 := by
          rw [Nat.div_eq_iff (by positivity)]
          have := hxb.2; rw [pow_succ] at this
          constructor <;> omega
        have h2 : y / 2 ^ d = 1 := by
          rw [Nat.div_eq_iff (by positivity)]
          have := hyb.2; rw [pow_succ] at this
          constructor <;> omega
        have := (same_ancestor x y d (Nat.ne_of_lt hxy)).1 (by rw [h1, h2])
        omega
      have hlcad : Index.depth (Index.last_common_ancestor x y) = d - (Nat.log 2 (x ^^^ y) + 1) := by
        rw [hlca, depth_eq_log, log_div, hx.2]
        · refine (Nat.one_le_div_iff (by positivity)).2 (le_trans (Nat.pow_le_pow_right (by norm_num) ?_) hxb.1)
          omega
        · refine lt_of_le_of_lt (Nat.div_le_self _ _) (lt_of_lt_of_le hxb.2 (Nat.pow_le_pow_right (by norm_num) (by omega)))
      rw [hc]
      simp only [List.length_cons] at ih1 ih2 ⊢
      push_cast at ih1 ih2 ⊢
      refine ⟨by nlinarith, ?_⟩
      intro s h
      unfold proofSizeLoop
      simp only
      rw [hlcad]
      have hds : d - (Nat.log 2 (x ^^^ y) + 1) + 2 ≤ s := by
        have : ((d - (Nat.log 2 (x ^^^ y) + 1) + 2 : Nat) : Int) ≤ s := by
          have e : ((d - (Nat.log 2 (x ^^^ y) + 1) + 2 : Nat) : Int) = d - Nat.log 2 (x ^^^ y) + 1 := by omega
          rw [e]; nlinarith
        exact_mod_cast this
      rw [if_pos hds]
      have e2 : ((s - (d - (Nat.log 2 (x ^^^ y) + 1) + 2) : Nat) : Int) = s - (d - Nat.log 2 (x ^^^ y) + 1) := by omega
      obtain ⟨t, et, ht⟩ := ih2 (s - (d - (Nat.log 2 (x ^^^ y) + 1) + 2)) (by rw [e2]; nlinarith)
      refine ⟨t, et, ?_⟩
      rw [ht, e2]; ring

end Merkle
end OpenZKP
