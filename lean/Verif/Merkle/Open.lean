import Verif.Merkle.Queue
import Verif.Merkle.TreeLemmas

/-! Opening and verifying -/

namespace OpenZKP
namespace Merkle

variable {α : Type}

theorem parent_eq {c : Nat} (hc : 2 ≤ c) : Index.parent c = some (c / 2) := by
  unfold Index.parent Index.is_root
  rw [if_neg (by simp; omega)]

theorem sibling_eq {c : Nat} (hc : 2 ≤ c) : Index.sibling c = some (c ^^^ 1) := by
  unfold Index.sibling Index.is_root
  rw [if_neg (by simp; omega)]

/-- the queue after processing a node without merging -/
theorem queue_unmerged {c : Nat} {q : List Nat} (hc : 2 ≤ c) (hq : (c :: q).Pairwise QRel)
    (hs : c % 2 = 0 → ∀ y ∈ q, y ≠ c + 1) : (q ++ [c / 2]).Pairwise QRel := by
  rw [List.pairwise_append]
  rw [List.pairwise_cons] at hq
  refine ⟨hq.2, List.pairwise_singleton _ _, ?_⟩
  intro y hy z hz
  rw [List.mem_singleton] at hz
  subst hz
  exact push_parent hc (hq.1 y hy) (fun he => hs he y hy)

section
variable [DecidableEq α] (H : α → α → α) (t : Tree α) (T : Nat → α) {k : Nat}
  (hT : ∀ p, 1 ≤ p → Nat.log 2 p < k → T p = H (T (2 * p)) (T (2 * p + 1)))
  (hN : ∀ i, 1 ≤ i → Nat.log 2 i ≤ k → node_hash H t 65 i = .ok (T i))
include hT hN

theorem simulation (fuel : Nat) (q : List Nat) (hq : q.Pairwise QRel)
    (hb : ∀ x ∈ q, 1 ≤ x ∧ Nat.log 2 x ≤ k) (hf : work q < fuel) :
    ∃ hs, openLoop H t fuel q = .ok hs ∧
      hs.length + q.length = (ancs q).card + (if q = [] then 0 else 1) ∧
      ∀ ext, ∃ tr, verifyLoop H (T 1) fuel (q.map fun x => (x, T x)) (hs ++ ext) = .ok tr := by
  induction fuel generalizing q with
  | zero => omega
  | succ fuel ih =>
    cases q with
    | nil =>
      refine ⟨[], rfl, by simp [ancs], fun ext => ⟨[], rfl⟩⟩
    | cons c q =>
      have hcb := hb c (by simp)
      rw [work_cons] at hf
      by_cases hc1 : c = 1
      · subst hc1
        have hq0 : q = [] := by
          cases q with
          | nil => rfl
          | cons y r =>
            exfalso
            have hy := hb y (by simp)
            have h := (List.pairwise_cons.1 hq).1 y (by simp)
            unfold QRel at h
            rw [Nat.log_one_right] at h
            rcases h with ⟨h1, h2⟩ | ⟨h1, _⟩
            · have := log_pos' (c := y) (by omega); omega
            · omega
        subst hq0
        have hpar : Index.parent 1 = none := rfl
        have hfpos : 0 < fuel := by omega
        obtain ⟨f, rfl⟩ : ∃ f, fuel = f + 1 := ⟨fuel - 1, by omega⟩
        refine ⟨[], ?_, ?_, ?_⟩
        · unfold openLoop
          rw [hpar]
          rfl
        · rw [ancs_single, Nat.log_one_right]
          simp
        · intro ext
          refine ⟨[], ?_⟩
          simp only [List.map_cons, List.map_nil]
          unfold verifyLoop
          rw [hpar]
          dsimp only
          rw [if_pos rfl]
          rfl
      · have hc : 2 ≤ c := by omega
        have hlp := log_pos' hc
        have hp1 : 1 ≤ c / 2 := by omega
        have hpl : Nat.log 2 (c / 2) < k := by rw [log_half]; omega
        have hTp := hT (c / 2) hp1 hpl
        have hq1 : ∀ y ∈ q, 1 ≤ y := fun y hy => (hb y (by simp [hy])).1
        by_cases hm : c % 2 = 0 ∧ q.head? = some (c + 1)
        · -- merged with its sibling
          obtain ⟨he, hh⟩ := hm
          obtain ⟨r, rfl⟩ : ∃ r, q = (c + 1) :: r := by
            cases q with
            | nil => simp at hh
            | cons y r => simp at hh; subst hh; exact ⟨r, rfl⟩
          have hx : c ^^^ 1 = c + 1 := by rw [xor_one, if_pos he]
          have hr1 : ∀ y ∈ r, 1 ≤ y := fun y hy => hq1 y (by simp [hy])
          have hqr : (c :: r).Pairwise QRel := by
            rw [List.pairwise_cons, List.pairwise_cons] at hq
            rw [List.pairwise_cons]
            exact ⟨fun y hy => hq.1 y (by simp [hy]), hq.2.2⟩
          have hns : c % 2 = 0 → ∀ y ∈ r, y ≠ c + 1 := by
            intro _ y hy e
            subst e
            rw [List.pairwise_cons, List.pairwise_cons] at hq
            have := hq.2.1 _ hy
            unfold QRel at this
            omega
          have hq' := queue_unmerged hc hqr hns
          have hb' : ∀ x ∈ r ++ [c / 2], 1 ≤ x ∧ Nat.log 2 x ≤ k := by
            intro x hx
            rcases List.mem_append.1 hx with h | h
            · exact hb x (by simp [h])
            · rw [List.mem_singleton] at h; subst h; exact ⟨hp1, by omega⟩
          have hw : work (r ++ [c / 2]) < fuel := by
            rw [work_cons] at hf
            rw [work_append, work_cons, log_half]
            unfold work at hf ⊢
            simp only [List.map_nil, List.sum_nil]
            omega
          obtain ⟨hs, ho, hl, hv⟩ := ih (r ++ [c / 2]) hq' hb' hw
          refine ⟨hs, ?_, ?_, ?_⟩
          · unfold openLoop
            rw [parent_eq hc, sibling_eq hc, hx]
            dsimp only [List.cons_append]
            rw [if_pos rfl]
            exact ho
          · rw [ancs_merged hc he hq hr1, if_neg (by simp)]
            rw [if_neg (by simp), List.length_append] at hl
            simp only [List.length_cons, List.length_nil] at hl ⊢
            omega
          · intro ext
            obtain ⟨tr, htr⟩ := hv ext
            refine ⟨(T c, T (c + 1)) :: tr, ?_⟩
            simp only [List.map_cons]
            unfold verifyLoop
            rw [parent_eq hc]
            dsimp only
            rw [if_pos (by simp [Index.is_left, he]), sibling_eq hc, hx, if_pos rfl]
            rw [show 2 * (c / 2) = c by omega] at hTp
            rw [← hTp]
            rw [List.map_append] at htr
            simp only [List.map_cons, List.map_nil] at htr
            rw [htr]
            rfl
        · -- the sibling is provided
          have hns : c % 2 = 0 → ∀ y ∈ q, y ≠ c + 1 := fun he =>
            sibling_not_mem hc he hq (fun f hf e => hm ⟨he, by rw [hf, e]⟩)
          have hq' := queue_unmerged hc hq hns
          have hb' : ∀ x ∈ q ++ [c / 2], 1 ≤ x ∧ Nat.log 2 x ≤ k := by
            intro x hx
            rcases List.mem_append.1 hx with h | h
            · exact hb x (by simp [h])
            · rw [List.mem_singleton] at h; subst h; exact ⟨hp1, by omega⟩
          have hw : work (q ++ [c / 2]) < fuel := by
            rw [work_append, work_cons, log_half]
            unfold work at hf ⊢
            simp only [List.map_nil, List.sum_nil]
            omega
          obtain ⟨hs, ho, hl, hv⟩ := ih (q ++ [c / 2]) hq' hb' hw
          have hsl := sibling_log hc
          have hs1 : 1 ≤ c ^^^ 1 := by rw [xor_one]; split <;> omega
          have hfront : ∀ y r, q ++ [c / 2] = y :: r → y ≠ c ^^^ 1 := by
            intro y r e
            cases q with
            | nil =>
              simp only [List.nil_append, List.cons.injEq] at e
              rw [← e.1]
              exact parent_ne_sibling hc
            | cons z q =>
              simp only [List.cons_append, List.cons.injEq] at e
              rw [← e.1]
              by_cases he : c % 2 = 0
              · rw [xor_one, if_pos he]; exact hns he z (by simp)
              · exact right_front hc (by omega) ((List.pairwise_cons.1 hq).1 z (by simp))
          refine ⟨T (c ^^^ 1) :: hs, ?_, ?_, ?_⟩
          · unfold openLoop
            rw [parent_eq hc, sibling_eq hc]
            dsimp only
            cases hqq : q ++ [c / 2] with
            | nil => simp at hqq
            | cons y r =>
              dsimp only
              rw [if_neg (hfront y r hqq), hN _ hs1 (by rw [hsl]; exact hcb.2), ← hqq, ho]
              rfl
          · rw [ancs_unmerged hc hq hq1 hns, if_neg (by simp)]
            rw [if_neg (by simp), List.length_append] at hl
            simp only [List.length_cons, List.length_nil] at hl ⊢
            omega
          · intro ext
            obtain ⟨tr, htr⟩ := hv ext
            rw [List.map_append] at htr
            simp only [List.map_cons, List.map_nil] at htr
            simp only [List.map_cons, List.cons_append]
            unfold verifyLoop
            rw [parent_eq hc]
            dsimp only
            by_cases he : c % 2 = 0
            · rw [if_pos (by simp [Index.is_left, he])]
              have hx : c ^^^ 1 = c + 1 := by rw [xor_one, if_pos he]
              rw [show 2 * (c / 2) = c by omega] at hTp
              rw [hx, ← hTp]
              refine ⟨(T c, T (c + 1)) :: tr, ?_⟩
              cases q with
              | nil =>
                simp only [List.map_nil]
                simp only [List.map_nil] at htr
                rw [htr]; rfl
              | cons z q =>
                simp only [List.map_cons]
                rw [sibling_eq hc, hx, if_neg (by simp only [Option.some.injEq]; exact (hns he z (by simp)).symm)]
                simp only [List.map_cons] at htr
                rw [htr]; rfl
            · rw [if_neg (by simp [Index.is_left]; omega)]
              have hx : c ^^^ 1 = c - 1 := by rw [xor_one, if_neg he]
              rw [show 2 * (c / 2) + 1 = c by omega, show 2 * (c / 2) = c - 1 by omega] at hTp
              rw [hx, ← hTp]
              refine ⟨(T (c - 1), T c) :: tr, ?_⟩
              rw [htr]; rfl

end

theorem sort_indices_ok {k : Nat} (hk : k ≤ 63) (x : α) (is : List Nat) (hi : ∀ i ∈ is, i < 2 ^ k) :
    ∃ s, sort_indices ⟨2 ^ k, x⟩ is = .ok s ∧ s.Pairwise (· < ·) ∧ ∀ j, j ∈ s ↔ ∃ i ∈ is, j = 2 ^ k + i := by
  refine ⟨_, ?_, (sort_dedup_spec (is.map fun i => 2 ^ k + i)).1, ?_⟩
  · unfold sort_indices
    rw [mapM_ok _ (fun i => 2 ^ k + i) is (fun i h => from_size_offset_ok hk (hi i h))]
    rfl
  · intro j
    rw [(sort_dedup_spec (is.map fun i => 2 ^ k + i)).2 j, List.mem_map]
    constructor
    · rintro ⟨i, h, rfl⟩; exact ⟨i, h, rfl⟩
    · rintro ⟨i, h, rfl⟩; exact ⟨i, h, rfl⟩

theorem sort_indices_congr {k : Nat} (hk : k ≤ 63) (x : α) (is js : List Nat) (hi : ∀ i ∈ is, i < 2 ^ k)
    (h : ∀ i, i ∈ is ↔ i ∈ js) : sort_indices ⟨2 ^ k, x⟩ is = sort_indices ⟨2 ^ k, x⟩ js := by
  obtain ⟨s, e1, s1, m1⟩ := sort_indices_ok hk x is hi
  obtain ⟨r, e2, s2, m2⟩ := sort_indices_ok hk x js (fun i hi' => hi i ((h i).2 hi'))
  rw [e1, e2, strict_ext s1 s2]
  intro j
  rw [m1, m2]
  simp only [h]

theorem sorted_qrel {k : Nat} {s : List Nat} (hs : s.Pairwise (· < ·)) (hl : ∀ z ∈ s, 1 ≤ z ∧ Nat.log 2 z = k) :
    s.Pairwise QRel := by
  refine (List.Pairwise.and_mem.1 hs).imp ?_
  rintro a b ⟨ha, hb, hab⟩
  unfold QRel
  left
  exact ⟨by rw [(hl a ha).2, (hl b hb).2], hab⟩

theorem work_level {k : Nat} {s : List Nat} (hl : ∀ z ∈ s, 1 ≤ z ∧ Nat.log 2 z = k) : work s = (k + 1) * s.length := by
  induction s with
  | nil => rfl
  | cons x s ih =>
    rw [work_cons, ih (fun z hz => hl z (by simp [hz])), (hl x (by simp)).2, List.length_cons]
    ring

theorem work_le {k : Nat} (hk : k ≤ 63) {s : List Nat} (hl : ∀ z ∈ s, 1 ≤ z ∧ Nat.log 2 z = k) :
    work s < 65 * s.length + 1 := by
  rw [work_level hl]
  have : (k + 1) * s.length ≤ 65 * s.length := Nat.mul_le_mul_right _ (by omega)
  omega

/-- the size of a proof -/
theorem proof_size_eq {k : Nat} (hk : k ≤ 63) (x : α) (is : List Nat) (s : List Nat)
    (h : sort_indices ⟨2 ^ k, x⟩ is = .ok s) (hs : s.Pairwise (· < ·)) (hl : ∀ z ∈ s, 1 ≤ z ∧ Nat.log 2 z = k) :
    ∃ n, proof_size ⟨2 ^ k, x⟩ is = .ok n ∧ n + s.length = (ancs s).card + (if s = [] then 0 else 1) := by
  unfold proof_size
  rw [h]
  simp only [Except.bind]
  rw [trailing_zeros_two_pow k (by omega)]
  by_cases e : s = []
  · subst e
    exact ⟨0, rfl, by simp [ancs]⟩
  · obtain ⟨h1, h2⟩ := proofSizeLoop_spec hk s e hs hl
    have hcard : s.length ≤ (ancs s).card + 1 := by
      obtain ⟨hs', _, hl', _⟩ := simulation (fun _ _ => ()) ⟨⟨2 ^ k, ()⟩, [], List.replicate (2 ^ k) ()⟩ (fun _ => ())
        (k := k) (fun _ _ _ => rfl)
        (fun i h1 h2 => node_hash_eq (fun _ _ => ()) (leaves := List.replicate (2 ^ k) ()) (leaf := fun _ => ()) hk (by simp)
          (fun o ho => by simp [List.getElem?_replicate, ho]) _ rfl (by simp) 65 i h1 h2 (by omega))
        (65 * s.length + 1) s (sorted_qrel hs hl) (fun z hz => ⟨(hl z hz).1, (hl z hz).2.le⟩) (work_le hk hl)
      rw [if_neg e] at hl'
      omega
    obtain ⟨n, hn, hv⟩ := h2 (k * s.length) (by push_cast; omega)
    refine ⟨n, hn, ?_⟩
    rw [if_neg e]
    push_cast at hv
    omega

end Merkle
end OpenZKP
