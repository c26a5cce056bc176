import Mathlib.LinearAlgebra.Lagrange
import Mathlib.Algebra.Order.BigOperators.Group.Finset
import Verif.Stark.SoundSpec

/-!
Lemmas: curves of words close to a Reed-Solomon code.

If many words on a curve `a ↦ (u j)(a)` are close to polynomials of small degree, then for all but few of them the positions at which the word agrees with
the polynomial are positions at which the whole curve agrees with a curve of polynomials.
-/

namespace OpenZKP
namespace Stark
namespace Accept
open Polynomial

section
variable {F : Type} [Field F] [DecidableEq F]

omit [DecidableEq F] in
/-- polynomials of degree less than `D` that agree at `D` points are equal -/
theorem eq_of_agree {ι : Type} (J : Finset ι) (pt : ι → F) (hpt : Set.InjOn pt J) (P Q : F[X]) (D : Nat) (hP : P.degree < D) (hQ : Q.degree < D)
    (hJ : D ≤ J.card) (h : ∀ j ∈ J, P.eval (pt j) = Q.eval (pt j)) : P = Q := by
  refine Polynomial.eq_of_degrees_lt_of_eval_index_eq J hpt ?_ ?_ h
  · exact lt_of_lt_of_le hP (by exact_mod_cast hJ)
  · exact lt_of_lt_of_le hQ (by exact_mod_cast hJ)

/-- the polynomial of degree less than `A.card` through the values `v` -/
noncomputable def through (A : Finset F) (v : F → F) : F[X] := ∑ l ∈ A, C (v l) * Lagrange.basis A id l

theorem through_eq (A : Finset F) (v : F → F) : through A v = Lagrange.interpolate A id v := rfl

theorem curve (d e D : Nat) (hd : 1 ≤ d) (J : Finset Nat) (pt : Nat → F) (hpt : Set.InjOn pt J) (u : Nat → F[X]) (hu : ∀ j ∈ J, (u j).degree < d)
    (S : Finset F) (P : F → F[X]) (hP : ∀ a ∈ S, (P a).degree < D) (hclose : ∀ a ∈ S, (J.filter fun j => (u j).eval a ≠ (P a).eval (pt j)).card ≤ e)
    (hD : D + (d + 1) * e ≤ J.card) (hS : (d - 1) * (e + 1) < S.card) :
    ∃ A ⊆ S, ∃ a ∈ S, A.card = d ∧ ∀ j ∈ J, (u j).eval a = (P a).eval (pt j) → u j = through A fun l => (P l).eval (pt j) := by
  have hdS : d ≤ S.card := by
    have : (d - 1) * 1 ≤ (d - 1) * (e + 1) := Nat.mul_le_mul_left _ (by omega)
    omega
  obtain ⟨A, hAS, hA⟩ := Finset.exists_subset_card_eq hdS
  refine ⟨A, hAS, ?_⟩
  let G : Nat → F[X] := fun j => through A fun l => (P l).eval (pt j)
  have hGdeg : ∀ j, (G j).degree < d := by
    intro j
    have := Lagrange.degree_interpolate_lt (s := A) (v := id) (fun l => (P l).eval (pt j)) (Set.injOn_id _)
    rw [hA] at this
    exact this
  have hGeval : ∀ j, ∀ l ∈ A, (G j).eval l = (P l).eval (pt j) := by
    intro j l hl
    exact Lagrange.eval_interpolate_at_node (s := A) (v := id) (fun l => (P l).eval (pt j)) (Set.injOn_id _) hl
  let bad : F → Finset Nat := fun a => J.filter fun j => (u j).eval a ≠ (P a).eval (pt j)
  let E : Finset Nat := J.filter fun j => u j ≠ G j
  have hE1 : E ⊆ A.biUnion bad := by
    intro j hj
    obtain ⟨hj, hne⟩ := Finset.mem_filter.1 hj
    by_contra hno
    apply hne
    have hag : ∀ l ∈ A, (u j).eval l = (G j).eval l := by
      intro l hl
      rw [hGeval j l hl]
      by_contra h1
      exact hno (Finset.mem_biUnion.2 ⟨l, hl, Finset.mem_filter.2 ⟨hj, h1⟩⟩)
    exact eq_of_agree A id (Set.injOn_id _) _ _ d (hu j hj) (hGdeg j) (le_of_eq hA.symm) hag
  have hE2 : E.card ≤ d * e := by
    refine (Finset.card_le_card hE1).trans ?_
    rw [← hA]
    exact Finset.card_biUnion_le_card_mul A bad e fun l hl => hclose l (hAS hl)
  -- the codewords are on the curve `G`
  have hGP : ∀ a ∈ S, ∀ j ∈ J, (P a).eval (pt j) = (G j).eval a := by
    intro a ha
    let Q : F[X] := ∑ l ∈ A, C ((Lagrange.basis A id l).eval a) * P l
    have hQdeg : Q.degree < D := by
      have hmem : Q ∈ degreeLT F D := by
        apply Submodule.sum_mem
        intro l hl
        rw [← smul_eq_C_mul]
        exact Submodule.smul_mem _ _ (mem_degreeLT.2 (hP l (hAS hl)))
      exact mem_degreeLT.1 hmem
    have hQeval : ∀ j, Q.eval (pt j) = (G j).eval a := by
      intro j
      simp only [Q, G, through, eval_finset_sum, eval_mul, eval_C]
      exact Finset.sum_congr rfl fun l _ => mul_comm _ _
    have hPQ : P a = Q := by
      refine eq_of_agree (J.filter fun j => j ∉ E ∪ bad a) pt (hpt.mono (Finset.coe_subset.2 (Finset.filter_subset _ _))) _ _ D (hP a ha) hQdeg ?_ ?_
      · have h1 : (J.filter fun j => j ∉ E ∪ bad a).card + (J.filter fun j => ¬ j ∉ E ∪ bad a).card = J.card := Finset.card_filter_add_card_filter_not _
        have h2 : (J.filter fun j => ¬ j ∉ E ∪ bad a).card ≤ (E ∪ bad a).card := by
          apply Finset.card_le_card
          intro j hj
          have := (Finset.mem_filter.1 hj).2
          rwa [not_not] at this
        have h3 := Finset.card_union_le E (bad a)
        have h4 : (bad a).card ≤ e := hclose a ha
        have h5 : (d + 1) * e = d * e + e := by ring
        omega
      · intro j hj
        obtain ⟨hj, hn⟩ := Finset.mem_filter.1 hj
        rw [Finset.mem_union, not_or] at hn
        have h1 : u j = G j := by
          by_contra h1
          exact hn.1 (Finset.mem_filter.2 ⟨hj, h1⟩)
        have h2 : (u j).eval a = (P a).eval (pt j) := by
          by_contra h2
          exact hn.2 (Finset.mem_filter.2 ⟨hj, h2⟩)
        rw [hQeval, ← h1, h2]
    intro j _
    rw [hPQ, hQeval]
  -- each position of `E` is on the curve for few parameters
  have hfew : ∀ j ∈ E, (S.filter fun a => (u j).eval a = (G j).eval a).card ≤ d - 1 := by
    intro j hj
    obtain ⟨hj, hne⟩ := Finset.mem_filter.1 hj
    by_contra hge
    apply hne
    refine eq_of_agree (S.filter fun a => (u j).eval a = (G j).eval a) id (Set.injOn_id _) _ _ d (hu j hj) (hGdeg j) (by omega) ?_
    intro a ha
    exact (Finset.mem_filter.1 ha).2
  -- counting
  have hE3 : E.card ≤ e := by
    by_contra hge
    have hge : e + 1 ≤ E.card := by omega
    have h1 : ∑ a ∈ S, (E.filter fun j => (u j).eval a ≠ (G j).eval a).card ≤ S.card * e := by
      refine Finset.sum_le_card_nsmul _ _ _ ?_
      intro a ha
      refine le_trans (Finset.card_le_card ?_) (hclose a ha)
      intro j hj
      obtain ⟨hj, hn⟩ := Finset.mem_filter.1 hj
      have hjJ := (Finset.mem_filter.1 hj).1
      exact Finset.mem_filter.2 ⟨hjJ, by rw [hGP a ha j hjJ]; exact hn⟩
    have h2 : ∑ a ∈ S, (E.filter fun j => (u j).eval a ≠ (G j).eval a).card = ∑ j ∈ E, (S.filter fun a => (u j).eval a ≠ (G j).eval a).card := by
      simp only [Finset.card_filter]
      exact Finset.sum_comm
    have h3 : E.card * (S.card - (d - 1)) ≤ ∑ j ∈ E, (S.filter fun a => (u j).eval a ≠ (G j).eval a).card := by
      rw [← smul_eq_mul]
      refine Finset.card_nsmul_le_sum _ _ _ ?_
      intro j hj
      have h4 := hfew j hj
      have h5 : (S.filter fun a => (u j).eval a = (G j).eval a).card + (S.filter fun a => ¬ (u j).eval a = (G j).eval a).card = S.card := Finset.card_filter_add_card_filter_not _
      show S.card - (d - 1) ≤ (S.filter fun a => ¬ (u j).eval a = (G j).eval a).card
      omega
    have h4 : (e + 1) * (S.card - (d - 1)) ≤ E.card * (S.card - (d - 1)) := Nat.mul_le_mul_right _ hge
    have h5 : (e + 1) * (S.card - (d - 1)) ≤ S.card * e := by omega
    obtain ⟨t, ht⟩ : ∃ t, S.card = (d - 1) + t := ⟨S.card - (d - 1), by omega⟩
    rw [ht] at h5 hS
    have h6 : (d - 1 + t) - (d - 1) = t := by omega
    rw [h6] at h5
    have h7 : (e + 1) * t = e * t + t := by ring
    have h8 : (d - 1 + t) * e = (d - 1) * e + e * t := by ring
    have h9 : (d - 1) * (e + 1) = (d - 1) * e + (d - 1) := by ring
    omega
  by_contra hcon
  push Not at hcon
  have h1 : S ⊆ E.biUnion fun j => S.filter fun a => (u j).eval a = (G j).eval a := by
    intro a ha
    obtain ⟨j, hj, h2, h3⟩ := hcon a ha hA
    refine Finset.mem_biUnion.2 ⟨j, Finset.mem_filter.2 ⟨hj, h3⟩, Finset.mem_filter.2 ⟨ha, ?_⟩⟩
    rw [h2, hGP a ha j hj]
  have h2 := (Finset.card_le_card h1).trans (Finset.card_biUnion_le_card_mul E _ (d - 1) hfew)
  have h3 : E.card * (d - 1) ≤ e * (d - 1) := Nat.mul_le_mul_right _ hE3
  have h4 : (d - 1) * (e + 1) = e * (d - 1) + (d - 1) := by ring
  omega

end
end Accept
end Stark
end OpenZKP
