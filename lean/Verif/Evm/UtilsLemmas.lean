import Verif.Evm.Utils
import Verif.FFT.Perm
import Mathlib.Data.List.Sort
import Mathlib.Tactic.NormNum

/-!
# The contract library `Utils`: lemmas
-/

namespace OpenZKP
namespace Evm
namespace Utils
open FFT

theorem or_low (a b k : Nat) (hb : b < 2 ^ k) : a * 2 ^ k ||| b = a * 2 ^ k + b := by
  rw [mul_comm, Nat.two_pow_add_eq_or_of_lt hb]

theorem bitReverseLoop_eq (k n r j : Nat) (hr : r < 2 ^ j) (hj : j + k ≤ 256) : bitReverseLoop k n r = r * 2 ^ k + rev k n := by
  induction k generalizing n r j with
  | zero => simp [bitReverseLoop, rev, reverseBits]
  | succ k ih =>
    have hp : (2 : Nat) ^ (j + 1) ≤ 2 ^ 256 := Nat.pow_le_pow_right (by norm_num) (by omega)
    have h2 : r * 2 + 1 < 2 ^ (j + 1) := by rw [pow_succ]; omega
    have hm : wmul r 2 ||| n % 2 = r * 2 + n % 2 := by
      unfold wmul W
      rw [Nat.mod_eq_of_lt (by omega)]
      simpa using or_low r (n % 2) 1 (by omega)
    rw [bitReverseLoop, hm, ih (n / 2) (r * 2 + n % 2) (j + 1) (by omega) (by omega), rev_succ, pow_succ]
    ring

theorem reverseByte_eq : ∀ b, b < 256 → reverseByte b = rev 8 b := by decide +kernel

theorem and_byte (n : Nat) : n &&& 255 = n % 256 := Nat.and_two_pow_sub_one_eq_mod n 8

theorem step_eq (r b k : Nat) (hb : b < 256) (hr : r < 2 ^ k) (hk : k + 8 ≤ 256) : wshl r 8 ||| reverseByte b = r * 256 + rev 8 b := by
  have hp : (2 : Nat) ^ (k + 8) ≤ 2 ^ 256 := Nat.pow_le_pow_right (by norm_num) hk
  rw [pow_add] at hp
  have hlt := rev_lt 8 b
  unfold wshl W
  rw [if_pos (by norm_num), Nat.mod_eq_of_lt (by norm_num at hp ⊢; omega), reverseByte_eq b hb]
  exact or_low r _ 8 hlt

theorem bit_reverse2_eq (n k : Nat) (hn : n < 2 ^ 40) (hk : k ≤ 40) : bit_reverse2 n k = rev 40 n / 2 ^ (40 - k) := by
  have hsh : ∀ m, wshr m 8 = m / 256 := fun m => by unfold wshr; rw [if_pos (by norm_num)]
  have hw : wsub 40 k = 40 - k := by
    unfold wsub W
    rw [show 40 + (2 ^ 256 - k) = (40 - k) + 2 ^ 256 by omega, Nat.add_mod_right, Nat.mod_eq_of_lt (lt_of_le_of_lt (Nat.sub_le _ _) (by norm_num))]
  unfold bit_reverse2
  simp only [hsh, and_byte, hw]
  have l1 := rev_lt 8 (n % 256)
  rw [reverseByte_eq _ (Nat.mod_lt _ (by norm_num))]
  have l2 := rev_lt 8 (n / 256 % 256)
  rw [step_eq _ (n / 256 % 256) 8 (Nat.mod_lt _ (by norm_num)) l1 (by norm_num)]
  have l3 := rev_lt 8 (n / 256 / 256 % 256)
  rw [step_eq _ (n / 256 / 256 % 256) 16 (Nat.mod_lt _ (by norm_num)) (by norm_num at l1 l2 ⊢; omega) (by norm_num)]
  have l4 := rev_lt 8 (n / 256 / 256 / 256 % 256)
  rw [step_eq _ (n / 256 / 256 / 256 % 256) 24 (Nat.mod_lt _ (by norm_num)) (by norm_num at l1 l2 l3 ⊢; omega) (by norm_num)]
  rw [step_eq _ _ 32 (by norm_num at hn; omega) (by norm_num at l1 l2 l3 l4 ⊢; omega) (by norm_num)]
  have e : ∀ l m, rev (l + 8) m = rev 8 (m % 256) * 2 ^ l + rev l (m / 256) := fun l m => by
    have := rev_concat 8 l (m / 256) (m % 256) (Nat.mod_lt _ (by norm_num))
    rw [← this]
    congr 1
    norm_num
    omega
  have h40 : rev 40 n = (((rev 8 (n % 256) * 256 + rev 8 (n / 256 % 256)) * 256 + rev 8 (n / 256 / 256 % 256)) * 256 + rev 8 (n / 256 / 256 / 256 % 256)) * 256 +
      rev 8 (n / 256 / 256 / 256 / 256) := by
    rw [show (40 : Nat) = 32 + 8 by norm_num, e 32, show (32 : Nat) = 24 + 8 by norm_num, e 24, show (24 : Nat) = 16 + 8 by norm_num, e 16, show (16 : Nat) = 8 + 8 by norm_num, e 8]
    ring
  rw [← h40]
  unfold wshr
  split
  · rfl
  · omega

theorem numBitsStep_spec (s b d : Nat) (hd : 0 < d) (hb : d < 2 ^ (2 * s)) :
    ∃ r d', numBitsStep s (b, d) = (r, d') ∧ 0 < d' ∧ d' < 2 ^ s ∧ b ≤ r ∧ r ≤ b + s ∧ d' = d / 2 ^ (r - b) := by
  unfold numBitsStep
  by_cases h : 2 ^ s ≤ d
  · refine ⟨b + s, d / 2 ^ s, by simp [h], Nat.div_pos h (by positivity), ?_, by omega, le_refl _, by rw [Nat.add_sub_cancel_left]⟩
    rw [Nat.div_lt_iff_lt_mul (by positivity), ← pow_add, ← two_mul]
    exact hb
  · exact ⟨b, d, by simp [h], hd, by omega, le_refl _, by omega, by simp⟩

theorem num_bits_eq (d : Nat) (h0 : 0 < d) (hd : d < 2 ^ 64) : num_bits d = Nat.log2 d := by
  obtain ⟨r1, d1, e1, p1, b1, a1, c1, q1⟩ := numBitsStep_spec 32 0 d h0 hd
  obtain ⟨r2, d2, e2, p2, b2, a2, c2, q2⟩ := numBitsStep_spec 16 r1 d1 p1 b1
  obtain ⟨r3, d3, e3, p3, b3, a3, c3, q3⟩ := numBitsStep_spec 8 r2 d2 p2 b2
  obtain ⟨r4, d4, e4, p4, b4, a4, c4, q4⟩ := numBitsStep_spec 4 r3 d3 p3 b3
  obtain ⟨r5, d5, e5, p5, b5, a5, c5, q5⟩ := numBitsStep_spec 2 r4 d4 p4 b4
  obtain ⟨r6, d6, e6, p6, b6, a6, c6, q6⟩ := numBitsStep_spec 1 r5 d5 p5 b5
  have hd6 : d6 = 1 := by omega
  have q : 1 = d / 2 ^ r6 := by
    rw [← hd6, q6, q5, q4, q3, q2, q1, Nat.div_div_eq_div_mul, Nat.div_div_eq_div_mul, Nat.div_div_eq_div_mul, Nat.div_div_eq_div_mul, Nat.div_div_eq_div_mul,
      ← pow_add, ← pow_add, ← pow_add, ← pow_add, ← pow_add]
    congr 2
    omega
  unfold num_bits
  simp only [e1, e2, e3, e4, e5, e6, hd6]
  have hl : Nat.log2 d = r6 := by
    rw [Nat.log2_eq_iff (by omega)]
    have hpos : 0 < 2 ^ r6 := by positivity
    have := Nat.div_add_mod d (2 ^ r6)
    have hm := Nat.mod_lt d hpos
    rw [← q] at this
    rw [pow_succ]
    omega
  rw [hl]
  omega

theorem sortInsert_perm (x : Nat) (l : List Nat) : (sortInsert x l).Perm (x :: l) := by
  induction l with
  | nil => exact List.Perm.refl _
  | cons y l ih =>
    rw [sortInsert]
    split
    · exact (ih.cons y).trans (List.Perm.swap _ _ _)
    · exact List.Perm.refl _

theorem sortInsert_sorted (x : Nat) (l : List Nat) (h : l.Pairwise (· ≥ ·)) : (sortInsert x l).Pairwise (· ≥ ·) := by
  induction l with
  | nil => simp [sortInsert]
  | cons y l ih =>
    rw [List.pairwise_cons] at h
    rw [sortInsert]
    split
    · next hx =>
      rw [List.pairwise_cons]
      refine ⟨fun a ha => ?_, ih h.2⟩
      rcases List.mem_cons.1 ((sortInsert_perm x l).mem_iff.1 ha) with rfl | ha
      · exact hx.le
      · exact h.1 a ha
    · next hx =>
      rw [List.pairwise_cons]
      refine ⟨fun a ha => ?_, List.pairwise_cons.2 h⟩
      rcases List.mem_cons.1 ha with rfl | ha
      · exact not_lt.1 hx
      · exact (h.1 a ha).trans (not_lt.1 hx)

theorem sort_aux (data acc : List Nat) (h : acc.Pairwise (· ≥ ·)) :
    (data.foldl (fun sorted x => sortInsert x sorted) acc).Pairwise (· ≥ ·) ∧ (data.foldl (fun sorted x => sortInsert x sorted) acc).Perm (data ++ acc) := by
  induction data generalizing acc with
  | nil => exact ⟨h, List.Perm.refl _⟩
  | cons x data ih =>
    obtain ⟨h1, h2⟩ := ih (sortInsert x acc) (sortInsert_sorted x acc h)
    refine ⟨h1, h2.trans ?_⟩
    exact ((sortInsert_perm x acc).append_left data).trans List.perm_middle

theorem sort_spec (data : List Nat) : (sort data).Pairwise (· ≤ ·) ∧ (sort data).Perm data := by
  obtain ⟨h1, h2⟩ := sort_aux data [] List.Pairwise.nil
  unfold sort
  refine ⟨List.pairwise_reverse.2 h1, (List.reverse_perm _).trans ?_⟩
  simpa using h2

theorem sort_eq (data : List Nat) : sort data = data.insertionSort (· ≤ ·) := by
  obtain ⟨h1, h2⟩ := sort_spec data
  exact List.Perm.eq_of_pairwise (fun a b _ _ hab hba => le_antisymm hab hba) h1 (List.pairwise_insertionSort _ _) (h2.trans (List.perm_insertionSort _ _).symm)

end Utils
end Evm
end OpenZKP
