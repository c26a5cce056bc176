import Verif.Field.Primality

/-!
# The two moduli are prime

Pratt certificates (factorisations of `p - 1` with a primitive root), checked by the kernel.
-/

namespace OpenZKP

def prime_4935719_cert : List (Nat × Nat) := [(2, 1), (2467859, 1)]

theorem prime_4935719_fs : ∀ f ∈ prime_4935719_cert, f.1.Prime := by
  intro f hf
  simp only [prime_4935719_cert, List.mem_cons, List.not_mem_nil, or_false] at hf
  rcases hf with rfl | rfl
  · exact (by norm_num : Nat.Prime 2)
  · exact (by norm_num : Nat.Prime 2467859)

theorem prime_4935719 : Nat.Prime 4935719 :=
  prime_of_pratt _ 17 256 prime_4935719_cert (by norm_num) (by norm_num) prime_4935719_fs (by decide +kernel) (by decide +kernel) (by decide +kernel)

def prime_98714381_cert : List (Nat × Nat) := [(2, 2), (5, 1), (4935719, 1)]

theorem prime_98714381_fs : ∀ f ∈ prime_98714381_cert, f.1.Prime := by
  intro f hf
  simp only [prime_98714381_cert, List.mem_cons, List.not_mem_nil, or_false] at hf
  rcases hf with rfl | rfl | rfl
  · exact (by norm_num : Nat.Prime 2)
  · exact (by norm_num : Nat.Prime 5)
  · exact prime_4935719

theorem prime_98714381 : Nat.Prime 98714381 :=
  prime_of_pratt _ 2 256 prime_98714381_cert (by norm_num) (by norm_num) prime_98714381_fs (by decide +kernel) (by decide +kernel) (by decide +kernel)

def prime_9269339_cert : List (Nat × Nat) := [(2, 1), (13, 1), (43, 1), (8291, 1)]

theorem prime_9269339_fs : ∀ f ∈ prime_9269339_cert, f.1.Prime := by
  intro f hf
  simp only [prime_9269339_cert, List.mem_cons, List.not_mem_nil, or_false] at hf
  rcases hf with rfl | rfl | rfl | rfl
  · exact (by norm_num : Nat.Prime 2)
  · exact (by norm_num : Nat.Prime 13)
  · exact (by norm_num : Nat.Prime 43)
  · exact (by norm_num : Nat.Prime 8291)

theorem prime_9269339 : Nat.Prime 9269339 :=
  prime_of_pratt _ 6 256 prime_9269339_cert (by norm_num) (by norm_num) prime_9269339_fs (by decide +kernel) (by decide +kernel) (by decide +kernel)

def prime_166848103_cert : List (Nat × Nat) := [(2, 1), (3, 2), (9269339, 1)]

theorem prime_166848103_fs : ∀ f ∈ prime_166848103_cert, f.1.Prime := by
  intro f hf
  simp only [prime_166848103_cert, List.mem_cons, List.not_mem_nil, or_false] at hf
  rcases hf with rfl | rfl | rfl
  · exact (by norm_num : Nat.Prime 2)
  · exact (by norm_num : Nat.Prime 3)
  · exact prime_9269339

theorem prime_166848103 : Nat.Prime 166848103 :=
  prime_of_pratt _ 6 256 prime_166848103_cert (by norm_num) (by norm_num) prime_166848103_fs (by decide +kernel) (by decide +kernel) (by decide +kernel)

def prime_base_cert : List (Nat × Nat) := [(2, 192), (5, 1), (7, 1), (98714381, 1), (166848103, 1)]

theorem prime_base_fs : ∀ f ∈ prime_base_cert, f.1.Prime := by
  intro f hf
  simp only [prime_base_cert, List.mem_cons, List.not_mem_nil, or_false] at hf
  rcases hf with rfl | rfl | rfl | rfl | rfl
  · exact (by norm_num : Nat.Prime 2)
  · exact (by norm_num : Nat.Prime 5)
  · exact (by norm_num : Nat.Prime 7)
  · exact prime_98714381
  · exact prime_166848103

theorem prime_base : Nat.Prime 3618502788666131213697322783095070105623107215331596699973092056135872020481 :=
  prime_of_pratt _ 3 256 prime_base_cert (by norm_num) (by norm_num) prime_base_fs (by decide +kernel) (by decide +kernel) (by decide +kernel)

def prime_74436419_cert : List (Nat × Nat) := [(2, 1), (7, 1), (23, 1), (231169, 1)]

theorem prime_74436419_fs : ∀ f ∈ prime_74436419_cert, f.1.Prime := by
  intro f hf
  simp only [prime_74436419_cert, List.mem_cons, List.not_mem_nil, or_false] at hf
  rcases hf with rfl | rfl | rfl | rfl
  · exact (by norm_num : Nat.Prime 2)
  · exact (by norm_num : Nat.Prime 7)
  · exact (by norm_num : Nat.Prime 23)
  · exact (by norm_num : Nat.Prime 231169)

theorem prime_74436419 : Nat.Prime 74436419 :=
  prime_of_pratt _ 7 256 prime_74436419_cert (by norm_num) (by norm_num) prime_74436419_fs (by decide +kernel) (by decide +kernel) (by decide +kernel)

def prime_10108547_cert : List (Nat × Nat) := [(2, 1), (7, 1), (23, 1), (31393, 1)]

theorem prime_10108547_fs : ∀ f ∈ prime_10108547_cert, f.1.Prime := by
  intro f hf
  simp only [prime_10108547_cert, List.mem_cons, List.not_mem_nil, or_false] at hf
  rcases hf with rfl | rfl | rfl | rfl
  · exact (by norm_num : Nat.Prime 2)
  · exact (by norm_num : Nat.Prime 7)
  · exact (by norm_num : Nat.Prime 23)
  · exact (by norm_num : Nat.Prime 31393)

theorem prime_10108547 : Nat.Prime 10108547 :=
  prime_of_pratt _ 2 256 prime_10108547_cert (by norm_num) (by norm_num) prime_10108547_fs (by decide +kernel) (by decide +kernel) (by decide +kernel)

def prime_22206313_cert : List (Nat × Nat) := [(2, 3), (3, 5), (11423, 1)]

theorem prime_22206313_fs : ∀ f ∈ prime_22206313_cert, f.1.Prime := by
  intro f hf
  simp only [prime_22206313_cert, List.mem_cons, List.not_mem_nil, or_false] at hf
  rcases hf with rfl | rfl | rfl
  · exact (by norm_num : Nat.Prime 2)
  · exact (by norm_num : Nat.Prime 3)
  · exact (by norm_num : Nat.Prime 11423)

theorem prime_22206313 : Nat.Prime 22206313 :=
  prime_of_pratt _ 5 256 prime_22206313_cert (by norm_num) (by norm_num) prime_22206313_fs (by decide +kernel) (by decide +kernel) (by decide +kernel)

def prime_74837449_cert : List (Nat × Nat) := [(2, 3), (3, 2), (7, 1), (83, 1), (1789, 1)]

theorem prime_74837449_fs : ∀ f ∈ prime_74837449_cert, f.1.Prime := by
  intro f hf
  simp only [prime_74837449_cert, List.mem_cons, List.not_mem_nil, or_false] at hf
  rcases hf with rfl | rfl | rfl | rfl | rfl
  · exact (by norm_num : Nat.Prime 2)
  · exact (by norm_num : Nat.Prime 3)
  · exact (by norm_num : Nat.Prime 7)
  · exact (by norm_num : Nat.Prime 83)
  · exact (by norm_num : Nat.Prime 1789)

theorem prime_74837449 : Nat.Prime 74837449 :=
  prime_of_pratt _ 13 256 prime_74837449_cert (by norm_num) (by norm_num) prime_74837449_fs (by decide +kernel) (by decide +kernel) (by decide +kernel)

def prime_28547348873_cert : List (Nat × Nat) := [(2, 3), (7, 1), (17, 1), (53, 1), (565787, 1)]

theorem prime_28547348873_fs : ∀ f ∈ prime_28547348873_cert, f.1.Prime := by
  intro f hf
  simp only [prime_28547348873_cert, List.mem_cons, List.not_mem_nil, or_false] at hf
  rcases hf with rfl | rfl | rfl | rfl | rfl
  · exact (by norm_num : Nat.Prime 2)
  · exact (by norm_num : Nat.Prime 7)
  · exact (by norm_num : Nat.Prime 17)
  · exact (by norm_num : Nat.Prime 53)
  · exact (by norm_num : Nat.Prime 565787)

theorem prime_28547348873 : Nat.Prime 28547348873 :=
  prime_of_pratt _ 3 256 prime_28547348873_cert (by norm_num) (by norm_num) prime_28547348873_fs (by decide +kernel) (by decide +kernel) (by decide +kernel)

def prime_11753132899_cert : List (Nat × Nat) := [(2, 1), (3, 1), (13, 1), (19, 1), (41, 1), (67, 1), (2887, 1)]

theorem prime_11753132899_fs : ∀ f ∈ prime_11753132899_cert, f.1.Prime := by
  intro f hf
  simp only [prime_11753132899_cert, List.mem_cons, List.not_mem_nil, or_false] at hf
  rcases hf with rfl | rfl | rfl | rfl | rfl | rfl | rfl
  · exact (by norm_num : Nat.Prime 2)
  · exact (by norm_num : Nat.Prime 3)
  · exact (by norm_num : Nat.Prime 13)
  · exact (by norm_num : Nat.Prime 19)
  · exact (by norm_num : Nat.Prime 41)
  · exact (by norm_num : Nat.Prime 67)
  · exact (by norm_num : Nat.Prime 2887)

theorem prime_11753132899 : Nat.Prime 11753132899 :=
  prime_of_pratt _ 3 256 prime_11753132899_cert (by norm_num) (by norm_num) prime_11753132899_fs (by decide +kernel) (by decide +kernel) (by decide +kernel)

def prime_12904939923103_cert : List (Nat × Nat) := [(2, 1), (3, 2), (61, 1), (11753132899, 1)]

theorem prime_12904939923103_fs : ∀ f ∈ prime_12904939923103_cert, f.1.Prime := by
  intro f hf
  simp only [prime_12904939923103_cert, List.mem_cons, List.not_mem_nil, or_false] at hf
  rcases hf with rfl | rfl | rfl | rfl
  · exact (by norm_num : Nat.Prime 2)
  · exact (by norm_num : Nat.Prime 3)
  · exact (by norm_num : Nat.Prime 61)
  · exact prime_11753132899

theorem prime_12904939923103 : Nat.Prime 12904939923103 :=
  prime_of_pratt _ 3 256 prime_12904939923103_cert (by norm_num) (by norm_num) prime_12904939923103_fs (by decide +kernel) (by decide +kernel) (by decide +kernel)

def prime_1803099112058626586861_cert : List (Nat × Nat) := [(2, 2), (5, 1), (37, 1), (43, 1), (4391, 1), (12904939923103, 1)]

theorem prime_1803099112058626586861_fs : ∀ f ∈ prime_1803099112058626586861_cert, f.1.Prime := by
  intro f hf
  simp only [prime_1803099112058626586861_cert, List.mem_cons, List.not_mem_nil, or_false] at hf
  rcases hf with rfl | rfl | rfl | rfl | rfl | rfl
  · exact (by norm_num : Nat.Prime 2)
  · exact (by norm_num : Nat.Prime 5)
  · exact (by norm_num : Nat.Prime 37)
  · exact (by norm_num : Nat.Prime 43)
  · exact (by norm_num : Nat.Prime 4391)
  · exact prime_12904939923103

theorem prime_1803099112058626586861 : Nat.Prime 1803099112058626586861 :=
  prime_of_pratt _ 2 256 prime_1803099112058626586861_cert (by norm_num) (by norm_num) prime_1803099112058626586861_fs (by decide +kernel) (by decide +kernel) (by decide +kernel)

def prime_5470365079085120887157193270902448565659295524958143968059153_cert : List (Nat × Nat) := [(2, 4), (3, 1), (131797, 1), (10108547, 1), (22206313, 1), (74837449, 1), (28547348873, 1), (1803099112058626586861, 1)]

theorem prime_5470365079085120887157193270902448565659295524958143968059153_fs : ∀ f ∈ prime_5470365079085120887157193270902448565659295524958143968059153_cert, f.1.Prime := by
  intro f hf
  simp only [prime_5470365079085120887157193270902448565659295524958143968059153_cert, List.mem_cons, List.not_mem_nil, or_false] at hf
  rcases hf with rfl | rfl | rfl | rfl | rfl | rfl | rfl | rfl
  · exact (by norm_num : Nat.Prime 2)
  · exact (by norm_num : Nat.Prime 3)
  · exact (by norm_num : Nat.Prime 131797)
  · exact prime_10108547
  · exact prime_22206313
  · exact prime_74837449
  · exact prime_28547348873
  · exact prime_1803099112058626586861

theorem prime_5470365079085120887157193270902448565659295524958143968059153 : Nat.Prime 5470365079085120887157193270902448565659295524958143968059153 :=
  prime_of_pratt _ 15 256 prime_5470365079085120887157193270902448565659295524958143968059153_cert (by norm_num) (by norm_num) prime_5470365079085120887157193270902448565659295524958143968059153_fs (by decide +kernel) (by decide +kernel) (by decide +kernel)

def prime_scalar_cert : List (Nat × Nat) := [(2, 1), (3, 1), (1481071, 1), (74436419, 1), (5470365079085120887157193270902448565659295524958143968059153, 1)]

theorem prime_scalar_fs : ∀ f ∈ prime_scalar_cert, f.1.Prime := by
  intro f hf
  simp only [prime_scalar_cert, List.mem_cons, List.not_mem_nil, or_false] at hf
  rcases hf with rfl | rfl | rfl | rfl | rfl
  · exact (by norm_num : Nat.Prime 2)
  · exact (by norm_num : Nat.Prime 3)
  · exact (by norm_num : Nat.Prime 1481071)
  · exact prime_74436419
  · exact prime_5470365079085120887157193270902448565659295524958143968059153

theorem prime_scalar : Nat.Prime 3618502788666131213697322783095070105526743751716087489154079457884512865583 :=
  prime_of_pratt _ 3 256 prime_scalar_cert (by norm_num) (by norm_num) prime_scalar_fs (by decide +kernel) (by decide +kernel) (by decide +kernel)

end OpenZKP
