import Verif.FFT.Model
import Mathlib.Algebra.BigOperators.Group.Finset.Basic
import Mathlib.Algebra.BigOperators.Intervals
import Mathlib.Tactic.Ring
import Mathlib.Tactic.Linarith
import Mathlib.Tactic.IntervalCases

/-! # Sequences of disjoint swaps, and bit reversal (lemmas) -/

namespace OpenZKP.FFT

variable {α : Type}

theorem swap_apply (v : Slice α) (i j x : Nat) :
    swap v i j x = if x = j then v i else if x = i then v j else v x := rfl

/-- number of swaps in the list `L` (first components) that touch `x`, for swaps `(i, σ i)` -/
def touch (σ : Nat → Nat) (L : List Nat) (x : Nat) : Nat := L.countP (fun i => decide (x = i ∨ x = σ i))

theorem foldl_swap (σ : Nat → Nat) (hσ : ∀ x, σ (σ x) = x) (L : List Nat) (v : Slice α) (x : Nat) :
    L.foldl (fun v i => swap v i (σ i)) v x = v (σ^[touch σ L x] x) := by
  induction L generalizing v with
  | nil => simp [touch]
  | cons i L ih =>
    rw [List.foldl_cons, ih]
    have htσ : ∀ n, σ^[n] x = x ∨ σ^[n] x = σ x := by
      intro n
      induction n with
      | zero => left; rfl
      | succ n ih =>
        rw [Function.iterate_succ_apply']
        rcases ih with h | h
        · right; rw [h]
        · left; rw [h, hσ]
    have ht : touch σ (i :: L) x = touch σ L x + (if x = i ∨ x = σ i then 1 else 0) := by
      unfold touch; rw [List.countP_cons]; simp
    rw [ht, swap_apply]
    by_cases h : x = i ∨ x = σ i
    · rw [if_pos h, Function.iterate_succ_apply']
      generalize hy : σ^[touch σ L x] x = y
      have hyx := htσ (touch σ L x)
      rw [hy] at hyx
      by_cases h1 : y = σ i
      · rw [if_pos h1, h1, hσ]
      · by_cases h2 : y = i
        · rw [if_neg h1, if_pos h2, h2]
        · exfalso
          rcases hyx with h3 | h3 <;> rcases h with h | h
          · exact h2 (h3.trans h)
          · exact h1 (h3.trans h)
          · exact h1 (by rw [h3, h])
          · exact h2 (by rw [h3, h, hσ])
    · rw [if_neg h, Nat.add_zero]
      generalize hy : σ^[touch σ L x] x = y
      have hyx := htσ (touch σ L x)
      rw [hy] at hyx
      have h1 : y ≠ σ i := by
        intro e
        rcases hyx with h3 | h3
        · exact h (Or.inr (h3.symm.trans e))
        · exact h (Or.inl (by rw [← hσ x, ← h3, e, hσ]))
      have h2 : y ≠ i := by
        intro e
        rcases hyx with h3 | h3
        · exact h (Or.inl (h3.symm.trans e))
        · exact h (Or.inr (by rw [← e, h3, hσ]))
      rw [if_neg h1, if_neg h2]

/-- the number of touches in terms of counts -/
theorem touch_eq (σ : Nat → Nat) (hσ : ∀ x, σ (σ x) = x) (L : List Nat) (x : Nat) (hx : σ x ≠ x) :
    touch σ L x = L.count x + L.count (σ x) := by
  induction L with
  | nil => rfl
  | cons i L ih =>
    unfold touch at ih ⊢
    rw [List.countP_cons, ih, List.count_cons, List.count_cons]
    have e : (x = σ i) ↔ (i = σ x) := ⟨fun h => by rw [h, hσ], fun h => by rw [h, hσ]⟩
    by_cases h1 : i = x
    · have h2 : i ≠ σ x := fun h => hx (h ▸ h1)
      simp [h1]
      have : ¬ (x = σ x) := fun h => hx h.symm
      simp [this]
      omega
    · have h1' : ¬ x = i := fun h => h1 h.symm
      by_cases h2 : i = σ x
      · simp [h2, hσ, hx]; omega
      · have h2' : ¬ x = σ i := fun h => h2 (e.1 h)
        simp [h1, h1', h2, h2']

/-- A sequence of swaps `(i, σ i)`, `i ∈ L`, applies the involution `σ` when every point that is moved is
listed exactly once together with its image. -/
theorem foldl_swap_eq (σ : Nat → Nat) (hσ : ∀ x, σ (σ x) = x) (L : List Nat) (v : Slice α)
    (h : ∀ x, σ x ≠ x → L.count x + L.count (σ x) = 1) (x : Nat) :
    L.foldl (fun v i => swap v i (σ i)) v x = v (σ x) := by
  rw [foldl_swap σ hσ]
  by_cases hx : σ x = x
  · rw [hx]
    congr 1
    generalize touch σ L x = n
    induction n with
    | zero => rfl
    | succ n ih => rw [Function.iterate_succ_apply', ih, hx]
  · rw [touch_eq σ hσ L x hx, h x hx]; rfl

/-- A fold with a body that is itself a fold over a list. -/
theorem foldl_flatMap' {β γ δ : Type} (f : δ → γ → δ) (g : β → List γ) (L : List β) (v : δ) :
    (L.flatMap g).foldl f v = L.foldl (fun v b => (g b).foldl f v) v := by
  induction L generalizing v with
  | nil => rfl
  | cons b L ih => rw [List.flatMap_cons, List.foldl_append, ih, List.foldl_cons]

/-! ## bit reversal -/

/-- reversal of the low `k` bits -/
abbrev rev := reverseBits

theorem rev_lt (k x : Nat) : rev k x < 2 ^ k := by
  induction k generalizing x with
  | zero => simp [rev, reverseBits]
  | succ k ih =>
    have hd : rev (k + 1) x = rev k (x / 2) + 2 ^ k * (x % 2) := rfl
    rw [hd]
    have := ih (x / 2)
    have h2 : x % 2 < 2 := Nat.mod_lt _ (by norm_num)
    rw [pow_succ]
    have : 2 ^ k * (x % 2) ≤ 2 ^ k * 1 := Nat.mul_le_mul_left _ (by omega)
    omega

theorem rev_zero (k : Nat) : rev k 0 = 0 := by
  induction k with
  | zero => rfl
  | succ k ih =>
    show reverseBits k (0 / 2) + 2 ^ k * (0 % 2) = 0
    simpa using ih

theorem rev_succ (k x : Nat) : rev (k + 1) x = rev k (x / 2) + 2 ^ k * (x % 2) := rfl

theorem rev_two_mul (k x : Nat) : rev (k + 1) (2 * x) = rev k x := by
  rw [rev_succ]
  have h1 : 2 * x / 2 = x := by omega
  have h2 : 2 * x % 2 = 0 := by omega
  rw [h1, h2]; omega

theorem rev_two_mul_add (k x : Nat) : rev (k + 1) (2 * x + 1) = rev k x + 2 ^ k := by
  rw [rev_succ]
  have h1 : (2 * x + 1) / 2 = x := by omega
  have h2 : (2 * x + 1) % 2 = 1 := by omega
  rw [h1, h2]; omega

/-- reversal of a concatenation: `k` low bits of `x` (`q`) and the bits above (`a`) -/
theorem rev_concat (k l a q : Nat) (hq : q < 2 ^ k) :
    rev (l + k) (a * 2 ^ k + q) = rev k q * 2 ^ l + rev l a := by
  induction k generalizing q with
  | zero =>
    have : q = 0 := by simpa using hq
    subst this
    have : rev 0 0 = 0 := rfl
    rw [this]; simp
  | succ k ih =>
    rw [← add_assoc, rev_succ]
    have h1 : (a * 2 ^ (k + 1) + q) / 2 = a * 2 ^ k + q / 2 := by
      rw [pow_succ, show a * (2 ^ k * 2) = a * 2 ^ k * 2 by ring]; omega
    have h2 : (a * 2 ^ (k + 1) + q) % 2 = q % 2 := by
      rw [pow_succ, show a * (2 ^ k * 2) = a * 2 ^ k * 2 by ring]; omega
    rw [h1, h2, ih (q / 2) (by rw [pow_succ] at hq; omega), rev_succ, pow_add]
    ring

theorem rev_lt_pow (k l q : Nat) (hq : q < 2 ^ k) : rev (l + k) q = rev k q * 2 ^ l := by
  have := rev_concat k l 0 q hq
  rwa [Nat.zero_mul, Nat.zero_add, rev_zero, Nat.add_zero] at this

theorem rev_rev (k x : Nat) (hx : x < 2 ^ k) : rev k (rev k x) = x := by
  induction k generalizing x with
  | zero => have : x = 0 := by simpa using hx
            subst this; rfl
  | succ k ih =>
    rw [rev_succ k x]
    have h := rev_concat k 1 (x % 2) (rev k (x / 2)) (rev_lt k _)
    rw [Nat.add_comm 1 k] at h
    rw [Nat.add_comm (rev k (x / 2)), Nat.mul_comm, h, ih (x / 2) (by rw [pow_succ] at hx; omega)]
    have h3 : rev 1 (x % 2) = x % 2 := by
      show reverseBits 0 _ + 2 ^ 0 * (x % 2 % 2) = x % 2
      show 0 + _ = _
      omega
    rw [h3]; omega

theorem testBit_rev (k x j : Nat) (hj : j < k) : (rev k x).testBit j = x.testBit (k - 1 - j) := by
  induction k generalizing x j with
  | zero => omega
  | succ k ih =>
    rw [rev_succ]
    by_cases h : j = k
    · subst h
      rw [show j + 1 - 1 - j = 0 by omega, Nat.add_comm, Nat.testBit_two_pow_mul_add _ (rev_lt j _),
        if_neg (by omega), Nat.sub_self]
      simp
    · rw [Nat.add_comm, Nat.testBit_two_pow_mul_add _ (rev_lt k _), if_pos (by omega), ih _ _ (by omega),
        Nat.testBit_div_two]
      congr 1; omega

theorem ctz_pow (k : Nat) (hk : k < 64) : U256.ctz64Aux 64 (2 ^ k) = k := by
  interval_cases k <;> decide

theorem permute_index_eq (k i : Nat) (hk : k < 64) (hi : i < 2 ^ k) : permute_index (2 ^ k) i = rev k i := by
  unfold permute_index
  split
  · next h =>
    have : k = 0 := by
      rcases Nat.eq_zero_or_pos k with h0 | h0
      · exact h0
      · have := Nat.one_lt_two_pow (n := k) (by omega); omega
    subst this; rfl
  · rw [ctz_pow k hk]
    have := rev_lt_pow k (64 - k) i hi
    rw [show 64 - k + k = 64 by omega] at this
    show rev 64 i / _ = _
    rw [this, Nat.mul_div_cancel _ (Nat.two_pow_pos _)]

/-! ## `permute` -/

/-- bit reversal extended by the identity -/
def revσ (k x : Nat) : Nat := if x < 2 ^ k then rev k x else x

theorem revσ_invol (k x : Nat) : revσ k (revσ k x) = x := by
  unfold revσ
  by_cases h : x < 2 ^ k
  · rw [if_pos h, if_pos (rev_lt k x), rev_rev k x h]
  · rw [if_neg h, if_neg h]

theorem permute_eq (k : Nat) (hk : k < 64) (v : Slice α) (x : Nat) :
    permute (2 ^ k) v x = if x < 2 ^ k then v (rev k x) else v x := by
  have hfold : ∀ (L : List Nat) (v : Slice α), (∀ i ∈ L, i < 2 ^ k) →
      L.foldl (permuteStep (2 ^ k)) v
        = (L.filter (fun i => i < revσ k i)).foldl (fun v i => swap v i (revσ k i)) v := by
    intro L
    induction L with
    | nil => intros; rfl
    | cons i L ih =>
      intro v hL
      have hi := hL i (by simp)
      rw [List.foldl_cons, List.filter_cons, ih _ (fun j hj => hL j (by simp [hj]))]
      have e : revσ k i = permute_index (2 ^ k) i := by
        unfold revσ; rw [if_pos hi, permute_index_eq k i hk hi]
      unfold permuteStep
      rw [← e]
      by_cases h : i < revσ k i
      · rw [if_pos h]; simp [h]
      · rw [if_neg h]; simp [h]
  unfold permute
  rw [hfold _ _ (fun i hi => List.mem_range.1 hi), foldl_swap_eq _ (revσ_invol k)]
  · unfold revσ; split <;> rfl
  · intro x hx
    have hlt : x < 2 ^ k := by
      by_contra h
      exact hx (by unfold revσ; rw [if_neg h])
    have hlt2 : revσ k x < 2 ^ k := by
      unfold revσ; rw [if_pos hlt]; exact rev_lt k x
    have hcount : ∀ y, y < 2 ^ k → ((List.range (2 ^ k)).filter (fun i => i < revσ k i)).count y
        = if y < revσ k y then 1 else 0 := by
      intro y hy
      by_cases h : y < revσ k y
      · rw [if_pos h, List.count_filter (by simpa using h)]
        rw [List.count_eq_one_of_mem List.nodup_range (List.mem_range.2 hy)]
      · rw [if_neg h, List.count_eq_zero]
        simp [h]
    rw [hcount x hlt, hcount _ hlt2, revσ_invol]
    by_cases h : x < revσ k x
    · rw [if_pos h, if_neg (by omega)]
    · rw [if_neg h, if_pos (by omega)]

end OpenZKP.FFT
