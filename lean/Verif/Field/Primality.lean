import Mathlib.NumberTheory.LucasPrimality
import Mathlib.Tactic.NormNum.Prime

/-!
# Primality certificates

Lucas' criterion with a modular exponentiation the kernel can evaluate.
-/

namespace OpenZKP

/-- `b^e mod m` by repeated squaring; `fuel` bounds the number of bits of `e`. -/
def powMod (m : Nat) : Nat → Nat → Nat → Nat
  | 0, _, _ => 1 % m
  | fuel + 1, b, e =>
    if e = 0 then 1 % m
    else
      let h := powMod m fuel (b * b % m) (e / 2)
      if e % 2 = 1 then h * b % m else h

theorem powMod_eq (m : Nat) (fuel b e : Nat) (h : e < 2 ^ fuel) : powMod m fuel b e = b ^ e % m := by
  induction fuel generalizing b e with
  | zero =>
    have : e = 0 := by simpa using h
    subst this; rfl
  | succ fuel ih =>
    unfold powMod
    by_cases h0 : e = 0
    · rw [if_pos h0, h0]; rfl
    · rw [if_neg h0]
      have h' : e / 2 < 2 ^ fuel := by
        rw [pow_succ] at h; omega
      simp only [ih _ _ h']
      have e2 : (b * b % m) ^ (e / 2) % m = b ^ (2 * (e / 2)) % m := by
        rw [← Nat.pow_mod, ← pow_two, ← pow_mul]
      rw [e2]
      by_cases h1 : e % 2 = 1
      · rw [if_pos h1, Nat.mod_mul_mod, ← pow_succ]
        congr 2; omega
      · rw [if_neg h1]
        congr 2; omega

theorem powMod_zmod {m fuel b e : Nat} (h : e < 2 ^ fuel) :
    ((b : ZMod m) ^ e) = (powMod m fuel b e : ZMod m) := by
  rw [powMod_eq _ _ _ _ h]
  simp

theorem powMod_one_iff {m fuel b e : Nat} (hm : 1 < m) (h : e < 2 ^ fuel) :
    ((b : ZMod m) ^ e) = 1 ↔ powMod m fuel b e = 1 := by
  rw [powMod_eq _ _ _ _ h]
  have : ((b : ZMod m) ^ e) = ((b ^ e : ℕ) : ZMod m) := by push_cast; rfl
  rw [this, ← Nat.cast_one, ZMod.natCast_eq_natCast_iff, Nat.ModEq, Nat.mod_eq_of_lt hm]

/-- A prime dividing a product of prime powers is one of the primes. -/
theorem mem_of_dvd_prod {q : Nat} (hq : q.Prime) (fs : List (Nat × Nat)) (hp : ∀ f ∈ fs, f.1.Prime)
    (h : q ∣ (fs.map fun f => f.1 ^ f.2).prod) : ∃ f ∈ fs, q = f.1 := by
  induction fs with
  | nil => simp at h; exact absurd h hq.one_lt.ne'
  | cons f fs ih =>
    rw [List.map_cons, List.prod_cons] at h
    rcases (Nat.Prime.dvd_mul hq).1 h with h | h
    · exact ⟨f, by simp, (Nat.prime_dvd_prime_iff_eq hq (hp f (by simp))).1 (hq.dvd_of_dvd_pow h)⟩
    · obtain ⟨g, hg, e⟩ := ih (fun g hg => hp g (by simp [hg])) h
      exact ⟨g, by simp [hg], e⟩

theorem prime_of_pratt (p a : Nat) (fuel : Nat) (fs : List (Nat × Nat)) (h1 : 1 < p) (hfuel : p < 2 ^ fuel)
    (hp : ∀ f ∈ fs, f.1.Prime) (hprod : (fs.map fun f => f.1 ^ f.2).prod = p - 1)
    (ha : powMod p fuel a (p - 1) = 1) (hf : ∀ f ∈ fs, powMod p fuel a ((p - 1) / f.1) ≠ 1) : p.Prime := by
  refine lucas_primality p (a : ZMod p) ?_ ?_
  · exact (powMod_one_iff h1 (by omega)).2 ha
  · intro q hq hqd
    rw [← hprod] at hqd
    obtain ⟨f, hfm, rfl⟩ := mem_of_dvd_prod hq fs hp hqd
    intro hc
    exact hf f hfm ((powMod_one_iff h1 (lt_of_le_of_lt (Nat.div_le_self _ _) (by omega))).1 hc)

/-- `a` generates the multiplicative group modulo `p`. -/
theorem orderOf_of_pratt (p a : Nat) (fuel : Nat) (fs : List (Nat × Nat)) (h1 : 1 < p) (hfuel : p < 2 ^ fuel)
    (hp : ∀ f ∈ fs, f.1.Prime) (hprod : (fs.map fun f => f.1 ^ f.2).prod = p - 1)
    (ha : powMod p fuel a (p - 1) = 1) (hf : ∀ f ∈ fs, powMod p fuel a ((p - 1) / f.1) ≠ 1) :
    orderOf (a : ZMod p) = p - 1 := by
  refine orderOf_eq_of_pow_and_pow_div_prime (by omega) ((powMod_one_iff h1 (by omega)).2 ha) ?_
  intro q hq hqd
  rw [← hprod] at hqd
  obtain ⟨f, hfm, rfl⟩ := mem_of_dvd_prod hq fs hp hqd
  intro hc
  exact hf f hfm ((powMod_one_iff h1 (lt_of_le_of_lt (Nat.div_le_self _ _) (by omega))).1 hc)

end OpenZKP
