import Verif.U256.Asm
import Verif.U256.ArithLemmas
import Mathlib.Tactic.LinearCombination
import Mathlib.Tactic.Linarith

/-!
# The assembly routines: lemmas

`Wp` replaces the execution of a block by one integer equation per instruction.
-/

namespace OpenZKP.Asm
open OpenZKP U256

/-- The value of a word. -/
def w (v : UInt64) : ℤ := (v.toNat : ℤ)
/-- The value of a flag. -/
def bit (c : Bool) : ℤ := (c.toNat : ℤ)

theorem w_nonneg (v : UInt64) : 0 ≤ w v := Int.natCast_nonneg _
theorem w_lt (v : UInt64) : w v < 2 ^ 64 := by
  have := v.toNat_lt
  unfold w; omega
theorem bit_nonneg (c : Bool) : 0 ≤ bit c := Int.natCast_nonneg _
theorem bit_le (c : Bool) : bit c ≤ 1 := by cases c <;> simp [bit]
@[simp] theorem bit_false : bit false = 0 := rfl
@[simp] theorem bit_true : bit true = 1 := rfl
@[simp] theorem w_zero : w 0 = 0 := rfl
@[simp] theorem w_one : w 1 = 1 := rfl
theorem bit_eq_zero {c : Bool} (h : bit c < 1) : c = false := by cases c <;> simp_all

theorem addc_spec (a b : UInt64) (c : Bool) :
    w (addc a b c).1 + 2 ^ 64 * bit (addc a b c).2.1 = w a + w b + bit c := by
  have ha := a.toNat_lt
  have hb := b.toNat_lt
  have hc : c.toNat ≤ 1 := by cases c <;> simp
  simp only [addc, w, bit, low]
  rw [UInt64.toNat_ofNat']
  rcases Nat.lt_or_ge (a.toNat + b.toNat + c.toNat) (2 ^ 64) with h | h
  · rw [decide_eq_false (by omega)]; simp only [Bool.toNat_false]; omega
  · rw [decide_eq_true (by omega)]; simp only [Bool.toNat_true]; omega

theorem subb_spec (a b : UInt64) (c : Bool) :
    w (subb a b c).1 + w b + bit c = w a + 2 ^ 64 * bit (subb a b c).2.1 := by
  have ha := a.toNat_lt
  have hb := b.toNat_lt
  have hc : c.toNat ≤ 1 := by cases c <;> simp
  simp only [subb, w, bit, low]
  rw [UInt64.toNat_ofNat']
  rcases Nat.lt_or_ge (a.toNat + 2 ^ 64 - b.toNat - c.toNat) (2 ^ 64) with h | h
  · rw [decide_eq_true (by omega)]; simp only [Bool.toNat_true]; omega
  · rw [decide_eq_false (by omega)]; simp only [Bool.toNat_false]; omega

theorem mulx_spec (a b : UInt64) :
    w (low (a.toNat * b.toNat)) + 2 ^ 64 * w (low (a.toNat * b.toNat / 2 ^ 64)) = w a * w b := by
  have ha := a.toNat_lt
  have hb := b.toNat_lt
  have h : a.toNat * b.toNat < 2 ^ 64 * 2 ^ 64 := Nat.mul_lt_mul'' ha hb
  simp only [w, low]
  rw [UInt64.toNat_ofNat', UInt64.toNat_ofNat', ← Nat.cast_mul]
  generalize a.toNat * b.toNat = n at h ⊢
  have : n / 2 ^ 64 < 2 ^ 64 := by omega
  omega

/-- What must hold before an instruction so that `Q` holds after it. -/
def wp (i : Instr) (Q : Cpu → Prop) (s : Cpu) : Prop :=
  match i with
  | .mov src dst => Q (s.set dst (s.read src))
  | .movm src p i => Q { s with mem := store s.mem p i (s.get src) }
  | .clear dst => Q { s.set dst 0 with cf := false, of := false }
  | .neg dst => ∀ v c o, w v + w (s.get dst) = 2 ^ 64 * bit c → Q { s.set dst v with cf := c, of := o }
  | .add src dst => ∀ v c o, w v + 2 ^ 64 * bit c = w (s.get dst) + w (s.read src) →
      Q { s.set dst v with cf := c, of := o }
  | .adc src dst => ∀ v c o, w v + 2 ^ 64 * bit c = w (s.get dst) + w (s.read src) + bit s.cf →
      Q { s.set dst v with cf := c, of := o }
  | .adcx src dst => ∀ v c, w v + 2 ^ 64 * bit c = w (s.get dst) + w (s.read src) + bit s.cf →
      Q { s.set dst v with cf := c }
  | .adox src dst => ∀ v c, w v + 2 ^ 64 * bit c = w (s.get dst) + w (s.read src) + bit s.of →
      Q { s.set dst v with of := c }
  | .sub src dst => ∀ v c o, w v + w (s.read src) = w (s.get dst) + 2 ^ 64 * bit c →
      Q { s.set dst v with cf := c, of := o }
  | .sbb src dst => ∀ v c o, w v + w (s.read src) + bit s.cf = w (s.get dst) + 2 ^ 64 * bit c →
      Q { s.set dst v with cf := c, of := o }
  | .mulx src lo hi => ∀ v u, w v + 2 ^ 64 * w u = w s.rdx * w (s.read src) → Q ((s.set lo v).set hi u)
  | .cmovnc src dst => Q (s.set dst (bif s.cf then s.get dst else s.read src))

theorem set_get (s : Cpu) (r : Reg) : s.set r (s.get r) = s := by cases r <;> rfl

theorem wp_sound (i : Instr) (Q : Cpu → Prop) (s : Cpu) (h : wp i Q s) : Q (exec s i) := by
  cases i with
  | mov => exact h
  | movm => exact h
  | clear => exact h
  | neg dst =>
    refine h _ _ _ ?_
    have := subb_spec 0 (s.get dst) false
    rw [bit_false, w_zero] at this
    linear_combination this
  | add src dst =>
    refine h _ _ _ ?_
    have := addc_spec (s.get dst) (s.read src) false
    rw [bit_false] at this
    linear_combination this
  | adc src dst => exact h _ _ _ (addc_spec _ _ _)
  | adcx src dst => exact h _ _ (addc_spec _ _ _)
  | adox src dst => exact h _ _ (addc_spec _ _ _)
  | sub src dst =>
    refine h _ _ _ ?_
    have := subb_spec (s.get dst) (s.read src) false
    rw [bit_false] at this
    linear_combination this
  | sbb src dst => exact h _ _ _ (subb_spec _ _ _)
  | mulx src lo hi => exact h _ _ (mulx_spec _ _)
  | cmovnc src dst =>
    simp only [wp] at h
    simp only [exec]
    cases hc : s.cf
    · rw [hc] at h; exact h
    · rw [hc, cond_true, set_get] at h; exact h

/-- What must hold before a block so that `Q` holds after it. -/
def Wp : List Instr → (Cpu → Prop) → Cpu → Prop
  | [], Q, s => Q s
  | i :: p, Q, s => wp i (Wp p Q) s

theorem Wp_sound (p : List Instr) (Q : Cpu → Prop) (s : Cpu) (h : Wp p Q s) : Q (run s p) := by
  induction p generalizing s with
  | nil => exact h
  | cons i p ih => exact wp_sound i (fun t => Q (run t p)) s (by
      have : ∀ (P P' : Cpu → Prop), (∀ t, P t → P' t) → wp i P s → wp i P' s := by
        intro P P' hP hw
        cases i <;> simp only [wp] at hw ⊢ <;> first
          | exact hP _ hw
          | exact fun v c o e => hP _ (hw v c o e)
          | exact fun v c e => hP _ (hw v c e)
      exact this _ _ (fun t ht => ih t ht) h)

theorem run_append (s : Cpu) (p q : List Instr) : run s (p ++ q) = run (run s p) q := by
  induction p generalizing s with
  | nil => rfl
  | cons i p ih => exact ih _

end OpenZKP.Asm
