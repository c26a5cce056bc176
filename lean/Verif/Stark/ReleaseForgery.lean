import Verif.Stark.ReleaseWords
import Verif.Props.Vdf

/-!
Lemmas: the constraints of the example `vdf.rs` on words of which one is not reduced.
-/

namespace OpenZKP
namespace Stark
namespace Release
open FFT U256 Props Merkle Accept Evm Evm.PrimeField Examples

/-- the cells of the constraints -/
def vdfArgs : List (Nat × Int) := [(0, 0), (0, 1), (1, 0), (1, 1), (2, 0), (3, 0)]

/-- the claimed values: the columns `0`, `1`, `r` and `0`, the next row of column 1 with a word that is not reduced -/
def vdfValues (r : Z) : List U256 := [montgomery.rep 0, montgomery.rep 0, montgomery.rep 1, unreduced, montgomery.rep r, montgomery.rep 0]

/-- the columns -/
def vdfRow (r : Z) : List U256 := [montgomery.rep 0, montgomery.rep 1, montgomery.rep r, montgomery.rep 0]

/-- the cells that are reduced -/
def vdfCells (r : Z) (i : Nat) (j : Int) : Option Z :=
  if (i, j) = (0, 0) then some 0 else if (i, j) = (0, 1) then some 0 else if (i, j) = (1, 0) then some 1 else if (i, j) = (2, 0) then some r else
  if (i, j) = (3, 0) then some 0 else none

theorem cells_sim (r : Z) (i : Nat) (j : Int) : OSim montgomery.rep (vdfCells r i j) (assoc (vdfArgs.zip (vdfValues r)) (i, j)) := by
  unfold vdfCells
  split
  next h => rw [h]; exact osim_some rfl
  split
  next h => rw [h]; exact osim_some rfl
  split
  next h => rw [h]; exact osim_some rfl
  split
  next h => rw [h]; exact osim_some rfl
  split
  next h => rw [h]; exact osim_some rfl
  exact osim_none

theorem every_row_defined {F : Type} [Field F] [DecidableEq F] (g z : F) (n : Nat) (h : z ^ n ≠ 1) : ∃ y, (every_row g n).evaluate z (fun _ _ => none) = some y := by
  refine ⟨(z + - g ^ (n - 1)) * (z ^ n + -1)⁻¹, ?_⟩
  have h' : z ^ n + -1 ≠ 0 := fun e => h (by linear_combination e)
  simp [every_row, Expr.div, Expr.sub, Expr.add, Expr.neg, Expr.mul, Expr.inv, Expr.pow, Expr.evaluate, finv, h']

theorem on_row_defined {F : Type} [Field F] [DecidableEq F] (g z : F) (i : Nat) (h : z ≠ g ^ i) : ∃ y, (on_row g i).evaluate z (fun _ _ => none) = some y := by
  refine ⟨(z + - g ^ i)⁻¹, ?_⟩
  have h' : z + - g ^ i ≠ 0 := fun e => h (by linear_combination e)
  simp [on_row, Expr.sub, Expr.add, Expr.neg, Expr.inv, Expr.pow, Expr.evaluate, finv, h']

variable (env : Env Z) (hc : env.codec = montgomery)
include hc

theorem quotient_zero (z y : Z) (r : Z) (a d : Expr Z) (hd : d.evaluate z (fun _ _ => none) = some y) (w : U256)
    (ha : evaluate env z (fun i j => assoc (vdfArgs.zip (vdfValues r)) (i, j)) a = some w) (hw : mul w (montgomery.rep y) = montgomery.rep 0) :
    evaluate env z (fun i j => assoc (vdfArgs.zip (vdfValues r)) (i, j)) (Expr.mul a d) = some (montgomery.rep 0) := by
  have A : Arith env.codec := by rw [hc]; exact arith
  have h2 := evaluate_sim env A z (fun _ _ => none) (fun i j => assoc (vdfArgs.zip (vdfValues r)) (i, j)) (fun _ _ => osim_none) d y hd
  rw [Expr.mul, evaluate, ha, h2, Option.bind_some, Option.map_some, hc, hw]

theorem quotient_reduced (z y : Z) (r : Z) (a d : Expr Z) (hd : d.evaluate z (fun _ _ => none) = some y) (ha : a.evaluate z (vdfCells r) = some 0) :
    evaluate env z (fun i j => assoc (vdfArgs.zip (vdfValues r)) (i, j)) (Expr.mul a d) = some (montgomery.rep 0) := by
  have A : Arith env.codec := by rw [hc]; exact arith
  have h2 := evaluate_sim env A z (vdfCells r) (fun i j => assoc (vdfArgs.zip (vdfValues r)) (i, j)) (fun i j => by rw [hc]; exact cells_sim r i j) a 0 ha
  refine quotient_zero env hc z y r a d hd _ h2 ?_
  rw [hc, arith.mul, zero_mul]

theorem vdf_values (g z r : Z) (k : Nat) (hg : g ^ 2 ^ k = 1) (hz : z ^ 2 ^ k ≠ 1) (c : Constraints Z) (h : Vdf.constraints env.root env.codec.rep r (2 ^ k) 0 1 0 1 = some c)
    (hroot : env.root (2 ^ k) = some g) (e : Expr Z) (he : e ∈ c.expressions) :
    evaluate env z (fun i j => assoc (vdfArgs.zip (vdfValues r)) (i, j)) e = some (montgomery.rep 0) := by
  unfold Vdf.constraints at h
  rw [hroot, Option.bind_some] at h
  obtain ⟨-, rfl⟩ := system_some _ _ _ _ _ _ h
  obtain ⟨y, hy⟩ := every_row_defined g z (2 ^ k) hz
  have hon : ∀ i, ∃ y, (on_row g i).evaluate z (fun _ _ => none) = some y := by
    intro i
    refine on_row_defined g z i fun h0 => hz ?_
    rw [h0, ← pow_mul, mul_comm, pow_mul, hg, one_pow]
  obtain ⟨y1, hy1⟩ := hon 0
  obtain ⟨y2, hy2⟩ := hon (2 ^ k - 1)
  simp only [List.mem_cons, List.not_mem_nil, or_false] at he
  rcases he with rfl | rfl | rfl | rfl | rfl | rfl | rfl | rfl
  · refine quotient_reduced env hc z y r _ _ hy ?_
    simp [Expr.sub, Expr.add, Expr.neg, Expr.mul, Expr.evaluate, vdfCells]
  · refine quotient_reduced env hc z y r _ _ hy ?_
    simp [Expr.sub, Expr.add, Expr.neg, Expr.mul, Expr.evaluate, vdfCells]
  · refine quotient_reduced env hc z y r _ _ hy ?_
    simp [Expr.sub, Expr.add, Expr.neg, Expr.mul, Expr.evaluate, vdfCells]
  · have A : Arith env.codec := by rw [hc]; exact arith
    have h2 := evaluate_sim env A z (vdfCells r) (fun i j => assoc (vdfArgs.zip (vdfValues r)) (i, j)) (fun i j => by rw [hc]; exact cells_sim r i j)
      (Expr.add (Expr.mul (.Trace 0 0) (.Trace 2 0)) (Expr.mul (.Trace 1 0) (.Trace 3 0))) 0 (by
      simp [Expr.add, Expr.mul, Expr.evaluate, vdfCells])
    refine quotient_zero env hc z y r _ _ hy (add U256.ZERO (neg unreduced)) ?_ (zero_sub_unreduced y)
    rw [Expr.sub, Expr.neg, Expr.add, evaluate, h2, Option.bind_some, evaluate, evaluate]
    rw [hc, arith.zero]
    rfl
  · refine quotient_reduced env hc z y1 r _ _ hy1 ?_
    simp [Expr.sub, Expr.add, Expr.neg, Expr.evaluate, vdfCells]
  · refine quotient_reduced env hc z y1 r _ _ hy1 ?_
    simp [Expr.sub, Expr.add, Expr.neg, Expr.evaluate, vdfCells]
  · refine quotient_reduced env hc z y2 r _ _ hy2 ?_
    simp [Expr.sub, Expr.add, Expr.neg, Expr.evaluate, vdfCells]
  · refine quotient_reduced env hc z y2 r _ _ hy2 ?_
    simp [Expr.sub, Expr.add, Expr.neg, Expr.evaluate, vdfCells]

omit hc in
theorem vdf_arguments (root : Nat → Option Z) (rep : Z → U256) (r : Z) (n : Nat) (a b a' b' : Z) (c : Constraints Z) (h : Vdf.constraints root rep r n a b a' b' = some c) :
    c.substitute = some c ∧ c.trace_arguments = some vdfArgs := by
  unfold Vdf.constraints at h
  obtain ⟨g, hroot, h⟩ := Option.bind_eq_some_iff.1 h
  obtain ⟨-, rfl⟩ := system_some _ _ _ _ _ _ h
  exact ⟨rfl, rfl⟩

/-- the combined value of the constraints is zero -/
theorem vdf_combined (g z r : Z) (k : Nat) (hg : g ^ 2 ^ k = 1) (hz : z ^ 2 ^ k ≠ 1) (c : Constraints Z)
    (h : Vdf.constraints env.root env.codec.rep r (2 ^ k) 0 1 0 1 = some c) (hroot : env.root (2 ^ k) = some g) (hd : c.degree = some 2) (coefficients : List Z)
    (hl : coefficients.length = 2 * c.expressions.length) :
    oods_value_from_trace_values env c coefficients (vdfArgs.zip (vdfValues r)) z = some (env.codec.rep 0) := by
  have A : Arith env.codec := by rw [hc]; exact arith
  have h0 := h
  unfold Vdf.constraints at h
  rw [hroot, Option.bind_some] at h
  obtain ⟨-, hcs⟩ := system_some _ _ _ _ _ _ h
  have hp := Nat.two_pow_pos k
  refine combined_zero env A c coefficients (by rw [hcs]) 2 hd (by rw [hcs]; dsimp only; omega) hl ?_ _ z ?_ ?_
  · rw [hcs]
    dsimp only
    intro e he
    simp only [List.mem_cons, List.not_mem_nil, or_false] at he
    rcases he with rfl | rfl | rfl | rfl | rfl | rfl | rfl | rfl <;>
      simp [Expr.degree, Expr.degree_impl, every_row, on_row, Expr.sub, Expr.add, Expr.neg, Expr.mul, Expr.div, Expr.inv, Expr.pow] <;> omega
  · rw [hcs]
    dsimp only
    intro e he
    simp only [List.mem_cons, List.not_mem_nil, or_false] at he
    rcases he with rfl | rfl | rfl | rfl | rfl | rfl | rfl | rfl <;>
      simp [NoClaim, every_row, on_row, Expr.sub, Expr.add, Expr.neg, Expr.mul, Expr.div, Expr.inv, Expr.pow]
  · intro e he
    rw [vdf_values env hc g z r k hg hz c h0 hroot e he, hc]

/-- the quotients of the opened rows are zero -/
theorem vdf_deep (g z r y : Z) (k : Nat) (hroot : env.root (2 ^ k) = some g) (oods : List Z)
    (h1 : y * env.generator ≠ z) (h2 : y * env.generator ≠ g * z) (h3 : y * env.generator ≠ z ^ 2) :
    out_of_domain_element env y (vdfRow r) [montgomery.rep 0, montgomery.rep 0] z (vdfArgs.zip (vdfValues r)) [montgomery.rep 0, montgomery.rep 0] oods (2 ^ k) = .ok U256.ZERO := by
  have A : Arith env.codec := by rw [hc]; exact arith
  have hs : ∀ x : Z, sub (montgomery.rep x) (montgomery.rep x) = U256.ZERO := by
    intro x
    rw [arith.sub, sub_self, arith.zero]
  refine deep_zero env A y _ _ z _ _ oods (2 ^ k) g hroot ?_ ?_ ?_
  · intro t ht
    simp only [vdfArgs, vdfValues, List.zip_cons_cons, List.zip_nil_left, List.mem_cons, List.not_mem_nil, or_false] at ht
    rcases ht with rfl | rfl | rfl | rfl | rfl | rfl
    · exact ⟨⟨_, rfl, hs 0⟩, by rw [zpow_zero, one_mul]; exact sub_ne_zero.2 h1⟩
    · exact ⟨⟨_, rfl, hs 0⟩, by rw [zpow_one]; exact sub_ne_zero.2 h2⟩
    · exact ⟨⟨_, rfl, hs 1⟩, by rw [zpow_zero, one_mul]; exact sub_ne_zero.2 h1⟩
    · exact ⟨⟨_, rfl, one_sub_unreduced⟩, by rw [zpow_one]; exact sub_ne_zero.2 h2⟩
    · exact ⟨⟨_, rfl, hs r⟩, by rw [zpow_zero, one_mul]; exact sub_ne_zero.2 h1⟩
    · exact ⟨⟨_, rfl, hs 0⟩, by rw [zpow_zero, one_mul]; exact sub_ne_zero.2 h1⟩
  · intro v hv
    simp only [List.zip_cons_cons, List.zip_nil_left, List.mem_cons, List.not_mem_nil, or_false, or_self] at hv
    rw [hv]
    exact hs 0
  · exact sub_ne_zero.2 h3

end Release
end Stark
end OpenZKP
