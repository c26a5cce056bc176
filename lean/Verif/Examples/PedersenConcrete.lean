import Verif.Examples.PedersenTables
import Verif.Examples.PedersenTrace
import Verif.EC.Concrete
import Verif.EC.EcdsaLemmas

/-!
# The constants of pedersen_merkle are points of the curve, and the periodic columns interpolate them
-/

namespace OpenZKP
namespace Examples
namespace Pedersen
open Stark EC WeierstrassCurve.Affine

/-- the constants in the base field -/
def tables : Tables Fp where
  shift := .Point (SHIFT_POINT.1 : Nat) (SHIFT_POINT.2 : Nat)
  points := POINTS.map fun q => .Point (q.1 : Nat) (q.2 : Nat)
  left_x := LEFT_X.map fun a => (a : Nat)
  left_y := LEFT_Y.map fun a => (a : Nat)
  right_x := RIGHT_X.map fun a => (a : Nat)
  right_y := RIGHT_Y.map fun a => (a : Nat)

/-- the modulus of the base field -/
def P : Nat := 3618502788666131213697322783095070105623107215331596699973092056135872020481

theorem cast_mod (a : Nat) : ((a % P : Nat) : Fp) = a := by
  have : P = PF.BASE.modulus.toNat := base_modulus.symm
  rw [this, ZMod.natCast_mod]

/-- evaluation modulo `P` -/
def horner (x : Nat) (cs : List Nat) : Nat := cs.foldr (fun c r => (r * x + c) % P) 0

theorem horner_cast (x : Nat) (cs : List Nat) : ((horner x cs : Nat) : Fp) = Poly.evaluate (cs.map fun a => ((a : Nat) : Fp)) (x : Fp) := by
  unfold horner Poly.evaluate
  rw [List.foldl_reverse]
  induction cs with
  | nil => simp
  | cons c cs ih =>
    rw [List.foldr_cons, List.map_cons, List.foldr_cons, cast_mod, ← ih]
    push_cast
    rfl

/-- the point with these coordinates -/
noncomputable def point (q : Nat × Nat) : Pt BETA :=
  if h : ((q.2 : Nat) : Fp) * q.2 = (q.1 : Fp) * q.1 * q.1 + q.1 + BETA then Point.some (q.1 : Fp) (q.2 : Fp) (nonsingular_of_eq disc_ne h two_ne) else 0

/-- the equation of the curve modulo `P` -/
def onCurve (q : Nat × Nat) : Bool :=
  decide (q.2 * q.2 % P = (q.1 * q.1 % P * q.1 + q.1 + 0x06f21413efbe40de150e596d72f7a8c5609ad26c15c915c1f4cdfcb99cee9e89) % P)

theorem ofPoint_point (q : Nat × Nat) (h : onCurve q = true) : ofPoint (point q) = .Point (q.1 : Fp) (q.2 : Fp) := by
  have h := congrArg (Nat.cast : Nat → Fp) (of_decide_eq_true h)
  rw [cast_mod, cast_mod, Nat.cast_add, Nat.cast_add, Nat.cast_mul, Nat.cast_mul, cast_mod, Nat.cast_mul] at h
  unfold point
  rw [dif_pos]
  · rfl
  · rw [h, BETA_eq]
    rfl

/-- the points of the hash -/
noncomputable def bases : Bases BETA where
  shift := point SHIFT_POINT
  left := fun i => point (POINTS.getD (i + 1) (0, 0))
  right := fun i => point (POINTS.getD (i + 253) (0, 0))

theorem points_on : POINTS.all onCurve = true := by decide +kernel

theorem points_length : POINTS.length = 506 := by decide +kernel

theorem shift_on : onCurve SHIFT_POINT = true := by decide +kernel

theorem omegas_ok : OMEGAS[0]? = some 1 ∧ ((List.range 255).all fun i => decide (OMEGAS.getD (i + 1) 0 = OMEGAS.getD i 0 * OMEGAS.getD 1 0 % P)) = true := by decide +kernel

/-- the columns at the powers of the root are the points from `offset` on -/
def columnsOk (xs ys : List Nat) (offset : Nat) : Bool :=
  (List.range 252).all fun i => decide (horner (OMEGAS.getD i 0) xs = (POINTS.getD (i + offset) (0, 0)).1) && decide (horner (OMEGAS.getD i 0) ys = (POINTS.getD (i + offset) (0, 0)).2)

set_option maxRecDepth 100000 in
theorem left_ok : columnsOk LEFT_X LEFT_Y 1 = true := by decide +kernel

set_option maxRecDepth 100000 in
theorem right_ok : columnsOk RIGHT_X RIGHT_Y 253 = true := by decide +kernel

/-- `FieldElement::root(256)` -/
def OMEGA : Fp := (OMEGAS.getD 1 0 : Nat)

theorem omegas_pow (i : Nat) (hi : i < 256) : ((OMEGAS.getD i 0 : Nat) : Fp) = OMEGA ^ i := by
  obtain ⟨h0, h1⟩ := omegas_ok
  have h1 : ∀ i < 255, OMEGAS.getD (i + 1) 0 = OMEGAS.getD i 0 * OMEGAS.getD 1 0 % P := fun i hi => of_decide_eq_true (List.all_eq_true.1 h1 i (List.mem_range.2 hi))
  induction i with
  | zero => rw [List.getD_eq_getElem?_getD, h0]; simp
  | succ i ih => rw [h1 i (by omega), cast_mod, Nat.cast_mul, ih (by omega), pow_succ]; rfl

theorem point_on (i : Nat) (hi : i < 506) : ∃ q, POINTS[i]? = some q ∧ POINTS.getD i (0, 0) = q ∧ onCurve q = true := by
  have hl : i < POINTS.length := by rw [points_length]; exact hi
  exact ⟨POINTS[i], List.getElem?_eq_getElem hl, List.getD_eq_getElem _ _ hl, List.all_eq_true.1 points_on _ (List.getElem_mem hl)⟩

/-- C84: the constants of the example are points of the curve, and the periodic columns take their coordinates in the rows of the loop. -/
theorem tables_hold : TablesHold tables OMEGA bases := by
  have hcol : ∀ xs ys off, columnsOk xs ys off = true → ∀ i < 252, i + off < 506 → ofPoint (point (POINTS.getD (i + off) (0, 0))) =
      .Point (Poly.evaluate (xs.map fun a => ((a : Nat) : Fp)) (OMEGA ^ i)) (Poly.evaluate (ys.map fun a => ((a : Nat) : Fp)) (OMEGA ^ i)) := by
    intro xs ys off h i hi hoff
    obtain ⟨q, h1, h2, h3⟩ := point_on (i + off) hoff
    have := List.all_eq_true.1 h i (List.mem_range.2 hi)
    rw [Bool.and_eq_true] at this
    have e1 := of_decide_eq_true this.1
    have e2 := of_decide_eq_true this.2
    rw [h2] at e1 e2
    rw [h2, ofPoint_point q h3, ← e1, ← e2, horner_cast, horner_cast, omegas_pow i (by omega)]
  have hpt : ∀ off, ∀ i < 252, i + off < 506 → tables.points[i + off]? = some (ofPoint (point (POINTS.getD (i + off) (0, 0)))) := by
    intro off i hi hoff
    obtain ⟨q, h1, h2, h3⟩ := point_on (i + off) hoff
    have : tables.points = POINTS.map fun q => Affine.Point ((q.1 : Nat) : Fp) ((q.2 : Nat) : Fp) := rfl
    rw [this, List.getElem?_map, h1, h2, ofPoint_point q h3, Option.map_some]
  refine ⟨(ofPoint_point _ shift_on).symm, fun h => ?_, fun i hi => hpt 1 i hi (by omega), fun i hi => hpt 253 i hi (by omega), fun i hi => hcol _ _ 1 left_ok i hi (by omega),
    fun i hi => hcol _ _ 253 right_ok i hi (by omega)⟩
  have h' : point SHIFT_POINT = 0 := h
  have := ofPoint_point _ shift_on
  rw [h'] at this
  cases this

/-- the conversions of the base field -/
theorem conversions : Conversions (fun x : Fp => toUint x) (fun u => ((u.toNat : Nat) : Fp)) := by
  have hm : PF.BASE.modulus.toNat ≤ 2 ^ 256 := by rw [base_modulus]; norm_num
  refine ⟨fun x => ?_, fun x => ?_, fun u => rfl⟩
  · rw [toUint_toNat hm]
    exact lt_trans (ZMod.val_lt x) (by rw [base_modulus]; norm_num)
  · rw [toUint_toNat hm, ZMod.natCast_zmod_val]

theorem small_ne (k : Nat) (h0 : 0 < k) (h8 : k < 8) : (k : Fp) ≠ 0 := by
  rw [Ne, ZMod.natCast_eq_zero_iff]
  intro h
  have := Nat.le_of_dvd h0 h
  rw [base_modulus] at this
  omega

end Pedersen
end Examples
end OpenZKP
