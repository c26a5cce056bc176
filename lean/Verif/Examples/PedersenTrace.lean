import Verif.Examples.PedersenHash
import Verif.U256.ShiftLemmas

/-!
# The Pedersen hash function and the trace of the example
-/

namespace OpenZKP
namespace Examples
namespace Pedersen
open Stark FFT Props Polynomial EC WeierstrassCurve.Affine

section
variable {F : Type} [Field F] [DecidableEq F] {β : F}

/-! ## Specification -/

/-- the tables of constants hold the points `B`, the periodic columns at the powers of `omega` as well -/
structure TablesHold (T : Tables F) (omega : F) (B : Bases β) : Prop where
  shift : T.shift = ofPoint B.shift
  shift_ne : B.shift ≠ 0
  left : ∀ i < 252, T.points[i + 1]? = some (ofPoint (B.left i))
  right : ∀ i < 252, T.points[i + 253]? = some (ofPoint (B.right i))
  left_column : ∀ i < 252, ofPoint (B.left i) = .Point (Poly.evaluate T.left_x (omega ^ i)) (Poly.evaluate T.left_y (omega ^ i))
  right_column : ∀ i < 252, ofPoint (B.right i) = .Point (Poly.evaluate T.right_x (omega ^ i)) (Poly.evaluate T.right_y (omega ^ i))

/-- the conversions between field elements and integers; field elements have less than 252 bits -/
structure Conversions (uint : F → U256) (element : U256 → F) : Prop where
  lt : ∀ x, (uint x).toNat < 2 ^ 252
  cast : ∀ x, ((uint x).toNat : F) = x
  element : ∀ u, element u = (u.toNat : F)

/-- the sum before bit `n` of `a` is added, when all the bits of `a` are added before those of `b` -/
noncomputable def leftSum (B : Bases β) (a n : Nat) : Pt β := B.shift + ∑ i ∈ Finset.range n, if a.testBit i then B.left i else 0

/-- the sum before bit `n` of `b` is added -/
noncomputable def rightSum (B : Bases β) (a b n : Nat) : Pt β := leftSum B a 252 + ∑ i ∈ Finset.range n, if b.testBit i then B.right i else 0

/-- When all the bits of `a` are added before those of `b`, a point is added to itself or to its opposite. -/
def HashClash (B : Bases β) (a b : Nat) : Prop :=
  ∃ i < 252, (a.testBit i ∧ (leftSum B a i = B.left i ∨ leftSum B a i = -B.left i)) ∨ (b.testBit i ∧ (rightSum B a b i = B.right i ∨ rightSum B a b i = -B.right i))

/-! ## The hash -/

theorem testBit_lt {x n : Nat} (hx : x < 2 ^ 252) (h : x.testBit n = true) : n < 252 := by
  by_contra hn
  rw [Nat.testBit_lt_two_pow (lt_of_lt_of_le hx (Nat.pow_le_pow_right (by norm_num) (by omega)))] at h
  cases h

theorem bit_div (u : U256) (a i : Nat) (h : u.toNat = a / 2 ^ i) : U256.bit u 0 = a.testBit i := by
  rw [U256.bit_eq, h, Nat.testBit_div_two_pow, zero_add]

theorem shr_one (u : U256) (a i : Nat) (h : u.toNat = a / 2 ^ i) : (U256.shr u 1).toNat = a / 2 ^ (i + 1) := by
  rw [U256.shr_div, h, Nat.div_div_eq_div_mul, pow_one, pow_succ]

theorem hashLoop_eq (h2 : (2 : F) ≠ 0) (points : List (Affine F)) (offset a : Nat) (S R : Nat → Pt β) (hS : ∀ i, S (i + 1) = S i + if a.testBit i then R i else 0)
    (hR : ∀ i, a.testBit i = true → points[offset + i]? = some (ofPoint (R i)) ∧ ¬ Clash (S i) (R i)) (n i : Nat) (u : U256) (hu : u.toNat = a / 2 ^ i)
    (p : Jacobian F) (hp : Represents p (S i)) : ∃ q, hashLoop points offset n i u p = some q ∧ Represents q (S (i + n)) := by
  induction n generalizing i u p with
  | zero => exact ⟨p, rfl, hp⟩
  | succ n ih =>
    rw [hashLoop, bit_div u a i hu]
    have : ∃ q, (if a.testBit i = true then (points[offset + i]?).map fun p' => Jacobian.addMixed p p' else some p) = some q ∧ Represents q (S (i + 1)) := by
      rw [hS]
      cases hb : a.testBit i with
      | false => exact ⟨p, by simp, by simpa using hp⟩
      | true =>
        obtain ⟨h1, h3⟩ := hR i hb
        refine ⟨Jacobian.addMixed p (ofPoint (R i)), by rw [if_pos rfl, h1]; rfl, ?_⟩
        rw [if_pos rfl]
        exact represents_addMixed h2 hp (not_clash h3)
    obtain ⟨q, h1, h3⟩ := this
    rw [h1, Option.bind_some]
    obtain ⟨q', h4, h5⟩ := ih (i + 1) _ (shr_one u a i hu) q h3
    exact ⟨q', h4, by rw [show i + (n + 1) = i + 1 + n by ring]; exact h5⟩

theorem sum_stop {M : Type} [AddCommGroup M] (f : Nat → M) (a : Nat) (ha : a < 2 ^ 252) (n : Nat) (hn : 252 ≤ n) :
    ∑ i ∈ Finset.range n, (if a.testBit i then f i else 0) = ∑ i ∈ Finset.range 252, if a.testBit i then f i else 0 := by
  symm
  apply Finset.sum_subset (by intro i; simp only [Finset.mem_range]; omega)
  intro i _ hi
  rw [Finset.mem_range] at hi
  rw [if_neg]
  intro h
  exact hi (testBit_lt ha h)

theorem rightSum_last (B : Bases β) (a b : Nat) : rightSum B a b 252 = pedersen B a b := by
  unfold rightSum leftSum pedersen partialSum
  rw [Finset.sum_add_distrib, add_assoc]

/-- what `merkle_hash` computes -/
theorem merkle_hash_eq (h2 : (2 : F) ≠ 0) (uint : F → U256) (element : U256 → F) (hc : Conversions uint element) (T : Tables F) (omega : F) (B : Bases β) (hT : TablesHold T omega B) (x y : F)
    (hclash : ¬ HashClash B (uint x).toNat (uint y).toNat) (z w : F) (hz : ofPoint (pedersen B (uint x).toNat (uint y).toNat) = .Point z w) :
    merkle_hash uint T x y = some z := by
  have ha := hc.lt x
  have hb := hc.lt y
  unfold merkle_hash
  obtain ⟨q, h1, h3⟩ := hashLoop_eq h2 T.points 1 (uint x).toNat (leftSum B (uint x).toNat) B.left (by intro i; unfold leftSum; rw [Finset.sum_range_succ, add_assoc]) (by
    intro i hi
    refine ⟨by rw [add_comm]; exact hT.left i (testBit_lt ha hi), fun h => hclash ⟨i, testBit_lt ha hi, Or.inl ⟨hi, h.2.2⟩⟩⟩) 253 0 (uint x) (by simp) (Jacobian.ofAffine T.shift) (by
    rw [hT.shift]
    have : leftSum B (uint x).toNat 0 = B.shift := by simp [leftSum]
    rw [this]
    exact represents_ofAffine B.shift)
  rw [h1, Option.bind_some]
  have e : leftSum B (uint x).toNat (0 + 253) = leftSum B (uint x).toNat 252 := by
    unfold leftSum
    rw [sum_stop _ _ ha _ (by norm_num)]
  rw [e] at h3
  obtain ⟨q', h4, h5⟩ := hashLoop_eq h2 T.points 253 (uint y).toNat (rightSum B (uint x).toNat (uint y).toNat) B.right
    (by intro i; unfold rightSum; rw [Finset.sum_range_succ, add_assoc]) (by
    intro i hi
    refine ⟨by rw [add_comm]; exact hT.right i (testBit_lt hb hi), fun h => hclash ⟨i, testBit_lt hb hi, Or.inr ⟨hi, h.2.2⟩⟩⟩) 253 0 (uint y) (by simp) q (by
    have : rightSum B (uint x).toNat (uint y).toNat 0 = leftSum B (uint x).toNat 252 := by simp [rightSum]
    rw [this]
    exact h3)
  rw [h4, Option.bind_some]
  have e : rightSum B (uint x).toNat (uint y).toNat (0 + 253) = pedersen B (uint x).toNat (uint y).toNat := by
    rw [← rightSum_last]
    unfold rightSum
    rw [sum_stop _ _ hb _ (by norm_num)]
  rw [e] at h5
  unfold Represents at h5
  rw [h5, hz]

/-! ## The trace of a layer -/

/-- the variables after the turn `r` of the loop -/
noncomputable def layerState (B : Bases β) (u v : U256) (r : Nat) : LayerState F :=
  let a := u.toNat
  let b := v.toNat
  ⟨(fun x => U256.shr x 1)^[r] u, (fun x => U256.shr x 1)^[r] v, if r = 0 then .Zero else ofPoint (middleSum B a b (r - 1)), ofPoint (partialSum B a b r),
    layerTable B a b r 1, layerTable B a b r 5⟩

theorem iterate_shr (u : U256) (r : Nat) : ((fun x => U256.shr x 1)^[r] u).toNat = u.toNat / 2 ^ r := by
  induction r with
  | zero => simp
  | succ r ih =>
    rw [Function.iterate_succ_apply']
    exact shr_one _ _ _ ih

theorem addBit_eq (h2 : (2 : F) ≠ 0) (points : List (Affine F)) (c : Bool) (index : Nat) (P Q : Pt β) (hP : P ≠ 0) (hQ : c = true → points[index]? = some (ofPoint Q) ∧ Q ≠ 0 ∧ P ≠ Q ∧ P ≠ -Q) :
    addBit points (ofPoint P) c index = some (if c then slopeOf P Q else 0, ofPoint (P + if c then Q else 0)) := by
  unfold addBit
  cases c with
  | false => simp
  | true =>
    obtain ⟨h1, h3, h4, h5⟩ := hQ rfl
    rw [if_pos rfl, h1, Option.bind_some, (slopeOf_eq hP h3 h4 h5).1, Option.bind_some, add_eq h2, Option.map_some, if_pos rfl, if_pos rfl]

theorem layerStep_eq (h2 : (2 : F) ≠ 0) (T : Tables F) (omega : F) (B : Bases β) (hT : TablesHold T omega B) (u v : U256) (hu : u.toNat < 2 ^ 252) (hv : v.toNat < 2 ^ 252)
    (hd : ¬ Doubles B u.toNat v.toNat) (hc : ¬ Cancels B u.toNat v.toNat) (r : Nat) :
    layerStep T.points (r + 1) (layerState B u v r) = some (layerState B u v (r + 1)) := by
  have hl0 : ∀ i < 252, B.left i ≠ 0 := by
    intro i hi h
    have := hT.left_column i hi
    rw [h] at this
    cases this
  have hr0 : ∀ i < 252, B.right i ≠ 0 := by
    intro i hi h
    have := hT.right_column i hi
    rw [h] at this
    cases this
  obtain ⟨g1, g2, g3, g4⟩ := regular_of B u.toNat v.toNat hT.shift_ne hd hc r hu hv
  unfold layerStep layerState
  dsimp only
  rw [if_pos (Nat.succ_pos _), bit_div _ _ _ (iterate_shr u r), bit_div _ _ _ (iterate_shr v r),
    addBit_eq h2 T.points (u.toNat.testBit r) (r + 1) (partialSum B u.toNat v.toNat r) (B.left r) g1
      (fun h => ⟨hT.left r (testBit_lt hu h), hl0 r (testBit_lt hu h), g3 h⟩), Option.bind_some]
  dsimp only
  have := addBit_eq h2 T.points (v.toNat.testBit r) (r + 1 + 252) (middleSum B u.toNat v.toNat r) (B.right r) g2
      (fun h => ⟨hT.right r (testBit_lt hv h), hr0 r (testBit_lt hv h), g4 h⟩)
  rw [show partialSum B u.toNat v.toNat r + (if u.toNat.testBit r then B.left r else 0) = middleSum B u.toNat v.toNat r from rfl, this, Option.map_some]
  simp only [layerTable, Function.iterate_succ_apply', Nat.succ_ne_zero, if_false, Nat.add_sub_cancel, partialSum_succ]

theorem layerLoop_eq (h2 : (2 : F) ≠ 0) (element : U256 → F) (T : Tables F) (omega : F) (B : Bases β) (hT : TablesHold T omega B) (u v : U256) (hu : u.toNat < 2 ^ 252) (hv : v.toNat < 2 ^ 252)
    (hd : ¬ Doubles B u.toNat v.toNat) (hc : ¬ Cancels B u.toNat v.toNat) (n r : Nat) :
    layerLoop element T.points n (r + 1) (layerState B u v r) = some ((List.range n).flatMap fun i => layerCells element (r + 1 + i) (layerState B u v (r + 1 + i))) := by
  induction n generalizing r with
  | zero => rfl
  | succ n ih =>
    rw [layerLoop, layerStep_eq h2 T omega B hT u v hu hv hd hc r, Option.bind_some, ih, Option.map_some, List.range_succ_eq_map, List.flatMap_cons, List.flatMap_map, add_zero]
    simp only [Nat.succ_eq_add_one, add_assoc, add_comm 1]

theorem layerTrace_eq (h2 : (2 : F) ≠ 0) (uint : F → U256) (element : U256 → F) (hconv : Conversions uint element) (T : Tables F) (omega : F) (B : Bases β) (hT : TablesHold T omega B)
    (left right leaf sibling : F) (direction : Bool) (hlr : (left, right) = if direction then (sibling, leaf) else (leaf, sibling))
    (hd : ¬ Doubles B (uint left).toNat (uint right).toNat) (hc : ¬ Cancels B (uint left).toNat (uint right).toNat) :
    layerTrace uint element T (leaf, sibling, direction) =
      some ((List.range 256).flatMap fun i => layerCells element i (layerState B (uint left) (uint right) i)) := by
  unfold layerTrace
  dsimp only
  rw [← hlr]
  dsimp only
  have h0 : layerStep T.points 0 ⟨uint left, uint right, .Zero, T.shift, 0, 0⟩ = some (layerState B (uint left) (uint right) 0) := by
    unfold layerStep layerState
    rw [if_neg (lt_irrefl _), hT.shift]
    simp [layerTable, partialSum]
  rw [layerLoop, h0, Option.bind_some, layerLoop_eq h2 element T omega B hT _ _ (hconv.lt left) (hconv.lt right) hd hc 255 0, Option.map_some,
    show List.range 256 = 0 :: (List.range 255).map Nat.succ from List.range_succ_eq_map, List.flatMap_cons, List.flatMap_map]
  simp only [Nat.succ_eq_add_one, zero_add, add_comm 1]

theorem mem_cells (element : U256 → F) (uint : F → U256) (hconv : Conversions uint element) (B : Bases β) (u v : U256) (j i : Nat) (x : F) :
    (j, i, x) ∈ ((List.range 256).flatMap fun i => layerCells element i (layerState B u v i)) ↔ j < 8 ∧ i < 256 ∧ x = layerTable B u.toNat v.toNat i j := by
  have hcell : ∀ i, layerCells element i (layerState B u v i) = (List.range 8).map fun j => (j, i, layerTable B u.toNat v.toNat i j) := by
    intro i
    simp only [layerCells, layerState, hconv.element, iterate_shr, List.range_succ, List.range_zero, List.nil_append, List.map_append, List.map_cons, List.map_nil,
      List.cons_append, layerTable]
    by_cases h : i = 0
    · simp [h, coordX, coordY]
    · simp [h]
  simp only [List.mem_flatMap, List.mem_range, hcell, List.mem_map, Prod.mk.injEq]
  constructor
  · rintro ⟨i', hi, j', hj, rfl, rfl, rfl⟩
    exact ⟨hj, hi, rfl⟩
  · rintro ⟨hj, hi, rfl⟩
    exact ⟨i, hi, j, hj, rfl, rfl, rfl⟩

end
end Pedersen
end Examples
end OpenZKP
