import Verif.Props.PedersenForgery
import Verif.Props.PedersenRun

/-!
# The hash of the example pedersen_merkle: collisions (C93)

There are more pairs of field elements than field elements, so there are collisions; the theorems say what a collision that is *known* gives: a linear relation
between the constant points with known coefficients.  They are stated with the coefficients, not with their existence.
-/

namespace OpenZKP
namespace Props
namespace PedersenCollision
open Examples Examples.Pedersen EC PedersenMerkle
open OpenZKP.Props.Small (Z)
open OpenZKP.Examples.Run (rep)

section
variable {F : Type} [Field F] [DecidableEq F] {β : F}

/-! ## Specification -/

/-- bit `i` of an integer, as a number -/
def bit (a i : Nat) : ℤ := if a.testBit i then 1 else 0

/-- the bits of an integer below bit `i`, and `e` in place of bit `i` -/
def upTo (a i : Nat) (e : ℤ) (j : Nat) : ℤ := if j < i then bit a j else if j = i then e else 0

/-- the linear combination of the points of the hash with these coefficients -/
noncomputable def combination (B : Bases β) (s : ℤ) (l r : Nat → ℤ) : Pt β :=
  s • B.shift + ∑ i ∈ Finset.range 252, (l i • B.left i + r i • B.right i)

/-- A relation between the points that holds when, in hashing the integers `a` and `b`, the point for a bit that is set is equal or opposite to the sum so far. -/
def ClashRelation (B : Bases β) (a b : Nat) : Prop :=
  ∃ i < 252, ∃ e : ℤ, (e = 1 ∨ e = -1) ∧
    ((a.testBit i ∧ combination B 1 (upTo a i e) (fun _ => 0) = 0) ∨ (b.testBit i ∧ combination B 1 (bit a) (upTo b i e) = 0))

/-! ## Lemmas -/

theorem pedersen_combination (B : Bases β) (a b : Nat) : pedersen B a b = combination B 1 (bit a) (bit b) := by
  unfold pedersen partialSum combination bit
  rw [one_smul]
  congr 1
  refine Finset.sum_congr rfl fun i _ => ?_
  cases a.testBit i <;> cases b.testBit i <;> simp

theorem combination_add (B : Bases β) (s s' : ℤ) (l l' r r' : Nat → ℤ) :
    combination B s l r + combination B s' l' r' = combination B (s + s') (fun i => l i + l' i) (fun i => r i + r' i) := by
  unfold combination
  simp only [add_smul]
  rw [add_add_add_comm, ← Finset.sum_add_distrib]
  congr 1
  refine Finset.sum_congr rfl fun i _ => ?_
  abel

theorem combination_sub (B : Bases β) (s s' : ℤ) (l l' r r' : Nat → ℤ) :
    combination B s l r - combination B s' l' r' = combination B (s - s') (fun i => l i - l' i) (fun i => r i - r' i) := by
  unfold combination
  simp only [sub_smul]
  rw [add_sub_add_comm, ← Finset.sum_sub_distrib]
  congr 1
  refine Finset.sum_congr rfl fun i _ => ?_
  abel

/-- a sum over the first bits -/
theorem sum_upTo (f : Nat → Pt β) (a i : Nat) (hi : i < 252) (e : ℤ) :
    ∑ j ∈ Finset.range 252, upTo a i e j • f j = (∑ j ∈ Finset.range i, if a.testBit j then f j else 0) + e • f i := by
  have h1 : ∑ j ∈ Finset.range 252, upTo a i e j • f j = ∑ j ∈ Finset.range (i + 1), upTo a i e j • f j := by
    symm
    apply Finset.sum_subset (by intro j; simp only [Finset.mem_range]; omega)
    intro j _ hj
    rw [Finset.mem_range] at hj
    unfold upTo
    rw [if_neg (by omega), if_neg (by omega), zero_smul]
  rw [h1, Finset.sum_range_succ]
  congr 1
  · refine Finset.sum_congr rfl fun j hj => ?_
    unfold upTo bit
    rw [if_pos (Finset.mem_range.1 hj)]
    cases a.testBit j <;> simp
  · unfold upTo
    rw [if_neg (Nat.lt_irrefl _), if_pos rfl]

theorem left_combination (B : Bases β) (a i : Nat) (hi : i < 252) (e : ℤ) :
    combination B 1 (upTo a i e) (fun _ => 0) = leftSum B a i + e • B.left i := by
  unfold combination leftSum
  simp only [zero_smul, add_zero, one_smul]
  rw [sum_upTo _ _ _ hi, add_assoc]

theorem right_combination (B : Bases β) (a b i : Nat) (hi : i < 252) (e : ℤ) :
    combination B 1 (bit a) (upTo b i e) = rightSum B a b i + e • B.right i := by
  unfold combination rightSum leftSum
  rw [Finset.sum_add_distrib, sum_upTo _ _ _ hi, one_smul]
  have : ∑ j ∈ Finset.range 252, bit a j • B.left j = ∑ j ∈ Finset.range 252, if a.testBit j then B.left j else 0 := by
    refine Finset.sum_congr rfl fun j _ => ?_
    unfold bit
    cases a.testBit j <;> simp
  rw [this]
  abel

theorem clash_iff (B : Bases β) (a b : Nat) : HashClash B a b ↔ ClashRelation B a b := by
  have key : ∀ S R : Pt β, (S = R ∨ S = -R) ↔ ∃ e : ℤ, (e = 1 ∨ e = -1) ∧ S + e • R = 0 := by
    intro S R
    constructor
    · rintro (h | h)
      · exact ⟨-1, Or.inr rfl, by rw [h]; simp⟩
      · exact ⟨1, Or.inl rfl, by rw [h]; simp⟩
    · rintro ⟨e, rfl | rfl, h⟩
      · right
        rw [one_smul] at h
        exact eq_neg_of_add_eq_zero_left h
      · left
        rw [neg_one_smul, ← sub_eq_add_neg] at h
        exact sub_eq_zero.1 h
  constructor
  · rintro ⟨i, hi, ⟨hb, h⟩ | ⟨hb, h⟩⟩
    · obtain ⟨e, he, h'⟩ := (key _ _).1 h
      exact ⟨i, hi, e, he, Or.inl ⟨hb, by rw [left_combination B a i hi, h']⟩⟩
    · obtain ⟨e, he, h'⟩ := (key _ _).1 h
      exact ⟨i, hi, e, he, Or.inr ⟨hb, by rw [right_combination B a b i hi, h']⟩⟩
  · rintro ⟨i, hi, e, he, ⟨hb, h⟩ | ⟨hb, h⟩⟩
    · rw [left_combination B a i hi] at h
      exact ⟨i, hi, Or.inl ⟨hb, (key _ _).2 ⟨e, he, h⟩⟩⟩
    · rw [right_combination B a b i hi] at h
      exact ⟨i, hi, Or.inr ⟨hb, (key _ _).2 ⟨e, he, h⟩⟩⟩

/-- without a clash no sum is zero -/
theorem pedersen_ne_zero (B : Bases β) (a b : Nat) (hs : B.shift ≠ 0) (h : ¬ HashClash B a b) : pedersen B a b ≠ 0 := by
  have hl : ∀ i ≤ 252, leftSum B a i ≠ 0 := by
    intro i
    induction i with
    | zero => intro _; simpa [leftSum] using hs
    | succ i ih =>
      intro hi
      have e : leftSum B a (i + 1) = leftSum B a i + if a.testBit i then B.left i else 0 := by
        unfold leftSum; rw [Finset.sum_range_succ, add_assoc]
      rw [e]
      cases hb : a.testBit i with
      | false => simpa using ih (by omega)
      | true =>
        rw [if_pos rfl]
        exact add_ne_zero_of fun e => h ⟨i, by omega, Or.inl ⟨hb, Or.inr e⟩⟩
  have hr : ∀ i ≤ 252, rightSum B a b i ≠ 0 := by
    intro i
    induction i with
    | zero => intro _; simpa [rightSum] using hl 252 (by omega)
    | succ i ih =>
      intro hi
      have e : rightSum B a b (i + 1) = rightSum B a b i + if b.testBit i then B.right i else 0 := by
        unfold rightSum; rw [Finset.sum_range_succ, add_assoc]
      rw [e]
      cases hb : b.testBit i with
      | false => simpa using ih (by omega)
      | true =>
        rw [if_pos rfl]
        exact add_ne_zero_of fun e => h ⟨i, by omega, Or.inr ⟨hb, Or.inr e⟩⟩
  rw [← rightSum_last]
  exact hr 252 (Nat.le_refl _)

omit [DecidableEq F] in
theorem same_x {x y y' : F} (h : (curve β).Nonsingular x y) (h' : (curve β).Nonsingular x y') :
    (WeierstrassCurve.Affine.Point.some x y h : Pt β) = .some x y' h' ∨ (WeierstrassCurve.Affine.Point.some x y h : Pt β) = -.some x y' h' := by
  rcases WeierstrassCurve.Affine.Y_eq_of_X_eq h.1 h'.1 rfl with e | e
  · left; subst e; rfl
  · right
    rw [WeierstrassCurve.Affine.Point.neg_some]
    subst e; rfl

omit [DecidableEq F] in
/-- points with the same first coordinate -/
theorem same_coordX {P Q : Pt β} (hP : P ≠ 0) (hQ : Q ≠ 0) : coordX (ofPoint P) = coordX (ofPoint Q) ↔ P = Q ∨ P = -Q := by
  cases P with
  | zero => exact absurd rfl hP
  | some x y hp =>
    cases Q with
    | zero => exact absurd rfl hQ
    | some x' y' hq =>
      show x = x' ↔ _
      constructor
      · rintro rfl
        exact same_x hp hq
      · rintro (e | e)
        · exact congrArg (fun p => coordX (ofPoint p)) e
        · rw [WeierstrassCurve.Affine.Point.neg_some] at e
          exact congrArg (fun p => coordX (ofPoint p)) e

theorem bits_ne {a b : Nat} (ha : a < 2 ^ 252) (hb : b < 2 ^ 252) (h : a ≠ b) : ∃ i < 252, a.testBit i ≠ b.testBit i := by
  by_contra hc
  apply h
  apply Nat.eq_of_testBit_eq
  intro i
  by_cases hi : i < 252
  · by_contra e
    exact hc ⟨i, hi, e⟩
  · rw [Nat.testBit_lt_two_pow (lt_of_lt_of_le ha (Nat.pow_le_pow_right (by norm_num) (by omega))),
      Nat.testBit_lt_two_pow (lt_of_lt_of_le hb (Nat.pow_le_pow_right (by norm_num) (by omega)))]

/-! ## Theorems -/

/-- C93: the hash is defined, and it is the first coordinate of the combination of the points with the bits of the inputs, unless a relation between the
points holds. -/
theorem C93_value (h2 : (2 : F) ≠ 0) (uint : F → U256) (element : U256 → F) (hc : Conversions uint element) (T : Tables F) (omega : F) (B : Bases β)
    (hT : TablesHold T omega B) (x y : F) :
    ClashRelation B (uint x).toNat (uint y).toNat ∨
      ∃ z w, ofPoint (combination B 1 (bit (uint x).toNat) (bit (uint y).toNat)) = .Point z w ∧ merkle_hash uint T x y = some z := by
  by_cases h : HashClash B (uint x).toNat (uint y).toNat
  · exact Or.inl ((clash_iff B _ _).1 h)
  · refine Or.inr ⟨_, coordY (ofPoint (pedersen B (uint x).toNat (uint y).toNat)), ?_, merkle_hash_eq h2 uint element hc T omega B hT x y h _ _ (ofPoint_coords (pedersen_ne_zero B _ _ hT.shift_ne h))⟩
    rw [← pedersen_combination]
    exact ofPoint_coords (pedersen_ne_zero B _ _ hT.shift_ne h)

/-- C93: exactly when two pairs have the same hash, where no addition is exceptional: one of two relations between the points holds. -/
theorem C93_exact (h2 : (2 : F) ≠ 0) (uint : F → U256) (element : U256 → F) (hc : Conversions uint element) (T : Tables F) (omega : F) (B : Bases β)
    (hT : TablesHold T omega B) (x y x' y' : F) (h : ¬ ClashRelation B (uint x).toNat (uint y).toNat) (h' : ¬ ClashRelation B (uint x').toNat (uint y').toNat) :
    merkle_hash uint T x y = merkle_hash uint T x' y' ↔
      combination B 0 (fun i => bit (uint x).toNat i - bit (uint x').toNat i) (fun i => bit (uint y).toNat i - bit (uint y').toNat i) = 0 ∨
      combination B 2 (fun i => bit (uint x).toNat i + bit (uint x').toNat i) (fun i => bit (uint y).toNat i + bit (uint y').toNat i) = 0 := by
  have h := fun e => h ((clash_iff B _ _).1 e)
  have h' := fun e => h' ((clash_iff B _ _).1 e)
  have n := pedersen_ne_zero B _ _ hT.shift_ne h
  have n' := pedersen_ne_zero B _ _ hT.shift_ne h'
  rw [merkle_hash_eq h2 uint element hc T omega B hT x y h _ _ (ofPoint_coords n), merkle_hash_eq h2 uint element hc T omega B hT x' y' h' _ _ (ofPoint_coords n'),
    Option.some_inj, same_coordX n n', pedersen_combination, pedersen_combination, ← sub_eq_zero, combination_sub, ← add_eq_zero_iff_eq_neg, combination_add]
  norm_num

/-- C93: whoever knows two different pairs of field elements with the same hash knows a linear relation between the constant points, with small coefficients that are not all zero:
either the difference or the sum of the bits of the inputs, or one made in computing one of the hashes. -/
theorem C93_collision (h2 : (2 : F) ≠ 0) (uint : F → U256) (element : U256 → F) (hc : Conversions uint element) (T : Tables F) (omega : F) (B : Bases β)
    (hT : TablesHold T omega B) (x y x' y' : F) (hne : (x, y) ≠ (x', y')) (h : merkle_hash uint T x y = merkle_hash uint T x' y') :
    (combination B 0 (fun i => bit (uint x).toNat i - bit (uint x').toNat i) (fun i => bit (uint y).toNat i - bit (uint y').toNat i) = 0 ∧
      ∃ i < 252, bit (uint x).toNat i - bit (uint x').toNat i ≠ 0 ∨ bit (uint y).toNat i - bit (uint y').toNat i ≠ 0) ∨
    combination B 2 (fun i => bit (uint x).toNat i + bit (uint x').toNat i) (fun i => bit (uint y).toNat i + bit (uint y').toNat i) = 0 ∨
    ClashRelation B (uint x).toNat (uint y).toNat ∨ ClashRelation B (uint x').toNat (uint y').toNat := by
  by_cases c : ClashRelation B (uint x).toNat (uint y).toNat
  · exact Or.inr (Or.inr (Or.inl c))
  by_cases c' : ClashRelation B (uint x').toNat (uint y').toNat
  · exact Or.inr (Or.inr (Or.inr c'))
  rcases (C93_exact h2 uint element hc T omega B hT x y x' y' c c').1 h with e | e
  · refine Or.inl ⟨e, ?_⟩
    have hbit : ∀ a b i, a.testBit i ≠ b.testBit i → bit a i - bit b i ≠ 0 := by
      intro a b i hi
      unfold bit
      revert hi
      cases a.testBit i <;> cases b.testBit i <;> simp
    by_cases ex : x = x'
    · have ey : y ≠ y' := fun ey => hne (by rw [ex, ey])
      have : (uint y).toNat ≠ (uint y').toNat := fun e => ey (by rw [← hc.cast y, ← hc.cast y', e])
      obtain ⟨i, hi, hb⟩ := bits_ne (hc.lt y) (hc.lt y') this
      exact ⟨i, hi, Or.inr (hbit _ _ _ hb)⟩
    · have : (uint x).toNat ≠ (uint x').toNat := fun e => ex (by rw [← hc.cast x, ← hc.cast x', e])
      obtain ⟨i, hi, hb⟩ := bits_ne (hc.lt x) (hc.lt x') this
      exact ⟨i, hi, Or.inl (hbit _ _ _ hb)⟩
  · exact Or.inr (Or.inl e)

omit [DecidableEq F] in
/-- C93: two ways up, with the same turns, from two leaves to one root are the same, or a layer, which they tell, hashes different inputs to the same node. -/
theorem C93_paths (hash : F → F → Option F) (leaf leaf' merkle_root : F) (path path' : List (Bool × F)) (hturns : path.map Prod.fst = path'.map Prod.fst)
    (h : path.foldlM (stepUp hash) leaf = some merkle_root) (h' : path'.foldlM (stepUp hash) leaf' = some merkle_root) :
    (leaf = leaf' ∧ path = path') ∨
    ∃ i node node' v v', path[i]? = some node ∧ path'[i]? = some node' ∧ (path.take i).foldlM (stepUp hash) leaf = some v ∧
      (path'.take i).foldlM (stepUp hash) leaf' = some v' ∧ inputs node v ≠ inputs node' v' ∧
      hash (inputs node v).1 (inputs node v).2 = hash (inputs node' v').1 (inputs node' v').2 := by
  induction path generalizing leaf leaf' path' with
  | nil =>
    obtain rfl : path' = [] := by simpa using hturns.symm
    left
    cases h
    cases h'
    exact ⟨rfl, rfl⟩
  | cons node path ih =>
    cases path' with
    | nil => simp at hturns
    | cons node' path' =>
      rw [List.map_cons, List.map_cons, List.cons.injEq] at hturns
      rw [List.foldlM_cons] at h h'
      obtain ⟨v, hv, h⟩ := Option.bind_eq_some_iff.1 h
      obtain ⟨v', hv', h'⟩ := Option.bind_eq_some_iff.1 h'
      have hstep : ∀ (node : Bool × F) (v : F), stepUp hash v node = hash (inputs node v).1 (inputs node v).2 := by
        intro node v
        unfold stepUp inputs
        cases node.1 <;> rfl
      rcases ih v v' path' hturns.2 h h' with ⟨e1, e2⟩ | ⟨i, n, n', u, u', h1, h2, h3, h4, h5, h6⟩
      · by_cases e : inputs node leaf = inputs node' leaf'
        · left
          obtain ⟨d, s⟩ := node
          obtain ⟨d', s'⟩ := node'
          obtain rfl : d = d' := hturns.1
          subst e2
          unfold inputs at e
          cases d
          · simp only [Bool.false_eq_true, if_false, Prod.mk.injEq] at e
            exact ⟨e.1, by rw [e.2]⟩
          · simp only [if_true, Prod.mk.injEq] at e
            exact ⟨e.2, by rw [e.1]⟩
        · right
          refine ⟨0, node, node', leaf, leaf', rfl, rfl, rfl, rfl, e, ?_⟩
          rw [← hstep, ← hstep, hv, hv', e1]
      · right
        refine ⟨i + 1, n, n', u, u', h1, h2, ?_, ?_, h5, h6⟩
        · rw [List.take_succ_cons, List.foldlM_cons, hv]
          exact h3
        · rw [List.take_succ_cons, List.foldlM_cons, hv']
          exact h4

end

/-- C93 for the constants of the example: a collision is a relation between the points of the table. -/
theorem C93_example (x y x' y' : Fp) (hne : (x, y) ≠ (x', y'))
    (h : merkle_hash (fun x : Fp => toUint x) tables x y = merkle_hash (fun x : Fp => toUint x) tables x' y') :
    (combination bases 0 (fun i => bit x.val i - bit x'.val i) (fun i => bit y.val i - bit y'.val i) = 0 ∧
      ∃ i < 252, bit x.val i - bit x'.val i ≠ 0 ∨ bit y.val i - bit y'.val i ≠ 0) ∨
    combination bases 2 (fun i => bit x.val i + bit x'.val i) (fun i => bit y.val i + bit y'.val i) = 0 ∨
    ClashRelation bases x.val y.val ∨ ClashRelation bases x'.val y'.val := by
  have e : ∀ x : Fp, (toUint x).toNat = x.val := fun x => toUint_toNat (by decide +kernel) x
  have := C93_collision two_ne _ _ conversions tables OMEGA bases tables_hold x y x' y' hne h
  simpa only [e] using this

/-- a collision, in the small field of the runs of C84, where the points for the bits are equal -/
example : ((1, 0) : Z × Z) ≠ (2, 0) ∧ merkle_hash rep TreeRun.T 1 0 = merkle_hash rep TreeRun.T 2 0 := ⟨by decide +kernel, by decide +kernel⟩

/-- two pairs without a collision and without exceptional additions: there neither relation holds -/
example : ¬ (combination TreeRun.B 0 (fun i => bit (rep 1).toNat i - bit (rep 0).toNat i) (fun i => bit (rep 0).toNat i - bit (rep 0).toNat i) = 0 ∨
    combination TreeRun.B 2 (fun i => bit (rep 1).toNat i + bit (rep 0).toNat i) (fun i => bit (rep 0).toNat i + bit (rep 0).toNat i) = 0) := by
  have r1 := (TreeRun.regular 1 0 (Or.inr (by decide +kernel)) (by decide +kernel)).2.2
  have r0 := (TreeRun.regular 0 0 (Or.inl (by decide +kernel)) (by decide +kernel)).2.2
  rw [clash_iff] at r1 r0
  rw [← C93_exact (by decide +kernel) rep _ TreeRun.conversions TreeRun.T _ TreeRun.B TreeRun.tables_hold 1 0 0 0 r1 r0, TreeRun.hash_one, TreeRun.hash_zero]
  decide +kernel

end PedersenCollision
end Props
end OpenZKP
