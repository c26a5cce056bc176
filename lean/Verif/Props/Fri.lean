import Verif.Stark.Fri
import Verif.Props.Polynomial
import Verif.Props.Channel
import Mathlib.Algebra.Polynomial.Expand

/-!
# FRI folding and query positions: C39, C40
-/

namespace OpenZKP
namespace Props
open FFT Stark Polynomial

section
variable {F : Type} [Field F] [DecidableEq F]

/-! ## C39: specification -/

/-- The even part of a polynomial: its coefficient `i` is coefficient `2i` of `P`. -/
noncomputable def evenPart (P : F[X]) : F[X] := contract 2 P
/-- The odd part of a polynomial: its coefficient `i` is coefficient `2i + 1` of `P`. -/
noncomputable def oddPart (P : F[X]) : F[X] := contract 2 (divX P)

omit [DecidableEq F] in
/-- check of the specification: `P(X) = even(X^2) + X · odd(X^2)` -/
theorem even_odd (P : F[X]) : P = expand F 2 (evenPart P) + X * expand F 2 (oddPart P) := by
  ext n
  rw [coeff_add]
  unfold evenPart oddPart
  rcases Nat.even_or_odd' n with ⟨m, rfl | rfl⟩
  · rw [Nat.mul_comm 2 m, coeff_expand_mul (by norm_num), coeff_contract (by norm_num)]
    cases m with
    | zero => simp
    | succ m =>
      rw [show (m + 1) * 2 = (2 * m + 1) + 1 by ring, coeff_X_mul, coeff_expand (by norm_num), if_neg (by omega), add_zero]
  · rw [coeff_X_mul, Nat.mul_comm 2 m, coeff_expand_mul (by norm_num), coeff_contract (by norm_num), coeff_expand (by norm_num),
      if_neg (by omega), zero_add, coeff_divX]

/-- The folded polynomial: `2 · (even + α · odd)`. -/
noncomputable def foldPoly (α : F) (P : F[X]) : F[X] := C 2 * (evenPart P + C α * oddPart P)

/-- `k` successive folds with the challenges `α`, `α^2`, `α^4`, ... -/
noncomputable def foldPolys : Nat → F → F[X] → F[X]
  | 0, _, P => P
  | k + 1, α, P => foldPolys k (α ^ 2) (foldPoly α P)

/-- A layer: the values of `P` at the powers of `w`, over the domain of size `2^m`, in bit-reversed order. -/
def IsLayer (m : Nat) (w : F) (P : F[X]) (L : List F) : Prop :=
  L.length = 2 ^ m ∧ ∀ i f, i < 2 ^ m → IsBitRev m i f → L[i]? = some (P.eval (w ^ f))

/-! ## Helper lemmas -/

omit [DecidableEq F] in
theorem fold_eval (α x : F) (hx : x ≠ 0) (P : F[X]) :
    (P.eval x + P.eval (-x)) + α * x⁻¹ * (P.eval x - P.eval (-x)) = (foldPoly α P).eval (x ^ 2) := by
  have e1 : P.eval x = (evenPart P).eval (x ^ 2) + x * (oddPart P).eval (x ^ 2) := by
    conv_lhs => rw [even_odd P]
    rw [eval_add, eval_mul, eval_X, expand_eval, expand_eval]
  have e2 : P.eval (-x) = (evenPart P).eval (x ^ 2) - x * (oddPart P).eval (x ^ 2) := by
    conv_lhs => rw [even_odd P]
    rw [eval_add, eval_mul, eval_X, expand_eval, expand_eval, neg_sq]; ring
  rw [e1, e2]
  unfold foldPoly
  rw [eval_mul, eval_add, eval_mul, eval_C, eval_C]
  field_simp
  ring

omit [DecidableEq F] in
theorem foldPoly_degree (α : F) (P : F[X]) (d : Nat) (h : P.degree < (2 * d : Nat)) : (foldPoly α P).degree < d := by
  rw [degree_lt_iff_coeff_zero] at h ⊢
  intro m hm
  unfold foldPoly evenPart oddPart
  rw [coeff_C_mul, coeff_add, coeff_C_mul, coeff_contract (by norm_num), coeff_contract (by norm_num), coeff_divX,
    h _ (by omega), h _ (by omega)]
  ring

omit [DecidableEq F] in
theorem foldPairs_length (c : F) (L xs : List F) : (foldPairs c L xs).length = min (L.length / 2) xs.length := by
  fun_induction foldPairs c L xs with
  | case1 p0 p1 ps x xs ih => simp only [List.length_cons]; rw [ih]; omega
  | case2 L xs h =>
    match L, xs with
    | [], _ => simp
    | [_], _ => simp
    | _ :: _ :: _, [] => simp
    | a :: b :: r, x :: xs => exact absurd rfl (h a b r x xs rfl)

omit [DecidableEq F] in
theorem foldPairs_get (c : F) (i : Nat) : ∀ (L xs : List F) (a b x : F), L[2 * i]? = some a → L[2 * i + 1]? = some b → xs[i]? = some x →
    (foldPairs c L xs)[i]? = some ((a + b) + c * x * (a - b)) := by
  induction i with
  | zero =>
    intro L xs a b x h1 h2 h3
    match L, xs with
    | [], _ => simp at h1
    | [_], _ => simp at h2
    | _ :: _ :: _, [] => simp at h3
    | p0 :: p1 :: r, x0 :: xs =>
      simp at h1 h2 h3
      subst h1 h2 h3
      simp [foldPairs]
  | succ i ih =>
    intro L xs a b x h1 h2 h3
    match L, xs with
    | [], _ => simp at h1
    | [_], _ => simp at h2
    | _ :: _ :: _, [] => simp at h3
    | p0 :: p1 :: r, x0 :: xs =>
      rw [foldPairs, List.getElem?_cons_succ]
      rw [show 2 * (i + 1) = 2 * i + 1 + 1 by ring, List.getElem?_cons_succ, List.getElem?_cons_succ] at h1
      rw [show 2 * (i + 1) + 1 = 2 * i + 1 + 1 + 1 by ring, List.getElem?_cons_succ, List.getElem?_cons_succ] at h2
      rw [List.getElem?_cons_succ] at h3
      exact ih r xs a b x h1 h2 h3

omit [DecidableEq F] in
theorem unsl_length (n : Nat) (v : Slice F) : (unsl n v).length = n := by simp [unsl]
omit [DecidableEq F] in
theorem unsl_get (n : Nat) (v : Slice F) (i : Nat) (h : i < n) : (unsl n v)[i]? = some (v i) := by
  unfold unsl; rw [List.getElem?_map, List.getElem?_range h]; rfl
omit [DecidableEq F] in
theorem sl_map_range (n : Nat) (f : Nat → F) (i : Nat) (h : i < n) : sl ((List.range n).map f) i = f i := by
  unfold sl; rw [List.getD, List.getElem?_map, List.getElem?_range h]; rfl

theorem friInverses_spec (root : Nat → Option F) (hroot : RootFn root) (M : Nat) (hM : M < 64) (W : F)
    (hW : root (2 ^ (M + 1)) = some W) (hM' : M + 1 < 64) :
    ∃ xs, friInverses root (2 ^ (M + 1)) = some xs ∧ xs.length = 2 ^ M ∧ ∀ i, i < 2 ^ M → xs[i]? = some ((W ^ rev M i)⁻¹) := by
  have ho := hroot _ W (Nat.two_pow_pos _) (Nat.pow_lt_pow_right (by norm_num) hM') hW
  have hne : W ≠ 0 := by
    intro h
    rw [h] at ho
    have := pow_orderOf_eq_one (0 : F)
    rw [ho, zero_pow (by positivity)] at this
    exact zero_ne_one this
  have e2 : 2 ^ (M + 1) / 2 = 2 ^ M := by rw [pow_succ]; omega
  refine ⟨unsl (2 ^ M) (permute (2 ^ M) (sl ((List.range (2 ^ M)).map fun i => W⁻¹ ^ i))), ?_, unsl_length _ _, ?_⟩
  · unfold friInverses finv
    rw [hW, Option.bind_some, if_neg hne, Option.map_some, e2]
  · intro i hi
    rw [unsl_get _ _ _ hi, permute_eq M hM, if_pos hi, sl_map_range _ _ _ (rev_lt M i), inv_pow]

omit [DecidableEq F] in
theorem neg_one_half (m : Nat) (w : F) (ho : orderOf w = 2 ^ (m + 1)) : w ^ 2 ^ m = -1 := by
  have h1 : (w ^ 2 ^ m) ^ 2 = 1 := by
    rw [← pow_mul, ← pow_succ, ← ho]; exact pow_orderOf_eq_one w
  rcases sq_eq_one_iff_of_ne_zero_or h1 with h | h
  · exfalso
    have := orderOf_dvd_of_pow_eq_one h
    rw [ho] at this
    have := Nat.le_of_dvd (Nat.two_pow_pos m) this
    have : 2 ^ m < 2 ^ (m + 1) := Nat.pow_lt_pow_right (by norm_num) (by omega)
    omega
  · exact h
where
  sq_eq_one_iff_of_ne_zero_or {x : F} (h : x ^ 2 = 1) : x = 1 ∨ x = -1 := by
    have : (x - 1) * (x + 1) = 0 := by ring_nf; rw [h]; ring
    rcases mul_eq_zero.1 this with h | h
    · left; exact sub_eq_zero.1 h
    · right; exact eq_neg_of_add_eq_zero_left h

/-- the values of a pair and its inverse point in a layer of the domain generated by `W ^ 2^(M - m)` -/
theorem layer_pair (m : Nat) (w : F) (ho : orderOf w = 2 ^ (m + 1)) (P : F[X]) (L : List F) (h : IsLayer (m + 1) w P L) (i : Nat)
    (hi : i < 2 ^ m) :
    L[2 * i]? = some (P.eval (w ^ rev m i)) ∧ L[2 * i + 1]? = some (P.eval (-(w ^ rev m i))) := by
  have hp : 2 ^ (m + 1) = 2 * 2 ^ m := by rw [pow_succ]; ring
  constructor
  · rw [h.2 (2 * i) _ (by omega) ((isBitRev_iff _ _ _).2 rfl), rev_two_mul]
  · rw [h.2 (2 * i + 1) _ (by omega) ((isBitRev_iff _ _ _).2 rfl), rev_two_mul_add, pow_add, neg_one_half m w ho, mul_neg_one]

omit [DecidableEq F] in
theorem orderOf_ne_zero {w : F} {k : Nat} (ho : orderOf w = 2 ^ k) : w ≠ 0 := by
  intro h
  rw [h] at ho
  have := pow_orderOf_eq_one (0 : F)
  rw [ho, zero_pow (by positivity)] at this
  exact zero_ne_one this

theorem fold_step (M m : Nat) (hm : m ≤ M) (W : F) (hW : orderOf W = 2 ^ (M + 1)) (xs : List F)
    (hx : xs.length = 2 ^ M ∧ ∀ i, i < 2 ^ M → xs[i]? = some ((W ^ rev M i)⁻¹)) (c : F) (P : F[X]) (L : List F)
    (h : IsLayer (m + 1) (W ^ 2 ^ (M - m)) P L) :
    IsLayer m (W ^ 2 ^ (M - m + 1)) (foldPoly c P) (foldPairs c L xs) := by
  have ho : orderOf (W ^ 2 ^ (M - m)) = 2 ^ (m + 1) := by
    rw [orderOf_pow_of_dvd (by positivity) (by rw [hW]; exact pow_dvd_pow 2 (by omega)), hW, Nat.pow_div (by omega) (by norm_num)]
    congr 1; omega
  have hle : 2 ^ m ≤ 2 ^ M := Nat.pow_le_pow_right (by norm_num) hm
  have hp : 2 ^ (m + 1) = 2 * 2 ^ m := by rw [pow_succ]; ring
  refine ⟨by rw [foldPairs_length, h.1, hx.1]; omega, ?_⟩
  intro i f hi hf
  rw [(isBitRev_iff _ _ _).1 hf]
  obtain ⟨h1, h2⟩ := layer_pair m _ ho P L h i hi
  have h3 := hx.2 i (by omega)
  have e : W ^ rev M i = (W ^ 2 ^ (M - m)) ^ rev m i := by
    have := rev_lt_pow m (M - m) i hi
    rw [show M - m + m = M by omega] at this
    rw [this, ← pow_mul, Nat.mul_comm]
  rw [foldPairs_get c i L xs _ _ _ h1 h2 h3, e, fold_eval _ _ (pow_ne_zero _ (orderOf_ne_zero ho)), ← pow_mul, ← pow_mul, ← pow_mul]
  congr 3
  rw [pow_succ]; ring

theorem stages_spec (M k : Nat) (W : F) (hW : orderOf W = 2 ^ M) (xs : List F)
    (hx : ∀ M', M = M' + 1 → xs.length = 2 ^ M' ∧ ∀ i, i < 2 ^ M' → xs[i]? = some ((W ^ rev M' i)⁻¹)) :
    ∀ (m : Nat) (hm : m + k ≤ M) (c : F) (P : F[X]) (L : List F) (_ : IsLayer (m + k) (W ^ 2 ^ (M - (m + k))) P L),
    IsLayer m (W ^ 2 ^ (M - m)) (foldPolys k c P) (foldStages xs k c L) := by
  induction k with
  | zero => intro m hm c P L h; exact h
  | succ k ih =>
    intro m hm c P L h
    rw [foldPolys, foldStages]
    apply ih m (by omega)
    obtain ⟨M', rfl⟩ : ∃ M', M = M' + 1 := ⟨M - 1, by omega⟩
    have := fold_step M' (m + k) (by omega) W hW xs (hx M' rfl) c P L
    rw [show M' - (m + k) = M' + 1 - (m + (k + 1)) by omega, show M' + 1 - (m + (k + 1)) + 1 = M' + 1 - (m + k) by omega] at this
    exact this h

/-! ## C39: theorems -/

/-- C39: for a first layer of size `2^M` (`W` is the root of unity of that order and `x_inv` the table computed from it),
folding the layer of `P` over the domain of size `2^(m+1)` gives the layer of `2 (even + c odd)` over the squared domain. -/
theorem C39_fold (root : Nat → Option F) (hroot : RootFn root) (M m : Nat) (hM : M + 1 < 64) (hm : m ≤ M) (W : F)
    (hW : root (2 ^ (M + 1)) = some W) :
    ∃ x_inv, friInverses root (2 ^ (M + 1)) = some x_inv ∧ ∀ (c : F) (P : F[X]) (L : List F) (w : F), w = W ^ 2 ^ (M - m) →
      IsLayer (m + 1) w P L → IsLayer m (w ^ 2) (foldPoly c P) (foldPairs c L x_inv) := by
  obtain ⟨xs, h1, h2⟩ := friInverses_spec root hroot M (by omega) W hW hM
  refine ⟨xs, h1, ?_⟩
  rintro c P L w rfl h
  have ho := hroot _ W (Nat.two_pow_pos _) (Nat.pow_lt_pow_right (by norm_num) hM) hW
  rw [← pow_mul, ← pow_succ]
  exact fold_step M m hm W ho xs h2 c P L h

omit [DecidableEq F] in
/-- C39: `k` folds divide the bound on the degree by `2^k`. -/
theorem C39_degree (k d : Nat) (c : F) (P : F[X]) (h : P.degree < (d * 2 ^ k : Nat)) : (foldPolys k c P).degree < d := by
  induction k generalizing c P with
  | zero => rw [foldPolys]; simpa using h
  | succ k ih =>
    rw [foldPolys]
    apply ih
    apply foldPoly_degree
    rw [show 2 * (d * 2 ^ k) = d * 2 ^ (k + 1) by rw [pow_succ]; ring]
    exact h

/-- C39: one step of the layout with `k ∈ {1,2,3,4}` reductions turns the layer of `P` over the domain of size `2^(m+k)` into
the layer of the `k`-fold folded polynomial over the domain of size `2^m`. -/
theorem C39_layer (root : Nat → Option F) (hroot : RootFn root) (M m k : Nat) (hM : M < 64) (hk : 1 ≤ k ∧ k ≤ 4) (hm : m + k ≤ M) (W : F)
    (hW : root (2 ^ M) = some W) :
    ∃ x_inv, friInverses root (2 ^ M) = some x_inv ∧ ∀ (c : F) (P : F[X]) (L : List F), IsLayer (m + k) (W ^ 2 ^ (M - (m + k))) P L →
      ∃ L', foldLayer x_inv k c L = some L' ∧ IsLayer m (W ^ 2 ^ (M - m)) (foldPolys k c P) L' := by
  obtain ⟨M', rfl⟩ : ∃ M', M = M' + 1 := ⟨M - 1, by omega⟩
  obtain ⟨xs, h1, h2⟩ := friInverses_spec root hroot M' (by omega) W hW hM
  have ho := hroot _ W (Nat.two_pow_pos _) (Nat.pow_lt_pow_right (by norm_num) hM) hW
  refine ⟨xs, h1, ?_⟩
  intro c P L h
  refine ⟨_, by unfold foldLayer; rw [if_pos hk], ?_⟩
  exact stages_spec (M' + 1) k W ho xs (by rintro _ e; cases e; exact h2) m hm c P L h

theorem friFoldPairs_spec (M m : Nat) (hm : m ≤ M) (hM : M + 1 < 64) (W : F) (hW : orderOf W = 2 ^ (M + 1)) (xs : List F)
    (hx : xs.length = 2 ^ M ∧ ∀ i, i < 2 ^ M → xs[i]? = some ((W ^ rev M i)⁻¹)) (c : F) (L : List F) (hL : L.length = 2 ^ (m + 1))
    (index : Nat) (n : Nat) : ∀ (k : Nat) (coset : List F), coset.length = 2 * n → index + k + n ≤ 2 ^ m →
      (∀ t < coset.length, coset[t]? = L[2 * (index + k) + t]?) →
      ∃ next, friFoldPairs ((List.range (2 ^ (M + 1))).map (W ^ ·)) c (2 ^ (M - m)) index (2 ^ (m + 1)) k coset = some next ∧
        next.length = n ∧ ∀ t < n, next[t]? = (foldPairs c L xs)[index + k + t]? := by
  have hle : 2 ^ m ≤ 2 ^ M := Nat.pow_le_pow_right (by norm_num) hm
  induction n with
  | zero =>
    intro k coset hc _ _
    have : coset = [] := List.length_eq_zero_iff.1 (by omega)
    subst this
    exact ⟨[], rfl, rfl, by intro t ht; omega⟩
  | succ n ih =>
    intro k coset hc hb hg
    match coset, hc with
    | p0 :: p1 :: rest, hc =>
      simp only [List.length_cons] at hc
      have g0 : L[2 * (index + k)]? = some p0 := by
        have := hg 0 (by simp); simpa using this.symm
      have g1 : L[2 * (index + k) + 1]? = some p1 := by
        have := hg 1 (by simp); simpa using this.symm
      obtain ⟨next, h1, h2, h3⟩ := ih (k + 1) rest (by omega) (by omega) (by
        intro t ht
        have := hg (t + 2) (by simp; omega)
        simp only [List.getElem?_cons_succ] at this
        rw [this]; congr 1; ring)
      have hik : index + k < 2 ^ m := by omega
      have e2 : 2 ^ (m + 1) / 2 = 2 ^ m := by rw [pow_succ]; omega
      have hlt : rev m (index + k) * 2 ^ (M - m) < 2 ^ (M + 1) := by
        have := rev_lt m (index + k)
        calc rev m (index + k) * 2 ^ (M - m) < 2 ^ m * 2 ^ (M - m) := by
              apply Nat.mul_lt_mul_of_pos_right this (Nat.two_pow_pos _)
          _ = 2 ^ M := by rw [← pow_add]; congr 1; omega
          _ < _ := Nat.pow_lt_pow_right (by norm_num) (by omega)
      have e : rev M (index + k) = rev m (index + k) * 2 ^ (M - m) := by
        have := rev_lt_pow m (M - m) (index + k) hik
        rwa [show M - m + m = M by omega] at this
      have hxne : W ^ (rev m (index + k) * 2 ^ (M - m)) ≠ 0 := pow_ne_zero _ (orderOf_ne_zero hW)
      refine ⟨((p0 + p1) + c * (W ^ (rev m (index + k) * 2 ^ (M - m)))⁻¹ * (p0 - p1)) :: next, ?_, by simp [h2], ?_⟩
      · rw [friFoldPairs, e2, permute_index_eq m _ (by omega) hik, List.getElem?_map, List.getElem?_range hlt, Option.map_some,
          Option.bind_some]
        unfold fri_single_fold finv
        rw [if_neg hxne, Option.map_some, Option.bind_some, h1, Option.map_some]
      · intro t ht
        cases t with
        | zero =>
          rw [List.getElem?_cons_zero, Nat.add_zero,
            foldPairs_get c (index + k) L xs _ _ _ g0 g1 (hx.2 _ (by omega)), e]
        | succ t =>
          rw [List.getElem?_cons_succ, h3 t (by omega)]
          congr 1; ring

theorem friFoldLoop_spec (M : Nat) (hM : M < 64) (W : F) (hW : orderOf W = 2 ^ M) (xs : List F)
    (hx : ∀ M', M = M' + 1 → xs.length = 2 ^ M' ∧ ∀ i, i < 2 ^ M' → xs[i]? = some ((W ^ rev M' i)⁻¹)) (k : Nat) :
    ∀ (m fuel : Nat) (_ : m + k ≤ M) (c : F) (L coset : List F) (_ : L.length = 2 ^ (m + k)) (i : Nat) (_ : i < 2 ^ m)
      (_ : coset.length = 2 ^ k) (_ : ∀ t < 2 ^ k, coset[t]? = L[i * 2 ^ k + t]?) (_ : k < fuel)
      (index : Nat) (_ : k ≠ 0 → index = 2 ^ k / 2 * i),
      friFoldLoop ((List.range (2 ^ M)).map (W ^ ·)) fuel coset c (2 ^ (M - (m + k))) index (2 ^ (m + k))
        = (foldStages xs k c L)[i]? := by
  induction k with
  | zero =>
    intro m fuel hm c L coset hL i hi hc hg hf index hidx
    obtain ⟨fuel, rfl⟩ : ∃ f, fuel = f + 1 := ⟨fuel - 1, by omega⟩
    rw [friFoldLoop, if_neg (by rw [hc]; norm_num), hg 0 (by norm_num), foldStages]
    simp
  | succ k ih =>
    intro m fuel hm c L coset hL i hi hc hg hf index hidx
    obtain ⟨fuel, rfl⟩ : ∃ f, fuel = f + 1 := ⟨fuel - 1, by omega⟩
    obtain ⟨M', rfl⟩ : ∃ M', M = M' + 1 := ⟨M - 1, by omega⟩
    have hp : 2 ^ (k + 1) = 2 * 2 ^ k := by rw [pow_succ]; ring
    have hpk := Nat.two_pow_pos k
    have e1 : 2 ^ (k + 1) / 2 = 2 ^ k := by omega
    have hik : i * 2 ^ k + 2 ^ k ≤ 2 ^ (m + k) := by
      rw [pow_add]
      calc i * 2 ^ k + 2 ^ k = (i + 1) * 2 ^ k := by ring
        _ ≤ _ := Nat.mul_le_mul_right _ hi
    rw [friFoldLoop, if_pos (by omega), hidx (by omega), e1]
    obtain ⟨next, h1, h2, h3⟩ := friFoldPairs_spec M' (m + k) (by omega) hM W hW xs (hx M' rfl) c L hL (2 ^ k * i) (2 ^ k) 0 coset
      (by omega) (by rw [Nat.mul_comm]; omega) (by
        intro t ht
        rw [hg t (by omega)]; congr 1; rw [hp]; ring)
    rw [show M' - (m + k) = M' + 1 - (m + (k + 1)) by omega, show m + k + 1 = m + (k + 1) by ring] at h1
    rw [h1, Option.bind_some, foldStages]
    have hL' : (foldPairs c L xs).length = 2 ^ (m + k) := by
      have : 2 ^ (m + k) ≤ 2 ^ M' := Nat.pow_le_pow_right (by norm_num) (by omega)
      rw [foldPairs_length, hL, (hx M' rfl).1, show m + (k + 1) = m + k + 1 by ring, pow_succ]; omega
    have := ih m fuel (by omega) (c ^ 2) (foldPairs c L xs) next hL' i hi h2 (by
      intro t ht
      rw [h3 t ht]; congr 1; ring) (by omega) (2 ^ k * i / 2) (by
      intro hk
      obtain ⟨k, rfl⟩ : ∃ k', k = k' + 1 := ⟨k - 1, by omega⟩
      have hp' : 2 ^ (k + 1) = 2 * 2 ^ k := by rw [pow_succ]; ring
      rw [hp', Nat.mul_assoc, Nat.mul_div_cancel_left _ (by norm_num), Nat.mul_div_cancel_left _ (by norm_num)])
    rw [← this]
    congr 1
    · rw [← pow_succ]; congr 1; omega
    · rw [show m + (k + 1) = m + k + 1 by ring, pow_succ]; omega

/-- C39: the verifier, given the `2^k` values at the positions `i·2^k, ...` of a layer, computes what the prover's `k` folds of
the whole layer have at position `i`. -/
theorem C39_verifier (root : Nat → Option F) (hroot : RootFn root) (M m k : Nat) (hM : M < 64) (hk : 1 ≤ k) (hm : m + k ≤ M) (W : F)
    (hW : root (2 ^ M) = some W) :
    ∃ x_inv, friInverses root (2 ^ M) = some x_inv ∧ ∀ (c : F) (L : List F), L.length = 2 ^ (m + k) → ∀ i < 2 ^ m,
      ∃ v, fri_fold ((L.drop (i * 2 ^ k)).take (2 ^ k)) c (2 ^ (M - (m + k))) (2 ^ k / 2 * i) (2 ^ (m + k))
          ((List.range (2 ^ M)).map (W ^ ·)) = some v ∧
        (foldStages x_inv k c L)[i]? = some v := by
  obtain ⟨M', rfl⟩ : ∃ M', M = M' + 1 := ⟨M - 1, by omega⟩
  obtain ⟨xs, h1, h2⟩ := friInverses_spec root hroot M' (by omega) W hW hM
  have ho := hroot _ W (Nat.two_pow_pos _) (Nat.pow_lt_pow_right (by norm_num) hM) hW
  refine ⟨xs, h1, ?_⟩
  intro c L hL i hi
  have hik : i * 2 ^ k + 2 ^ k ≤ 2 ^ (m + k) := by
    rw [pow_add]
    calc i * 2 ^ k + 2 ^ k = (i + 1) * 2 ^ k := by ring
      _ ≤ _ := Nat.mul_le_mul_right _ hi
  have hlen : ((L.drop (i * 2 ^ k)).take (2 ^ k)).length = 2 ^ k := by
    rw [List.length_take, List.length_drop]; omega
  have := friFoldLoop_spec (M' + 1) hM W ho xs (by rintro _ e; cases e; exact h2) k m
    (((L.drop (i * 2 ^ k)).take (2 ^ k)).length + 1) hm c L _ hL i hi hlen (by
      intro t ht
      rw [List.getElem?_take, if_pos ht, List.getElem?_drop]) (by rw [hlen]; have := Nat.lt_two_pow_self (n := k); omega) _ (fun _ => rfl)
  have hlen' : ∀ (k : Nat) (c : F) (L : List F) (m : Nat), m + k ≤ M' + 1 → L.length = 2 ^ (m + k) → (foldStages xs k c L).length = 2 ^ m := by
    intro k
    induction k with
    | zero => intro c L m _ h; exact h
    | succ k ih =>
      intro c L m hm h
      rw [foldStages]
      apply ih _ _ _ (by omega)
      have : 2 ^ (m + k) ≤ 2 ^ M' := Nat.pow_le_pow_right (by norm_num) (by omega)
      rw [foldPairs_length, h, h2.1, show m + (k + 1) = m + k + 1 by ring, pow_succ]; omega
  have hb : i < (foldStages xs k c L).length := by rw [hlen' k c L m hm hL]; exact hi
  refine ⟨(foldStages xs k c L)[i], ?_, List.getElem?_eq_getElem hb⟩
  unfold fri_fold
  rw [this, List.getElem?_eq_getElem hb]

/-- C39: from the layer of a polynomial of degree below `2^r`, over a domain `2^b` times larger, the prover recovers exactly its
`2^r` coefficients. -/
theorem C39_final (root : Nat → Option F) (hroot : RootFn root) (hcompat : RootCompat root) (r b : Nat) (hrb : r + b < 64) (w : F)
    (hw : root (2 ^ (r + b)) = some w) (P : F[X]) (hP : P.degree < (2 ^ r : Nat)) (L : List F) (h : IsLayer (r + b) w P L) :
    ∃ l, friFinal root (2 ^ b) L = some l ∧ l.length = 2 ^ r ∧ toPoly l = P := by
  have hw' := hcompat r b w hrb hw
  have hn : L.length / 2 ^ b = 2 ^ r := by rw [h.1, pow_add, Nat.mul_div_cancel _ (Nat.two_pow_pos _)]
  have hle : 2 ^ r ≤ 2 ^ (r + b) := Nat.pow_le_pow_right (by norm_num) (by omega)
  set l := (List.range (2 ^ r)).map P.coeff with hl
  have hll : l.length = 2 ^ r := by simp [hl]
  have hlP : toPoly l = P := by
    ext i
    rw [toPoly_coeff]
    by_cases hi : i < 2 ^ r
    · rw [hl]
      show sl _ i = _
      rw [sl_map_range _ _ _ hi]
    · rw [degree_lt_iff_coeff_zero] at hP
      rw [hP i (by omega)]
      simp [List.getD, List.getElem?_eq_none (show l.length ≤ i by omega)]
  obtain ⟨a, f, h1, h2, h3⟩ := C21_ifft_fft root hroot r (by omega) _ hw' (sl l)
  obtain ⟨a', g1, g2, g3⟩ := C20_fft root hroot r (by omega) _ hw' (sl l)
  have : a' = a := by rw [g1] at h1; exact Option.some.inj h1
  subst this
  have ea : sl (L.take (2 ^ r)) = a' := by
    funext i
    by_cases hi : i < 2 ^ r
    · rw [g2 i _ hi ((isBitRev_iff _ _ _).2 rfl), ← hll]
      show _ = ∑ j ∈ Finset.range l.length, l.getD j 0 * _ ^ j
      rw [sum_toPoly, hlP]
      unfold sl
      rw [List.getD, List.getElem?_take, if_pos (by omega), h.2 i _ (by omega) ((isBitRev_iff _ _ _).2 rfl), Option.getD_some]
      have := rev_lt_pow r b i hi
      rw [Nat.add_comm b r] at this
      rw [this, ← pow_mul, Nat.mul_comm]
    · rw [g3 i (by omega)]
      unfold sl
      rw [List.getD, List.getElem?_eq_none (by rw [List.length_take]; omega)]
      simp [List.getD, List.getElem?_eq_none (show l.length ≤ i by omega)]
  refine ⟨l, ?_, hll, hlP⟩
  unfold friFinal
  rw [if_neg (by positivity)]
  dsimp only
  rw [hn, ea, h2, Option.map_some, h3]
  congr 1
  apply List.ext_getElem?
  intro i
  by_cases hi : i < 2 ^ r
  · rw [unsl_get _ _ _ hi, hl, sl_map_range _ _ _ hi, List.getElem?_map, List.getElem?_range hi]; rfl
  · rw [List.getElem?_eq_none (by rw [unsl_length]; omega), List.getElem?_eq_none (by omega)]

/-- the roots of `root5` are powers of each other -/
theorem root5_compat : RootCompat root5 := by
  intro a b w _ h
  have hle : a + b ≤ 2 := by
    by_contra hc
    have : 2 ^ 3 ≤ 2 ^ (a + b) := Nat.pow_le_pow_right (by norm_num) (by omega)
    generalize 2 ^ (a + b) = n at *
    unfold root5 at h
    split at h <;> first | omega | simp at h
  have ha : a ≤ 2 := by omega
  have hb : b ≤ 2 := by omega
  interval_cases a <;> interval_cases b <;> simp_all [root5] <;> (subst h; decide)

-- 3 + X on the four points of the domain generated by 2 in the field of 5 elements, in bit-reversed order
theorem layer5 : IsLayer 2 (2 : ZMod 5) (toPoly [3, 1]) [4, 2, 0, 1] := by
  refine ⟨rfl, ?_⟩
  intro i f hi hf
  rw [(isBitRev_iff _ _ _).1 hf, ← C37_evaluate]
  have : i < 4 := hi
  interval_cases i <;> decide +kernel

-- its fold by 3 is the constant 2 · (3 + 3 · 1), and the verifier finds the same
example : ∃ x_inv, friInverses root5 4 = some x_inv ∧ foldLayer x_inv 1 3 [4, 2, 0, 1] = some [2, 2] ∧
    fri_fold [0, 1] 3 1 1 4 ((List.range 4).map ((2 : ZMod 5) ^ ·)) = some 2 ∧ friFinal root5 2 [4, 2, 0, (1 : ZMod 5)] = some [3, 1] :=
  ⟨_, rfl, by decide +kernel, by decide +kernel, by decide +kernel⟩

example : ∃ l, friFinal root5 (2 ^ 1) [4, 2, 0, 1] = some l ∧ l.length = 2 ^ 1 ∧ toPoly l = toPoly [3, 1] :=
  C39_final root5 root5_ok root5_compat 1 1 (by norm_num) 2 rfl _ (toPoly_degree_lt [3, 1]) _ layer5

end

/-! ## C40 -/

section
variable (K : Keccak)

/-- Specification: the `j`-th word of 64 bits of the random stream of a coin, each block being read from its most significant
word down, reduced modulo `2^bits`. -/
def queryWord (c : PublicCoin) (bits j : Nat) : Nat :=
  block K c (c.counter + j / 4) / 2 ^ (64 * (3 - j % 4)) % 2 ^ bits

theorem indexMask_eq (dbg : Bool) (bits : Nat) (h : bits < 64) :
    ∃ m, indexMask dbg bits = some m ∧ ∀ x : UInt64, (x &&& m).toNat = x.toNat % 2 ^ bits := by
  refine ⟨UInt64.ofNat (2 ^ bits) - 1, by unfold indexMask; rw [if_pos h], ?_⟩
  intro x
  have h1 : (UInt64.ofNat (2 ^ bits)).toNat = 2 ^ bits := by
    rw [UInt64.toNat_ofNat']; exact Nat.mod_eq_of_lt (Nat.pow_lt_pow_right (by norm_num) h)
  have h2 : (UInt64.ofNat (2 ^ bits) - 1).toNat = 2 ^ bits - 1 := by
    rw [UInt64.toNat_sub_of_le _ _ (by rw [UInt64.le_iff_toNat_le, h1]; exact Nat.one_le_two_pow), h1]; rfl
  rw [UInt64.toNat_and, h2, Nat.and_two_pow_sub_one_eq_mod]

theorem l0_toNat_mod (x : U256) : x.l0.toNat = x.toNat % 2 ^ 64 := by
  have := x.l0.toNat_lt
  unfold U256.toNat
  omega

theorem four_eq (val : U256) (m : UInt64) : proverFour val m = verifierFour val m := by
  have : ∀ x : U256, UInt64.ofNat (U256.as_uint 64 x) = x.l0 := by
    intro x
    unfold U256.as_uint
    rw [Nat.mod_eq_of_lt x.l0.toNat_lt, UInt64.ofNat_toNat]
  unfold proverFour verifierFour
  simp only [this]

theorem four_words (c : PublicCoin) (bits n : Nat) (h : bits < 64) (val : U256) (hv : val.toNat = block K c (c.counter + n)) (m : UInt64)
    (hm : ∀ x : UInt64, (x &&& m).toNat = x.toNat % 2 ^ bits) :
    verifierFour val m = (List.range 4).map fun t => queryWord K c bits (4 * n + t) := by
  have key : ∀ (x : U256) , (x.l0 &&& m).toNat = x.toNat % 2 ^ bits := by
    intro x
    rw [hm, l0_toNat_mod, Nat.mod_mod_of_dvd _ (pow_dvd_pow 2 h.le)]
  have e : ∀ t < 4, queryWord K c bits (4 * n + t) = val.toNat / 2 ^ (64 * (3 - t)) % 2 ^ bits := by
    intro t ht
    unfold queryWord
    rw [show (4 * n + t) / 4 = n by omega, show (4 * n + t) % 4 = t by omega, hv]
  unfold verifierFour
  rw [key, key, key, key, U256.shr_div, U256.shr_div, U256.shr_div]
  show _ = [queryWord K c bits (4 * n + 0), queryWord K c bits (4 * n + 1), queryWord K c bits (4 * n + 2), queryWord K c bits (4 * n + 3)]
  rw [e 0 (by norm_num), e 1 (by norm_num), e 2 (by norm_num), e 3 (by norm_num)]
  norm_num

theorem indexLoop_spec (four : U256 → UInt64 → List Nat) (hfour : four = verifierFour) (dbg : Bool) (num bits : Nat) (h : bits < 64)
    (c : PublicCoin) (hc : c.counter + (num + 3) / 4 < 2 ^ 64) (fuel : Nat) : ∀ n, n ≤ (num + 3) / 4 → num ≤ 4 * (n + fuel) →
    indexLoop K four dbg num bits fuel ((List.range (4 * n)).map (queryWord K c bits)) ⟨c.digest, c.counter + n⟩
      = some ((List.range (4 * ((num + 3) / 4))).map (queryWord K c bits), ⟨c.digest, c.counter + (num + 3) / 4⟩) := by
  have done : ∀ n, n ≤ (num + 3) / 4 → num ≤ 4 * n → n = (num + 3) / 4 := by intro n h1 h2; omega
  induction fuel with
  | zero =>
    intro n hn hf
    rw [indexLoop, if_neg (by simp; omega), ← done n hn (by omega)]
  | succ fuel ih =>
    intro n hn hf
    rw [indexLoop]
    by_cases hlt : 4 * n < num
    · rw [if_pos (by simp; omega)]
      obtain ⟨x, e1, e2⟩ := randomU256_eq K ⟨c.digest, c.counter + n⟩ (by simp only; omega)
      obtain ⟨m, e3, e4⟩ := indexMask_eq dbg bits h
      rw [e1, Option.bind_some, e3, Option.bind_some, hfour, four_words K c bits n h x e2 m e4]
      have := ih (n + 1) (by omega) (by omega)
      rw [show 4 * (n + 1) = 4 * n + 4 by ring, List.range_add, List.map_append, List.map_map] at this
      rw [hfour] at this
      exact this
    · rw [if_neg (by simp; omega), ← done n hn (by omega)]

/-- C40: from equal transcript states prover and verifier draw the same query positions and stay in equal states: the first
`num` words of the random stream, reduced to the domain of `2^bits` points, in ascending order.  (The hypothesis on the counter
excludes the overflow of a 64-bit counter.) -/
theorem C40_indices (dbg : Bool) (num bits : Nat) (h : bits < 64) (pc : ProverChannel) (vc : VerifierChannel) (hcoin : vc.coin = pc.coin)
    (hc : pc.coin.counter + (num + 3) / 4 < 2 ^ 64) :
    ∃ (l : List Nat) (coin : PublicCoin),
      pc.get_indices K dbg num bits = some (l, { pc with coin := coin }) ∧
      vc.get_indices K dbg num bits = some (l, { vc with coin := coin }) ∧
      l.length = num ∧ l.Pairwise (· ≤ ·) ∧ (∀ x ∈ l, x < 2 ^ bits) ∧
      l.Perm ((List.range num).map (queryWord K pc.coin bits)) ∧
      coin = ⟨pc.coin.digest, pc.coin.counter + (num + 3) / 4⟩ := by
  have hp := indexLoop_spec K proverFour (by funext a b; exact four_eq a b) dbg num bits h pc.coin hc num 0 (by omega) (by omega)
  have hv := indexLoop_spec K verifierFour rfl dbg num bits h pc.coin hc num 0 (by omega) (by omega)
  have e0 : (⟨pc.coin.digest, pc.coin.counter + 0⟩ : PublicCoin) = pc.coin := rfl
  rw [e0] at hp hv
  have perm : (sortTruncate num ((List.range (4 * ((num + 3) / 4))).map (queryWord K pc.coin bits))).Perm
      ((List.range num).map (queryWord K pc.coin bits)) := by
    unfold sortTruncate
    refine (List.perm_insertionSort _ _).trans ?_
    rw [← List.map_take, List.take_range, Nat.min_eq_left (by omega)]
  refine ⟨_, _, ?_, ?_, ?_, ?_, ?_, perm, rfl⟩
  · unfold ProverChannel.get_indices; rw [show ([] : List Nat) = (List.range (4 * 0)).map (queryWord K pc.coin bits) from rfl, hp]; rfl
  · unfold VerifierChannel.get_indices
    rw [hcoin, show ([] : List Nat) = (List.range (4 * 0)).map (queryWord K pc.coin bits) from rfl, hv]; rfl
  · rw [perm.length_eq]; simp
  · exact List.pairwise_insertionSort _ _
  · intro x hx
    rw [perm.mem_iff] at hx
    obtain ⟨j, _, rfl⟩ := List.mem_map.1 hx
    exact Nat.mod_lt _ (Nat.two_pow_pos _)

example : ∃ c, (ProverChannel.init toyKeccak [1, 2]).get_indices toyKeccak true 5 10 = some ([0, 0, 0, 0, 64], c) := ⟨_, rfl⟩

end

end Props
end OpenZKP
