import Verif.Props.Soundness
import Verif.Stark.SoundFri
import Verif.Stark.SoundAir

/-!
Lemmas: soundness.
-/

namespace OpenZKP
namespace Stark
namespace Accept
open FFT U256 Props Polynomial

section
variable {F : Type} [Field F] [DecidableEq F]

local notation "ι" => algebraMap F[X] (RatFunc F)

theorem deep_eq (env : Env F) (m : Nat) (w g : F) (args : List (Nat × Int)) (P : Contents) (x : Challenges F) (R C : Nat → List F)
    (hlen : x.oods.length = args.length + P.constraint_values.length) (hv : P.trace_values.length = args.length) (q : Nat) :
    deep env g args P x (R q) (C q) (cosetPoint env w m q) =
      ∑ i ∈ Finset.range x.oods.length, x.oods.getD i 0 * proofQuotient env m w g args P x R C i q := by
  rw [hlen, Finset.sum_range_add]
  unfold deep proofQuotient quotient
  have hget : ∀ (l : List U256) (i : Nat), i < l.length → (l.map env.codec.val).getD i 0 = env.codec.val (l.getD i ⟨0, 0, 0, 0⟩) := by
    intro l i hi
    rw [List.getD_eq_getElem _ _ (by rw [List.length_map]; exact hi), List.getElem_map, List.getD_eq_getElem _ _ hi]
  congr 1
  · apply Finset.sum_congr rfl
    intro i hi
    have hi := Finset.mem_range.1 hi
    rw [if_pos hi, hget _ _ (by omega)]
  · apply Finset.sum_congr rfl
    intro i hi
    have hi := Finset.mem_range.1 hi
    rw [if_neg (by omega), show args.length + i - args.length = i by omega, hget _ _ hi, List.length_map]

/-- the polynomial whose quotient is `Q` -/
noncomputable def unquotient (gen : F) (Q : F[X]) (z v : F) : F[X] := Q.comp (C gen⁻¹ * X) * (X - C z) + C v

omit [DecidableEq F] in
theorem unquotient_eval (gen : F) (hgen : gen ≠ 0) (Q : F[X]) (z v p r : F) (hne : gen * p ≠ z) (h : (r - v) / (gen * p - z) = Q.eval p) :
    (unquotient gen Q z v).eval (gen * p) = r := by
  unfold unquotient
  rw [eval_add, eval_mul, eval_comp, eval_mul, eval_C, eval_X, eval_sub, eval_X, eval_C, eval_C, ← mul_assoc, inv_mul_cancel₀ hgen, one_mul, ← h,
    div_mul_cancel₀ _ (sub_ne_zero.2 hne), sub_add_cancel]

omit [DecidableEq F] in
theorem unquotient_point (gen : F) (Q : F[X]) (z v : F) : (unquotient gen Q z v).eval z = v := by
  unfold unquotient
  simp

omit [DecidableEq F] in
theorem unquotient_degree (gen : F) (Q : F[X]) (z v : F) (n : Nat) (hn : 0 < n) (h : Q.degree < n) : (unquotient gen Q z v).natDegree ≤ n := by
  unfold unquotient
  have h0 : Q.natDegree < n := by
    by_cases h0 : Q = 0
    · subst h0; simpa using hn
    · exact (natDegree_lt_iff_degree_lt h0).2 h
  refine (natDegree_add_le _ _).trans (max_le ?_ (by simp))
  refine natDegree_mul_le.trans ?_
  have h1 : (Q.comp (C gen⁻¹ * X)).natDegree ≤ Q.natDegree := by
    refine natDegree_comp_le.trans ?_
    have : (C gen⁻¹ * X : F[X]).natDegree ≤ 1 := (natDegree_C_mul_le _ _).trans natDegree_X_le
    have := Nat.mul_le_mul_left Q.natDegree this
    simpa using this
  have h2 : (X - C z : F[X]).natDegree = 1 := natDegree_X_sub_C z
  omega

theorem assoc_zip {α β : Type} [DecidableEq α] : ∀ (l : List α) (vs : List β) (i : Nat) (a : α) (v : β), l.Nodup → l[i]? = some a → vs[i]? = some v →
    assoc (l.zip vs) a = some v := by
  intro l
  induction l with
  | nil => intro vs i a v _ h; simp at h
  | cons b l ih =>
    intro vs i a v hn h1 h2
    rw [List.nodup_cons] at hn
    cases vs with
    | nil => simp at h2
    | cons u vs =>
      cases i with
      | zero =>
        simp only [List.getElem?_cons_zero, Option.some.injEq] at h1 h2
        subst h1 h2
        simp [assoc]
      | succ i =>
        simp only [List.getElem?_cons_succ] at h1 h2
        have hab : b ≠ a := by
          rintro rfl
          exact hn.1 (List.mem_of_getElem? h1)
        have := ih vs i a v hn.2 h1 h2
        unfold assoc at this ⊢
        rw [List.zip_cons_cons, List.find?_cons_of_neg (by simpa using hab)]
        exact this

theorem cosetPoint_injOn (env : Env F) (hgen : env.generator ≠ 0) (m : Nat) (w : F) (ho : orderOf w = 2 ^ m) :
    Set.InjOn (cosetPoint env w m) (Finset.range (2 ^ m) : Finset Nat) := by
  intro a ha b hb h
  exact pt_injOn m w ho ha hb (mul_left_cancel₀ hgen h)

open Classical in
theorem sound (env : Env F) (hroot : RootFn env.root) (hgen : env.generator ≠ 0) (c : Constraints F) (k b d e : Nat) (hkb : k + b < 64) (hk : c.trace_nrows = 2 ^ k)
    (hlayout : c.fri_layout.sum ≤ k) (hd : c.degree = some d) (he : 2 ^ k + 2 * (e * 2 ^ c.fri_layout.sum) < 2 ^ (k + b)) (w g : F)
    (hw : env.root (2 ^ (k + b)) = some w) (p : Bytes)
    (args : List (Nat × Int)) (P : Contents) (x : Challenges F)
    (h : Accepts env c k b w g p args P x) (R C : Nat → List F) (Ls : List (Nat → F)) (ht : Tables env c (k + b) P R C Ls) :
    SomeCollision env c (k + b) P x R C Ls ∨ Lucky env c k b d w g args P x R C Ls e ∨
    ∃ T, Fits (Used c) (2 ^ k) (e * 2 ^ c.fri_layout.sum) (2 ^ (k + b)) (cosetPoint env w (k + b)) R T ∧
      ∀ a ∈ c.expressions, constraintValue c g T x.point a ≠ none ∧ IsPoly (constraintFunction c g T a) := by
  have ho : orderOf w = 2 ^ (k + b) := hroot _ w (Nat.two_pow_pos _) (Nat.pow_lt_pow_right (by norm_num) hkb) hw
  obtain ⟨d', hd', hs⟩ := h.sized
  rw [hd] at hd'
  cases hd'
  have hvl : P.trace_values.length = args.length := hs.trace_values.1
  have hol : x.oods.length = args.length + P.constraint_values.length := draws_length env _ _ _ h.drawn.oods
  have hcl : x.coefficients.length = 2 * c.expressions.length := draws_length env _ _ _ h.drawn.coefficients
  have hll : P.last_layer.length * 2 ^ c.fri_layout.sum = 2 ^ k := by
    rw [hs.last_layer.1, Nat.pow_div (by omega) (by norm_num), Nat.pow_div (by omega) (by norm_num), ← pow_add]
    congr 1; omega
  generalize hE : e * 2 ^ c.fri_layout.sum = E at he
  generalize hy : cosetPoint env w (k + b) = y at *
  have hyq : ∀ q, y q = env.generator * w ^ rev (k + b) q := fun q => by rw [← hy]; rfl
  have hyinj : Set.InjOn y (Finset.range (2 ^ (k + b)) : Finset Nat) := by rw [← hy]; exact cosetPoint_injOn env hgen _ w ho
  by_cases hcol : SomeCollision env c (k + b) P x R C Ls
  · exact Or.inl hcol
  right
  by_cases hluck : Lucky env c k b d w g args P x R C Ls e
  · exact Or.inl hluck
  right
  unfold Lucky at hluck
  rw [hE, hy] at hluck
  simp only [not_or] at hluck
  obtain ⟨l1, l2, l3, l4, l5⟩ := hluck
  -- the queries pass
  have hqueries : ∀ q ∈ x.queries, q < 2 ^ (k + b) ∧ PassesProof env c (k + b) w g args P x R C Ls q := by
    have := C63_committed env c k b w g p args P x h R C Ls ht.trace_width ht.constraint_width ht.trace ht.constraint ht.layers
    unfold SomeCollision at hcol
    simp only [not_or] at hcol
    have := ((this.resolve_left hcol.1).resolve_left hcol.2.1).resolve_left hcol.2.2
    intro q hq
    obtain ⟨a1, a2, a3⟩ := this q hq
    refine ⟨?_, a1, a2, ?_⟩
    · have hm := (h.drawn.queries.2.mem_iff).1 hq
      obtain ⟨i, _, rfl⟩ := List.mem_map.1 hm
      exact Nat.mod_lt _ (Nat.two_pow_pos _)
    · rw [← deep_eq env (k + b) w g args P x R C hol hvl q]
      exact a3
  have hfew : ((Finset.range (2 ^ (k + b))).filter fun q => ¬ PassesProof env c (k + b) w g args P x R C Ls q).card ≤ E := by
    by_contra hlt
    exact l1 ⟨hqueries, by omega⟩
  generalize hh : proofQuotient env (k + b) w g args P x R C = hq at *
  have hpass : ∀ q, PassesProof env c (k + b) w g args P x R C Ls q ↔ (∀ a ∈ args, y q ≠ g ^ a.2 * x.point) ∧ y q ≠ x.point ^ P.constraint_values.length ∧
      Chain (P.last_layer.map env.codec.val) c.fri_layout Ls x.folds w (k + b) (∑ i ∈ Finset.range x.oods.length, x.oods.getD i 0 * hq i q) q := by
    intro q
    unfold PassesProof Passes
    rw [hh, hy]
  generalize PassesProof env c (k + b) w g args P x R C Ls = Pass at *
  -- FRI
  obtain ⟨P', hP', hP'q⟩ := fri_sound (P.last_layer.map env.codec.val) e c.fri_layout Ls x.folds w (k + b)
    (fun q => ∑ i ∈ Finset.range x.oods.length, x.oods.getD i 0 * hq i q) (by omega) (by
      rw [hE]
      refine le_trans (Finset.card_le_card ?_) hfew
      intro q hq
      obtain ⟨m1, m2⟩ := Finset.mem_filter.1 hq
      exact Finset.mem_filter.2 ⟨m1, fun hp => m2 ((hpass q).1 hp).2.2⟩) (by rw [List.length_map]; exact l2)
  rw [List.length_map, hll] at hP'
  obtain ⟨Q, hQ⟩ := mix_sound (k + b) w (2 ^ k) E hq x.oods l3 x.oods.length (le_refl _) P' ⟨hP', by
    refine le_trans (Finset.card_le_card ?_) hfew
    intro q hq
    obtain ⟨m1, m2⟩ := Finset.mem_filter.1 hq
    exact Finset.mem_filter.2 ⟨m1, fun hp => m2 (hP'q q (Finset.mem_range.1 m1) ((hpass q).1 hp).2.2)⟩⟩
  have hQd : ∀ i < x.oods.length, (Q i).degree < (2 ^ k : Nat) := fun i hi => (hQ i hi).1
  have hQe : ∀ i < x.oods.length, ∀ q < 2 ^ (k + b), Pass q → hq i q = (Q i).eval (w ^ rev (k + b) q) := fun i hi q hq hp =>
    (hQ i hi).2 q hq (hP'q q hq ((hpass q).1 hp).2.2)
  -- the columns
  let v := P.trace_values.map env.codec.val
  let u := P.constraint_values.map env.codec.val
  let T0 : Nat → F[X] := fun i => unquotient env.generator (Q i) (g ^ (args.getD i (0, 0)).2 * x.point) (v.getD i 0)
  let H : Nat → F[X] := fun j => if j < P.constraint_values.length then
    unquotient env.generator (Q (args.length + j)) (x.point ^ P.constraint_values.length) (u.getD j 0) else 0
  have hT0 : ∀ i < args.length, ∀ q < 2 ^ (k + b), Pass q → (T0 i).eval (y q) = (R q).getD (args.getD i (0, 0)).1 0 := by
    intro i hi q hqm hp
    rw [hyq]
    refine unquotient_eval _ hgen _ _ _ _ _ ?_ ?_
    · rw [← hyq]
      refine ((hpass q).1 hp).1 (args.getD i (0, 0)) ?_
      rw [List.getD_eq_getElem _ _ hi]
      exact List.getElem_mem hi
    · rw [← hQe i (by omega) q hqm hp, ← hh]
      unfold proofQuotient quotient
      rw [if_pos hi, hy, hyq]
  have hH : ∀ j < P.constraint_values.length, ∀ q < 2 ^ (k + b), Pass q → (H j).eval (y q) = (C q).getD j 0 := by
    intro j hj q hqm hp
    show (if j < P.constraint_values.length then _ else _ : F[X]).eval (y q) = _
    rw [if_pos hj, hyq]
    refine unquotient_eval _ hgen _ _ _ _ _ ?_ ?_
    · rw [← hyq]
      exact ((hpass q).1 hp).2.1
    · rw [← hQe (args.length + j) (by omega) q hqm hp, ← hh]
      unfold proofQuotient quotient
      rw [if_neg (by omega), hy, hyq, show args.length + j - args.length = j by omega, List.length_map]
  have hT0d : ∀ i < args.length, (T0 i).natDegree ≤ 2 ^ k := fun i hi => unquotient_degree _ _ _ _ _ (Nat.two_pow_pos _) (hQd i (by omega))
  let J := (Finset.range (2 ^ (k + b))).filter fun q => Pass q
  have hJ : 2 ^ k + 1 ≤ J.card := by
    have h1 := Finset.card_filter_add_card_filter_not (s := Finset.range (2 ^ (k + b))) (fun q => Pass q)
    rw [Finset.card_range] at h1
    have : J.card = (Finset.filter (fun q => Pass q) (Finset.range (2 ^ (k + b)))).card := rfl
    omega
  have hsame : ∀ i < args.length, ∀ i' < args.length, (args.getD i (0, 0)).1 = (args.getD i' (0, 0)).1 → T0 i = T0 i' := by
    intro i hi i' hi' heq
    have hdeg : ∀ i < args.length, (T0 i).degree < (2 ^ k + 1 : Nat) := by
      intro i hi
      refine lt_of_le_of_lt degree_le_natDegree ?_
      have := hT0d i hi
      have : (T0 i).natDegree < 2 ^ k + 1 := by omega
      exact_mod_cast this
    refine eq_of_agree J y (hyinj.mono (Finset.coe_subset.2 (Finset.filter_subset _ _))) _ _ (2 ^ k + 1) (hdeg i hi) (hdeg i' hi') hJ ?_
    intro q hq
    obtain ⟨m1, m2⟩ := Finset.mem_filter.1 hq
    have m1 := Finset.mem_range.1 m1
    rw [hT0 i hi q m1 m2, hT0 i' hi' q m1 m2, heq]
  let T : Nat → F[X] := fun col => if hc : ∃ i < args.length, (args.getD i (0, 0)).1 = col then T0 hc.choose else 0
  have hTi : ∀ i < args.length, T (args.getD i (0, 0)).1 = T0 i := by
    intro i hi
    have hc : ∃ i' < args.length, (args.getD i' (0, 0)).1 = (args.getD i (0, 0)).1 := ⟨i, hi, rfl⟩
    show (if hc : _ then _ else _ : F[X]) = _
    rw [dif_pos hc]
    exact hsame _ hc.choose_spec.1 i hi hc.choose_spec.2
  have hused : ∀ col, Used c col ↔ ∃ i < args.length, (args.getD i (0, 0)).1 = col := by
    intro col
    constructor
    · rintro ⟨a, ha, j, hj⟩
      obtain ⟨i, hi, e1⟩ := List.getElem_of_mem ((h.args_all (col, j)).2 ⟨a, ha, hj⟩)
      exact ⟨i, hi, by rw [List.getD_eq_getElem _ _ hi, e1]⟩
    · rintro ⟨i, hi, rfl⟩
      rw [List.getD_eq_getElem _ _ hi]
      obtain ⟨a, ha, hj⟩ := (h.args_all args[i]).1 (List.getElem_mem hi)
      exact ⟨a, ha, args[i].2, hj⟩
  have hfitT : Fits (Used c) (2 ^ k) E (2 ^ (k + b)) y R T := by
    intro col
    refine ⟨fun hn => ?_, fun hu => ?_⟩
    · show (if hc : _ then _ else _ : F[X]) = _
      rw [dif_neg fun hc => hn ((hused col).2 hc)]
    · obtain ⟨i, hi, rfl⟩ := (hused col).1 hu
      rw [hTi i hi]
      refine ⟨hT0d i hi, le_trans (Finset.card_le_card ?_) hfew⟩
      intro q hq
      obtain ⟨m1, m2⟩ := Finset.mem_filter.1 hq
      exact Finset.mem_filter.2 ⟨m1, fun hp => m2 (hT0 i hi q (Finset.mem_range.1 m1) hp).symm⟩
  have hfitH : Fits (· < P.constraint_values.length) (2 ^ k) E (2 ^ (k + b)) y C H := by
    intro j
    refine ⟨fun hn => if_neg hn, fun hj => ⟨?_, le_trans (Finset.card_le_card ?_) hfew⟩⟩
    · show (if j < P.constraint_values.length then _ else _ : F[X]).natDegree ≤ _
      rw [if_pos hj]
      exact unquotient_degree _ _ _ _ _ (Nat.two_pow_pos _) (hQd _ (by omega))
    · intro q hq
      obtain ⟨m1, m2⟩ := Finset.mem_filter.1 hq
      exact Finset.mem_filter.2 ⟨m1, fun hp => m2 (hH j hj q (Finset.mem_range.1 m1) hp).symm⟩
  -- the out-of-domain equation
  have hnodup : args.Nodup := by
    refine h.args_sorted.imp ?_
    rintro a a' hlt rfl
    simp [argLt] at hlt
  have hcell : ∀ a ∈ c.expressions, ∀ i j, Occurs (i, j) a → claimedCell env args P i j = some ((T i).eval (x.point * g ^ j)) := by
    intro a ha i j hij
    obtain ⟨n, hn, e1⟩ := List.getElem_of_mem ((h.args_all (i, j)).2 ⟨a, ha, hij⟩)
    have e2 : args.getD n (0, 0) = (i, j) := by rw [List.getD_eq_getElem _ _ hn, e1]
    have e3 : T i = T0 n := by
      have := hTi n hn
      rwa [e2] at this
    rw [e3]
    have e4 : (T0 n).eval (x.point * g ^ j) = v.getD n 0 := by
      have := unquotient_point env.generator (Q n) (g ^ (args.getD n (0, 0)).2 * x.point) (v.getD n 0)
      rw [e2] at this
      show (unquotient _ _ (g ^ (args.getD n (0, 0)).2 * x.point) _).eval _ = _
      rw [e2, mul_comm x.point]
      exact this
    rw [e4]
    have hvn : n < v.length := by rw [List.length_map]; omega
    refine assoc_zip args v n (i, j) _ hnodup (by rw [List.getElem?_eq_getElem hn, e1]) ?_
    rw [List.getElem?_eq_getElem hvn, List.getD_eq_getElem _ _ hvn]
  obtain ⟨d', vs, o1, -, o2, o3⟩ := h.out_of_domain
  rw [hd] at o1
  cases o1
  have ovals : List.Forall₂ (fun a v => constraintValue c g T x.point a = some v) c.expressions vs := by
    have hall : ∀ (l : List (Expr F)) (vs : List F), (∀ a ∈ l, a ∈ c.expressions) →
        List.Forall₂ (fun e v => claimValue (fun i => (c.claim_polynomials[i]?).map toPoly) x.point (claimedCell env args P) e = some v) l vs →
        List.Forall₂ (fun a v => constraintValue c g T x.point a = some v) l vs := by
      intro l vs hl hf
      induction hf with
      | nil => exact List.Forall₂.nil
      | @cons a v l vs h1 _ ih =>
        refine List.Forall₂.cons ?_ (ih fun a ha => hl a (List.mem_cons_of_mem _ ha))
        rw [← h1]
        unfold constraintValue
        exact (claimValue_congr _ _ _ _ _ fun i j hij => hcell a (hl a List.mem_cons_self) i j hij).symm
    exact hall _ _ (fun a ha => ha) o2
  have hjoined : (joined P.constraint_values.length H).eval x.point =
      ∑ j ∈ Finset.range P.constraint_values.length, env.codec.val (P.constraint_values.getD j ⟨0, 0, 0, 0⟩) * x.point ^ j := by
    unfold joined
    rw [eval_finset_sum]
    apply Finset.sum_congr rfl
    intro j hj
    have hj := Finset.mem_range.1 hj
    rw [eval_mul, eval_comp, eval_pow, eval_pow, eval_X]
    congr 1
    show (if j < P.constraint_values.length then _ else _ : F[X]).eval _ = _
    rw [if_pos hj, unquotient_point]
    show (P.constraint_values.map env.codec.val).getD j 0 = _
    rw [List.getD_eq_getElem _ _ (by rw [List.length_map]; exact hj), List.getElem_map, List.getD_eq_getElem _ _ hj]
  have hcomb : combination c g T (d * 2 ^ k - 1) (2 * c.expressions.length) x.coefficients = ι (joined P.constraint_values.length H) := by
    by_contra hne
    refine l5 ⟨T, H, vs, by rw [hk]; exact hfitT, by rw [hk]; exact hfitH, ovals, ?_, hne⟩
    rw [hjoined, ← o3, hk]
  have hterms := coefficients_sound c g (d * 2 ^ k - 1) E (2 ^ (k + b)) y R x.coefficients T (by rw [hk]; exact hfitT)
    (fun t ht hb => l4 ⟨t, ht, hb⟩) (2 * c.expressions.length) (by omega) ⟨_, hcomb⟩
  refine ⟨T, hfitT, fun a ha => ?_⟩
  obtain ⟨i, hi, rfl⟩ := List.getElem_of_mem ha
  refine ⟨?_, ?_⟩
  · have := ovals.get (i := i) hi (by rw [← ovals.length_eq]; exact hi)
    have h2 : constraintValue c g T x.point c.expressions[i] = _ := this
    rw [h2]
    simp
  · have := hterms (2 * i) (by omega)
    unfold term at this
    rw [show 2 * i % 2 = 0 by omega, if_pos rfl, show 2 * i / 2 = i by omega, pow_zero, one_mul, List.getD_eq_getElem _ _ hi] at this
    exact this

end
end Accept
end Stark
end OpenZKP
