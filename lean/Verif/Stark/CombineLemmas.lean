import Verif.Stark.Replay
import Verif.Props.Constraints

/-!
Lemmas: the combination of the constraints as a polynomial, and the trace cells it refers to.
-/

namespace OpenZKP
namespace Stark
open Props Polynomial

section
variable {F : Type} [Field F] [DecidableEq F]

omit [Field F] [DecidableEq F] in
theorem mapM_some_inv {α β : Type} (f : α → Option β) : ∀ (l : List α) (l' : List β), l.mapM f = some l' →
    List.Forall₂ (fun a b => f a = some b) l l' := by
  intro l
  induction l with
  | nil => intro l' h; cases h; exact .nil
  | cons a l ih =>
    intro l' h
    rw [List.mapM_cons] at h
    obtain ⟨b, h1, h2⟩ := Option.bind_eq_some_iff.1 h
    obtain ⟨bs, h3, h4⟩ := Option.bind_eq_some_iff.1 h2
    cases h4
    exact .cons h1 (ih bs h3)

theorem sum_claimValue (claims : Nat → Option F[X]) (x : F) (trace : Nat → Int → Option F) (Es : List (Expr F)) (g : Expr F → F)
    (h : ∀ E ∈ Es, claimValue claims x trace E = some (g E)) : claimValue claims x trace (Expr.sum Es) = some (Es.map g).sum := by
  have key : ∀ (Es : List (Expr F)) (e : Expr F) (v : F), claimValue claims x trace e = some v →
      (∀ E ∈ Es, claimValue claims x trace E = some (g E)) → claimValue claims x trace (Es.foldl Expr.add e) = some (v + (Es.map g).sum) := by
    intro Es
    induction Es with
    | nil => intro e v he _; simpa using he
    | cons a Es ih =>
      intro e v he h
      rw [List.foldl_cons, List.map_cons, List.sum_cons, ← add_assoc]
      apply ih
      · show claimValue claims x trace (Expr.Add e a) = _
        rw [claimValue, he, h a (by simp)]
      · exact fun E hE => h E (by simp [hE])
  cases Es with
  | nil => rfl
  | cons e Es =>
    rw [List.map_cons, List.sum_cons]
    exact key _ _ _ (h e (by simp)) fun E hE => h E (by simp [hE])

theorem zip_mapM_mem {n target : Nat} {es : List (Expr F)} {cs : List (F × F)} {Es : List (Expr F)}
    (h : (es.zip cs).mapM (fun x => Constraints.combineOne n target x.1 x.2.1 x.2.2) = some Es) :
    ∀ E ∈ Es, ∃ e ∈ es, ∃ lo hi, Constraints.combineOne n target e lo hi = some E := by
  intro E hE
  obtain ⟨i, hi⟩ := List.mem_iff_getElem?.1 hE
  have hf := mapM_some_inv _ _ _ h
  have hl := hf.length_eq
  have hi' : i < Es.length := by
    by_contra hge
    rw [List.getElem?_eq_none (by omega)] at hi
    cases hi
  have := (List.forall₂_iff_get.1 hf).2 i (by omega) hi'
  rw [List.getElem?_eq_getElem hi'] at hi
  cases hi
  refine ⟨((es.zip cs).get ⟨i, by omega⟩).1, ?_, _, _, this⟩
  exact (List.of_mem_zip (List.get_mem (es.zip cs) ⟨i, by omega⟩)).1

/-- the polynomial that the combination of constraints equal to the polynomials `P` is equal to -/
noncomputable def combinedPoly (c : Constraints F) (coeffs : List F) (d : Nat) (P : Expr F → F[X]) : F[X] :=
  ∑ i ∈ Finset.range c.expressions.length, (C (coeffs.getD (2 * i) 0) + C (coeffs.getD (2 * i + 1) 0) *
    X ^ adjustment c.trace_nrows (d * c.trace_nrows - 1) (c.expressions.getD i .X)) * P (c.expressions.getD i .X)

theorem combined_claimValue (c : Constraints F) (coeffs : List F) (E : Expr F) (h : c.combine coeffs = some E) (d : Nat) (hd : c.degree = some d)
    (claims : Nat → Option F[X]) (x : F) (trace : Nat → Int → Option F) (P : Expr F → F[X])
    (hv : ∀ e ∈ c.expressions, claimValue claims x trace e = some ((P e).eval x)) :
    claimValue claims x trace E = some ((combinedPoly c coeffs d P).eval x) := by
  obtain ⟨d', target, Es, h1, h2, h3, rfl, h4⟩ := combine_shape c coeffs E h
  rw [hd] at h1
  cases h1
  have ht : d * c.trace_nrows - 1 = target := by omega
  have hE : ∀ (e : Expr F) (E : Expr F) (lo hi : F), claimValue claims x trace e = some ((P e).eval x) →
      Constraints.combineOne c.trace_nrows target e lo hi = some E →
      claimValue claims x trace E = some ((lo + hi * x ^ adjustment c.trace_nrows target e) * (P e).eval x) := by
    intro e E lo hi he hc
    obtain ⟨rfl, _⟩ := combineOne_shape hc
    simp only [claimValue, he, Option.map_some]
  have hall : ∀ E ∈ Es, claimValue claims x trace E = some ((claimValue claims x trace E).getD 0) := by
    intro E hm
    obtain ⟨e, he, lo, hi, hc⟩ := zip_mapM_mem h4 E hm
    rw [hE e E lo hi (hv e he) hc]
    rfl
  rw [sum_claimValue claims x trace Es _ hall]
  rw [combine_terms c.trace_nrows target (fun E => (claimValue claims x trace E).getD 0)
    (fun e v lo hi => (lo + hi * x ^ adjustment c.trace_nrows target e) * v) c.expressions coeffs
    (c.expressions.map fun e => (P e).eval x) Es h3 (by rw [List.length_map]) h4 ?_]
  · congr 1
    unfold combinedPoly
    rw [eval_finset_sum]
    apply Finset.sum_congr rfl
    intro i hi
    rw [Finset.mem_range] at hi
    have e1 : (c.expressions.map fun e => (P e).eval x).getD i 0 = (P (c.expressions.getD i .X)).eval x := by
      rw [List.getD, List.getD, List.getElem?_map, List.getElem?_eq_getElem hi]
      rfl
    rw [e1, ht]
    simp
  · intro i e v E lo hi he hv' hc
    have hm := List.mem_of_getElem? he
    rw [List.getElem?_map, he] at hv'
    cases hv'
    dsimp only
    rw [hE e E lo hi (hv e hm) hc]
    rfl

theorem combinedPoly_degree (c : Constraints F) (coeffs : List F) (E : Expr F) (h : c.combine coeffs = some E) (d : Nat) (hd : c.degree = some d)
    (P : Expr F → F[X])
    (hP : ∀ e ∈ c.expressions, P e = 0 ∨ (P e).natDegree + (e.degree (c.trace_nrows - 1)).2 ≤ (e.degree (c.trace_nrows - 1)).1) :
    (combinedPoly c coeffs d P).degree < (d * c.trace_nrows : Nat) := by
  obtain ⟨d', target, Es, h1, h2, h3, rfl, h4⟩ := combine_shape c coeffs E h
  rw [hd] at h1
  cases h1
  have hmem := combine_mem _ _ _ _ _ h3 h4
  have ht : d * c.trace_nrows - 1 = target := by omega
  have hle : (combinedPoly c coeffs d P).natDegree ≤ target := by
    unfold combinedPoly
    apply natDegree_sum_le_of_forall_le
    intro i hi
    rw [Finset.mem_range] at hi
    have hi' : c.expressions.getD i .X ∈ c.expressions := by
      rw [List.getD, List.getElem?_eq_getElem hi]
      exact List.getElem_mem hi
    rw [ht]
    rcases hP _ hi' with h0 | h0
    · rw [h0, mul_zero, natDegree_zero]; omega
    · refine natDegree_mul_le.trans ?_
      have a1 := hmem _ hi'
      have : (C (coeffs.getD (2 * i) 0) + C (coeffs.getD (2 * i + 1) 0) * X ^ adjustment c.trace_nrows target (c.expressions.getD i .X) : F[X]).natDegree
          ≤ adjustment c.trace_nrows target (c.expressions.getD i .X) := by
        refine (natDegree_add_le _ _).trans ?_
        rw [natDegree_C, Nat.max_le]
        exact ⟨Nat.zero_le _, natDegree_C_mul_X_pow_le _ _⟩
      unfold adjustment at this ⊢
      omega
  calc (combinedPoly c coeffs d P).degree ≤ (combinedPoly c coeffs d P).natDegree := degree_le_natDegree
    _ < _ := by exact_mod_cast (by omega : (combinedPoly c coeffs d P).natDegree < d * c.trace_nrows)

/-! ## Trace cells -/

theorem occurs_sum (a : Nat × Int) (Es : List (Expr F)) (h : Occurs a (Expr.sum Es)) : ∃ E ∈ Es, Occurs a E := by
  have key : ∀ (Es : List (Expr F)) (e : Expr F), Occurs a (Es.foldl Expr.add e) → Occurs a e ∨ ∃ E ∈ Es, Occurs a E := by
    intro Es
    induction Es with
    | nil => intro e h; exact Or.inl h
    | cons b Es ih =>
      intro e h
      rcases ih _ h with h | ⟨E, h1, h2⟩
      · rcases (show Occurs a e ∨ Occurs a b from h) with h | h
        · exact Or.inl h
        · exact Or.inr ⟨b, by simp, h⟩
      · exact Or.inr ⟨E, by simp [h1], h2⟩
  cases Es with
  | nil => exact h.elim
  | cons e Es =>
    rcases key Es e h with h | ⟨E, h1, h2⟩
    · exact ⟨e, by simp, h⟩
    · exact ⟨E, by simp [h1], h2⟩

theorem occurs_combine (c : Constraints F) (coeffs : List F) (E : Expr F) (h : c.combine coeffs = some E) (a : Nat × Int) (ha : Occurs a E) :
    ∃ e ∈ c.expressions, Occurs a e := by
  obtain ⟨d', target, Es, h1, h2, h3, rfl, h4⟩ := combine_shape c coeffs E h
  obtain ⟨E, hE, hO⟩ := occurs_sum a Es ha
  obtain ⟨e, he, lo, hi, hc⟩ := zip_mapM_mem h4 E hE
  obtain ⟨rfl, _⟩ := combineOne_shape hc
  refine ⟨e, he, ?_⟩
  simpa [Occurs] using hO

theorem occurs_substitute (polys : List (List F)) (e e' : Expr F) (h : e.substitute_claim polys = some e') (a : Nat × Int) :
    Occurs a e' ↔ Occurs a e := by
  unfold Expr.substitute_claim at h
  induction e generalizing e' with
  | X => cases h; rfl
  | Constant c => cases h; rfl
  | Trace i j => cases h; rfl
  | Polynomial p b ih =>
    obtain ⟨b', h1, h2⟩ := Option.bind_eq_some_iff.1 h
    cases h2
    exact ih b' h1
  | ClaimPolynomial i n b name ih =>
    obtain ⟨b', h1, h2⟩ := Option.bind_eq_some_iff.1 h
    unfold Expr.substituteNode at h2
    obtain ⟨p, _, h4⟩ := Option.bind_eq_some_iff.1 h2
    split at h4
    · cases h4; exact ih b' h1
    · cases h4
  | Neg b ih =>
    obtain ⟨b', h1, h2⟩ := Option.bind_eq_some_iff.1 h
    cases h2
    exact ih b' h1
  | Inv b ih =>
    obtain ⟨b', h1, h2⟩ := Option.bind_eq_some_iff.1 h
    cases h2
    exact ih b' h1
  | Exp b k ih =>
    obtain ⟨b', h1, h2⟩ := Option.bind_eq_some_iff.1 h
    cases h2
    exact ih b' h1
  | Add b c ihb ihc =>
    obtain ⟨b', h1, h2⟩ := Option.bind_eq_some_iff.1 h
    obtain ⟨c', h3, h4⟩ := Option.bind_eq_some_iff.1 h2
    cases h4
    exact or_congr (ihb b' h1) (ihc c' h3)
  | Mul b c ihb ihc =>
    obtain ⟨b', h1, h2⟩ := Option.bind_eq_some_iff.1 h
    obtain ⟨c', h3, h4⟩ := Option.bind_eq_some_iff.1 h2
    cases h4
    exact or_congr (ihb b' h1) (ihc c' h3)

omit [Field F] [DecidableEq F] in
theorem mem_argUnion (s t : List (Nat × Int)) (a : Nat × Int) : a ∈ Constraints.argUnion s t ↔ a ∈ s ∨ a ∈ t := by
  unfold Constraints.argUnion
  induction t generalizing s with
  | nil => simp
  | cons b t ih =>
    rw [List.foldl_cons, ih, mem_argInsert, List.mem_cons]
    tauto

omit [Field F] [DecidableEq F] in
theorem mem_unions (l : List (List (Nat × Int))) (s : List (Nat × Int)) (a : Nat × Int) :
    a ∈ l.foldl Constraints.argUnion s ↔ a ∈ s ∨ ∃ t ∈ l, a ∈ t := by
  induction l generalizing s with
  | nil => simp
  | cons b l ih =>
    rw [List.foldl_cons, ih, mem_argUnion]
    simp only [List.mem_cons, exists_eq_or_imp]
    tauto

omit [Field F] [DecidableEq F] in
/-- the trace arguments of constraints are the cells that occur in them -/
theorem trace_arguments_mem (c : Constraints F) (args : List (Nat × Int)) (h : c.trace_arguments = some args) (a : Nat × Int) :
    a ∈ args ↔ ∃ e ∈ c.expressions, Occurs a e := by
  unfold Constraints.trace_arguments at h
  obtain ⟨l, h1, rfl⟩ := Option.map_eq_some_iff.1 h
  rw [mem_unions]
  have hf := mapM_some_inv _ _ _ h1
  have hmem : ∀ (e : Expr F) (t : List (Nat × Int)), e.trace_arguments = some t → (a ∈ t ↔ Occurs a e) := by
    intro e t ht
    have hn : NoClaim e := by
      by_contra hc
      have := (traceArgs_spec e [] List.Pairwise.nil).2 hc
      unfold Expr.trace_arguments at ht
      rw [this] at ht; simp at ht
    obtain ⟨t', h1, _, h3⟩ := C42_arguments e hn
    rw [ht] at h1; cases h1
    exact h3 a
  generalize c.expressions = es at hf
  simp only [List.not_mem_nil, false_or]
  clear h h1
  induction hf with
  | nil => simp
  | cons h0 hf ih =>
    simp only [List.mem_cons, exists_eq_or_imp, ih, hmem _ _ h0]

theorem substitute_nil (e e' : Expr F) (h : e.substitute_claim [] = some e') : e' = e := by
  unfold Expr.substitute_claim at h
  induction e generalizing e' with
  | X => cases h; rfl
  | Constant c => cases h; rfl
  | Trace i j => cases h; rfl
  | Polynomial p b ih =>
    obtain ⟨b', h1, h2⟩ := Option.bind_eq_some_iff.1 h
    cases h2
    rw [ih _ h1]
  | ClaimPolynomial i n b name ih =>
    obtain ⟨b', h1, h2⟩ := Option.bind_eq_some_iff.1 h
    cases h2
  | Neg b ih =>
    obtain ⟨b', h1, h2⟩ := Option.bind_eq_some_iff.1 h
    cases h2
    rw [ih _ h1]
  | Inv b ih =>
    obtain ⟨b', h1, h2⟩ := Option.bind_eq_some_iff.1 h
    cases h2
    rw [ih _ h1]
  | Exp b k ih =>
    obtain ⟨b', h1, h2⟩ := Option.bind_eq_some_iff.1 h
    cases h2
    rw [ih _ h1]
  | Add b c ihb ihc =>
    obtain ⟨b', h1, h2⟩ := Option.bind_eq_some_iff.1 h
    obtain ⟨c', h3, h4⟩ := Option.bind_eq_some_iff.1 h2
    cases h4
    rw [ihb _ h1, ihc _ h3]
  | Mul b c ihb ihc =>
    obtain ⟨b', h1, h2⟩ := Option.bind_eq_some_iff.1 h
    obtain ⟨c', h3, h4⟩ := Option.bind_eq_some_iff.1 h2
    cases h4
    rw [ihb _ h1, ihc _ h3]

/-- the cells of the constraints after substitution are those before, and nothing but the expressions changes -/
theorem substitute_spec (c c' : Constraints F) (h : c.substitute = some c') :
    c'.blowup = c.blowup ∧ c'.fri_layout = c.fri_layout ∧ c'.pow_bits = c.pow_bits ∧ c'.num_queries = c.num_queries ∧
    ∀ args, c'.trace_arguments = some args → ∀ a, a ∈ args ↔ ∃ e ∈ c.expressions, Occurs a e := by
  unfold Constraints.substitute at h
  split at h
  · cases h
    exact ⟨rfl, rfl, rfl, rfl, fun args ha a => trace_arguments_mem c args ha a⟩
  · obtain ⟨es, h1, rfl⟩ := Option.map_eq_some_iff.1 h
    refine ⟨rfl, rfl, rfl, rfl, fun args ha a => ?_⟩
    rw [trace_arguments_mem _ args ha a]
    have hf := mapM_some_inv _ _ _ h1
    dsimp only
    generalize c.expressions = l at hf
    clear h h1 ha
    induction hf with
    | nil => simp
    | cons h0 hf ih => simp only [List.mem_cons, exists_eq_or_imp, ih, occurs_substitute _ _ _ h0]

end

end Stark
end OpenZKP
