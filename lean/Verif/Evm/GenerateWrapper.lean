import Verif.Evm.GenerateCall
import Verif.Evm.DefaultCsLemmas
import Verif.Evm.Montgomery

/-!
# Lemmas on the generator of contracts: the wrapper contract and the order of the trace cells
-/

namespace OpenZKP
namespace Evm
namespace Generate
open Stark PrimeField OpenZKP.Props Polynomial

/-! ## Periodic columns -/

theorem periodicSteps_spec (x : Nat) : ∀ (cs : List Nat) (y : Nat), (∀ c ∈ cs, c < MODULUS) → y < MODULUS ∨ cs ≠ [] →
    periodicSteps x cs y < MODULUS ∧ ((periodicSteps x cs y : Nat) : Z) = cs.foldl (fun (r : Z) (c : Nat) => (x : Z) * r + (c : Z)) y := by
  intro cs
  induction cs with
  | nil =>
    intro y _ hy
    refine ⟨?_, rfl⟩
    unfold periodicSteps
    simpa using hy
  | cons c cs ih =>
    intro y hcs hy
    match cs with
    | [] =>
      unfold periodicSteps
      refine ⟨addmod_lt _ _, ?_⟩
      rw [addmod_cast, mulmod_cast]
      rfl
    | c' :: cs =>
      unfold periodicSteps
      obtain ⟨h1, h2⟩ := ih (wadd (Evm.mulmod x y MODULUS) c) (fun c hc => hcs c (by simp only [List.mem_cons] at hc ⊢; tauto)) (Or.inr (by simp))
      refine ⟨h1, ?_⟩
      rw [h2, wadd_lt _ _ (by have := modulus_lt; have := mulmod_lt x y; have := hcs c (by simp); omega), Nat.cast_add, mulmod_cast, List.foldl_cons (l := c' :: cs)]

theorem periodic_spec (p : List Z) (x : Nat) : periodic p x < MODULUS ∧ ((periodic p x : Nat) : Z) = (toPoly p).eval (x : Z) := by
  have key : ∀ (l : List Z) (r : Z), (l.map ZMod.val).foldl (fun (r : Z) (c : Nat) => (x : Z) * r + (c : Z)) r = (toPoly l.reverse).eval (x : Z) + (x : Z) ^ l.length * r := by
    intro l
    induction l with
    | nil => intro r; simp [toPoly]
    | cons c l ih =>
      intro r
      rw [List.map_cons, List.foldl_cons, ih, List.reverse_cons, toPoly_append, ZMod.natCast_zmod_val, List.length_cons, List.length_reverse, toPoly_cons, toPoly_nil]
      simp only [eval_add, eval_mul, eval_pow, eval_X, eval_C, mul_zero, eval_zero, add_zero]
      ring
  have hlt : ∀ c ∈ p.reverse.map ZMod.val, c < MODULUS := by
    intro c hc
    obtain ⟨a, _, rfl⟩ := List.mem_map.1 hc
    exact ZMod.val_lt a
  have hk := key p.reverse 0
  rw [List.reverse_reverse, mul_zero, add_zero] at hk
  unfold periodic
  cases hcs : p.reverse.map ZMod.val with
  | nil =>
    rw [hcs] at hk
    exact ⟨modulus_pos, by rw [← hk]; simp⟩
  | cons c cs =>
    rw [hcs] at hk hlt
    obtain ⟨h1, h2⟩ := periodicSteps_spec x cs c (fun d hd => hlt d (by simp [hd])) (Or.inl (hlt c (by simp)))
    refine ⟨h1, ?_⟩
    simp only at h2 ⊢
    rw [h2, ← hk, List.foldl_cons, mul_zero, zero_add]

theorem extract_power_value (cl : Nat → Option Z[X]) (x : Z) (trace : Nat → Int → Option Z) (a : E) (n : Nat) (h : extract_power a = some n) : claimValue cl x trace a = some (x ^ n) := by
  induction a generalizing n with
  | X => simp only [extract_power, Option.some.injEq] at h; subst h; simp [claimValue]
  | Exp a k ih =>
    simp only [extract_power] at h
    obtain ⟨m, hm, rfl⟩ := Option.map_eq_some_iff.1 h
    simp only [claimValue]
    rw [ih m hm, Option.map_some, ← pow_mul, mul_comm]
  | _ => simp [extract_power] at h

/-! ## Filling the context -/

theorem fill_mid : ∀ (vs A mid post : List Nat), mid.length = vs.length → fill vs A.length (A ++ (mid ++ post)) = some (A ++ (vs ++ post)) := by
  intro vs
  induction vs with
  | nil =>
    intro A mid post h
    obtain rfl := List.length_eq_zero_iff.1 h
    rfl
  | cons v vs ih =>
    intro A mid post h
    match mid, h with
    | a :: mid, h =>
      rw [fill, List.cons_append, DefaultCs.write_mid, Option.bind_some]
      have := ih (A ++ [v]) mid post (by simpa using h)
      rw [List.length_append, List.length_singleton] at this
      simpa using this

theorem fillPeriodic_mid (pkey : List Z → Nat) (mp : List (List Z × Nat)) (contracts : List (List Z)) (x : Nat) :
    ∀ (es : List E) (pcs : List PeriodicColumnEvaluation) (A mid post : List Nat), evaluations pkey mp es A.length = some pcs → mid.length = es.length →
      (∀ p a i, Expr.Polynomial p a ∈ es → mapGet pkey p mp = some i → contracts[i]? = some p) →
      ∃ vals : List Nat, vals.length = es.length ∧ fillPeriodic contracts x pcs (A ++ (mid ++ post)) = some (A ++ (vals ++ post)) ∧
        ∀ (i : Nat) (e : E), es[i]? = some e → ∃ p a n, e = .Polynomial p a ∧ extract_power a = some n ∧ vals[i]? = some (periodic p (fpow x n)) := by
  intro es
  induction es with
  | nil =>
    intro pcs A mid post h hm _
    simp only [evaluations, Option.some.injEq] at h
    subst h
    obtain rfl := List.length_eq_zero_iff.1 hm
    exact ⟨[], rfl, rfl, by simp⟩
  | cons e es ih =>
    intro pcs A mid post h hm hc
    unfold evaluations at h
    split at h
    · cases ‹e :: es = []›
    · next index p a es' heq =>
      injection heq with h1 h2
      subst h1 h2
      obtain ⟨name, hname, h⟩ := Option.bind_eq_some_iff.1 h
      obtain ⟨n, hn, h⟩ := Option.bind_eq_some_iff.1 h
      obtain ⟨rest, hr, rfl⟩ := Option.map_eq_some_iff.1 h
      match mid, hm with
      | b :: mid, hm =>
        have hA : A.length + 1 = (A ++ [periodic p (fpow x n)]).length := by simp
        rw [hA] at hr
        obtain ⟨vals, hv1, hv2, hv3⟩ := ih rest (A ++ [periodic p (fpow x n)]) mid post hr (by simpa using hm) (fun p a i hp => hc p a i (by simp [hp]))
        refine ⟨periodic p (fpow x n) :: vals, by simp [hv1], ?_, ?_⟩
        · unfold fillPeriodic
          simp only
          rw [hc p a name (by simp) hname, Option.bind_some, List.cons_append, DefaultCs.write_mid, Option.bind_some]
          simpa using hv2
        · intro i e he
          cases i with
          | zero =>
            simp only [List.getElem?_cons_zero, Option.some.injEq] at he
            subst he
            exact ⟨p, a, n, rfl, hn, rfl⟩
          | succ i => exact hv3 i e (by simpa using he)
    · cases h

/-- the words the wrapper calls the constraint contract with -/
theorem callContext_spec (pkey : List Z → Nat) (mp : List (List Z × Nat)) (w : WrapperContext) (ps : List E) (oods_point x n t : Nat) (public_values coefficients trace_oods_values tv : List Nat)
    (hx : fmul_mont oods_point 1 = x) (htv : trace_oods_values.map (fun v => fmul_mont v 1) = tv)
    (hpub : public_values.length = w.number_of_public_inputs) (hoff : w.coefficient_offset = 1 + w.number_of_public_inputs + ps.length) (hcl : coefficients.length = 2 * n) (htl : tv.length = t)
    (htotal : w.total_input_memory_size = 1 + w.number_of_public_inputs + ps.length + 2 * n + t) (hsize : w.constraint_input_size = 32 * (1 + w.number_of_public_inputs + ps.length + 2 * n + t))
    (hevs : evaluations pkey mp ps (1 + w.number_of_public_inputs) = some w.periodic_column_evaluations)
    (hc : ∀ p a i, Expr.Polynomial p a ∈ ps → mapGet pkey p mp = some i → w.periodic_contracts[i]? = some p) :
    ∃ vals : List Nat, vals.length = ps.length ∧ w.callContext oods_point public_values coefficients trace_oods_values = some (x :: public_values ++ (vals ++ (coefficients ++ tv))) ∧
      ∀ (i : Nat) (e : E), ps[i]? = some e → ∃ p a n, e = .Polynomial p a ∧ extract_power a = some n ∧ vals[i]? = some (periodic p (fpow x n)) := by
  have hA : 1 + w.number_of_public_inputs = (x :: public_values).length := by rw [List.length_cons, hpub]; ring
  have hevs' := hevs
  rw [hA] at hevs'
  obtain ⟨vals, hvl, hfill, hvals⟩ := fillPeriodic_mid pkey mp w.periodic_contracts x ps w.periodic_column_evaluations (x :: public_values) (List.replicate ps.length 0)
    (List.replicate (2 * n) 0 ++ List.replicate t 0) hevs' (by rw [List.length_replicate]) hc
  refine ⟨vals, hvl, ?_, hvals⟩
  unfold WrapperContext.callContext
  simp only
  rw [hx, htv, htotal, hsize, hoff]
  have h1 : List.replicate (1 + w.number_of_public_inputs + ps.length + 2 * n + t) 0 =
      [] ++ (0 :: (List.replicate w.number_of_public_inputs 0 ++ (List.replicate ps.length 0 ++ (List.replicate (2 * n) 0 ++ List.replicate t 0)))) := by
    rw [← List.replicate_add, ← List.replicate_add, ← List.replicate_add, List.nil_append, ← List.replicate_succ]
    congr 1
    ring
  have h2 := DefaultCs.write_mid [] (List.replicate w.number_of_public_inputs 0 ++ (List.replicate ps.length 0 ++ (List.replicate (2 * n) 0 ++ List.replicate t 0))) 0 x
  rw [List.length_nil] at h2
  rw [h1, h2, Option.bind_some, List.nil_append, List.take_of_length_le (by omega)]
  have h3 := fill_mid public_values [x] (List.replicate w.number_of_public_inputs 0) (List.replicate ps.length 0 ++ (List.replicate (2 * n) 0 ++ List.replicate t 0)) (by rw [List.length_replicate, hpub])
  rw [List.length_singleton, List.singleton_append, List.singleton_append] at h3
  rw [h3, Option.bind_some]
  rw [List.cons_append, List.cons_append] at hfill
  rw [hfill, Option.bind_some]
  have h4 := fill_mid coefficients (x :: public_values ++ vals) (List.replicate (2 * n) 0) (List.replicate t 0) (by rw [List.length_replicate, hcl])
  rw [show (x :: public_values ++ vals).length = 1 + w.number_of_public_inputs + ps.length by rw [List.length_append, ← hA, hvl], List.append_assoc, List.append_assoc, List.cons_append, List.cons_append] at h4
  rw [h4, Option.bind_some]
  have h5 := fill_mid tv (x :: public_values ++ (vals ++ coefficients)) (List.replicate t 0) [] (by rw [List.length_replicate, htl])
  rw [show (x :: public_values ++ (vals ++ coefficients)).length = 1 + w.number_of_public_inputs + ps.length + coefficients.length by rw [List.length_append, List.length_append, ← hA, hvl]; ring] at h5
  rw [List.append_nil, List.append_nil, List.append_assoc, List.append_assoc, List.append_assoc, List.append_assoc, List.cons_append, List.cons_append] at h5
  rw [h5, Option.map_some, Nat.mul_div_cancel_left _ (by norm_num), List.take_of_length_le, List.cons_append]
  rw [List.length_cons, List.length_append, List.length_append, List.length_append, hvl, htl, hcl, hpub]
  omega

theorem namePolynomials_spec (pkey : List Z → Nat) : ∀ (es : List E) (mp mp' : List (List Z × Nat)) (cs cs' : List (List Z)) (K : List Z → Prop),
    (∀ p a, Expr.Polynomial p a ∈ es → K p) → namePolynomials pkey es mp cs = some (mp', cs') → (∀ p i, mapGet pkey p mp = some i → ∃ q, cs[i]? = some q ∧ K q ∧ pkey q = pkey p) →
    ∀ p i, mapGet pkey p mp' = some i → ∃ q, cs'[i]? = some q ∧ K q ∧ pkey q = pkey p := by
  intro es
  induction es with
  | nil =>
    intro mp mp' cs cs' K _ h hm
    simp only [namePolynomials, Option.some.injEq, Prod.mk.injEq] at h
    obtain ⟨rfl, rfl⟩ := h
    exact hm
  | cons e es ih =>
    intro mp mp' cs cs' K hK h hm
    unfold namePolynomials at h
    split at h
    · cases ‹e :: es = []›
    · next mp0 cs0 p a es' heq =>
      injection heq with h1 h2
      subst h1 h2
      split at h
      · refine ih _ _ _ _ K (fun p a hp => hK p a (by simp [hp])) h ?_
        intro p' i hi
        rw [mapGet_insert] at hi
        split at hi
        · next hk =>
          cases hi
          exact ⟨p, by simp, hK p a (by simp), hk⟩
        · obtain ⟨q, hq1, hq2, hq3⟩ := hm p' i hi
          refine ⟨q, ?_, hq2, hq3⟩
          rw [List.getElem?_append_left (List.getElem?_eq_some_iff.1 hq1).1]
          exact hq1
      · exact ih _ _ _ _ K (fun p a hp => hK p a (by simp [hp])) h hm
    · cases h

/-! ## The order of the trace cells -/

/-- two ascending lists with the same elements -/
theorem ascending_unique : ∀ l l' : List (Nat × Int), l.Pairwise (fun a b => argLt a b = true) → l'.Pairwise (fun a b => argLt a b = true) → (∀ a, a ∈ l ↔ a ∈ l') → l = l' := by
  have irrefl : ∀ a : Nat × Int, argLt a a ≠ true := by
    intro a
    unfold argLt
    simp
  have asymm : ∀ a b : Nat × Int, argLt a b = true → argLt b a ≠ true := fun a b h1 h2 => irrefl a (argLt_trans h1 h2)
  intro l
  induction l with
  | nil =>
    intro l' _ _ h
    cases l' with
    | nil => rfl
    | cons a l' => exact absurd ((h a).2 (by simp)) (by simp)
  | cons a l ih =>
    intro l' h1 h2 h
    cases l' with
    | nil => exact absurd ((h a).1 (by simp)) (by simp)
    | cons b l' =>
      rw [List.pairwise_cons] at h1 h2
      have hab : a = b := by
        rcases List.mem_cons.1 ((h a).1 (by simp)) with h3 | h3
        · exact h3
        · rcases List.mem_cons.1 ((h b).2 (by simp)) with h4 | h4
          · exact h4.symm
          · exact absurd (h2.1 a h3) (asymm _ _ (h1.1 b h4))
      subst hab
      congr 1
      refine ih l' h1.2 h2.2 fun c => ?_
      constructor
      · intro hc
        rcases List.mem_cons.1 ((h c).1 (by simp [hc])) with h3 | h3
        · subst h3; exact absurd (h1.1 _ hc) (irrefl _)
        · exact h3
      · intro hc
        rcases List.mem_cons.1 ((h c).2 (by simp [hc])) with h3 | h3
        · subst h3; exact absurd (h2.1 _ hc) (irrefl _)
        · exact h3

/-- the cell as an expression -/
def cell (q : Nat × Int) : E := .Trace q.1 q.2

theorem lexicographicLe_cell (a b : Nat × Int) : lexicographicLe (cell a) (cell b) = some (!argLt b a) := by
  unfold lexicographicLe cell argLt
  simp only [Option.some.injEq]
  rw [Bool.eq_iff_iff]
  simp
  omega

theorem sortInsert_cells (a : Nat × Int) : ∀ l : List (Nat × Int), l.Pairwise (fun a b => argLt a b = true) → a ∉ l →
    ∃ l' : List (Nat × Int), sortInsert (cell a) (l.map cell) = some (l'.map cell) ∧ l'.Pairwise (fun a b => argLt a b = true) ∧ ∀ b, b ∈ l' ↔ b = a ∨ b ∈ l := by
  intro l
  induction l with
  | nil => intro _ _; exact ⟨[a], rfl, by simp, by simp⟩
  | cons b l ih =>
    intro h ha
    rw [List.pairwise_cons] at h
    rw [List.map_cons, sortInsert, lexicographicLe_cell, Option.bind_some]
    by_cases hba : argLt b a = true
    · obtain ⟨l', h1, h2, h3⟩ := ih h.2 fun hm => ha (by simp [hm])
      refine ⟨b :: l', by rw [hba, h1]; rfl, ?_, ?_⟩
      · rw [List.pairwise_cons]
        refine ⟨fun c hc => ?_, h2⟩
        rcases (h3 c).1 hc with rfl | hc
        · exact hba
        · exact h.1 c hc
      · intro c
        rw [List.mem_cons, h3, List.mem_cons]
        tauto
    · have hab : argLt a b = true := argLt_total hba fun h => ha (by simp [h])
      refine ⟨a :: b :: l, ?_, ?_, ?_⟩
      · rw [Bool.not_eq_true] at hba
        rw [hba]; rfl
      · rw [List.pairwise_cons]
        refine ⟨fun c hc => ?_, List.pairwise_cons.2 h⟩
        rcases List.mem_cons.1 hc with rfl | hc
        · exact hab
        · exact argLt_trans hab (h.1 c hc)
      · intro c; rw [List.mem_cons]

theorem cell_inj {a b : Nat × Int} (h : cell a = cell b) : a = b := by
  unfold cell at h
  injection h with h1 h2
  exact Prod.ext h1 h2

theorem sortTraces_cells : ∀ l : List (Nat × Int), l.Nodup → ∃ l' : List (Nat × Int), sortTraces (l.map cell) = some (l'.map cell) ∧ l'.Pairwise (fun a b => argLt a b = true) ∧ ∀ b, b ∈ l' ↔ b ∈ l := by
  intro l
  induction l with
  | nil => intro _; exact ⟨[], rfl, by simp, by simp⟩
  | cons a l ih =>
    intro h
    rw [List.nodup_cons] at h
    obtain ⟨l1, h1, h2, h3⟩ := ih h.2
    obtain ⟨l2, h4, h5, h6⟩ := sortInsert_cells a l1 h2 fun hm => h.1 ((h3 a).1 hm)
    refine ⟨l2, by rw [List.map_cons, sortTraces, h1, Option.bind_some, h4], h5, fun b => ?_⟩
    rw [h6, h3, List.mem_cons]

/-- the trace cells of the constraints in ascending order -/
theorem traces_spec (key : E → Nat) (R : E → Prop) (hR : NoClash key R) (es : List E) (hpart : ∀ e ∈ es, ∀ f, Part e f → R f) (cells : List (Nat × Int))
    (hs : cells.Pairwise fun a b => argLt a b = true) (hc : ∀ q, q ∈ cells ↔ ∃ e ∈ es, Occurs q e) :
    sortTraces (collect key (trace_search key) es) = some (cells.map cell) ∧ ∀ q ∈ cells, ∃ e ∈ es, Part e (cell q) := by
  have hsp := fun e he => trace_search_parts key R hR e (hpart e he)
  have hmem := mem_collect key R hR (trace_search key) es fun e he f hf => hpart e he f ((hsp e he).1 f hf)
  obtain ⟨l, hl⟩ : ∃ l : List (Nat × Int), collect key (trace_search key) es = l.map cell := by
    have : ∀ s : List E, (∀ f ∈ s, ∃ q, f = cell q) → ∃ l : List (Nat × Int), s = l.map cell := by
      intro s
      induction s with
      | nil => intro _; exact ⟨[], rfl⟩
      | cons f s ih =>
        intro h
        obtain ⟨q, rfl⟩ := h f (by simp)
        obtain ⟨l, rfl⟩ := ih fun f hf => h f (by simp [hf])
        exact ⟨q :: l, rfl⟩
    refine this _ fun f hf => ?_
    obtain ⟨e, he, hf⟩ := (hmem f).1 hf
    obtain ⟨i, j, rfl, _⟩ := ((hsp e he).2 f).1 hf
    exact ⟨(i, j), rfl⟩
  have hocc : ∀ q, q ∈ l ↔ ∃ e ∈ es, Occurs q e := by
    intro q
    have : q ∈ l ↔ cell q ∈ collect key (trace_search key) es := by
      rw [hl, List.mem_map]
      exact ⟨fun h => ⟨q, h, rfl⟩, fun ⟨q', h, he⟩ => cell_inj he ▸ h⟩
    rw [this, hmem]
    constructor
    · rintro ⟨e, he, hf⟩
      obtain ⟨i, j, h1, h2⟩ := ((hsp e he).2 _).1 hf
      obtain rfl : q = (i, j) := cell_inj h1
      exact ⟨e, he, h2⟩
    · rintro ⟨e, he, ho⟩
      exact ⟨e, he, ((hsp e he).2 _).2 ⟨q.1, q.2, rfl, ho⟩⟩
  have hnd : l.Nodup := by
    have h1 := collect_sorted key (trace_search key) es
    rw [hl, List.pairwise_map] at h1
    exact h1.imp fun h heq => by rw [heq] at h; exact lt_irrefl _ h
  obtain ⟨l', h1, h2, h3⟩ := sortTraces_cells l hnd
  obtain rfl : l' = cells := ascending_unique l' cells h2 hs fun a => by rw [h3, hocc, hc]
  refine ⟨by rw [hl, h1], fun q hq => ?_⟩
  obtain ⟨e, he, ho⟩ := (hc q).1 hq
  exact ⟨e, he, (hsp e he).1 _ (((hsp e he).2 _).2 ⟨q.1, q.2, rfl, ho⟩)⟩

end Generate
end Evm
end OpenZKP
