import Verif.Evm.GenerateSpec
import Verif.Props.Constraints
import Verif.Props.Expr

/-!
# Lemmas on the generator of contracts: maps, sets and searches
-/

namespace OpenZKP
namespace Evm
namespace Generate
open Stark PrimeField OpenZKP.Props Polynomial

/-! ## Maps and sets -/

theorem mapGet_insert {K V : Type} (key : K → Nat) (e f : K) (v : V) (l : List (K × V)) :
    mapGet key f (mapInsert key e v l) = if key e = key f then some v else mapGet key f l := by
  induction l with
  | nil =>
    unfold mapInsert mapGet
    by_cases h : key e = key f <;> simp [h]
  | cons p l ih =>
    obtain ⟨g, w⟩ := p
    unfold mapInsert
    unfold mapGet at ih ⊢
    split
    · next h1 =>
      by_cases h : key e = key f
      · simp [h]
      · simp [h]
    · next h1 =>
      split
      · next h2 =>
        by_cases h : key e = key f
        · simp [h, ← h2]
        · have : ¬ key g = key f := fun h' => h (h2.trans h')
          simp [h, this]
      · next h2 =>
        by_cases hg : key g = key f
        · have h : ¬ key e = key f := fun h => h2 (h.trans hg.symm)
          simp [h, hg]
        · rw [List.find?_cons_of_neg (by simpa using hg), ih, List.find?_cons_of_neg (by simpa using hg)]

theorem mem_setInsert {K : Type} (key : K → Nat) (R : K → Prop) (hR : ∀ e f, R e → R f → key e = key f → e = f) (e : K) (l : List K) (he : R e) (hl : ∀ f ∈ l, R f) (a : K) :
    a ∈ setInsert key e l ↔ a = e ∨ a ∈ l := by
  induction l with
  | nil => simp [setInsert]
  | cons f l ih =>
    unfold setInsert
    split
    · simp
    · split
      · next h =>
        obtain rfl := hR e f he (hl f (by simp)) h
        simp
      · rw [List.mem_cons, ih fun f hf => hl f (by simp [hf])]
        simp only [List.mem_cons]
        tauto

theorem mem_setExtend {K : Type} (key : K → Nat) (R : K → Prop) (hR : ∀ e f, R e → R f → key e = key f → e = f) (t s : List K) (hs : ∀ f ∈ s, R f) (ht : ∀ f ∈ t, R f) (a : K) :
    a ∈ setExtend key s t ↔ a ∈ s ∨ a ∈ t := by
  unfold setExtend
  induction t generalizing s with
  | nil => simp
  | cons e t ih =>
    have he := ht e (by simp)
    have h := mem_setInsert key R hR e s he hs
    rw [List.foldl_cons, ih _ (fun f hf => ((h f).1 hf).elim (fun x => x ▸ he) (hs f)) fun f hf => ht f (by simp [hf]), h]
    simp only [List.mem_cons]
    tauto

theorem setInsert_sorted {K : Type} (key : K → Nat) (e : K) (l : List K) (hl : l.Pairwise fun a b => key a < key b) : (setInsert key e l).Pairwise fun a b => key a < key b := by
  have hmem : ∀ (l : List K) (a : K), a ∈ setInsert key e l → a = e ∨ a ∈ l := by
    intro l
    induction l with
    | nil => simp [setInsert]
    | cons f l ih =>
      intro a ha
      unfold setInsert at ha
      split at ha
      · simpa using ha
      · split at ha
        · exact Or.inr ha
        · rcases List.mem_cons.1 ha with h | h
          · exact Or.inr (by simp [h])
          · rcases ih a h with h | h
            · exact Or.inl h
            · exact Or.inr (by simp [h])
  induction l with
  | nil => simp [setInsert]
  | cons f l ih =>
    rw [List.pairwise_cons] at hl
    unfold setInsert
    split
    · next h =>
      rw [List.pairwise_cons]
      refine ⟨fun a ha => ?_, List.pairwise_cons.2 hl⟩
      rcases List.mem_cons.1 ha with rfl | ha
      · exact h
      · exact lt_trans h (hl.1 a ha)
    · next h =>
      split
      · exact List.pairwise_cons.2 hl
      · next h2 =>
        rw [List.pairwise_cons]
        refine ⟨fun a ha => ?_, ih hl.2⟩
        rcases hmem l a ha with rfl | ha
        · omega
        · exact hl.1 a ha

theorem setExtend_sorted {K : Type} (key : K → Nat) (t s : List K) (hs : s.Pairwise fun a b => key a < key b) : (setExtend key s t).Pairwise fun a b => key a < key b := by
  unfold setExtend
  induction t generalizing s with
  | nil => exact hs
  | cons e t ih => exact ih _ (setInsert_sorted key e s hs)

theorem mem_collect (key : E → Nat) (R : E → Prop) (hR : NoClash key R) (search : E → List E) (es : List E) (h : ∀ e ∈ es, ∀ f ∈ search e, R f) (a : E) :
    a ∈ collect key search es ↔ ∃ e ∈ es, a ∈ search e := by
  have key' : ∀ (s : List E), (∀ f ∈ s, R f) → (a ∈ es.foldl (fun s e => setExtend key s (search e)) s ↔ a ∈ s ∨ ∃ e ∈ es, a ∈ search e) := by
    induction es with
    | nil => simp
    | cons e es ih =>
      intro s hs
      have hx := mem_setExtend key R hR (search e) s hs (h e (by simp))
      rw [List.foldl_cons, ih (fun e he => h e (by simp [he])) _ fun f hf => ((hx f).1 hf).elim (hs f) (h e (by simp) f), hx]
      simp only [List.mem_cons, exists_eq_or_imp]
      tauto
  unfold collect
  rw [key' [] (by simp)]
  simp

theorem collect_sorted (key : E → Nat) (search : E → List E) (es : List E) : (collect key search es).Pairwise fun a b => key a < key b := by
  have : ∀ s : List E, s.Pairwise (fun a b => key a < key b) → (es.foldl (fun s e => setExtend key s (search e)) s).Pairwise fun a b => key a < key b := by
    induction es with
    | nil => exact fun s hs => hs
    | cons e es ih => exact fun s hs => ih _ (setExtend_sorted key _ s hs)
  exact this [] List.Pairwise.nil

/-! ## Parts and searches -/

theorem Part.trans {e f g : E} (h1 : Part e f) (h2 : Part f g) : Part e g := by
  induction h2 with
  | self => exact h1
  | addLeft _ ih => exact ih.addLeft
  | addRight _ ih => exact ih.addRight
  | mulLeft _ ih => exact ih.mulLeft
  | mulRight _ ih => exact ih.mulRight
  | neg _ ih => exact ih.neg
  | inv _ ih => exact ih.inv
  | exp _ ih => exact ih.exp
  | polynomial _ ih => exact ih.polynomial
  | claim _ ih => exact ih.claim
  | contract _ ih => exact ih.contract

/-- two searches together -/
theorem found_two (key : E → Nat) (R : E → Prop) (hR : NoClash key R) (e a b : E) (A B : List E) (P Q : Nat × Int → Prop) (h : ∀ f, Part e f → R f)
    (ha : Part e a) (hb : Part e b)
    (hA : (∀ f ∈ A, Part a f) ∧ ∀ f, f ∈ A ↔ ∃ i j, f = .Trace i j ∧ P (i, j)) (hB : (∀ f ∈ B, Part b f) ∧ ∀ f, f ∈ B ↔ ∃ i j, f = .Trace i j ∧ Q (i, j)) :
    (∀ f ∈ setExtend key A B, Part e f) ∧ ∀ f, f ∈ setExtend key A B ↔ ∃ i j, f = .Trace i j ∧ (P (i, j) ∨ Q (i, j)) := by
  obtain ⟨a1, a2⟩ := hA
  obtain ⟨b1, b2⟩ := hB
  have hx := mem_setExtend key R hR B A (fun f hf => h f (ha.trans (a1 f hf))) (fun f hf => h f (hb.trans (b1 f hf)))
  refine ⟨fun f hf => ((hx f).1 hf).elim (fun x => ha.trans (a1 f x)) (fun x => hb.trans (b1 f x)), fun f => ?_⟩
  rw [hx, a2, b2]
  constructor
  · rintro (⟨i, j, h1, h2⟩ | ⟨i, j, h1, h2⟩)
    · exact ⟨i, j, h1, Or.inl h2⟩
    · exact ⟨i, j, h1, Or.inr h2⟩
  · rintro ⟨i, j, h1, h2 | h2⟩
    · exact Or.inl ⟨i, j, h1, h2⟩
    · exact Or.inr ⟨i, j, h1, h2⟩

/-- the search for trace cells finds those which occur -/
theorem trace_search_parts (key : E → Nat) (R : E → Prop) (hR : NoClash key R) (e : E) (h : ∀ f, Part e f → R f) :
    (∀ f ∈ trace_search key e, Part e f) ∧ ∀ f, f ∈ trace_search key e ↔ ∃ i j, f = .Trace i j ∧ Occurs (i, j) e := by
  induction e with
  | X => simp [trace_search, Occurs]
  | Constant c => simp [trace_search, Occurs]
  | Trace i j =>
    refine ⟨fun f hf => ?_, fun f => ?_⟩
    · obtain rfl : f = .Trace i j := by simpa [trace_search] using hf
      exact .self
    · simp only [trace_search, List.mem_singleton, Occurs, Prod.mk.injEq]
      constructor
      · rintro rfl; exact ⟨i, j, rfl, rfl, rfl⟩
      · rintro ⟨i', j', rfl, rfl, rfl⟩; rfl
  | Polynomial p a ih =>
    obtain ⟨h1, h2⟩ := ih fun f hf => h f (Part.self.polynomial.trans hf)
    exact ⟨fun f hf => Part.self.polynomial.trans (h1 f hf), h2⟩
  | ClaimPolynomial i n a name ih =>
    obtain ⟨h1, h2⟩ := ih fun f hf => h f (Part.self.claim.trans hf)
    exact ⟨fun f hf => Part.self.claim.trans (h1 f hf), h2⟩
  | Add a b iha ihb =>
    exact found_two key R hR _ a b _ _ (fun q => Occurs q a) (fun q => Occurs q b) h Part.self.addLeft Part.self.addRight (iha fun f hf => h f (Part.self.addLeft.trans hf)) (ihb fun f hf => h f (Part.self.addRight.trans hf))
  | Neg a ih =>
    obtain ⟨h1, h2⟩ := ih fun f hf => h f (Part.self.neg.trans hf)
    exact ⟨fun f hf => Part.self.neg.trans (h1 f hf), h2⟩
  | Mul a b iha ihb =>
    exact found_two key R hR _ a b _ _ (fun q => Occurs q a) (fun q => Occurs q b) h Part.self.mulLeft Part.self.mulRight (iha fun f hf => h f (Part.self.mulLeft.trans hf)) (ihb fun f hf => h f (Part.self.mulRight.trans hf))
  | Inv a ih =>
    obtain ⟨h1, h2⟩ := ih fun f hf => h f (Part.self.inv.trans hf)
    exact ⟨fun f hf => Part.self.inv.trans (h1 f hf), h2⟩
  | Exp a n ih =>
    obtain ⟨h1, h2⟩ := ih fun f hf => h f (Part.self.exp.trans hf)
    exact ⟨fun f hf => Part.self.exp.trans (h1 f hf), h2⟩

theorem of_mem_setInsert {K : Type} (key : K → Nat) (e : K) (l : List K) (a : K) (h : a ∈ setInsert key e l) : a = e ∨ a ∈ l := by
  induction l with
  | nil => simpa [setInsert] using h
  | cons f l ih =>
    unfold setInsert at h
    split at h
    · simpa using h
    · split at h
      · exact Or.inr h
      · rcases List.mem_cons.1 h with h | h
        · exact Or.inr (by simp [h])
        · rcases ih h with h | h
          · exact Or.inl h
          · exact Or.inr (by simp [h])

theorem of_mem_setExtend {K : Type} (key : K → Nat) (t s : List K) (a : K) (h : a ∈ setExtend key s t) : a ∈ s ∨ a ∈ t := by
  unfold setExtend at h
  induction t generalizing s with
  | nil => exact Or.inl h
  | cons e t ih =>
    rcases ih _ h with h | h
    · rcases of_mem_setInsert key e s a h with h | h
      · exact Or.inr (by simp [h])
      · exact Or.inl h
    · exact Or.inr (by simp [h])

theorem of_mem_collect (key : E → Nat) (search : E → List E) (es : List E) (a : E) (h : a ∈ collect key search es) : ∃ e ∈ es, a ∈ search e := by
  have key' : ∀ (s : List E), a ∈ es.foldl (fun s e => setExtend key s (search e)) s → a ∈ s ∨ ∃ e ∈ es, a ∈ search e := by
    intro s
    clear h
    induction es generalizing s with
    | nil => exact Or.inl
    | cons e es ih =>
      intro h
      rcases ih _ h with h | ⟨f, hf, h⟩
      · rcases of_mem_setExtend key _ s a h with h | h
        · exact Or.inl h
        · exact Or.inr ⟨e, by simp, h⟩
      · exact Or.inr ⟨f, by simp [hf], h⟩
  simpa using key' [] h

theorem inv_search_parts (key : E → Nat) (e f : E) (h : f ∈ inv_search key e) : Part e f ∧ ∃ a, f = .Inv a := by
  induction e with
  | X => simp [inv_search] at h
  | Constant c => simp [inv_search] at h
  | Trace i j => simp [inv_search] at h
  | Polynomial p a ih => exact (ih h).imp Part.self.polynomial.trans id
  | ClaimPolynomial i n a name ih => exact (ih h).imp Part.self.claim.trans id
  | Add a b iha ihb =>
    rcases of_mem_setExtend key _ _ f h with h | h
    · exact (iha h).imp Part.self.addLeft.trans id
    · exact (ihb h).imp Part.self.addRight.trans id
  | Neg a ih => exact (ih h).imp Part.self.neg.trans id
  | Mul a b iha ihb =>
    rcases of_mem_setExtend key _ _ f h with h | h
    · exact (iha h).imp Part.self.mulLeft.trans id
    · exact (ihb h).imp Part.self.mulRight.trans id
  | Inv a ih =>
    obtain rfl : f = .Inv a := by simpa [inv_search] using h
    exact ⟨.self, a, rfl⟩
  | Exp a n ih => exact (ih h).imp Part.self.exp.trans id

theorem periodic_search_parts (key : E → Nat) (e f : E) (h : f ∈ periodic_search key e) : Part e f ∧ ∃ p a, f = .Polynomial p a := by
  induction e with
  | X => simp [periodic_search] at h
  | Constant c => simp [periodic_search] at h
  | Trace i j => simp [periodic_search] at h
  | Polynomial p a ih =>
    obtain rfl : f = .Polynomial p a := by simpa [periodic_search] using h
    exact ⟨.self, p, a, rfl⟩
  | ClaimPolynomial i n a name ih => simp [periodic_search] at h
  | Add a b iha ihb =>
    rcases of_mem_setExtend key _ _ f h with h | h
    · exact (iha h).imp Part.self.addLeft.trans id
    · exact (ihb h).imp Part.self.addRight.trans id
  | Neg a ih => exact (ih h).imp Part.self.neg.trans id
  | Mul a b iha ihb =>
    rcases of_mem_setExtend key _ _ f h with h | h
    · exact (iha h).imp Part.self.mulLeft.trans id
    · exact (ihb h).imp Part.self.mulRight.trans id
  | Inv a ih => exact (ih h).imp Part.self.inv.trans id
  | Exp a n ih => exact (ih h).imp Part.self.exp.trans id

theorem claim_polynomial_search_parts (key : E → Nat) (e f : E) (h : f ∈ claim_polynomial_search key e) : Part e f ∧ ∃ i n a name, f = .ClaimPolynomial i n a name := by
  induction e with
  | X => simp [claim_polynomial_search] at h
  | Constant c => simp [claim_polynomial_search] at h
  | Trace i j => simp [claim_polynomial_search] at h
  | Polynomial p a ih => simp [claim_polynomial_search] at h
  | ClaimPolynomial i n a name ih =>
    obtain rfl : f = .ClaimPolynomial i n a name := by simpa [claim_polynomial_search] using h
    exact ⟨.self, i, n, a, name, rfl⟩
  | Add a b iha ihb =>
    rcases of_mem_setExtend key _ _ f h with h | h
    · exact (iha h).imp Part.self.addLeft.trans id
    · exact (ihb h).imp Part.self.addRight.trans id
  | Neg a ih => exact (ih h).imp Part.self.neg.trans id
  | Mul a b iha ihb =>
    rcases of_mem_setExtend key _ _ f h with h | h
    · exact (iha h).imp Part.self.mulLeft.trans id
    · exact (ihb h).imp Part.self.mulRight.trans id
  | Inv a ih => exact (ih h).imp Part.self.inv.trans id
  | Exp a n ih => exact (ih h).imp Part.self.exp.trans id

/-- where an expression has a value, so do its parts -/
theorem part_value (claims : Nat → Option Z[X]) (x : Z) (trace : Nat → Int → Option Z) (e f : E) (h : Part e f) (hv : ∃ v, claimValue claims x trace e = some v) :
    ∃ v, claimValue claims x trace f = some v := by
  induction h with
  | self => exact hv
  | addLeft _ ih | addRight _ ih | mulLeft _ ih | mulRight _ ih =>
    obtain ⟨v, hv⟩ := ih
    simp only [claimValue] at hv
    split at hv
    · next h1 h2 => exact ⟨_, by assumption⟩
    · cases hv
  | neg _ ih | exp _ ih | polynomial _ ih =>
    obtain ⟨v, hv⟩ := ih
    simp only [claimValue] at hv
    obtain ⟨w, hw, _⟩ := Option.map_eq_some_iff.1 hv
    exact ⟨w, hw⟩
  | inv _ ih =>
    obtain ⟨v, hv⟩ := ih
    simp only [claimValue] at hv
    split at hv
    · exact ⟨_, by assumption⟩
    · cases hv
  | claim _ ih =>
    obtain ⟨v, hv⟩ := ih
    simp only [claimValue] at hv
    split at hv
    · exact ⟨_, by assumption⟩
    · cases hv
  | contract _ ih =>
    obtain ⟨v, hv⟩ := ih
    simp only [claimValue] at hv
    obtain ⟨w, hw, _⟩ := Option.map_eq_some_iff.1 hv
    obtain ⟨u, hu, _⟩ := Option.map_eq_some_iff.1 hw
    exact ⟨_, by simp only [claimValue]; rw [hu, Option.map_some]⟩

end Generate
end Evm
end OpenZKP
