import Verif.Stark.OodsLemmas

/-!
Lemmas: what the verifier reads back from what the prover wrote.
-/

namespace OpenZKP
namespace Stark
open FFT U256 Merkle Props Polynomial

section
variable {F : Type} [Field F] [DecidableEq F] (env : Env F)

theorem pPanic_inv {α : Type} {x : Option α} {a : α} (h : pPanic x = .ok a) : x = some a := by
  cases x with
  | none => cases h
  | some b => cases h; rfl

theorem next_power_of_two_spec (d b : Nat) (h : d ≤ 2 ^ b) : ∃ e ≤ b, next_power_of_two d = 2 ^ e ∧ d ≤ 2 ^ e := by
  unfold next_power_of_two
  by_cases hd : d ≤ 1
  · exact ⟨0, Nat.zero_le _, by rw [if_pos hd]; rfl, by simpa using hd⟩
  · rw [if_neg hd]
    have h1 : d - 1 ≠ 0 := by omega
    refine ⟨Nat.log2 (d - 1) + 1, ?_, rfl, ?_⟩
    · have : Nat.log2 (d - 1) < b := (Nat.log2_lt h1).2 (by omega)
      omega
    · have := (Nat.log2_lt h1 (k := Nat.log2 (d - 1) + 1)).1 (Nat.lt_succ_self _)
      omega

/-- the stages of the prover after the constraint polynomials are committed, read back: the FRI layers and the last layer -/
theorem fri_read (hroot : RootFn env.root) (hcompat : RootCompat env.root) (r b s : Nat) (W : F)
    (hM : r + s + b < 64) (hW : env.root (2 ^ (r + s + b)) = some W) (layout : List Nat) (hlay : ∀ k ∈ layout, 1 ≤ k ∧ k ≤ 4) (hs : layout.sum = s)
    (P : F[X]) (hdeg : P.degree < (2 ^ (r + s) : Nat)) (pc pc' : ProverChannel) (trees : List (FriTree F))
    (h : perform_fri_layering env (ldeOf env W (r + s + b) P) layout (2 ^ b) pc = .ok (trees, pc')) :
    pc.proof <+: pc'.proof ∧ ∃ x_inv coms last points P', friInverses env.root (2 ^ (r + s + b)) = some x_inv ∧
      FriRel env x_inv layout (r + s + b) (ldeOf env W (r + s + b) P) trees coms last (r + b) ∧
      IsLayer (r + b) (W ^ 2 ^ s) P' last ∧ points.length = 2 ^ r ∧ toPoly points = P' ∧
      ∀ full, pc'.proof <+: full → ∃ c1, readCommitments env layout (2 ^ (r + s + b)) (vat pc full) = .ok ((coms, 2 ^ (r + b)), c1) ∧
        c1.readLayer env (2 ^ (r + b) / 2 ^ b) = some (points, vat pc' full) := by
  unfold perform_fri_layering at h
  rw [ldeOf_length, hW] at h
  dsimp only at h
  obtain ⟨x_inv, h1, h⟩ := bind_ok_inv h
  obtain ⟨f, h2, h⟩ := bind_ok_inv h
  obtain ⟨points, h3, h⟩ := map_ok_inv h
  have h1 := pPanic_inv h1
  have h3 := pPanic_inv h3
  obtain ⟨⟨ts, last⟩, pc1⟩ := f
  rw [Prod.mk.injEq] at h
  obtain ⟨h4, h5⟩ := h
  dsimp only at h3 h4 h5
  subst h4
  have hlayer : IsLayer (r + b + layout.sum) (W ^ 2 ^ (r + s + b - (r + b + layout.sum))) (P.comp (C env.generator * X)) (ldeOf env W (r + s + b) P) := by
    rw [hs, show r + b + s = r + s + b by omega, Nat.sub_self, pow_zero, pow_one]
    refine ⟨ldeOf_length _ _ _ _, fun i f hi hf => ?_⟩
    rw [ldeOf_get _ _ _ _ _ hi, (isBitRev_iff _ _ _).1 hf, eval_comp, eval_mul, eval_C, eval_X]
  obtain ⟨g1, ⟨P', g2, g3⟩, coms, g4, g5⟩ := friCommit_at env hroot (r + s + b) hM W hW x_inv h1 layout hlay (r + b) (by omega) _ _ hlayer pc pc1 ts last h2
  rw [hs, show r + b + s = r + s + b by omega] at g4 g5
  rw [show r + s + b - (r + b) = s by omega] at g2
  have hP' : P'.degree < (2 ^ r : Nat) := by
    apply g3
    rw [hs, ← pow_add]
    exact scale_degree _ _ _ hdeg
  have hw' : env.root (2 ^ (r + b)) = some (W ^ 2 ^ s) := hcompat (r + b) s W (by omega) (by rw [show r + b + s = r + s + b by omega]; exact hW)
  obtain ⟨l, k1, k2, k3⟩ := C39_final env.root hroot hcompat r b (by omega) _ hw' P' hP' last g2
  rw [h3] at k1
  cases k1
  have hpre : pc'.proof = pc1.proof ++ fieldsBytes env points := by rw [← h5]; rfl
  refine ⟨?_, x_inv, coms, last, points, P', h1, g4, g2, k2, k3, fun full hfull => ?_⟩
  · rw [hpre]
    exact g1.trans (List.prefix_append _ _)
  · rw [hpre] at hfull
    refine ⟨vat pc1 full, g5 full ((List.prefix_append _ _).trans hfull), ?_⟩
    rw [pow_add, Nat.mul_div_cancel _ (Nat.two_pow_pos b), ← k2]
    have := readLayer_pre env (coin := pc1.coin) hfull
    rw [← h5]
    exact this

/-- the check of the last layer -/
theorem checkLast_ok (r b : Nat) (hrb : r + b < 64) (W : F) (hW : env.root (2 ^ (r + b)) = some W) (P : F[X]) (last points : List F)
    (hl : IsLayer (r + b) W P last) (hp : points.length = 2 ^ r) (hP : toPoly points = P) (previous : List Nat) (folds : List (Nat × F))
    (hf : ∀ n ∈ previous, n < 2 ^ (r + b) ∧ assoc folds n = some (last.getD n 0)) :
    checkLast env points previous folds (2 ^ (r + b)) = .ok () := by
  unfold checkLast
  rw [hW]
  dsimp only
  have hnew : Poly.new points = some points := by
    unfold Poly.new
    rw [if_pos (by rw [hp, Nat.log2_two_pow])]
  rw [hnew, orPanic_some]
  induction previous with
  | nil => rfl
  | cons n l ih =>
    obtain ⟨h1, h2⟩ := hf n (by simp)
    rw [List.foldlM_cons, h2, orPanic_some, permute_index_eq _ _ hrb h1]
    have hv := hl.2 n _ h1 ((isBitRev_iff _ _ _).2 rfl)
    show Except.bind (if _ then _ else _) _ = _
    rw [if_pos (by rw [C37_evaluate, hP, List.getD, hv]; rfl)]
    exact ih fun m hm => hf m (List.mem_cons_of_mem _ hm)

/-- the sum of the constraint polynomials at the drawn point, as the verifier forms it -/
theorem oods_sum (x : F) (values : List F) :
    oods_value_from_constraint_values values x = ((List.range values.length).map fun i => x ^ i * values.getD i 0).sum := by
  have h : ∀ (vs : List F) (s p : F), (vs.foldl (fun (s : F × F) value => (s.1 + value * s.2, s.2 * x)) (s, p)).1 =
      s + p * ((List.range vs.length).map fun i => x ^ i * vs.getD i 0).sum := by
    intro vs
    induction vs with
    | nil => intro s p; simp
    | cons v vs ih =>
      intro s p
      rw [List.foldl_cons, ih, List.length_cons, List.range_succ_eq_map, List.map_cons, List.map_map, List.sum_cons]
      have : ((List.range vs.length).map ((fun i => x ^ i * (v :: vs).getD i 0) ∘ Nat.succ)).sum =
          x * ((List.range vs.length).map fun i => x ^ i * vs.getD i 0).sum := by
        rw [← List.sum_map_mul_left]
        congr 1
        apply List.map_congr_left
        intro i _
        simp only [Function.comp, List.getD_cons_succ]
        rw [pow_succ]
        ring
      rw [this]
      simp only [pow_zero, one_mul, List.getD_cons_zero]
      ring
  unfold oods_value_from_constraint_values
  rw [h]
  simp

theorem assoc_zip_map {α β : Type} [DecidableEq α] (f : α → β) (l : List α) (n : α) (h : n ∈ l) : assoc (l.zip (l.map f)) n = some (f n) := by
  rw [zip_map_self]
  unfold assoc
  induction l with
  | nil => cases h
  | cons a l ih =>
    rw [List.map_cons, List.find?_cons]
    by_cases ha : a = n
    · subst ha; simp
    · rw [show decide ((a, f a).1 = n) = false by simpa using ha]
      exact ih ((List.mem_cons.1 h).resolve_left fun h => ha h.symm)

end

end Stark
end OpenZKP
