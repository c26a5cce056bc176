import Verif.FFT.Perm

/-! # Transposition of square matrices of stretches (lemmas) -/

namespace OpenZKP.FFT

variable {α : Type}

/-- the transposition of an `s × s` matrix of stretches of length `t`, extended by the identity -/
def transσ (s t x : Nat) : Nat :=
  if x < s * s * t then ((x / t) % s * s + (x / t) / s) * t + x % t else x

theorem coords (s R C : Nat) (hC : C < s) : (R * s + C) / s = R ∧ (R * s + C) % s = C := by
  have hs : 0 < s := by omega
  constructor
  · rw [Nat.add_comm, Nat.add_mul_div_right _ _ hs, Nat.div_eq_of_lt hC, Nat.zero_add]
  · rw [Nat.add_comm, Nat.add_mul_mod_self_right, Nat.mod_eq_of_lt hC]

theorem coord_lt (s R C : Nat) (hR : R < s) (hC : C < s) : R * s + C < s * s := by
  calc R * s + C < R * s + s := by omega
    _ = (R + 1) * s := by ring
    _ ≤ s * s := Nat.mul_le_mul_right _ hR

theorem coord_inj (s R C R' C' : Nat) (hC : C < s) (hC' : C' < s) (h : R * s + C = R' * s + C') :
    R = R' ∧ C = C' := by
  have h1 := coords s R C hC
  have h2 := coords s R' C' hC'
  rw [h] at h1
  exact ⟨h1.1.symm.trans h2.1, h1.2.symm.trans h2.2⟩

theorem transσ_apply (s t R C e : Nat) (hR : R < s) (hC : C < s) (he : e < t) :
    transσ s t ((R * s + C) * t + e) = (C * s + R) * t + e := by
  have h1 := coords t (R * s + C) e he
  have h2 := coords s R C hC
  have h3 : (R * s + C) * t + e < s * s * t := coord_lt_gen s t R C e hR hC he
  unfold transσ
  rw [if_pos h3, h1.1, h1.2, h2.1, h2.2]
where
  coord_lt_gen (s t R C e : Nat) (hR : R < s) (hC : C < s) (he : e < t) : (R * s + C) * t + e < s * s * t := by
    have h := coord_lt s R C hR hC
    calc (R * s + C) * t + e < (R * s + C) * t + t := by omega
      _ = (R * s + C + 1) * t := by ring
      _ ≤ s * s * t := Nat.mul_le_mul_right _ h

/-- every index inside has coordinates -/
theorem exists_coords (s t x : Nat) (hx : x < s * s * t) :
    ∃ R C e, R < s ∧ C < s ∧ e < t ∧ x = (R * s + C) * t + e := by
  have ht : 0 < t := by
    rcases Nat.eq_zero_or_pos t with h | h
    · subst h; omega
    · exact h
  have hs : 0 < s := by
    rcases Nat.eq_zero_or_pos s with h | h
    · subst h; omega
    · exact h
  have h1 : x / t < s * s := (Nat.div_lt_iff_lt_mul ht).2 hx
  refine ⟨x / t / s, x / t % s, x % t, (Nat.div_lt_iff_lt_mul hs).2 h1, Nat.mod_lt _ hs, Nat.mod_lt _ ht, ?_⟩
  rw [Nat.div_add_mod', Nat.div_add_mod']

theorem transσ_invol (s t x : Nat) : transσ s t (transσ s t x) = x := by
  by_cases hx : x < s * s * t
  · obtain ⟨R, C, e, hR, hC, he, rfl⟩ := exists_coords s t x hx
    rw [transσ_apply s t R C e hR hC he, transσ_apply s t C R e hC hR he]
  · unfold transσ; rw [if_neg hx, if_neg hx]

/-- criterion: swaps listed by upper-triangular coordinates -/
theorem swaps_transpose (s t : Nat) (L : List (Nat × Nat × Nat))
    (hL : ∀ p ∈ L, p.1 < p.2.1 ∧ p.2.1 < s ∧ p.2.2 < t)
    (hc : ∀ R C e, R < C → C < s → e < t → L.count (R, C, e) = 1) (v : Slice α) (x : Nat) :
    (L.map (fun p => (p.1 * s + p.2.1) * t + p.2.2)).foldl (fun v i => swap v i (transσ s t i)) v x
      = v (transσ s t x) := by
  have hcount : ∀ R C e, R < s → C < s → e < t →
      (L.map (fun p => (p.1 * s + p.2.1) * t + p.2.2)).count ((R * s + C) * t + e) = if R < C then 1 else 0 := by
    intro R C e hR hC he
    have key : (L.map (fun p => (p.1 * s + p.2.1) * t + p.2.2)).count ((R * s + C) * t + e)
        = L.count (R, C, e) := by
      rw [List.count, List.countP_map, List.count]
      apply List.countP_congr
      intro p hp
      obtain ⟨h1, h2, h3⟩ := hL p hp
      simp only [Function.comp, beq_iff_eq]
      constructor
      · intro h
        obtain ⟨h4, h5⟩ := coord_inj t _ _ _ _ h3 he h
        obtain ⟨h6, h7⟩ := coord_inj s _ _ _ _ h2 hC h4
        obtain ⟨a, b, c⟩ := p
        simp only at h5 h6 h7
        rw [h5, h6, h7]
      · intro h; rw [h]
    rw [key]
    by_cases h : R < C
    · rw [if_pos h, hc R C e h hC he]
    · rw [if_neg h, List.count_eq_zero]
      intro hm
      exact h (hL _ hm).1
  rw [foldl_swap_eq _ (transσ_invol s t)]
  intro x hx
  have hlt : x < s * s * t := by
    by_contra h
    exact hx (by unfold transσ; rw [if_neg h])
  obtain ⟨R, C, e, hR, hC, he, rfl⟩ := exists_coords s t x hlt
  rw [transσ_apply s t R C e hR hC he] at hx ⊢
  rw [hcount R C e hR hC he, hcount C R e hC hR he]
  have hne : R ≠ C := fun h => hx (by rw [h])
  by_cases h : R < C
  · rw [if_pos h, if_neg (by omega)]
  · rw [if_neg h, if_pos (by omega)]

theorem foldl_map' {β γ δ : Type} (f : δ → γ → δ) (g : β → γ) (L : List β) (v : δ) :
    (L.map g).foldl f v = L.foldl (fun v b => f v (g b)) v := by
  induction L generalizing v with
  | nil => rfl
  | cons b L ih => rw [List.map_cons, List.foldl_cons, ih, List.foldl_cons]

theorem foldl_congr' {β δ : Type} (f g : δ → β → δ) (L : List β) (h : ∀ b ∈ L, ∀ v, f v b = g v b) (v : δ) :
    L.foldl f v = L.foldl g v := by
  induction L generalizing v with
  | nil => rfl
  | cons b L ih =>
    rw [List.foldl_cons, List.foldl_cons, h b (by simp), ih (fun c hc => h c (by simp [hc]))]

theorem count_flatMap_range (β : Type) [BEq β] [LawfulBEq β] (n : Nat) (g : Nat → List β) (b : β) :
    ((List.range n).flatMap g).count b = ∑ i ∈ Finset.range n, (g i).count b := by
  induction n with
  | zero => simp
  | succ n ih =>
    rw [List.range_succ, List.flatMap_append, List.count_append, ih, Finset.sum_range_succ]
    simp

/-! ## stretch 1 -/

theorem stepBy2_zero (m : Nat) : stepBy2 0 (2 * m) = (List.range m).map (2 * ·) := by
  unfold stepBy2
  rw [show (2 * m - 0 + 1) / 2 = m by omega]
  apply List.map_congr_left
  intro a _
  omega

theorem stepBy2_drop (m r : Nat) (hr : r < m) :
    (stepBy2 (2 * r) (2 * m)).drop 1 = (List.range (m - r - 1)).map (fun c => 2 * (r + 1 + c)) := by
  unfold stepBy2
  rw [show (2 * m - 2 * r + 1) / 2 = (m - r - 1) + 1 by omega, ← List.map_drop, List.range_succ_eq_map,
    List.drop_succ_cons, List.drop_zero, List.map_map]
  apply List.map_congr_left
  intro a _
  simp only [Function.comp]
  omega

def quad (R C : Nat) : List (Nat × Nat × Nat) := [(R, C, 0), (R, C + 1, 0), (R + 1, C, 0), (R + 1, C + 1, 0)]

def upper1 (m : Nat) : List (Nat × Nat × Nat) :=
  (List.range m).flatMap fun r =>
    (2 * r, 2 * r + 1, 0) :: (List.range (m - r - 1)).flatMap fun c => quad (2 * r) (2 * (r + 1 + c))

theorem mem_upper1 (m : Nat) : ∀ p ∈ upper1 m, p.1 < p.2.1 ∧ p.2.1 < 2 * m ∧ p.2.2 < 1 := by
  intro p hp
  unfold upper1 quad at hp
  simp only [List.mem_flatMap, List.mem_range, List.mem_cons, List.not_mem_nil, or_false] at hp
  obtain ⟨r, hr, h⟩ := hp
  rcases h with h | ⟨c, hc, h⟩
  · subst h; simp only; omega
  · rcases h with h | h | h | h <;> (subst h; simp only; omega)

theorem count_quad (R C r c : Nat) :
    (quad (2 * r) (2 * c)).count (R, C, 0) = if R / 2 = r ∧ C / 2 = c then 1 else 0 := by
  unfold quad
  simp only [List.count_cons, List.count_nil, beq_iff_eq, Prod.mk.injEq, and_true]
  split <;> split <;> split <;> split <;> split <;> omega

theorem count_upper1 (m R C : Nat) (h : R < C) (hC : C < 2 * m) : (upper1 m).count (R, C, 0) = 1 := by
  unfold upper1
  rw [count_flatMap_range]
  have hterm : ∀ r, r < m →
      (((2 * r, 2 * r + 1, 0) :: (List.range (m - r - 1)).flatMap fun c =>
        quad (2 * r) (2 * (r + 1 + c))) : List (Nat × Nat × Nat)).count (R, C, 0)
        = if R / 2 = r then 1 else 0 := by
    intro r hr
    rw [List.count_cons, count_flatMap_range]
    simp only [count_quad]
    by_cases h1 : R / 2 = r
    · rw [if_pos h1]
      by_cases h2 : C / 2 = r
      · rw [Finset.sum_eq_zero]
        · rw [if_pos]
          rw [beq_iff_eq]
          have : R = 2 * r := by omega
          have : C = 2 * r + 1 := by omega
          simp [*]
        · intro c _
          rw [if_neg]; omega
      · rw [Finset.sum_eq_single (C / 2 - r - 1), if_pos ⟨h1, by omega⟩, if_neg]
        · rw [beq_iff_eq, Prod.mk.injEq, Prod.mk.injEq]; omega
        · intro c _ hne; rw [if_neg]; omega
        · intro hn
          rw [Finset.mem_range] at hn; omega
    · rw [if_neg h1, Finset.sum_eq_zero, if_neg]
      · rw [beq_iff_eq, Prod.mk.injEq, Prod.mk.injEq]; omega
      · intro c _; rw [if_neg]; omega
  rw [Finset.sum_congr rfl (fun r hr => hterm r (Finset.mem_range.1 hr)), Finset.sum_ite_eq, if_pos]
  rw [Finset.mem_range]; omega

theorem transpose1_eq (m : Nat) (v : Slice α) :
    (stepBy2 0 (2 * m)).foldl (transpose1Row (2 * m)) v
      = ((upper1 m).map (fun p => (p.1 * (2 * m) + p.2.1) * 1 + p.2.2)).foldl
          (fun v i => swap v i (transσ (2 * m) 1 i)) v := by
  rw [stepBy2_zero, foldl_map', foldl_map']
  unfold upper1
  rw [foldl_flatMap']
  apply foldl_congr'
  intro r hr v
  have hr := List.mem_range.1 hr
  unfold transpose1Row
  rw [List.foldl_cons, stepBy2_drop m r hr, foldl_map', foldl_flatMap']
  have tr : ∀ R C, R < 2 * m → C < 2 * m →
      transσ (2 * m) 1 ((R * (2 * m) + C) * 1 + 0) = C * (2 * m) + R := by
    intro R C hR hC
    rw [transσ_apply (2 * m) 1 R C 0 hR hC (by norm_num)]; ring
  dsimp only
  rw [tr _ _ (by omega) (by omega)]
  have e1 : 2 * r * (2 * m) + 2 * r + 1 = (2 * r * (2 * m) + (2 * r + 1)) * 1 + 0 := by ring
  have e2 : 2 * r * (2 * m) + 2 * r + 2 * m = (2 * r + 1) * (2 * m) + 2 * r := by ring
  rw [e1, e2]
  apply foldl_congr'
  intro c hc v
  have hc := List.mem_range.1 hc
  unfold quad
  simp only [List.foldl_cons, List.foldl_nil]
  rw [tr _ _ (by omega) (by omega), tr _ _ (by omega) (by omega), tr _ _ (by omega) (by omega),
    tr _ _ (by omega) (by omega)]
  unfold transpose1Col
  dsimp only
  generalize 2 * (r + 1 + c) = C
  generalize 2 * r = R
  generalize 2 * m = s
  have f1 : (R * s + C) * 1 + 0 = R * s + C := by ring
  have f2 : (R * s + (C + 1)) * 1 + 0 = R * s + C + 1 := by ring
  have f3 : ((R + 1) * s + C) * 1 + 0 = R * s + C + s := by ring
  have f4 : ((R + 1) * s + (C + 1)) * 1 + 0 = R * s + C + s + 1 := by ring
  have g2 : (C + 1) * s + R = C * s + R + s := by ring
  have g3 : C * s + (R + 1) = C * s + R + 1 := by ring
  have g4 : (C + 1) * s + (R + 1) = C * s + R + s + 1 := by ring
  rw [f1, f2, f3, f4, g2, g3, g4]

theorem transpose_square_1_spec (size : Nat) (h : size % 2 = 0) (v : Slice α) :
    ∃ w, transpose_square_1 size v = some w ∧ ∀ x, w x = v (transσ size 1 x) := by
  obtain ⟨m, rfl⟩ : ∃ m, size = 2 * m := ⟨size / 2, by omega⟩
  unfold transpose_square_1
  rw [if_neg (by omega)]
  refine ⟨_, rfl, fun x => ?_⟩
  rw [transpose1_eq, swaps_transpose (2 * m) 1 (upper1 m) (mem_upper1 m)]
  intro R C e h1 h2 he
  obtain rfl : e = 0 := by omega
  exact count_upper1 m R C h1 h2

/-! ## stretch 2 -/

def upper2 (s : Nat) : List (Nat × Nat × Nat) :=
  (List.range s).flatMap fun r => (List.range (s - r - 1)).flatMap fun c =>
    [(r, r + 1 + c, 0), (r, r + 1 + c, 1)]

theorem mem_upper2 (s : Nat) : ∀ p ∈ upper2 s, p.1 < p.2.1 ∧ p.2.1 < s ∧ p.2.2 < 2 := by
  intro p hp
  unfold upper2 at hp
  simp only [List.mem_flatMap, List.mem_range, List.mem_cons, List.not_mem_nil, or_false] at hp
  obtain ⟨r, hr, c, hc, h | h⟩ := hp <;> (subst h; simp only; omega)

theorem count_upper2 (s R C e : Nat) (h : R < C) (hC : C < s) (he : e < 2) : (upper2 s).count (R, C, e) = 1 := by
  unfold upper2
  rw [count_flatMap_range]
  have hterm : ∀ r, r < s →
      ((List.range (s - r - 1)).flatMap fun c =>
        ([(r, r + 1 + c, 0), (r, r + 1 + c, 1)] : List (Nat × Nat × Nat))).count (R, C, e)
        = if R = r then 1 else 0 := by
    intro r hr
    rw [count_flatMap_range]
    have hin : ∀ c, ([(r, r + 1 + c, 0), (r, r + 1 + c, 1)] : List (Nat × Nat × Nat)).count (R, C, e)
        = if R = r ∧ C = r + 1 + c then 1 else 0 := by
      intro c
      simp only [List.count_cons, List.count_nil, beq_iff_eq, Prod.mk.injEq]
      split <;> split <;> split <;> omega
    simp only [hin]
    by_cases h1 : R = r
    · rw [if_pos h1, Finset.sum_eq_single (C - r - 1), if_pos ⟨h1, by omega⟩]
      · intro c _ hne; rw [if_neg]; omega
      · intro hn; rw [Finset.mem_range] at hn; omega
    · rw [if_neg h1, Finset.sum_eq_zero]
      intro c _; rw [if_neg]; omega
  rw [Finset.sum_congr rfl (fun r hr => hterm r (Finset.mem_range.1 hr)), Finset.sum_ite_eq, if_pos]
  rw [Finset.mem_range]; omega

theorem range'_drop (r s : Nat) (hr : r < s) :
    (List.range' r (s - r)).drop 1 = (List.range (s - r - 1)).map (fun c => r + 1 + c) := by
  obtain ⟨n, hn⟩ : ∃ n, s - r = n + 1 := ⟨s - r - 1, by omega⟩
  rw [hn, List.range'_succ, List.drop_succ_cons, List.drop_zero, List.range'_eq_map_range]
  rfl

theorem transpose2_eq (s : Nat) (v : Slice α) :
    transpose_square_2 s v = ((upper2 s).map (fun p => (p.1 * s + p.2.1) * 2 + p.2.2)).foldl
          (fun v i => swap v i (transσ s 2 i)) v := by
  unfold transpose_square_2 upper2
  rw [foldl_map', foldl_flatMap']
  apply foldl_congr'
  intro r hr v
  have hr := List.mem_range.1 hr
  unfold transpose2Row
  rw [range'_drop r s hr, foldl_map', foldl_flatMap']
  apply foldl_congr'
  intro c hc v
  have hc := List.mem_range.1 hc
  simp only [List.foldl_cons, List.foldl_nil]
  rw [transσ_apply s 2 r _ 0 hr (by omega) (by norm_num), transσ_apply s 2 r _ 1 hr (by omega) (by norm_num)]
  rfl

theorem transpose_square_2_spec (s : Nat) (v : Slice α) (x : Nat) :
    transpose_square_2 s v x = v (transσ s 2 x) := by
  rw [transpose2_eq, swaps_transpose s 2 (upper2 s) (mem_upper2 s)]
  intro R C e h1 h2 he
  exact count_upper2 s R C e h1 h2 he

theorem transpose_square_stretch_spec (size stretch : Nat) (v : Slice α)
    (h : (stretch = 1 ∧ size % 2 = 0) ∨ stretch = 2) :
    ∃ w, transpose_square_stretch (size * size * stretch) v size stretch = some w ∧
      ∀ x, w x = v (transσ size stretch x) := by
  unfold transpose_square_stretch
  rw [if_neg (by simp)]
  rcases h with ⟨rfl, h⟩ | rfl
  · exact transpose_square_1_spec size h v
  · exact ⟨_, rfl, transpose_square_2_spec size v⟩

end OpenZKP.FFT
