import Verif.Stark.AcceptRead

/-!
Lemmas: what the verifier has checked when the FRI layers are accepted.
-/

namespace OpenZKP
namespace Stark
namespace Accept
open FFT U256 Props Merkle

/-- `binary_search` on ascending lists -/
def SearchOk (search : List Nat → Nat → Option Nat) : Prop :=
  ∀ l n, l.Pairwise (· ≤ ·) → (∀ z, search l n = some z → l[z]? = some n) ∧ (search l n = none → n ∉ l)

section
variable {F : Type} [Field F] [DecidableEq F] (env : Env F)

/-! ## Cosets -/

omit [Field F] [DecidableEq F] in
theorem took_coset (hsearch : SearchOk env.search) (known : Nat → Nat → Except VerifierError F) (Q : List Nat) (hQ : Q.Pairwise (· ≤ ·)) :
    ∀ (ns : List Nat) (c c' : VerifierChannel) (vs : List F), readCoset env known Q ns c = .ok (vs, c') →
    vs.length = ns.length ∧ ∃ us : List U256, Reduced us ∧ Took c (words us) c' ∧
      ∀ V : Nat → F, vs = ns.map V → us.map env.codec.val = (ns.filter (· ∉ Q)).map V ∧ ∀ q ∈ ns, q ∈ Q → ∃ z : Nat, Q[z]? = some q ∧ known q z = .ok (V q) := by
  intro ns
  induction ns with
  | nil =>
    intro c c' vs h
    cases h
    exact ⟨rfl, [], by intro u hu; simp at hu, Took.refl _, fun V _ => ⟨rfl, by intro q hq; simp at hq⟩⟩
  | cons n ns ih =>
    intro c c' vs h
    rw [readCoset] at h
    obtain ⟨s1, s2⟩ := hsearch Q n hQ
    split at h
    · next z hz =>
      obtain ⟨v, h1, h⟩ := bind_ok_inv h
      obtain ⟨s, h2, h⟩ := map_ok_inv h
      cases h
      obtain ⟨i1, us, i2, i3, i4⟩ := ih _ _ _ h2
      have hm : n ∈ Q := List.mem_of_getElem? (s1 z hz)
      refine ⟨by rw [List.length_cons, List.length_cons, i1], us, i2, i3, fun V hV => ?_⟩
      rw [List.map_cons, List.cons.injEq] at hV
      obtain ⟨j1, j2⟩ := i4 V hV.2
      refine ⟨by rw [j1, List.filter_cons, if_neg (by simpa using hm)], ?_⟩
      intro q hq hq'
      rcases List.mem_cons.1 hq with rfl | hq
      · exact ⟨z, s1 z hz, by rw [h1, hV.1]⟩
      · exact j2 q hq hq'
    · next hz =>
      obtain ⟨r, h1, h⟩ := bind_ok_inv h
      obtain ⟨s, h2, h⟩ := map_ok_inv h
      cases h
      obtain ⟨i1, us, i2, i3, i4⟩ := ih _ _ _ h2
      obtain ⟨u, u1, u2, u3, -⟩ := took_field env (verify_orPanic_inv h1)
      have hm : n ∉ Q := s2 hz
      refine ⟨by rw [List.length_cons, List.length_cons, i1], u :: us, ?_, ?_, fun V hV => ?_⟩
      · intro x hx
        rcases List.mem_cons.1 hx with rfl | hx
        · exact u1
        · exact i2 x hx
      · rw [words_cons]; exact u3.trans i3
      rw [List.map_cons, List.cons.injEq] at hV
      obtain ⟨j1, j2⟩ := i4 V hV.2
      refine ⟨by rw [List.map_cons, j1, List.filter_cons, if_pos (by simpa using hm), List.map_cons, ← u2, hV.1], ?_⟩
      intro q hq hq'
      rcases List.mem_cons.1 hq with rfl | hq
      · exact absurd hq' hm
      · exact j2 q hq hq'

/-- the positions of the cosets -/
def cosetPositions (size : Nat) (J : List Nat) : List Nat := J.flatMap fun j => (List.range size).map (j * size + ·)

theorem words_append (a b : List U256) : words (a ++ b) = words a ++ words b := by unfold words; rw [List.flatMap_append]

omit [Field F] [DecidableEq F] in
theorem took_cosets (hsearch : SearchOk env.search) (known : Nat → Nat → Except VerifierError F) (Q : List Nat) (hQ : Q.Pairwise (· ≤ ·)) (size : Nat) :
    ∀ (J : List Nat) (c c' : VerifierChannel) (l : List (Nat × List F)), readCosets env known Q size J c = .ok (l, c') →
    l.map Prod.fst = J ∧ (∀ x ∈ l, x.2.length = size) ∧ ∃ us : List U256, Reduced us ∧ Took c (words us) c' ∧
      ∀ V : Nat → F, l = J.map (fun j => (j, (List.range size).map fun i => V (j * size + i))) →
        us.map env.codec.val = ((cosetPositions size J).filter (· ∉ Q)).map V ∧
        ∀ q ∈ cosetPositions size J, q ∈ Q → ∃ z : Nat, Q[z]? = some q ∧ known q z = .ok (V q) := by
  intro J
  induction J with
  | nil =>
    intro c c' l h
    cases h
    exact ⟨rfl, by intro x hx; simp at hx, [], by intro u hu; simp at hu, Took.refl _, fun V _ => ⟨rfl, by intro q hq; simp [cosetPositions] at hq⟩⟩
  | cons j J ih =>
    intro c c' l h
    rw [readCosets] at h
    obtain ⟨r, h1, h⟩ := bind_ok_inv h
    obtain ⟨s, h2, h⟩ := map_ok_inv h
    cases h
    obtain ⟨i1, i2, us, i3, i4, i5⟩ := ih _ _ _ h2
    obtain ⟨j1, vs, j3, j4, j5⟩ := took_coset env hsearch known Q hQ _ _ _ _ h1
    refine ⟨by rw [List.map_cons, i1], ?_, vs ++ us, ?_, ?_, fun V hV => ?_⟩
    · intro x hx
      rcases List.mem_cons.1 hx with rfl | hx
      · simpa using j1
      · exact i2 x hx
    · intro u hu
      rcases List.mem_append.1 hu with hu | hu
      · exact j3 u hu
      · exact i3 u hu
    · rw [words_append]; exact j4.trans i4
    · rw [List.map_cons, List.cons.injEq, Prod.mk.injEq] at hV
      obtain ⟨a1, a2⟩ := i5 V hV.2
      obtain ⟨b1, b2⟩ := j5 V (by rw [hV.1.2, List.map_map]; rfl)
      have e : cosetPositions size (j :: J) = (List.range size).map (j * size + ·) ++ cosetPositions size J := by
        unfold cosetPositions; rw [List.flatMap_cons]
      refine ⟨by rw [e, List.map_append, List.filter_append, List.map_append, a1, b1], ?_⟩
      intro q hq hq'
      rw [e] at hq
      rcases List.mem_append.1 hq with hq | hq
      · exact b2 q hq hq'
      · exact a2 q hq hq'

omit [DecidableEq F] in
theorem cosets_fun (size : Nat) : ∀ (l : List (Nat × List F)), (l.map Prod.fst).Nodup → (∀ x ∈ l, x.2.length = size) →
    ∃ V : Nat → F, l = (l.map Prod.fst).map (fun j => (j, (List.range size).map fun i => V (j * size + i))) := by
  intro l
  induction l with
  | nil => intro _ _; exact ⟨fun _ => 0, rfl⟩
  | cons x l ih =>
    intro hn hs
    rw [List.map_cons, List.nodup_cons] at hn
    obtain ⟨V, hV⟩ := ih hn.2 fun y hy => hs y (by simp [hy])
    have hx := hs x (by simp)
    refine ⟨fun n => if n / size = x.1 then x.2.getD (n % size) 0 else V n, ?_⟩
    have hd : ∀ j i, i < size → (j * size + i) / size = j ∧ (j * size + i) % size = i := by
      intro j i hi
      rw [Nat.mul_comm]
      exact ⟨by rw [Nat.mul_add_div (by omega), Nat.div_eq_of_lt hi, Nat.add_zero], by rw [Nat.mul_add_mod, Nat.mod_eq_of_lt hi]⟩
    rw [List.map_cons, List.map_cons]
    congr 1
    · refine Prod.ext rfl ?_
      show x.2 = _
      apply List.ext_getElem
      · simp [hx]
      · intro i h1 h2
        obtain ⟨d1, d2⟩ := hd x.1 i (by omega)
        simp only [List.getElem_map, List.getElem_range, d1, d2, if_true]
        rw [List.getD, List.getElem?_eq_getElem h1]
        rfl
    · conv_lhs => rw [hV]
      apply List.map_congr_left
      intro j hj
      refine Prod.ext rfl ?_
      show List.map _ _ = List.map _ _
      apply List.map_congr_left
      intro i hi
      obtain ⟨d1, _⟩ := hd j i (List.mem_range.1 hi)
      show V (j * size + i) = if (j * size + i) / size = x.1 then _ else V (j * size + i)
      rw [d1, if_neg]
      rintro rfl
      exact hn.1 hj

/-! ## Folding -/

omit [DecidableEq F] in
theorem foldPairs_fun (M' m : Nat) (hm : m ≤ M') (W : F) (xs : List F)
    (hx : xs.length = 2 ^ M' ∧ ∀ i, i < 2 ^ M' → xs[i]? = some ((W ^ rev M' i)⁻¹)) (a : F) (V : Nat → F) :
    foldPairs a ((List.range (2 ^ (m + 1))).map V) xs = (List.range (2 ^ m)).map (foldOnce (W ^ 2 ^ (M' - m)) (m + 1) a V) := by
  have hle : 2 ^ m ≤ 2 ^ M' := Nat.pow_le_pow_right (by norm_num) hm
  apply List.ext_getElem?
  intro i
  by_cases hi : i < 2 ^ m
  · have h2 : 2 * i + 1 < 2 ^ (m + 1) := by rw [pow_succ]; omega
    rw [foldPairs_get a i _ _ (V (2 * i)) (V (2 * i + 1)) _ (by rw [List.getElem?_map, List.getElem?_range (by omega)]; rfl)
      (by rw [List.getElem?_map, List.getElem?_range h2]; rfl) (hx.2 i (by omega)), List.getElem?_map, List.getElem?_range hi, Option.map_some]
    congr 1
    unfold foldOnce
    rw [rev_two_mul, ← pow_mul]
    have e := rev_lt_pow m (M' - m) i hi
    rw [show M' - m + m = M' by omega] at e
    rw [e, Nat.mul_comm (rev m i)]
  · rw [List.getElem?_eq_none, List.getElem?_eq_none]
    · simp; omega
    · rw [foldPairs_length, List.length_map, List.length_range, hx.1, pow_succ]; omega

omit [DecidableEq F] in
theorem foldStages_fun (M : Nat) (W : F) (xs : List F)
    (hx : ∀ M', M = M' + 1 → xs.length = 2 ^ M' ∧ ∀ i, i < 2 ^ M' → xs[i]? = some ((W ^ rev M' i)⁻¹)) :
    ∀ (n m : Nat), m + n ≤ M → ∀ (a : F) (V : Nat → F),
    foldStages xs n a ((List.range (2 ^ (m + n))).map V) = (List.range (2 ^ m)).map (foldMany n (W ^ 2 ^ (M - (m + n))) (m + n) a V) := by
  intro n
  induction n with
  | zero => intro m _ a V; rfl
  | succ n ih =>
    intro m hm a V
    obtain ⟨M', rfl⟩ : ∃ M', M = M' + 1 := ⟨M - 1, by omega⟩
    rw [foldStages, show m + (n + 1) = m + n + 1 by ring, foldPairs_fun M' (m + n) (by omega) W xs (hx M' rfl), ih m (by omega), foldMany,
      show M' + 1 - (m + n + 1) = M' - (m + n) by omega, show m + n + 1 - 1 = m + n by omega]
    congr 2
    rw [← pow_mul, ← pow_succ]
    congr 2
    omega

theorem fold_value (hroot : RootFn env.root) (M : Nat) (hM : M < 64) (W : F) (hW : env.root (2 ^ M) = some W) (m n : Nat) (hm : n ≤ m) (hmM : m ≤ M) (a : F)
    (V : Nat → F) (j : Nat) (hj : j < 2 ^ (m - n)) :
    fri_fold ((List.range (2 ^ n)).map fun i => V (j * 2 ^ n + i)) a (2 ^ (M - m)) (2 ^ n / 2 * j) (2 ^ m) ((List.range (2 ^ M)).map (W ^ ·)) =
      some (foldMany n (W ^ 2 ^ (M - m)) m a V j) := by
  have ho := hroot _ W (Nat.two_pow_pos _) (Nat.pow_lt_pow_right (by norm_num) hM) hW
  obtain ⟨r, rfl⟩ : ∃ r, m = r + n := ⟨m - n, by omega⟩
  rw [Nat.add_sub_cancel] at hj
  obtain ⟨xs, hx⟩ : ∃ xs : List F, ∀ M', M = M' + 1 → xs.length = 2 ^ M' ∧ ∀ i, i < 2 ^ M' → xs[i]? = some ((W ^ rev M' i)⁻¹) := by
    cases M with
    | zero => exact ⟨[], by intro M' h; omega⟩
    | succ M' =>
      obtain ⟨xs, _, h2⟩ := friInverses_spec env.root hroot M' (by omega) W hW hM
      exact ⟨xs, by rintro _ e; cases e; exact h2⟩
  have hb : j * 2 ^ n + 2 ^ n ≤ 2 ^ (r + n) := by
    rw [pow_add]
    calc j * 2 ^ n + 2 ^ n = (j + 1) * 2 ^ n := by ring
      _ ≤ _ := Nat.mul_le_mul_right _ hj
  unfold fri_fold
  rw [friFoldLoop_spec M hM W ho xs hx n r _ hmM a ((List.range (2 ^ (r + n))).map V) _ (by simp) j hj (by simp) (by
    intro t ht
    rw [List.getElem?_map, List.getElem?_map, List.getElem?_range ht, List.getElem?_range (by omega)]
    rfl) (by rw [List.length_map, List.length_range]; have := Nat.lt_two_pow_self (n := n); omega) _ (fun _ => rfl),
    foldStages_fun M W xs hx n r hmM, List.getElem?_map, List.getElem?_range hj]
  rfl

/-! ## One layer -/

theorem layer_inv (hroot : RootFn env.root) (hsearch : SearchOk env.search) (M : Nat) (hM : M < 64) (W : F) (hW : env.root (2 ^ M) = some W) (m n : Nat) (hm : n ≤ m)
    (hmM : m ≤ M) (a : F) (known : Nat → Nat → Except VerifierError F) (Q : List Nat) (hQ : Q.Pairwise (· ≤ ·)) (hQm : ∀ q ∈ Q, q < 2 ^ m)
    (c c' : VerifierChannel) (values : List (Nat × List F)) (folds : List (Nat × F))
    (h1 : readCosets env known Q (2 ^ n) (dedupBy id (Q.map (· / 2 ^ n))) c = .ok (values, c'))
    (h2 : values.mapM (fun v => (fri_fold v.2 a (2 ^ (M - m)) (2 ^ n / 2 * v.1) (2 ^ m) ((List.range (2 ^ M)).map (W ^ ·))).map fun x => (v.1, x)) = some folds) :
    ∃ (V : Nat → F) (us : List U256),
      let J := dedupBy id (Q.map (· / 2 ^ n))
      J.Pairwise (· < ·) ∧ (∀ j, j ∈ J ↔ ∃ q ∈ Q, j = q / 2 ^ n) ∧ (∀ j ∈ J, j < 2 ^ (m - n)) ∧
      values = J.map (fun j => (j, (List.range (2 ^ n)).map fun i => V (j * 2 ^ n + i))) ∧
      Reduced us ∧ Took c (words us) c' ∧ us.map env.codec.val = ((cosetPositions (2 ^ n) J).filter (· ∉ Q)).map V ∧
      (∀ q ∈ Q, ∃ z : Nat, Q[z]? = some q ∧ known q z = .ok (V q)) ∧
      folds = J.map fun j => (j, foldMany n (W ^ 2 ^ (M - m)) m a V j) := by
  have hp := Nat.two_pow_pos n
  have hstrict : (dedupBy id (Q.map (· / 2 ^ n))).Pairwise (· < ·) := by
    apply dedupBy_strict id
    rw [List.pairwise_map]
    exact hQ.imp fun h => Nat.div_le_div_right h
  have hmem : ∀ j, j ∈ dedupBy id (Q.map (· / 2 ^ n)) ↔ ∃ q ∈ Q, j = q / 2 ^ n := by
    intro j
    constructor
    · intro h
      obtain ⟨q, h1, h2⟩ := List.mem_map.1 ((dedupBy_sublist id _).subset h)
      exact ⟨q, h1, h2.symm⟩
    · rintro ⟨q, h1, rfl⟩
      obtain ⟨y, h3, h4⟩ := dedupBy_keys id _ (q / 2 ^ n) (List.mem_map_of_mem h1 : q / 2 ^ n ∈ Q.map (· / 2 ^ n))
      have h4 : y = q / 2 ^ n := h4
      rw [← h4]; exact h3
  have hlt : ∀ j ∈ dedupBy id (Q.map (· / 2 ^ n)), j < 2 ^ (m - n) := by
    intro j hj
    obtain ⟨q, h3, rfl⟩ := (hmem j).1 hj
    rw [Nat.div_lt_iff_lt_mul hp, ← pow_add, Nat.sub_add_cancel hm]
    exact hQm q h3
  obtain ⟨i1, i2, us, i3, i4, i5⟩ := took_cosets env hsearch known Q hQ (2 ^ n) _ _ _ _ h1
  obtain ⟨V, hV⟩ := cosets_fun (2 ^ n) values (by rw [i1]; exact hstrict.imp fun h => Nat.ne_of_lt h) i2
  rw [i1] at hV
  obtain ⟨j1, j2⟩ := i5 V hV
  refine ⟨V, us, hstrict, hmem, hlt, hV, i3, i4, j1, ?_, ?_⟩
  · intro q hq
    refine j2 q ?_ hq
    unfold cosetPositions
    rw [List.mem_flatMap]
    refine ⟨q / 2 ^ n, (hmem _).2 ⟨q, hq, rfl⟩, List.mem_map.2 ⟨q % 2 ^ n, List.mem_range.2 (Nat.mod_lt _ hp), ?_⟩⟩
    rw [Nat.mul_comm]; exact Nat.div_add_mod q (2 ^ n)
  · have hf := mapM_some_inv _ _ _ h2
    rw [hV, List.forall₂_map_left_iff] at hf
    apply List.ext_getElem
    · rw [List.length_map, hf.length_eq]
    · intro i h3 h4
      rw [List.length_map] at h4
      have := (List.forall₂_iff_get.1 hf).2 i h4 h3
      simp only [List.get_eq_getElem] at this
      rw [fold_value env hroot M hM W hW m n hm hmM a V _ (hlt _ (List.getElem_mem h4)), Option.map_some, Option.some.injEq] at this
      rw [← this, List.getElem_map]

/-! ## The layers after the first -/

theorem foldlM_unit {ε : Type} (g : Nat → Except ε Unit) : ∀ (l : List Nat), l.foldlM (init := ()) (fun _ q => g q) = .ok () → ∀ q ∈ l, g q = .ok () := by
  intro l
  induction l with
  | nil => intro _ q hq; simp at hq
  | cons a l ih =>
    intro h q hq
    rw [List.foldlM_cons] at h
    obtain ⟨u, h1, h2⟩ := bind_ok_inv h
    rcases List.mem_cons.1 hq with rfl | hq
    · exact h1
    · exact ih h2 q hq

theorem checkLast_inv (last : List F) (M : Nat) (hM : M < 64) (W : F) (hW : env.root (2 ^ M) = some W) (hcompat : RootCompat env.root) (m : Nat) (hm : m ≤ M)
    (Q : List Nat) (hQ : ∀ q ∈ Q, q < 2 ^ m) (f : Nat → F) (h : checkLast env last Q (Q.map fun q => (q, f q)) (2 ^ m) = .ok ()) :
    ∀ q ∈ Q, f q = ∑ i ∈ Finset.range last.length, last.getD i 0 * ((W ^ 2 ^ (M - m)) ^ rev m q) ^ i := by
  have hr : env.root (2 ^ m) = some (W ^ 2 ^ (M - m)) := hcompat m (M - m) W (by omega) (by rw [Nat.add_sub_cancel' hm]; exact hW)
  intro q hq
  unfold checkLast at h
  rw [hr] at h
  dsimp only at h
  have := foldlM_unit _ _ h q hq
  obtain ⟨v, h1, h2⟩ := bind_ok_inv this
  obtain ⟨poly, h3, h4⟩ := bind_ok_inv h2
  have h1 := verify_orPanic_inv h1
  rw [assoc_map f Q q hq] at h1
  cases h1
  have h3 := verify_orPanic_inv h3
  unfold Poly.new at h3
  split at h3
  · cases h3
    split at h4
    · next e =>
      rw [← e, C37_evaluate, permute_index_eq m q (by omega) (hQ q hq), sum_toPoly]
    · cases h4
  · cases h3

theorem layers_inv (hroot : RootFn env.root) (hcompat : RootCompat env.root) (hsearch : SearchOk env.search) (M : Nat) (hM : M < 64) (W : F)
    (hW : env.root (2 ^ M) = some W) (lastLayer : List F) {layout : List Nat} {size last : Nat} {coms : List (Merkle.Commitment Bytes × F)}
    (hs : LayerSizes layout size coms last) :
    ∀ (m : Nat), size = 2 ^ m → m ≤ M → layout.sum ≤ m → ∀ (f : Nat → F) (Q : List Nat), Q.Pairwise (· ≤ ·) → (∀ q ∈ Q, q < 2 ^ m) →
      ∀ (c c' : VerifierChannel) (r : List Nat × List (Nat × F) × Nat),
      friLayers env ((List.range (2 ^ M)).map (W ^ ·)) (layout.zip coms) (knownFold (Q.map fun q => (q, f q))) Q (Q.map fun q => (q, f q)) (2 ^ (M - m)) (2 ^ m) c =
        .ok (r, c') → checkLast env lastLayer r.1 r.2.1 r.2.2 = .ok () →
      ∃ ls : List Layer, ls.map (·.root) = coms.map (·.1.hash) ∧ (∀ l ∈ ls, Reduced l.values ∧ ∀ h ∈ l.hashes, h.length = 32) ∧
        Took c (ls.flatMap fun l => words l.values ++ l.hashes.flatten) c' ∧
        FriOk env lastLayer layout ls (coms.map (·.2)) (W ^ 2 ^ (M - m)) m f Q ∧ FriCounted layout ls m Q := by
  induction hs with
  | nil size =>
    intro m hsz hmM hsum f Q hQ hQm c c' r h hl
    cases h
    exact ⟨[], rfl, by intro l hl; simp at hl, Took.refl _, checkLast_inv env lastLayer M hM W hW hcompat m hmM Q hQm f hl, trivial⟩
  | cons n size layout com a coms last hcom hr ih =>
    intro m hsz hmM hsum f Q hQ hQm c c' r h hl
    rw [List.sum_cons] at hsum
    rw [List.zip_cons_cons, friLayers] at h
    obtain ⟨v, h1, h⟩ := bind_ok_inv h
    obtain ⟨folds, h2, h⟩ := bind_ok_inv h
    obtain ⟨c1, h3, h⟩ := bind_ok_inv h
    obtain ⟨V, us, j1, j2, j3, j4, j5, j6, j7, j8, j9⟩ := layer_inv env hroot hsearch M hM W hW m n (by omega) hmM a _ Q hQ hQm c v.2 v.1 folds h1 (verify_orPanic_inv h2)
    obtain ⟨hs, k1, k2, k3, k4⟩ := took_checkLeaves env h3
    subst j9
    have e1 : size / 2 ^ n = 2 ^ (m - n) := by rw [hsz, Nat.pow_div (by omega) (by norm_num)]
    have e2 : 2 ^ m / 2 ^ n = 2 ^ (m - n) := Nat.pow_div (by omega) (by norm_num)
    have e3 : 2 ^ (M - m) * 2 ^ n = 2 ^ (M - (m - n)) := by rw [← pow_add]; congr 1; omega
    rw [e2, e3] at h
    have e : com = ⟨2 ^ (m - n), com.hash⟩ := by rw [← e1, ← hcom]
    obtain ⟨ls, i1, i2, i3, i4, i5⟩ := ih (m - n) e1 (by omega) (by omega) _ _ (j1.imp fun h => Nat.le_of_lt h) j3 _ _ _ h hl
    refine ⟨⟨com.hash, us, hs⟩ :: ls, by rw [List.map_cons, List.map_cons, i1], ?_, ?_, ?_, _, j1, j2, by rw [e] at k4; exact k4, i5⟩
    · intro l hl
      rcases List.mem_cons.1 hl with rfl | hl
      · exact ⟨j5, k1⟩
      · exact i2 l hl
    · rw [List.flatMap_cons]
      exact (j6.trans k2).trans i3
    · rw [List.map_cons, FriOk]
      refine ⟨V, _, j1, j2, ?_, j7, ?_, ?_⟩
      · intro q hq
        obtain ⟨z, z1, z2⟩ := j8 q hq
        unfold knownFold at z2
        rw [assoc_map f Q q hq] at z2
        exact (Except.ok.inj z2).symm
      · unfold Opened
        rw [j4, List.map_map] at k3
        rw [e] at k3
        rw [← k3]
        congr 1
        rw [List.map_map]
        generalize dedupBy id (Q.map (· / 2 ^ n)) = J
        induction J with
        | nil => rfl
        | cons x J ihJ => simp only [List.map_cons, List.zip_cons_cons, ihJ]; rfl
      · have : (W ^ 2 ^ (M - m)) ^ 2 ^ n = W ^ 2 ^ (M - (m - n)) := by rw [← pow_mul, e3]
        rw [this]
        exact i4

end
end Accept
end Stark
end OpenZKP
