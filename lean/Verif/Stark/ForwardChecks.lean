import Verif.Stark.ForwardTranscript

/-!
Lemmas: on a proof that meets the specification, the verifier's checks pass.
-/

namespace OpenZKP
namespace Stark
namespace Accept
open FFT U256 Props Merkle Polynomial

section
variable {F : Type} [Field F] [DecidableEq F] (env : Env F)

theorem fwd_check (err : VerifierError) (com : Merkle.Commitment Bytes) (indices : List Nat) (values : List (Nat × List F)) (hs : List Bytes)
    (h1 : ∀ h ∈ hs, h.length = 32) (h2 : Merkle.proof_size com indices = .ok hs.length)
    (h3 : Merkle.verify (nodeHash env.K) ⟨com, indices, hs⟩ (values.map fun v => (v.1, elementsHash env v.2)) = .ok ())
    (coin : PublicCoin) (pre full : Bytes) (h : pre ++ hs.flatten <+: full) :
    ∃ coin', checkLeaves env err com indices values (vch coin full pre) = .ok (vch coin' full (pre ++ hs.flatten)) := by
  obtain ⟨coin', e⟩ := readHashes_pre env hs h1 coin pre full h
  refine ⟨coin', ?_⟩
  have h4 : from_hashes com indices hs = .ok ⟨com, indices, hs⟩ := by
    have h2' := h2
    unfold proof_size at h2'
    obtain ⟨is, h5, _⟩ := bind_ok_inv h2'
    unfold from_hashes
    rw [h5, ok_bind, h2, ok_bind, if_pos rfl]
  unfold checkLeaves
  rw [h2, orMerkle_ok, ok_bind, e, orPanic_some, ok_bind]
  dsimp only
  rw [h4, orMerkle_ok, ok_bind, h3]
  rfl

omit [Field F] [DecidableEq F] in
theorem fwd_coset (hsearch : SearchOk env.search) (known : Nat → Nat → Except VerifierError F) (Q : List Nat) (hQ : Q.Pairwise (· ≤ ·)) (V : Nat → F)
    (hk : ∀ n z, env.search Q n = some z → known n z = .ok (V n)) (full : Bytes) :
    ∀ (ns : List Nat) (us : List U256), Reduced us → us.map env.codec.val = (ns.filter (· ∉ Q)).map V →
    ∀ (coin : PublicCoin) (pre : Bytes), pre ++ words us <+: full →
    ∃ coin', readCoset env known Q ns (vch coin full pre) = .ok (ns.map V, vch coin' full (pre ++ words us)) := by
  intro ns
  induction ns with
  | nil =>
    intro us _ he coin pre _
    have : us = [] := by simpa using he
    subst this
    exact ⟨coin, by simp [readCoset, words]⟩
  | cons n ns ih =>
    intro us hr he coin pre h
    obtain ⟨s1, s2⟩ := hsearch Q n hQ
    rw [readCoset]
    cases hs : env.search Q n with
    | some z =>
      have hm : n ∈ Q := List.mem_of_getElem? (s1 z hs)
      rw [List.filter_cons, if_neg (by simpa using hm)] at he
      obtain ⟨coin', e⟩ := ih us hr he coin pre h
      refine ⟨coin', ?_⟩
      dsimp only
      rw [hk n z hs, ok_bind, e]
      rfl
    | none =>
      have hm : n ∉ Q := s2 hs
      rw [List.filter_cons, if_pos (by simpa using hm), List.map_cons] at he
      cases us with
      | nil => simp at he
      | cons u us =>
        rw [List.map_cons, List.cons.injEq] at he
        rw [words_cons, ← List.append_assoc] at h ⊢
        obtain ⟨coin', e⟩ := ih us (fun x hx => hr x (by simp [hx])) he.2 (coin.write env.K (to_bytes_be u)) (pre ++ to_bytes_be u) h
        refine ⟨coin', ?_⟩
        dsimp only
        rw [fwd_field env (hr u (by simp)) ((List.prefix_append _ _).trans h), orPanic_some, ok_bind]
        dsimp only
        rw [e, he.1]
        rfl

omit [Field F] [DecidableEq F] in
theorem fwd_cosets (hsearch : SearchOk env.search) (known : Nat → Nat → Except VerifierError F) (Q : List Nat) (hQ : Q.Pairwise (· ≤ ·)) (V : Nat → F)
    (hk : ∀ n z, env.search Q n = some z → known n z = .ok (V n)) (full : Bytes) (size : Nat) :
    ∀ (J : List Nat) (us : List U256), Reduced us → us.map env.codec.val = ((cosetPositions size J).filter (· ∉ Q)).map V →
    ∀ (coin : PublicCoin) (pre : Bytes), pre ++ words us <+: full →
    ∃ coin', readCosets env known Q size J (vch coin full pre) =
      .ok (J.map (fun j => (j, (List.range size).map fun i => V (j * size + i))), vch coin' full (pre ++ words us)) := by
  intro J
  induction J with
  | nil =>
    intro us _ he coin pre _
    have : us = [] := by simpa [cosetPositions] using he
    subst this
    exact ⟨coin, by simp [readCosets, words]⟩
  | cons j J ih =>
    intro us hr he coin pre h
    have e : cosetPositions size (j :: J) = (List.range size).map (j * size + ·) ++ cosetPositions size J := by
      unfold cosetPositions; rw [List.flatMap_cons]
    rw [e, List.filter_append, List.map_append] at he
    obtain ⟨us1, us2, rfl, h1, h2⟩ := List.map_eq_append_iff.1 he
    rw [words_append, ← List.append_assoc] at h ⊢
    obtain ⟨coin1, e1⟩ := fwd_coset env hsearch known Q hQ V hk full _ us1 (fun x hx => hr x (by simp [hx])) h1 coin pre ((List.prefix_append _ _).trans h)
    obtain ⟨coin2, e2⟩ := ih us2 (fun x hx => hr x (by simp [hx])) h2 coin1 _ h
    refine ⟨coin2, ?_⟩
    rw [readCosets]
    have e3 : (fun i => j * size + i) = (j * size + ·) := rfl
    rw [e3, e1, ok_bind]
    dsimp only
    rw [e2, List.map_map]
    rfl

theorem strict_unique (s t : List Nat) (hs : s.Pairwise (· < ·)) (ht : t.Pairwise (· < ·)) (h : ∀ a, a ∈ s ↔ a ∈ t) : s = t := by
  have n1 : s.Nodup := hs.imp (S := fun a b => a ≠ b) fun {a b} hab e => by omega
  have n2 : t.Nodup := ht.imp (S := fun a b => a ≠ b) fun {a b} hab e => by omega
  exact ((List.perm_ext_iff_of_nodup n1 n2).2 h).eq_of_pairwise (fun a b _ _ h1 h2 => by omega) hs ht

theorem cosets_eq (Q : List Nat) (hQ : Q.Pairwise (· ≤ ·)) (n : Nat) (J : List Nat) (h1 : J.Pairwise (· < ·)) (h2 : ∀ j, j ∈ J ↔ ∃ q ∈ Q, j = q / 2 ^ n) :
    dedupBy id (Q.map (· / 2 ^ n)) = J := by
  refine strict_unique _ _ ?_ h1 fun j => ?_
  · apply dedupBy_strict id
    rw [List.pairwise_map]
    exact hQ.imp fun h => Nat.div_le_div_right h
  · rw [h2]
    constructor
    · intro h
      obtain ⟨q, h1, h2⟩ := List.mem_map.1 ((dedupBy_sublist id _).subset h)
      exact ⟨q, h1, h2.symm⟩
    · rintro ⟨q, h1, rfl⟩
      obtain ⟨y, h3, h4⟩ := dedupBy_keys id _ (q / 2 ^ n) (List.mem_map_of_mem h1 : q / 2 ^ n ∈ Q.map (· / 2 ^ n))
      have h4 : y = q / 2 ^ n := h4
      rw [← h4]; exact h3

theorem checkLast_fwd (last : List F) (r : Nat) (hlast : last.length = 2 ^ r) (m : Nat) (hm : m < 64) (w : F) (hw : env.root (2 ^ m) = some w)
    (Q : List Nat) (hQ : ∀ q ∈ Q, q < 2 ^ m) (f : Nat → F) (h : ∀ q ∈ Q, f q = ∑ i ∈ Finset.range last.length, last.getD i 0 * (w ^ rev m q) ^ i) :
    checkLast env last Q (Q.map fun q => (q, f q)) (2 ^ m) = .ok () := by
  unfold checkLast
  rw [hw]
  dsimp only
  have hnew : Poly.new last = some last := by
    unfold Poly.new
    rw [if_pos (by rw [hlast, Nat.log2_two_pow])]
  rw [hnew, orPanic_some]
  have key : ∀ (l : List Nat), (∀ q ∈ l, q ∈ Q) → (l.foldlM (init := ()) fun _ key => (orPanic (assoc (Q.map fun q => (q, f q)) key)).bind fun calculated =>
      (Except.ok last : Except VerifierError (List F)).bind fun poly =>
      if Poly.evaluate poly (w ^ permute_index (2 ^ m) key) = calculated then .ok () else .error .OodsCalculationFailure) = .ok () := by
    intro l
    induction l with
    | nil => intro _; rfl
    | cons n l ih =>
      intro hl
      have hn := hl n (by simp)
      rw [List.foldlM_cons, assoc_map f Q n hn, orPanic_some, permute_index_eq _ _ hm (hQ n hn)]
      show Except.bind (if _ then _ else _) _ = _
      rw [if_pos (by rw [C37_evaluate, h n hn, sum_toPoly])]
      exact ih fun q hq => hl q (by simp [hq])
  exact key Q fun q hq => hq

theorem layers_fwd (hroot : RootFn env.root) (hcompat : RootCompat env.root) (hsearch : SearchOk env.search) (M : Nat) (hM : M < 64) (W : F)
    (hW : env.root (2 ^ M) = some W) (last : List F) (r : Nat) (hlast : last.length = 2 ^ r) (full : Bytes) :
    ∀ (layout : List Nat) (ls : List Layer) (as : List F) (m : Nat), m ≤ M → layout.sum ≤ m → ∀ (f : Nat → F) (Q : List Nat), Q.Pairwise (· ≤ ·) →
      (∀ q ∈ Q, q < 2 ^ m) → (∀ l ∈ ls, Reduced l.values ∧ ∀ h ∈ l.hashes, h.length = 32) →
      FriOk env last layout ls as (W ^ 2 ^ (M - m)) m f Q → FriCounted layout ls m Q →
      ∀ (known : Nat → Nat → Except VerifierError F) (folds : List (Nat × F)), (∀ n z, env.search Q n = some z → known n z = .ok (f n)) →
      (layout = [] → folds = Q.map fun q => (q, f q)) → ∀ (coin : PublicCoin) (pre : Bytes),
      pre ++ (ls.flatMap fun l => words l.values ++ l.hashes.flatten) <+: full →
      ∃ coin' res, friLayers env ((List.range (2 ^ M)).map (W ^ ·)) (layout.zip (comsOf layout ls as m)) known Q folds (2 ^ (M - m)) (2 ^ m) (vch coin full pre) =
        .ok (res, vch coin' full (pre ++ ls.flatMap fun l => words l.values ++ l.hashes.flatten)) ∧ checkLast env last res.1 res.2.1 res.2.2 = .ok () := by
  intro layout
  induction layout with
  | nil =>
    intro ls as m hm hsum f Q hQ hQm hls hok hcount known folds hk hf coin pre h
    cases ls with
    | cons l ls => simp [FriCounted] at hcount
    | nil =>
    cases as with
    | cons a as => simp [FriOk] at hok
    | nil =>
    have hr : env.root (2 ^ m) = some (W ^ 2 ^ (M - m)) := hcompat m (M - m) W (by omega) (by rw [Nat.add_sub_cancel' hm]; exact hW)
    refine ⟨coin, (Q, folds, 2 ^ m), by simp [friLayers, comsOf], ?_⟩
    rw [hf rfl]
    exact checkLast_fwd env last r hlast m (by omega) _ hr Q hQm f hok
  | cons n layout ih =>
    intro ls as m hm hsum f Q hQ hQm hls hok hcount known folds hk _ coin pre h
    cases ls with
    | nil => simp [FriCounted] at hcount
    | cons l ls =>
    cases as with
    | nil => simp [FriOk] at hok
    | cons a as =>
    rw [List.sum_cons] at hsum
    rw [FriOk] at hok
    rw [FriCounted] at hcount
    obtain ⟨V, J, j1, j2, j3, j4, j5, j6⟩ := hok
    obtain ⟨J', j1', j2', j7, j8⟩ := hcount
    have hJ := cosets_eq Q hQ n J j1 j2
    have hJ' := cosets_eq Q hQ n J' j1' j2'
    rw [hJ] at hJ'
    subst hJ'
    obtain ⟨l1, l2⟩ := hls l (by simp)
    rw [List.flatMap_cons, ← List.append_assoc, ← List.append_assoc] at h ⊢
    have hp := Nat.two_pow_pos n
    have hlt : ∀ j ∈ J, j < 2 ^ (m - n) := by
      intro j hj
      obtain ⟨q, h3, rfl⟩ := (j2 j).1 hj
      rw [Nat.div_lt_iff_lt_mul hp, ← pow_add, Nat.sub_add_cancel (by omega)]
      exact hQm q h3
    have hmem : ∀ q z, env.search Q q = some z → q ∈ Q := fun q z hz => List.mem_of_getElem? ((hsearch Q q hQ).1 z hz)
    obtain ⟨coin1, e1⟩ := fwd_cosets env hsearch known Q hQ V (fun q z hz => by rw [hk q z hz, j3 q (hmem q z hz)]) full (2 ^ n) J l.values l1 j4 coin pre
      ((List.prefix_append _ _).trans ((List.prefix_append _ _).trans h))
    have e2 : (J.map (fun j => (j, (List.range (2 ^ n)).map fun i => V (j * 2 ^ n + i)))).mapM (fun v => (fri_fold v.2 a (2 ^ (M - m)) (2 ^ n / 2 * v.1) (2 ^ m)
        ((List.range (2 ^ M)).map (W ^ ·))).map fun x => (v.1, x)) = some (J.map fun j => (j, foldMany n (W ^ 2 ^ (M - m)) m a V j)) := by
      rw [List.mapM_map]
      refine option_mapM_some _ _ _ fun j hj => ?_
      simp only [Function.comp_apply]
      rw [fold_value env hroot M hM W hW m n (by omega) hm a V j (hlt j hj)]
      rfl
    obtain ⟨coin2, e3⟩ := fwd_check env .InvalidFriCommitment ⟨2 ^ (m - n), l.root⟩ J (J.map (fun j => (j, (List.range (2 ^ n)).map fun i => V (j * 2 ^ n + i))))
      l.hashes l2 j7 (by
        unfold Opened at j5
        rw [← j5]
        congr 1
        rw [List.map_map, List.map_map]
        generalize J = J
        induction J with
        | nil => rfl
        | cons x J ihJ => simp only [List.map_cons, List.zip_cons_cons, ihJ]; rfl) coin1 (pre ++ words l.values) full ((List.prefix_append _ _).trans h)
    have e4 : 2 ^ m / 2 ^ n = 2 ^ (m - n) := Nat.pow_div (by omega) (by norm_num)
    have e5 : 2 ^ (M - m) * 2 ^ n = 2 ^ (M - (m - n)) := by rw [← pow_add]; congr 1; omega
    have e6 : (W ^ 2 ^ (M - m)) ^ 2 ^ n = W ^ 2 ^ (M - (m - n)) := by rw [← pow_mul, e5]
    rw [e6] at j6
    have hJs : J.Pairwise (· ≤ ·) := j1.imp fun h => Nat.le_of_lt h
    obtain ⟨coin3, res, e7, e8⟩ := ih ls as (m - n) (by omega) (by omega) _ J hJs hlt (fun x hx => hls x (by simp [hx])) j6 j8
      (knownFold (J.map fun j => (j, foldMany n (W ^ 2 ^ (M - m)) m a V j))) (J.map fun j => (j, foldMany n (W ^ 2 ^ (M - m)) m a V j)) (by
        intro q z hz
        unfold knownFold
        rw [assoc_map _ J q (List.mem_of_getElem? ((hsearch J q hJs).1 z hz))]) (fun _ => rfl) coin2 _ h
    refine ⟨coin3, res, ?_, e8⟩
    rw [comsOf, List.zip_cons_cons, friLayers, hJ, e1, ok_bind]
    dsimp only
    rw [e2, orPanic_some, ok_bind, e3, ok_bind, e4, e5]
    exact e7

/-- the combination of the quotients is computed where no denominator is zero -/
theorem deep_fwd (y : F) (row crow : List F) (z : F) (args : List (Nat × Int)) (tv cv co : List F) (n : Nat) (g : F) (hg : env.root n = some g)
    (hcrow : crow.length = cv.length)
    (h1 : ∀ a ∈ args, a.1 < row.length ∧ env.generator * y ≠ g ^ a.2 * z) (h2 : env.generator * y ≠ z ^ cv.length) :
    ∃ v, out_of_domain_element env y row crow z (args.zip tv) cv co n = .ok v := by
  have hfinv : ∀ x : F, x ≠ 0 → finv x = some x⁻¹ := fun x hx => by unfold finv; rw [if_neg hx]
  obtain ⟨ts, e1⟩ := mapM_isSome (fun t : (Nat × Int) × F => (row[t.1.1]?).bind fun value =>
      (finv (y * env.generator - g ^ t.1.2 * z)).map fun inv => (value - t.2) * inv) (args.zip tv) (by
    rintro ⟨a, t⟩ ha
    obtain ⟨h3, h4⟩ := h1 a (List.of_mem_zip ha).1
    dsimp only
    rw [List.getElem?_eq_getElem h3, Option.bind_some, hfinv _ (by rw [mul_comm]; exact sub_ne_zero.2 h4)]
    exact ⟨_, rfl⟩)
  obtain ⟨cs, e2⟩ := mapM_isSome (fun v : F × F => (finv (y * env.generator - z ^ crow.length)).map fun inv => (v.1 - v.2) * inv) (crow.zip cv) (by
    rintro ⟨a, t⟩ ha
    rw [hfinv _ (by rw [mul_comm, hcrow]; exact sub_ne_zero.2 h2)]
    exact ⟨_, rfl⟩)
  unfold out_of_domain_element
  rw [hg]
  dsimp only
  rw [e1, orPanic_some, ok_bind, e2, orPanic_some]
  exact ⟨_, rfl⟩

/-- the comparison at the out-of-domain point succeeds -/
theorem oods_fwd (c : Constraints F) (hdeg : c.degree ≠ some 0) (hrows : 0 < c.trace_nrows) (args : List (Nat × Int)) (P : Contents) (x : Challenges F)
    (hx : x.coefficients.length = 2 * c.expressions.length) (h : OutOfDomainOk env c args P x) :
    oods_value_from_trace_values c x.coefficients (args.zip (P.trace_values.map env.codec.val)) x.point =
      some (oods_value_from_constraint_values (P.constraint_values.map env.codec.val) x.point) := by
  obtain ⟨d, vs, h1, h2, h3, h4⟩ := h
  have hd : 0 < d := by
    rcases Nat.eq_zero_or_pos d with rfl | h
    · exact absurd h1 hdeg
    · exact h
  have hdn : 0 < d * c.trace_nrows := Nat.mul_pos hd hrows
  obtain ⟨E, hE⟩ := Option.isSome_iff_exists.1 (C43_defined c x.coefficients d (d * c.trace_nrows - 1) h1 (by omega) hx h2)
  set tr : Nat → Int → Option F := fun i j => assoc (args.zip (P.trace_values.map env.codec.val)) (i, j) with htr
  set claims : Nat → Option F[X] := fun i => (c.claim_polynomials[i]?).map toPoly with hclaims
  have hsome : ∀ e ∈ c.expressions, claimValue claims x.point tr e = some ((C ((claimValue claims x.point tr e).getD 0)).eval x.point) := by
    intro e he
    obtain ⟨i, hi, rfl⟩ := List.getElem_of_mem he
    have := (List.forall₂_iff_get.1 h3).2 i hi (by rw [← h3.length_eq]; exact hi)
    simp only [List.get_eq_getElem] at this
    have this : claimValue claims x.point tr c.expressions[i] = _ := this
    rw [eval_C, this]
    rfl
  have hv := combined_claimValue c x.coefficients E hE d h1 claims x.point tr (fun e => C ((claimValue claims x.point tr e).getD 0)) hsome
  obtain ⟨E', hE'⟩ := Option.isSome_iff_exists.1 ((C42_substitute_defined c.claim_polynomials E).2 (claims_fit _ _ _ _ _ hv))
  unfold oods_value_from_trace_values
  rw [hE, Option.bind_some, hE', Option.bind_some, C42_substitute _ _ _ hE']
  refine hv.trans ?_
  rw [constraint_sum, List.length_map, Option.some.injEq]
  have l1 : ∀ j ∈ Finset.range P.constraint_values.length, (P.constraint_values.map env.codec.val).getD j 0 * x.point ^ j =
      env.codec.val (P.constraint_values.getD j ⟨0, 0, 0, 0⟩) * x.point ^ j := by
    intro j hj
    have hj := Finset.mem_range.1 hj
    rw [List.getD, List.getD, List.getElem?_map, List.getElem?_eq_getElem hj]
    rfl
  rw [Finset.sum_congr rfl l1, ← h4]
  unfold combinedPoly
  rw [eval_finset_sum]
  apply Finset.sum_congr rfl
  intro i hi
  have hi := Finset.mem_range.1 hi
  have e : vs.getD i 0 = (claimValue claims x.point tr (c.expressions.getD i .X)).getD 0 := by
    have hi' : i < vs.length := by rw [← h3.length_eq]; exact hi
    have := (List.forall₂_iff_get.1 h3).2 i hi hi'
    simp only [List.get_eq_getElem] at this
    have this : claimValue claims x.point tr c.expressions[i] = _ := this
    rw [List.getD, List.getD, List.getElem?_eq_getElem hi, List.getElem?_eq_getElem hi', Option.getD_some, Option.getD_some, this]
    rfl
  rw [e]
  simp

end
end Accept
end Stark
end OpenZKP
