import Verif.Stark.AcceptFri

/-!
Lemmas: the out-of-domain element, the out-of-domain equation, and the whole verifier.
-/

namespace OpenZKP
namespace Stark
namespace Accept
open FFT U256 Props Merkle Polynomial

section
variable {F : Type} [Field F] [DecidableEq F] (env : Env F)

omit [DecidableEq F] in
theorem zip_sum : ∀ (l c : List F), c.length = l.length → ((l.zip c).map fun t => t.1 * t.2).sum = ∑ k ∈ Finset.range l.length, c.getD k 0 * l.getD k 0 := by
  intro l
  induction l with
  | nil => intro c _; simp
  | cons a l ih =>
    intro c hc
    cases c with
    | nil => simp at hc
    | cons b c =>
      simp only [List.length_cons, Nat.add_right_cancel_iff] at hc
      rw [List.zip_cons_cons, List.map_cons, List.sum_cons, ih c hc, List.length_cons, Finset.sum_range_succ']
      simp only [List.getD_cons_succ, List.getD_cons_zero]
      ring

theorem finv_inv {x y : F} (h : finv x = some y) : x ≠ 0 ∧ y = x⁻¹ := by
  unfold finv at h
  split at h
  · cases h
  · next hx => cases h; exact ⟨hx, rfl⟩

theorem deep_inv (y : F) (row crow : List F) (z : F) (args : List (Nat × Int)) (tv cv co : List F) (n : Nat) (g v : F) (hg : env.root n = some g)
    (htv : tv.length = args.length) (hcrow : crow.length = cv.length) (hco : co.length = args.length + cv.length)
    (h : out_of_domain_element env y row crow z (args.zip tv) cv co n = .ok v) :
    (∀ a ∈ args, a.1 < row.length ∧ env.generator * y ≠ g ^ a.2 * z) ∧ (cv ≠ [] → env.generator * y ≠ z ^ cv.length) ∧
    v = (∑ k ∈ Finset.range args.length, co.getD k 0 *
      ((row.getD (args.getD k (0, 0)).1 0 - tv.getD k 0) / (env.generator * y - g ^ (args.getD k (0, 0)).2 * z))) +
      ∑ j ∈ Finset.range cv.length, co.getD (args.length + j) 0 * ((crow.getD j 0 - cv.getD j 0) / (env.generator * y - z ^ cv.length)) := by
  unfold out_of_domain_element at h
  rw [hg] at h
  dsimp only at h
  obtain ⟨ts, h1, h⟩ := bind_ok_inv h
  obtain ⟨cs, h2, h⟩ := map_ok_inv h
  have f1 := mapM_some_inv _ _ _ (verify_orPanic_inv h1)
  have f2 := mapM_some_inv _ _ _ (verify_orPanic_inv h2)
  have l1 : ts.length = args.length := by rw [← f1.length_eq, List.length_zip, htv, Nat.min_self]
  have l2 : cs.length = cv.length := by rw [← f2.length_eq, List.length_zip, hcrow, Nat.min_self]
  have g1 : ∀ k (hk : k < args.length), args[k].1 < row.length ∧ env.generator * y - g ^ args[k].2 * z ≠ 0 ∧
      ts.getD k 0 = (row.getD args[k].1 0 - tv.getD k 0) / (env.generator * y - g ^ args[k].2 * z) := by
    intro k hk
    have := (List.forall₂_iff_get.1 f1).2 k (by rw [List.length_zip, htv, Nat.min_self]; exact hk) (by omega)
    simp only [List.get_eq_getElem, List.getElem_zip] at this
    obtain ⟨value, v1, v2⟩ := Option.bind_eq_some_iff.1 this
    obtain ⟨inv, v3, v4⟩ := Option.map_eq_some_iff.1 v2
    obtain ⟨v5, rfl⟩ := finv_inv v3
    obtain ⟨v6, v7⟩ := List.getElem?_eq_some_iff.1 v1
    rw [mul_comm y] at v5 v4
    refine ⟨v6, v5, ?_⟩
    rw [List.getD, List.getElem?_eq_getElem (by omega), Option.getD_some, ← v4, List.getD, v1, Option.getD_some, List.getD,
      List.getElem?_eq_getElem (by omega), Option.getD_some, div_eq_mul_inv]
  have g2 : ∀ k (hk : k < cv.length), env.generator * y - z ^ cv.length ≠ 0 ∧
      cs.getD k 0 = (crow.getD k 0 - cv.getD k 0) / (env.generator * y - z ^ cv.length) := by
    intro k hk
    have := (List.forall₂_iff_get.1 f2).2 k (by rw [List.length_zip, hcrow, Nat.min_self]; exact hk) (by omega)
    simp only [List.get_eq_getElem, List.getElem_zip] at this
    obtain ⟨inv, v3, v4⟩ := Option.map_eq_some_iff.1 this
    obtain ⟨v5, rfl⟩ := finv_inv v3
    rw [mul_comm y, show z ^ crow.length = z ^ cv.length by rw [hcrow]] at v5 v4
    refine ⟨v5, ?_⟩
    rw [List.getD, List.getElem?_eq_getElem (by omega), Option.getD_some, ← v4, List.getD, List.getElem?_eq_getElem (by omega), Option.getD_some, List.getD,
      List.getElem?_eq_getElem (by omega), Option.getD_some, div_eq_mul_inv]
  refine ⟨?_, ?_, ?_⟩
  · intro a ha
    obtain ⟨k, hk, rfl⟩ := List.getElem_of_mem ha
    obtain ⟨a1, a2, _⟩ := g1 k hk
    exact ⟨a1, sub_ne_zero.1 a2⟩
  · intro hne
    exact sub_ne_zero.1 (g2 0 (List.length_pos_iff.2 hne)).1
  · rw [← h, zip_sum _ _ (by rw [List.length_append, l1, l2, hco]), List.length_append, l1, l2, Finset.sum_range_add]
    congr 1
    · apply Finset.sum_congr rfl
      intro k hk
      have hk := Finset.mem_range.1 hk
      have ha : args.getD k (0, 0) = args[k] := by rw [List.getD, List.getElem?_eq_getElem hk]; rfl
      rw [List.getD_append _ _ _ _ (by omega), (g1 k hk).2.2, ha]
    · apply Finset.sum_congr rfl
      intro k hk
      have hk := Finset.mem_range.1 hk
      rw [List.getD_append_right _ _ _ _ (by omega), l1, Nat.add_sub_cancel_left, (g2 k hk).2]

/-! ## The out-of-domain equation -/

theorem sum_claim_inv (claims : Nat → Option F[X]) (x : F) (trace : Nat → Int → Option F) (Es : List (Expr F)) (v : F)
    (h : claimValue claims x trace (Expr.sum Es) = some v) : ∀ E ∈ Es, claimValue claims x trace E ≠ none := by
  have key : ∀ (Es : List (Expr F)) (e : Expr F) (v : F), claimValue claims x trace (Es.foldl Expr.add e) = some v →
      claimValue claims x trace e ≠ none ∧ ∀ E ∈ Es, claimValue claims x trace E ≠ none := by
    intro Es
    induction Es with
    | nil => intro e v h; exact ⟨by rw [show claimValue claims x trace e = some v from h]; simp, by intro E hE; simp at hE⟩
    | cons a Es ih =>
      intro e v h
      obtain ⟨h1, h2⟩ := ih _ _ h
      have h1 : claimValue claims x trace (Expr.Add e a) ≠ none := h1
      rw [claimValue] at h1
      have h3 : claimValue claims x trace e ≠ none := by intro h0; rw [h0] at h1; simp at h1
      have h4 : claimValue claims x trace a ≠ none := by
        intro h0
        rw [h0] at h1
        cases claimValue claims x trace e <;> simp at h1
      refine ⟨h3, ?_⟩
      intro E hE
      rcases List.mem_cons.1 hE with rfl | hE
      · exact h4
      · exact h2 E hE
  cases Es with
  | nil => intro E hE; simp at hE
  | cons e Es =>
    obtain ⟨h1, h2⟩ := key Es e v h
    intro E hE
    rcases List.mem_cons.1 hE with rfl | hE
    · exact h1
    · exact h2 E hE

omit [Field F] [DecidableEq F] in
theorem tuples_length : ∀ l : List F, (Constraints.tuples l).length = l.length / 2
  | [] => by simp [Constraints.tuples]
  | [_] => by simp [Constraints.tuples]
  | a :: b :: l => by
    rw [Constraints.tuples, List.length_cons, tuples_length l, List.length_cons, List.length_cons]
    omega

theorem combine_claim_inv (c : Constraints F) (coeffs : List F) (E : Expr F) (h : c.combine coeffs = some E) (claims : Nat → Option F[X]) (x : F)
    (trace : Nat → Int → Option F) (v : F) (hv : claimValue claims x trace E = some v) : ∀ e ∈ c.expressions, claimValue claims x trace e ≠ none := by
  obtain ⟨d', target, Es, h1, h2, h3, rfl, h4⟩ := combine_shape c coeffs E h
  have hE := sum_claim_inv claims x trace Es v hv
  have hf := mapM_some_inv _ _ _ h4
  have hl : (Constraints.tuples coeffs).length = c.expressions.length := by rw [tuples_length, h3]; omega
  intro e he
  obtain ⟨i, hi, rfl⟩ := List.getElem_of_mem he
  have hz : i < (c.expressions.zip (Constraints.tuples coeffs)).length := by rw [List.length_zip, hl, Nat.min_self]; exact hi
  have := (List.forall₂_iff_get.1 hf).2 i hz (by rw [← hf.length_eq]; exact hz)
  simp only [List.get_eq_getElem, List.getElem_zip] at this
  obtain ⟨h5, _⟩ := combineOne_shape this
  have h6 := hE _ (List.getElem_mem (by rw [← hf.length_eq]; exact hz : i < Es.length))
  rw [h5, claimValue] at h6
  intro h0
  rw [h0] at h6
  revert h6
  generalize claimValue claims x trace (Expr.Add _ _) = o
  cases o <;> simp

omit [DecidableEq F] in
theorem constraint_sum (values : List F) (x : F) :
    oods_value_from_constraint_values values x = ∑ j ∈ Finset.range values.length, values.getD j 0 * x ^ j := by
  have key : ∀ (values : List F) (s p : F), (values.foldl (fun (s : F × F) value => (s.1 + value * s.2, s.2 * x)) (s, p)).1 =
      s + p * ∑ j ∈ Finset.range values.length, values.getD j 0 * x ^ j := by
    intro values
    induction values with
    | nil => intro s p; simp
    | cons a l ih =>
      intro s p
      rw [List.foldl_cons, ih, List.length_cons, Finset.sum_range_succ']
      simp only [List.getD_cons_succ, List.getD_cons_zero, pow_zero, mul_one, pow_succ]
      rw [mul_add, Finset.mul_sum, Finset.mul_sum]
      have : ∀ j ∈ Finset.range l.length, p * (l.getD j 0 * (x ^ j * x)) = p * x * (l.getD j 0 * x ^ j) := by intro j _; ring
      rw [Finset.sum_congr rfl this]
      ring
  unfold oods_value_from_constraint_values
  rw [key, zero_add, one_mul]

/-- the equation of the out-of-domain point, from the comparison the verifier makes -/
theorem oods_inv (c : Constraints F) (args : List (Nat × Int)) (P : Contents) (x : Challenges F) (v : F)
    (h : oods_value_from_trace_values c x.coefficients (args.zip (P.trace_values.map env.codec.val)) x.point = some v)
    (hv : v = oods_value_from_constraint_values (P.constraint_values.map env.codec.val) x.point) : OutOfDomainOk env c args P x := by
  unfold oods_value_from_trace_values at h
  obtain ⟨E, h1, h⟩ := Option.bind_eq_some_iff.1 h
  obtain ⟨E', h2, h3⟩ := Option.bind_eq_some_iff.1 h
  rw [C42_substitute _ _ _ h2] at h3
  obtain ⟨d, target, e1, e2, -, e4, -⟩ := C43_evaluate c x.coefficients E h1
  have hne := combine_claim_inv c x.coefficients E h1 _ _ _ v h3
  set tr : Nat → Int → Option F := fun i j => assoc (args.zip (P.trace_values.map env.codec.val)) (i, j) with htr
  set claims : Nat → Option F[X] := fun i => (c.claim_polynomials[i]?).map toPoly with hclaims
  have ht : d * c.trace_nrows - 1 = target := by omega
  have hsome : ∀ e ∈ c.expressions, claimValue claims x.point tr e = some ((claimValue claims x.point tr e).getD 0) := by
    intro e he
    cases hx : claimValue claims x.point tr e with
    | none => exact absurd hx (hne e he)
    | some y => rfl
  refine ⟨d, c.expressions.map fun e => (claimValue claims x.point tr e).getD 0, e1, by rw [ht]; exact e4, ?_, ?_⟩
  · rw [List.forall₂_map_right_iff]
    generalize c.expressions = es at hsome
    induction es with
    | nil => exact .nil
    | cons a es ih => exact .cons (hsome a (by simp)) (ih fun e he => hsome e (by simp [he]))
  · have hc := combined_claimValue c x.coefficients E h1 d e1 claims x.point tr (fun e => C ((claimValue claims x.point tr e).getD 0)) (by
      intro e he
      rw [eval_C]
      exact hsome e he)
    have h3' : claimValue claims x.point tr E = some v := h3
    rw [h3', Option.some.injEq] at hc
    rw [constraint_sum] at hv
    rw [List.length_map] at hv
    have l1 : ∀ j ∈ Finset.range P.constraint_values.length, (P.constraint_values.map env.codec.val).getD j 0 * x.point ^ j =
        env.codec.val (P.constraint_values.getD j ⟨0, 0, 0, 0⟩) * x.point ^ j := by
      intro j hj
      have hj := Finset.mem_range.1 hj
      rw [List.getD, List.getD, List.getElem?_map, List.getElem?_eq_getElem hj]
      rfl
    rw [← Finset.sum_congr rfl l1, ← hv, hc]
    unfold combinedPoly
    rw [eval_finset_sum]
    apply Finset.sum_congr rfl
    intro i hi
    have hi := Finset.mem_range.1 hi
    have : (c.expressions.map fun e => (claimValue claims x.point tr e).getD 0).getD i 0 =
        (claimValue claims x.point tr (c.expressions.getD i .X)).getD 0 := by
      rw [List.getD, List.getD, List.getElem?_map, List.getElem?_eq_getElem hi]
      rfl
    rw [this]
    simp

/-! ## Assembly -/

theorem argUnion_sorted (s t : List (Nat × Int)) (h : s.Pairwise (fun a b => argLt a b = true)) :
    (Constraints.argUnion s t).Pairwise (fun a b => argLt a b = true) := by
  unfold Constraints.argUnion
  induction t generalizing s with
  | nil => exact h
  | cons a t ih => exact ih _ (argInsert_sorted a s h)

theorem unions_sorted (l : List (List (Nat × Int))) (s : List (Nat × Int)) (h : s.Pairwise (fun a b => argLt a b = true)) :
    (l.foldl Constraints.argUnion s).Pairwise (fun a b => argLt a b = true) := by
  induction l generalizing s with
  | nil => exact h
  | cons a t ih => exact ih _ (argUnion_sorted s a h)

theorem from_size_hash_inv {size : Nat} {h : Bytes} {com : Commitment Bytes} (e : from_size_hash size h = .ok com) : com = ⟨size, h⟩ := by
  unfold from_size_hash at e
  split at e
  · cases e; rfl
  · cases e

theorem draws_length (c : PublicCoin) : ∀ n xs, Draws env c n xs → xs.length = n := by
  have key : ∀ n (c c' : PublicCoin) us, c.randomFields env.K n = some (us, c') → us.length = n := by
    intro n
    induction n with
    | zero => intro c c' us h; cases h; rfl
    | succ n ih =>
      intro c c' us h
      rw [PublicCoin.randomFields] at h
      obtain ⟨r, h1, h⟩ := Option.bind_eq_some_iff.1 h
      obtain ⟨s, h2, h⟩ := Option.map_eq_some_iff.1 h
      cases h
      rw [List.length_cons, ih _ _ _ h2]
  rintro n xs ⟨us, c', h, rfl⟩
  rw [List.length_map, key _ _ _ _ h]

/-- what the first part of the verifier reads -/
theorem transcript_inv (c : Constraints F) (M k b : Nat) (hM : M = k + b) (hMlt : M < 64) (hk : c.trace_nrows = 2 ^ k) (hb : c.blowup = 2 ^ b)
    (hq : c.num_queries < 2 ^ 64) (ch ch' : VerifierChannel) (t : Transcript F) (hcoin : ch.coin = coin env.K c.channel_seed [])
    (h : readTranscript env c ch = .ok (t, ch')) :
    ∃ (args : List (Nat × Int)) (d : Nat) (tv cv last : List U256) (nonce : Nat),
      args.Pairwise (fun a b => argLt a b = true) ∧ (∀ a, a ∈ args ↔ ∃ e ∈ c.expressions, Occurs a e) ∧
      c.degree = some d ∧ t.degree = next_power_of_two d ∧
      t.lde_commitment.size = 2 ^ M ∧ t.constraint_commitment.size = 2 ^ M ∧
      t.lde_commitment.hash.length = 32 ∧ t.constraint_commitment.hash.length = 32 ∧
      tv.length = args.length ∧ Reduced tv ∧ t.trace_map = args.zip (tv.map env.codec.val) ∧
      cv.length = t.degree ∧ Reduced cv ∧ t.constraint_values = cv.map env.codec.val ∧
      last.length = 2 ^ M / 2 ^ c.fri_layout.sum / 2 ^ b ∧ Reduced last ∧ t.last_layer = last.map env.codec.val ∧
      LayerSizes c.fri_layout (2 ^ M) t.layers (2 ^ M / 2 ^ c.fri_layout.sum) ∧ t.layers.length = c.fri_layout.length ∧ (∀ x ∈ t.layers, x.1.hash.length = 32) ∧
      nonce < 2 ^ 64 ∧ t.queries.length = c.num_queries ∧ (∀ q ∈ t.queries, q < 2 ^ M) ∧
      Took ch (t.lde_commitment.hash ++ (t.constraint_commitment.hash ++ (words tv ++ (words cv ++ (t.layers.flatMap (·.1.hash) ++ (words last ++
        to_be_bytes 8 nonce)))))) ch' ∧
      ∀ (ls : List Layer) (rows : List (List U256)) (rh : List Bytes) (crows : List (List U256)) (crh : List Bytes), ls.map (·.root) = t.layers.map (·.1.hash) →
        let P : Contents := ⟨t.lde_commitment.hash, t.constraint_commitment.hash, tv, cv, ls, last, nonce, rows, rh, crows, crh⟩
        let x : Challenges F := ⟨t.constraint_coefficients, t.oods_point, t.oods_coefficients, t.layers.map (·.2), t.queries⟩
        Drawn env c M args.length t.degree P x ∧ Worked env c P := by
  have hN : c.trace_nrows * c.blowup = 2 ^ M := by rw [hk, hb, hM, pow_add]
  unfold readTranscript at h
  dsimp only at h
  rw [hN] at h
  obtain ⟨lde, h1, h⟩ := bind_ok_inv h
  obtain ⟨ldec, h2, h⟩ := bind_ok_inv h
  obtain ⟨co, h3, h⟩ := bind_ok_inv h
  obtain ⟨con, h4, h⟩ := bind_ok_inv h
  obtain ⟨conc, h5, h⟩ := bind_ok_inv h
  obtain ⟨z, h6, h⟩ := bind_ok_inv h
  obtain ⟨c', h7, h⟩ := bind_ok_inv h
  obtain ⟨args, h8, h⟩ := bind_ok_inv h
  obtain ⟨tvs, h9, h⟩ := bind_ok_inv h
  obtain ⟨d, h10, h⟩ := bind_ok_inv h
  obtain ⟨cvs, h11, h⟩ := bind_ok_inv h
  obtain ⟨oods, h12, h⟩ := bind_ok_inv h
  obtain ⟨layers, h13, h⟩ := bind_ok_inv h
  rw [if_neg (by rw [hb]; exact (Nat.two_pow_pos b).ne')] at h
  obtain ⟨lastl, h14, h⟩ := bind_ok_inv h
  obtain ⟨seed, h15, h⟩ := bind_ok_inv h
  obtain ⟨chal, h16, h⟩ := bind_ok_inv h
  obtain ⟨resp, h17, h⟩ := bind_ok_inv h
  split at h
  · cases h
  next hver =>
  obtain ⟨qs, h18, h⟩ := map_ok_inv h
  cases h
  -- the blocks
  have hver : chal.verify env.K resp.1 = true := by simpa using hver
  obtain ⟨a1, a2, a3⟩ := took_read (verify_orPanic_inv h1)
  rw [coin_append env.K c.channel_seed [] lde.1 ch.coin (by rw [hcoin]), List.nil_append] at a3
  obtain ⟨b1, b2, b3⟩ := took_getFields env (verify_orPanic_inv h3)
  rw [a3] at b2 b3
  obtain ⟨c1, c2, c3⟩ := took_read (verify_orPanic_inv h4)
  rw [coin_append env.K c.channel_seed _ con.1 co.2.coin b3] at c3
  obtain ⟨d1, d2, d3⟩ := took_getField env (verify_orPanic_inv h6)
  rw [c3] at d2 d3
  obtain ⟨tv, t1, t2, t3, t4, t5⟩ := took_fields env _ _ _ _ (verify_orPanic_inv h9)
  have t6 := (coin_writes env.K c.channel_seed (tv.map to_bytes_be) _ z.2.coin d3).1
  rw [← t5] at t6
  obtain ⟨cv, u1, u2, u3, u4, u5⟩ := took_fields env _ _ _ _ (verify_orPanic_inv h11)
  have hcvne : cv.map to_bytes_be ≠ [] := by
    intro h0
    have := congrArg List.length h0
    rw [List.length_map, u1, List.length_nil] at this
    unfold next_power_of_two at this
    split at this
    · omega
    · exact absurd this (Nat.two_pow_pos _).ne'
  have u6 := (coin_writes env.K c.channel_seed (cv.map to_bytes_be) _ tvs.2.coin t6).2 hcvne
  rw [← u5] at u6
  obtain ⟨o1, o2, o3⟩ := took_getFields env (verify_orPanic_inv h12)
  rw [u6] at o2 o3
  obtain ⟨l1, l2, l3, l4, l5⟩ := took_commitments env c.channel_seed _ _ _ _ _ _ _ o3 h13
  obtain ⟨l6, _⟩ := adv_readCommitments env _ _ _ _ _ _ h13
  have l7 := l6.last
  obtain ⟨last, m1, m2, m3, m4, m5⟩ := took_layer env (verify_orPanic_inv h14)
  rw [coin_append env.K c.channel_seed _ _ layers.2.coin l4] at m5
  obtain ⟨s1, s2, s3⟩ := took_getSeed (verify_orPanic_inv h15)
  rw [m5] at s2 s3
  obtain ⟨n1, n2, n3⟩ := took_response (verify_orPanic_inv h17)
  rw [coin_append env.K c.channel_seed _ _ seed.2.coin s3] at n3
  have htz : Merkle.trailing_zeros (2 ^ M) = M := trailing_zeros_two_pow M hMlt
  rw [htz] at h18
  obtain ⟨ql, qcoin, _, q2, q3, q4, q5, q6, _⟩ := C40_indices env.K true c.num_queries M hMlt ⟨resp.2.coin, []⟩ resp.2 rfl (by
    rw [n3]; show 0 + _ < _; omega)
  rw [q2] at h18
  have h18 := verify_orPanic_inv h18
  cases h18
  have w1 := from_size_hash_inv (verify_orMerkle_inv h2)
  have w2 := from_size_hash_inv (verify_orMerkle_inv h5)
  have hargs : c'.trace_arguments = some args := verify_orPanic_inv h8
  obtain ⟨_, _, _, _, hmem⟩ := substitute_spec c c' (verify_orPanic_inv h7)
  refine ⟨args, d, tv, cv, last, resp.1, ?_, hmem args hargs, verify_orPanic_inv h10, rfl, ?_, ?_, ?_, ?_, t1, t2, by rw [t3], u1, u2, u3, ?_, m2, m3, ?_, l1, l2,
    n2, q3, q5, ?_, ?_⟩
  · unfold Constraints.trace_arguments at hargs
    obtain ⟨l, _, rfl⟩ := Option.map_eq_some_iff.1 hargs
    exact unions_sorted _ _ List.Pairwise.nil
  · rw [w1]
  · rw [w2]
  · rw [w1]; exact a2
  · rw [w2]; exact c2
  · rw [m1, l7, hb]
  · rw [← l7]; exact l6
  · have := ((((((((a1.trans b1).trans c1).trans d1).trans t4).trans u4).trans o1).trans l3).trans m4).trans (s1.trans n1)
    simp only [List.append_nil, List.nil_append, List.append_assoc] at this
    rw [w1, w2]
    exact this
  · intro ls rows rh crows crh hls
    dsimp only
    have hhead : ([lde.1] ++ [con.1] ++ tv.map to_bytes_be) ++ cv.map to_bytes_be = [lde.1, con.1] ++ tv.map to_bytes_be ++ cv.map to_bytes_be := rfl
    rw [hhead] at o2 l5
    have hroots : ∀ i, (ls.take i).map (·.root) = (layers.1.1.take i).map (·.1.hash) := by
      intro i; rw [List.map_take, List.map_take, hls]
    have hlen : ls.length = layers.1.1.length := by have := congrArg List.length hls; simpa using this
    have hbody : ([lde.1] ++ [con.1] ++ tv.map to_bytes_be ++ cv.map to_bytes_be) ++ layers.1.1.map (·.1.hash) ++ [words last] =
        [lde.1, con.1] ++ tv.map to_bytes_be ++ cv.map to_bytes_be ++ ls.map (·.root) ++ [words last] := by rw [hls]; rfl
    rw [hbody] at n3 s2
    refine ⟨⟨?_, ?_, ?_, ⟨?_, ?_⟩, ?_, ?_⟩, ?_⟩
    · show Draws env (coin env.K c.channel_seed [ldec.hash]) _ _
      rw [w1]; exact b2
    · show Draws env (coin env.K c.channel_seed [ldec.hash, conc.hash]) _ _
      rw [w1, w2]; exact d2
    · show Draws env (coin env.K c.channel_seed ([ldec.hash, conc.hash] ++ tv.map to_bytes_be ++ cv.map to_bytes_be)) _ _
      rw [w1, w2]; exact o2
    · show (layers.1.1.map (·.2)).length = ls.length
      rw [List.length_map, hlen]
    · intro i hi
      have hi : i < ls.length := hi
      show Draws env (coin env.K c.channel_seed ([ldec.hash, conc.hash] ++ tv.map to_bytes_be ++ cv.map to_bytes_be ++ (ls.take (i + 1)).map (·.root))) 1
        [(layers.1.1.map (·.2)).getD i 0]
      rw [w1, w2, hroots]
      have hi' : i < layers.1.1.length := by rw [← hlen]; exact hi
      have := l5 i hi'
      rw [List.getElem?_eq_getElem hi'] at this
      rw [List.getD, List.getElem?_map, List.getElem?_eq_getElem hi']
      exact this
    · exact q4
    · show ql.Perm ((List.range c.num_queries).map (queryWord env.K (coin env.K c.channel_seed ([ldec.hash, conc.hash] ++ tv.map to_bytes_be ++ cv.map to_bytes_be ++
        ls.map (·.root) ++ [words last] ++ [to_be_bytes 8 resp.1])) M))
      rw [w1, w2, ← n3]; exact q6
    · unfold with_difficulty at h16
      have h16 := verify_orPanic_inv h16
      split at h16
      · next hlt =>
        cases h16
        have := (C36_verify env.K _ (by dsimp only; omega) resp.1).1 hver
        dsimp only at this
        rw [s2] at this
        unfold Worked
        show beValue (env.K.hash (env.K.hash (_ ++ (coin env.K c.channel_seed ([ldec.hash, conc.hash] ++ tv.map to_bytes_be ++ cv.map to_bytes_be ++
          ls.map (·.root) ++ [words last])).digest ++ _) ++ _)) < _
        rw [w1, w2]
        exact this
      · cases h16

/-- the first layer -/
theorem first_inv (c : Constraints F) (M k b : Nat) (hM : M = k + b) (hMlt : M < 64) (hk : c.trace_nrows = 2 ^ k) (hb : c.blowup = 2 ^ b)
    (W g : F) (hg : env.root (2 ^ k) = some g) (t : Transcript F) (args : List (Nat × Int)) (tv cv : List U256)
    (h1 : t.trace_map = args.zip (tv.map env.codec.val)) (h2 : tv.length = args.length) (h3 : t.constraint_values = cv.map env.codec.val) (h4 : cv ≠ [])
    (h5 : t.oods_coefficients.length = args.length + cv.length) (rows crows : List (List U256)) (hr : rows.length = t.queries.length)
    (hcr : crows.length = t.queries.length) (hcw : ∀ r ∈ crows, r.length = cv.length) (q z : Nat) (v : F) (hqz : t.queries[z]? = some q) (hq : q < 2 ^ M)
    (h : knownFirst env c t ((List.range (2 ^ M)).map (W ^ ·)) (t.queries.zip (rows.map (·.map env.codec.val)))
      (t.queries.zip (crows.map (·.map env.codec.val))) q z = .ok v) (P : Contents) (x : Challenges F) (hP1 : P.trace_values = tv) (hP2 : P.constraint_values = cv)
    (hx1 : x.point = t.oods_point) (hx2 : x.oods = t.oods_coefficients) :
    ∃ row crow, rows[z]? = some row ∧ crows[z]? = some crow ∧
      (∀ a ∈ args, a.1 < row.length ∧ env.generator * W ^ rev M q ≠ g ^ a.2 * x.point) ∧
      env.generator * W ^ rev M q ≠ x.point ^ P.constraint_values.length ∧
      v = deep env g args P x (row.map env.codec.val) (crow.map env.codec.val) (env.generator * W ^ rev M q) := by
  have hN : c.trace_nrows * c.blowup = 2 ^ M := by rw [hk, hb, hM, pow_add]
  have hz : z < t.queries.length := by
    by_contra hge
    rw [List.getElem?_eq_none (by omega)] at hqz
    cases hqz
  unfold knownFirst at h
  obtain ⟨q', e1, h⟩ := bind_ok_inv h
  rw [hqz] at e1
  cases e1
  obtain ⟨y, e2, h⟩ := bind_ok_inv h
  have e2 := verify_orPanic_inv e2
  rw [hN, permute_index_eq M q hMlt hq, List.getElem?_map, List.getElem?_range (rev_lt M q), Option.map_some, Option.some.injEq] at e2
  subst e2
  obtain ⟨l, e3, h⟩ := bind_ok_inv h
  obtain ⟨l', e4, h⟩ := bind_ok_inv h
  have e3 := verify_orPanic_inv e3
  have e4 := verify_orPanic_inv e4
  have hrz : z < rows.length := by omega
  have hcz : z < crows.length := by omega
  rw [List.getElem?_eq_getElem (by simp; omega), Option.some.injEq, List.getElem_zip, List.getElem_map] at e3 e4
  subst e3 e4
  dsimp only at h
  rw [h1, h3, hk] at h
  have hcl := hcw _ (List.getElem_mem hcz)
  obtain ⟨d1, d2, d3⟩ := deep_inv env _ _ _ _ args _ _ _ _ g v hg (by rw [List.length_map, h2]) (by simp only [List.length_map, hcl])
    (by rw [List.length_map, h5]) h
  refine ⟨rows[z], crows[z], List.getElem?_eq_getElem hrz, List.getElem?_eq_getElem hcz, ?_, ?_, ?_⟩
  · intro a ha
    have := d1 a ha
    rw [List.length_map] at this
    rw [hx1]; exact this
  · have := d2 (by simpa using h4)
    rw [List.length_map] at this
    rw [hx1, hP2]; exact this
  · rw [d3]
    unfold deep
    simp only [List.length_map, hP1, hP2, hx1, hx2]
    congr 1
    · apply Finset.sum_congr rfl
      intro k hk
      have hk := Finset.mem_range.1 hk
      have : (tv.map env.codec.val).getD k 0 = env.codec.val (tv.getD k ⟨0, 0, 0, 0⟩) := by
        rw [List.getD, List.getD, List.getElem?_map, List.getElem?_eq_getElem (by omega)]; rfl
      rw [this]
    · apply Finset.sum_congr rfl
      intro k hk
      have hk := Finset.mem_range.1 hk
      have : (cv.map env.codec.val).getD k 0 = env.codec.val (cv.getD k ⟨0, 0, 0, 0⟩) := by
        rw [List.getD, List.getD, List.getElem?_map, List.getElem?_eq_getElem (by omega)]; rfl
      rw [this]

omit [Field F] [DecidableEq F] in
theorem zip_hash (l : List Nat) (rows : List (List F)) :
    (l.zip rows).map (fun v => (v.1, elementsHash env v.2)) = l.zip (rows.map (elementsHash env)) := by
  rw [List.zip_map_right]
  rfl

/-- the parts of an accepted proof, and where the verifier reads them -/
theorem accepts_read (hroot : RootFn env.root) (hcompat : RootCompat env.root) (hsearch : SearchOk env.search) (c : Constraints F) (k b : Nat)
    (hkb : k + b < 64) (hk : c.trace_nrows = 2 ^ k) (hb : c.blowup = 2 ^ b) (hlayout : c.fri_layout.sum ≤ k + b) (hq : c.num_queries < 2 ^ 64) (p : Bytes)
    (h : verify env c p = .ok ()) :
    ∃ W g args P x, env.root (2 ^ (k + b)) = some W ∧ env.root (2 ^ k) = some g ∧ Accepts env c k b W g p args P x ∧
      P.Counted c.fri_layout (k + b) x.queries ∧
      ∃ t ch, readTranscript env c (VerifierChannel.init env.K p c.channel_seed) = .ok (t, ch) ∧ t.constraint_coefficients = x.coefficients ∧ t.oods_point = x.point ∧
        t.trace_map = args.zip (P.trace_values.map env.codec.val) ∧ t.constraint_values = P.constraint_values.map env.codec.val := by
  have hN : c.trace_nrows * c.blowup = 2 ^ (k + b) := by rw [hk, hb, pow_add]
  unfold verify at h
  dsimp only at h
  rw [hN] at h
  obtain ⟨W, h1, h⟩ := bind_ok_inv h
  have h1 := verify_orPanic_inv h1
  have hg := hcompat k b W hkb h1
  obtain ⟨⟨t, ch⟩, h2, h⟩ := bind_ok_inv h
  obtain ⟨args, d, tv, cv, last, nonce, i1, i2, i3, i4, i5, i6, i7, i8, i9, i10, i11, i12, i13, i14, i15, i16, i17, i18, i19, i20, i21, i22, i23, i24, i25⟩ :=
    transcript_inv env c (k + b) k b rfl hkb hk hb hq _ _ _ rfl h2
  unfold checkTranscript at h
  obtain ⟨lv, h3, h⟩ := bind_ok_inv h
  obtain ⟨ch1, h4, h⟩ := bind_ok_inv h
  obtain ⟨cvv, h5, h⟩ := bind_ok_inv h
  obtain ⟨ch2, h6, h⟩ := bind_ok_inv h
  split at h
  · cases h
  next hempty =>
  obtain ⟨r, h7, h⟩ := bind_ok_inv h
  split at h
  · cases h
  next hend =>
  obtain ⟨_, h8, h⟩ := bind_ok_inv h
  obtain ⟨v, h9, h⟩ := bind_ok_inv h
  split at h
  · cases h
  next hv =>
  have hv : v = oods_value_from_constraint_values t.constraint_values t.oods_point := by
    by_contra h0; exact hv h0
  obtain ⟨rows, a1, a2, a3, a4⟩ := took_leaves env _ _ _ _ _ h3
  obtain ⟨rh, b1, b2, b3, b4⟩ := took_checkLeaves env h4
  obtain ⟨crows, c1, c2, c3, c4⟩ := took_leaves env _ _ _ _ _ h5
  obtain ⟨crh, d1, d2, d3, d4⟩ := took_checkLeaves env h6
  have hcvne : cv ≠ [] := by
    rintro rfl
    rw [List.length_nil, i4] at i12
    unfold next_power_of_two at i12
    split at i12
    · omega
    · exact absurd i12.symm (Nat.two_pow_pos _).ne'
  have hsorted : t.queries.Pairwise (· ≤ ·) := by
    obtain ⟨⟨_, _, _, _, hqs⟩, _⟩ := i25 (t.layers.map fun l => ⟨l.1.hash, [], []⟩) rows rh crows crh (by rw [List.map_map]; rfl)
    exact hqs.1
  have hoods : t.oods_coefficients.length = args.length + cv.length := by
    obtain ⟨⟨_, _, ho, _, _⟩, _⟩ := i25 (t.layers.map fun l => ⟨l.1.hash, [], []⟩) rows rh crows crh (by rw [List.map_map]; rfl)
    rw [i12]
    exact draws_length env _ _ _ ho
  rw [hN, c3, a3] at h7
  -- the layers
  have hlay : ∃ (ls : List Layer) (f : Nat → F), ls.map (·.root) = t.layers.map (·.1.hash) ∧ (∀ l ∈ ls, Reduced l.values ∧ ∀ h ∈ l.hashes, h.length = 32) ∧
      Took ch2 (ls.flatMap fun l => words l.values ++ l.hashes.flatten) r.2 ∧
      (∀ q ∈ t.queries, ∃ z : Nat, t.queries[z]? = some q ∧ knownFirst env c t ((List.range (2 ^ (k + b))).map (W ^ ·)) (t.queries.zip (rows.map (·.map env.codec.val)))
        (t.queries.zip (crows.map (·.map env.codec.val))) q z = .ok (f q)) ∧
      FriOk env t.last_layer c.fri_layout ls (t.layers.map (·.2)) W (k + b) f t.queries ∧ FriCounted c.fri_layout ls (k + b) t.queries := by
    generalize hlayers : t.layers = coms at h7 i18 ⊢
    generalize hlay : c.fri_layout = layout at h7 i18 hempty hlayout ⊢
    generalize 2 ^ (k + b) / 2 ^ layout.sum = E at i18
    generalize hS : 2 ^ (k + b) = S at i18
    cases i18 with
    | nil _ =>
      have hqe : t.queries = [] := by
        by_contra h0; exact hempty ⟨rfl, h0⟩
      cases h7
      exact ⟨[], fun _ => 0, rfl, by intro l hl; simp at hl, Took.refl _, by rw [hqe]; intro q hq; simp at hq, by rw [hqe]; intro q hq; simp at hq, trivial⟩
    | cons n _ layout com a coms _ hcom hr =>
      subst hS
      rw [List.sum_cons] at hlayout
      rw [List.zip_cons_cons, friLayers] at h7
      obtain ⟨vl, e1, h7⟩ := bind_ok_inv h7
      obtain ⟨folds, e2, h7⟩ := bind_ok_inv h7
      obtain ⟨c1, e3, h7⟩ := bind_ok_inv h7
      have hstep : (1 : Nat) = 2 ^ (k + b - (k + b)) := by rw [Nat.sub_self, pow_zero]
      rw [hstep] at e2 h7
      obtain ⟨V, us, j1, j2, j3, j4, j5, j6, j7, j8, j9⟩ := layer_inv env hroot hsearch (k + b) hkb W h1 (k + b) n (by omega) (le_refl _) a _ t.queries hsorted i23
        ch2 vl.2 vl.1 folds e1 (verify_orPanic_inv e2)
      obtain ⟨hs, k1, k2, k3, k4⟩ := took_checkLeaves env e3
      subst j9
      have e4 : 2 ^ (k + b) / 2 ^ n = 2 ^ (k + b - n) := Nat.pow_div (by omega) (by norm_num)
      have e5 : 2 ^ (k + b - (k + b)) * 2 ^ n = 2 ^ (k + b - (k + b - n)) := by rw [← pow_add]; congr 1; omega
      rw [e4, e5] at h7
      have e : com = ⟨2 ^ (k + b - n), com.hash⟩ := by rw [← e4, ← hcom]
      obtain ⟨ls, l1, l2, l3, l4, l5⟩ := layers_inv env hroot hcompat hsearch (k + b) hkb W h1 t.last_layer hr (k + b - n) e4 (by omega) (by omega) _ _
        (j1.imp fun h => Nat.le_of_lt h) j3 _ _ _ h7 h8
      refine ⟨⟨com.hash, us, hs⟩ :: ls, V, by rw [List.map_cons, List.map_cons, l1], ?_, ?_, j8, ?_, _, j1, j2, by rw [e] at k4; exact k4, l5⟩
      · intro l hl
        rcases List.mem_cons.1 hl with rfl | hl
        · exact ⟨j5, k1⟩
        · exact l2 l hl
      · rw [List.flatMap_cons]
        exact (j6.trans k2).trans l3
      · rw [List.map_cons, FriOk]
        have e6 : W ^ 2 ^ (k + b - (k + b)) = W := by rw [← hstep, pow_one]
        rw [e6] at l4
        refine ⟨V, _, j1, j2, fun q _ => rfl, j7, ?_, ?_⟩
        · unfold Opened
          rw [j4, List.map_map] at k3
          rw [e] at k3
          rw [← k3]
          congr 1
          rw [List.map_map]
          generalize dedupBy id (t.queries.map (· / 2 ^ n)) = J
          induction J with
          | nil => rfl
          | cons x J ihJ => simp only [List.map_cons, List.zip_cons_cons, ihJ]; rfl
        · have : W ^ 2 ^ n = W ^ 2 ^ (k + b - (k + b - n)) := by rw [← e5, ← hstep, one_mul]
          rw [this]
          exact l4
  obtain ⟨ls, f, f1, f2, f3, f4, f5, f6⟩ := hlay
  obtain ⟨hdrawn, hworked⟩ := i25 ls rows rh crows crh f1
  rw [i12.symm] at hdrawn
  refine ⟨W, W ^ 2 ^ b, args, ⟨t.lde_commitment.hash, t.constraint_commitment.hash, tv, cv, ls, last, nonce, rows, rh, crows, crh⟩,
    ⟨t.constraint_coefficients, t.oods_point, t.oods_coefficients, t.layers.map (·.2), t.queries⟩, h1, hg, ?_, ⟨?_, ?_, f6⟩, t, ch, h2, rfl, rfl, i11, i14⟩
  rotate_left
  · show proof_size _ _ = _
    rw [← i5]; exact b4
  · show proof_size _ _ = _
    rw [← i6]; exact d4
  refine ⟨?_, ⟨d, i3, ?_⟩, i1, i2, hdrawn, hworked, ?_, ?_, ?_, f, ?_, ?_⟩
  · have ht := ((((i24.trans a4).trans b2).trans c4).trans d2).trans f3
    have hfin : r.2.proof.drop r.2.proof_index = [] := by
      have : r.2.proof_index = r.2.proof.length := by simpa [VerifierChannel.at_end] using hend
      rw [this, List.drop_length]
    have := ht.1
    rw [hfin, List.append_nil] at this
    have hfm : t.layers.flatMap (·.1.hash) = ls.flatMap (·.root) := by
      rw [List.flatMap_def, List.flatMap_def, f1]
    rw [hfm] at this
    have h0 : (VerifierChannel.init env.K p c.channel_seed).proof.drop (VerifierChannel.init env.K p c.channel_seed).proof_index = p := rfl
    rw [h0] at this
    simp only [List.append_assoc] at this
    exact this
  · refine ⟨i7, i8, ⟨i9, i10⟩, ⟨by rw [i12, i4], i13⟩, ⟨?_, ?_⟩, ⟨i15, i16⟩, i21, ⟨by rw [a1, i22], a2⟩, b1, ⟨by rw [c1, i22], fun r hr => by rw [← i4]; exact c2 r hr⟩, d1⟩
    · have := congrArg List.length f1
      simp only [List.length_map] at this
      rw [← i19]; exact this
    · intro l hl
      refine ⟨?_, f2 l hl⟩
      have : l.root ∈ t.layers.map (·.1.hash) := by rw [← f1]; exact List.mem_map_of_mem hl
      obtain ⟨y, hy, e⟩ := List.mem_map.1 this
      rw [← e]; exact i20 y hy
  · refine oods_inv env c args _ _ v ?_ ?_
    · rw [← i11]; exact verify_orPanic_inv h9
    · rw [← i14]; exact hv
  · unfold Opened
    rw [a3, zip_hash] at b3
    have e : t.lde_commitment = ⟨2 ^ (k + b), t.lde_commitment.hash⟩ := by rw [← i5]
    rw [e] at b3
    exact b3
  · unfold Opened
    rw [c3, zip_hash] at d3
    have e : t.constraint_commitment = ⟨2 ^ (k + b), t.constraint_commitment.hash⟩ := by rw [← i6]
    rw [e] at d3
    exact d3
  · intro q hq
    obtain ⟨z, z1, z2⟩ := f4 q hq
    obtain ⟨row, crow, y1, y2, y3, y4, y5⟩ := first_inv env c (k + b) k b rfl hkb hk hb W _ hg t args tv cv i11 i9 i14 hcvne hoods rows crows a1 c1
      (fun r hr => by rw [(c2 r hr).1, i12]) q z (f q) z1 (i23 q hq) z2
      ⟨t.lde_commitment.hash, t.constraint_commitment.hash, tv, cv, ls, last, nonce, rows, rh, crows, crh⟩
      ⟨t.constraint_coefficients, t.oods_point, t.oods_coefficients, t.layers.map (·.2), t.queries⟩ rfl rfl rfl rfl
    exact ⟨z, row, crow, z1, y1, y2, y3, y4, y5⟩
  · rw [← i17]; exact f5

theorem accepts_counted (hroot : RootFn env.root) (hcompat : RootCompat env.root) (hsearch : SearchOk env.search) (c : Constraints F) (k b : Nat)
    (hkb : k + b < 64) (hk : c.trace_nrows = 2 ^ k) (hb : c.blowup = 2 ^ b) (hlayout : c.fri_layout.sum ≤ k + b) (hq : c.num_queries < 2 ^ 64) (p : Bytes)
    (h : verify env c p = .ok ()) :
    ∃ W g args P x, env.root (2 ^ (k + b)) = some W ∧ env.root (2 ^ k) = some g ∧ Accepts env c k b W g p args P x ∧
      P.Counted c.fri_layout (k + b) x.queries :=
  let ⟨W, g, args, P, x, h1, h2, h3, h4, _⟩ := accepts_read env hroot hcompat hsearch c k b hkb hk hb hlayout hq p h
  ⟨W, g, args, P, x, h1, h2, h3, h4⟩

theorem accepts (hroot : RootFn env.root) (hcompat : RootCompat env.root) (hsearch : SearchOk env.search) (c : Constraints F) (k b : Nat)
    (hkb : k + b < 64) (hk : c.trace_nrows = 2 ^ k) (hb : c.blowup = 2 ^ b) (hlayout : c.fri_layout.sum ≤ k + b) (hq : c.num_queries < 2 ^ 64) (p : Bytes)
    (h : verify env c p = .ok ()) :
    ∃ W g args P x, env.root (2 ^ (k + b)) = some W ∧ env.root (2 ^ k) = some g ∧ Accepts env c k b W g p args P x :=
  let ⟨W, g, args, P, x, h1, h2, h3, _⟩ := accepts_counted env hroot hcompat hsearch c k b hkb hk hb hlayout hq p h
  ⟨W, g, args, P, x, h1, h2, h3⟩

end
end Accept
end Stark
end OpenZKP
