import Verif.Stark.ReleaseLemmas
import Verif.Stark.Converse

/-!
Lemmas: what the verifier without debug assertions reads from the bytes of a proof's parts, reduced or not.
-/

namespace OpenZKP
namespace Stark
namespace Release
open FFT U256 Props Merkle Accept

section
variable {F : Type} [Field F] [DecidableEq F] (env : Env F)

omit [Field F] [DecidableEq F] in
theorem fwd_word {coin : PublicCoin} {pre full : Bytes} {u : U256} (h : pre ++ to_bytes_be u <+: full) :
    (vch coin full pre).replayField env.K false = some (u, vch (coin.write env.K (to_bytes_be u)) full (pre ++ to_bytes_be u)) := by
  have h1 := read_pre env.K (coin := coin) h
  rw [to_bytes_be_length] at h1
  unfold VerifierChannel.replayField VerifierChannel.replayU256
  rw [h1, Option.bind_some]
  dsimp only
  rw [from_to_bytes, Option.map_some, Option.bind_some]
  rfl

omit [Field F] [DecidableEq F] in
theorem fwd_words : ∀ (us : List U256) (coin : PublicCoin) (pre full : Bytes), pre ++ words us <+: full →
    readWords env us.length (vch coin full pre) = some (us, vch ((us.map to_bytes_be).foldl (PublicCoin.write env.K) coin) full (pre ++ words us)) := by
  intro us
  induction us with
  | nil => intro coin pre full _; simp [readWords, VerifierChannel.replayMany, words]
  | cons u us ih =>
    intro coin pre full h
    rw [words_cons, ← List.append_assoc] at h ⊢
    have e := ih (coin.write env.K (to_bytes_be u)) (pre ++ to_bytes_be u) full h
    unfold readWords at e ⊢
    rw [List.length_cons, VerifierChannel.replayMany, fwd_word env ((List.prefix_append _ _).trans h), Option.bind_some]
    dsimp only
    rw [e]
    rfl

omit [Field F] [DecidableEq F] in
theorem fwd_layer {coin : PublicCoin} {pre full : Bytes} {us : List U256} (h : pre ++ words us <+: full) :
    (vch coin full pre).replayLayer env.K false us.length = some (us, vch (coin.write env.K (words us)) full (pre ++ words us)) := by
  have h1 := read_pre env.K (coin := coin) h
  rw [words_length] at h1
  unfold VerifierChannel.replayLayer
  rw [h1, Option.bind_some]
  dsimp only
  have e : VerifierChannel.chunks32 us.length (words us) = us.map to_bytes_be := chunks_flatMap us
  rw [e, List.mapM_map, option_mapM_some _ id _ (fun x hx => by
    simp only [Function.comp_apply, id]
    rw [from_to_bytes, Option.bind_some]
    rfl), List.map_id]
  rfl

/-- the transcript of the specification, with words -/
def transcriptOf (c : Constraints F) (M : Nat) (args : List (Nat × Int)) (P : Contents) (x : Challenges F) : Transcript F :=
  ⟨⟨2 ^ M, P.trace_root⟩, x.coefficients, ⟨2 ^ M, P.constraint_root⟩, x.point, args.zip P.trace_values, P.constraint_values.length,
    P.constraint_values, x.oods, comsOf c.fri_layout P.fri x.folds M, P.last_layer, x.queries⟩

/-- the sizes of the parts that come before the queries -/
structure Front (P : Contents) (nargs width nlayers lastSize : Nat) : Prop where
  trace_root : P.trace_root.length = 32
  constraint_root : P.constraint_root.length = 32
  trace_values : P.trace_values.length = nargs
  constraint_values : P.constraint_values.length = width
  fri : P.fri.length = nlayers ∧ ∀ l ∈ P.fri, l.root.length = 32
  last_layer : P.last_layer.length = lastSize
  nonce : P.nonce < 2 ^ 64

theorem transcript_fwd (c : Constraints F) (k b : Nat) (hkb : k + b < 64) (hk : c.trace_nrows = 2 ^ k) (hb : c.blowup = 2 ^ b)
    (hlayout : c.fri_layout.sum ≤ k + b) (hq : c.num_queries < 2 ^ 64) (hpow : c.pow_bits < 256) (p : Bytes) (args : List (Nat × Int))
    (P : Contents) (x : Challenges F) (d : Nat) (hd : c.degree = some d) (hs : Front P args.length (next_power_of_two d) c.fri_layout.length
      (2 ^ (k + b) / 2 ^ c.fri_layout.sum / 2 ^ b)) (c' : Constraints F) (a1 : c.substitute = some c') (a2 : c'.trace_arguments = some args)
    (hfull : P.front <+: p) (hdrawn : Drawn env c (k + b) args.length P.constraint_values.length P x) (hworked : Worked env c P) :
    ∃ coin', readTranscript env c (VerifierChannel.init env.K p c.channel_seed) = .ok (transcriptOf c (k + b) args P x, vch coin' p P.front) := by
  have hN : c.trace_nrows * c.blowup = 2 ^ (k + b) := by rw [hk, hb, pow_add]
  unfold Contents.front at hfull
  have p7 := hfull
  have p6 := (List.prefix_append _ _).trans p7
  have p5 := (List.prefix_append _ _).trans p6
  have p4 := (List.prefix_append _ _).trans p5
  have p3 := (List.prefix_append _ _).trans p4
  have p2 := (List.prefix_append _ _).trans p3
  have p1 := (List.prefix_append _ _).trans p2
  have r1 := replayHash_pre env.K (coin := coin env.K c.channel_seed []) (pre := []) hs.trace_root p1
  rw [coin_append env.K c.channel_seed [] P.trace_root _ rfl, List.nil_append, List.nil_append] at r1
  obtain ⟨coin1, r2, e2⟩ := fwd_draws env hdrawn.coefficients p P.trace_root
  have r3 := replayHash_pre env.K (coin := coin1) hs.constraint_root p2
  rw [coin_append env.K c.channel_seed [P.trace_root] P.constraint_root _ e2] at r3
  obtain ⟨coin2, r4, e4⟩ := fwd_draw env hdrawn.point p (P.trace_root ++ P.constraint_root)
  have r5 := fwd_words env P.trace_values coin2 _ _ p3
  have e5 := (coin_writes env.K c.channel_seed (P.trace_values.map to_bytes_be) [P.trace_root, P.constraint_root] coin2 e4).1
  generalize hc3 : (P.trace_values.map to_bytes_be).foldl (PublicCoin.write env.K) coin2 = coin3 at r5 e5
  have r6 := fwd_words env P.constraint_values coin3 _ _ p4
  have hcvne : P.constraint_values.map to_bytes_be ≠ [] := by
    intro h0
    have := congrArg List.length h0
    rw [List.length_map, hs.constraint_values, List.length_nil] at this
    unfold next_power_of_two at this
    split at this
    · omega
    · exact absurd this (Nat.two_pow_pos _).ne'
  have e6 := (coin_writes env.K c.channel_seed (P.constraint_values.map to_bytes_be) _ coin3 e5).2 hcvne
  rw [e6] at r6
  obtain ⟨coin4, r7, e7⟩ := fwd_draws env hdrawn.oods p (P.trace_root ++ P.constraint_root ++ words P.trace_values ++ words P.constraint_values)
  obtain ⟨coin5, r8, e8⟩ := fwd_commitments env c.channel_seed c.fri_layout P.fri x.folds (k + b) P.head coin4 _ p hs.fri.1 hdrawn.folds.1 hlayout hkb
    hs.fri.2 e7 hdrawn.folds.2 p5
  have r9 := fwd_layer env (coin := coin5) p6
  rw [coin_append env.K c.channel_seed _ _ coin5 e8, hs.last_layer] at r9
  have hbody : P.head ++ P.fri.map (·.root) ++ [words P.last_layer] = P.body := rfl
  rw [hbody] at r9
  generalize hpre : P.trace_root ++ P.constraint_root ++ words P.trace_values ++ words P.constraint_values ++ P.fri.flatMap (·.root) ++ words P.last_layer = pre at r9 p7
  have r10 : (vch (coin env.K c.channel_seed P.body) p pre).getSeed =
      some ((coin env.K c.channel_seed P.body).digest, vch ⟨(coin env.K c.channel_seed P.body).digest, 1⟩ p pre) := rfl
  have r11 := replayResponse_pre env.K (coin := ⟨(coin env.K c.channel_seed P.body).digest, 1⟩) hs.nonce p7
  rw [coin_append env.K c.channel_seed P.body _ ⟨(coin env.K c.channel_seed P.body).digest, 1⟩ rfl] at r11
  obtain ⟨l, coin6, _, q2, q3, q4, _, q6, _⟩ := C40_indices env.K true c.num_queries (k + b) hkb ⟨coin env.K c.channel_seed (P.body ++ [to_be_bytes 8 P.nonce]), []⟩
    (vch (coin env.K c.channel_seed (P.body ++ [to_be_bytes 8 P.nonce])) p (pre ++ to_be_bytes 8 P.nonce)) rfl (by show 0 + _ < _; omega)
  have hql : l = x.queries := (q6.trans hdrawn.queries.2.symm).eq_of_pairwise (fun a b _ _ h1 h2 => Nat.le_antisymm h1 h2) q4 hdrawn.queries.1
  subst hql
  refine ⟨coin6, ?_⟩
  have hinit : VerifierChannel.init env.K p c.channel_seed = vch (coin env.K c.channel_seed []) p [] := rfl
  unfold readTranscript
  dsimp only
  rw [hN, hinit, r1, orPanic_some, ok_bind, from_size_hash_two_pow, orMerkle_ok, ok_bind, r2, orPanic_some, ok_bind, r3, orPanic_some, ok_bind,
    from_size_hash_two_pow, orMerkle_ok, ok_bind]
  dsimp only [List.cons_append, List.nil_append]
  rw [r4, orPanic_some, ok_bind, a1, orPanic_some, ok_bind, a2, orPanic_some, ok_bind]
  dsimp only
  rw [← hs.trace_values, r5, orPanic_some, ok_bind, hd, orPanic_some, ok_bind, ← hs.constraint_values, r6, orPanic_some, ok_bind]
  dsimp only
  rw [← hs.trace_values] at r7
  have r7' : VerifierChannel.getFields env (P.trace_values.length + P.constraint_values.length)
      (vch (coin env.K c.channel_seed ([P.trace_root, P.constraint_root] ++ P.trace_values.map to_bytes_be ++ P.constraint_values.map to_bytes_be)) p
        (P.trace_root ++ P.constraint_root ++ words P.trace_values ++ words P.constraint_values)) = some (x.oods, vch coin4 p
        (P.trace_root ++ P.constraint_root ++ words P.trace_values ++ words P.constraint_values)) := r7
  dsimp only [List.cons_append, List.nil_append] at r7' ⊢
  rw [r7', orPanic_some, ok_bind]
  dsimp only
  rw [r8, ok_bind, if_neg (by rw [hb]; exact (Nat.two_pow_pos b).ne')]
  dsimp only
  rw [hb, r9, orPanic_some, ok_bind]
  dsimp only
  rw [r10, orPanic_some, ok_bind]
  unfold with_difficulty
  rw [if_pos hpow, orPanic_some, ok_bind, r11, orPanic_some, ok_bind]
  dsimp only
  have hver := (C36_verify env.K ⟨env.K.hash ([0x01, 0x23, 0x45, 0x67, 0x89, 0xab, 0xcd, 0xed] ++ (coin env.K c.channel_seed P.body).digest ++
    [UInt8.ofNat c.pow_bits]), c.pow_bits⟩ (by dsimp only; omega) P.nonce).2 hworked
  rw [hver, if_neg (by simp), trailing_zeros_two_pow _ hkb, q2]
  unfold transcriptOf Contents.front
  rw [hpre]
  rfl

/-! ## Differences of zero -/

theorem deep_zero (A : Arith env.codec) (query_x : F) (row crow : List U256) (x : F) (map : List ((Nat × Int) × U256)) (values : List U256) (coefficients : List F)
    (n : Nat) (g : F) (hg : env.root n = some g)
    (h1 : ∀ t ∈ map, (∃ v, row[t.1.1]? = some v ∧ sub v t.2 = U256.ZERO) ∧ query_x * env.generator - g ^ t.1.2 * x ≠ 0)
    (h2 : ∀ v ∈ crow.zip values, sub v.1 v.2 = U256.ZERO) (h3 : query_x * env.generator - x ^ crow.length ≠ 0) :
    out_of_domain_element env query_x row crow x map values coefficients n = .ok U256.ZERO := by
  have hz : ∀ y : F, mul U256.ZERO (env.codec.rep y) = env.codec.rep 0 := by
    intro y
    rw [← A.zero, A.mul, zero_mul]
  unfold out_of_domain_element
  dsimp only
  rw [hg]
  dsimp only
  rw [option_mapM_some _ (fun _ => env.codec.rep 0) map (by
    intro t ht
    obtain ⟨⟨v, e1, e2⟩, e3⟩ := h1 t ht
    rw [e1, Option.bind_some]
    unfold finv
    rw [if_neg e3, Option.map_some, e2, hz]), orPanic_some, ok_bind,
    option_mapM_some _ (fun _ => env.codec.rep 0) (crow.zip values) (by
    intro v hv
    unfold finv
    rw [if_neg h3, Option.map_some, h2 v hv, hz]), orPanic_some]
  show Except.ok _ = _
  rw [Except.ok.injEq, show (map.map fun _ => env.codec.rep 0) = (map.map fun _ => (0 : F)).map env.codec.rep by rw [List.map_map]; rfl,
    show ((crow.zip values).map fun _ => env.codec.rep 0) = ((crow.zip values).map fun _ => (0 : F)).map env.codec.rep by rw [List.map_map]; rfl]
  dsimp only
  rw [← List.map_append, terms_sim env A, ← A.zero]
  congr 1
  apply List.sum_eq_zero
  intro y hy
  obtain ⟨t, ht, rfl⟩ := List.mem_map.1 hy
  have := List.of_mem_zip ht
  have h0 : t.1 = 0 := by
    rcases List.mem_append.1 this.1 with h | h <;> (obtain ⟨_, _, h⟩ := List.mem_map.1 h; exact h.symm)
  rw [h0, zero_mul]

/-! ## Combinations of zero -/

theorem sum_zero (A : Arith env.codec) (x : F) (tr : Nat → Int → Option U256) (es : List (Expr F)) (h : ∀ e ∈ es, evaluate env x tr e = some (env.codec.rep 0)) :
    evaluate env x tr (Expr.sum es) = some (env.codec.rep 0) := by
  cases es with
  | nil => rfl
  | cons e es =>
    rw [Expr.sum]
    have h0 := h e (by simp)
    have h1 : ∀ a ∈ es, evaluate env x tr a = some (env.codec.rep 0) := fun a ha => h a (by simp [ha])
    clear h
    induction es generalizing e with
    | nil => exact h0
    | cons a es ih =>
      rw [List.foldl_cons]
      refine ih _ ?_ fun b hb => h1 b (by simp [hb])
      unfold Expr.add
      rw [evaluate, h0, h1 a (by simp), Option.bind_some, Option.map_some, A.add, add_zero]

theorem combined_zero (A : Arith env.codec) (c : Constraints F) (coefficients : List F) (hclaims : c.claim_polynomials = []) (d : Nat) (hd : c.degree = some d)
    (hdn : 0 < d * c.trace_nrows) (hx : coefficients.length = 2 * c.expressions.length)
    (hdeg : ∀ e ∈ c.expressions, (e.degree (c.trace_nrows - 1)).1 ≤ d * c.trace_nrows - 1 + (e.degree (c.trace_nrows - 1)).2)
    (map : List ((Nat × Int) × U256)) (x : F) (hnc : ∀ e ∈ c.expressions, NoClaim e)
    (h : ∀ e ∈ c.expressions, evaluate env x (fun i j => assoc map (i, j)) e = some (env.codec.rep 0)) :
    oods_value_from_trace_values env c coefficients map x = some (env.codec.rep 0) := by
  obtain ⟨E, hE⟩ := Option.isSome_iff_exists.1 (C43_defined c coefficients d (d * c.trace_nrows - 1) hd (by omega) hx hdeg)
  have hE' := hE
  unfold Constraints.combine at hE'
  rw [if_pos hx.symm, hd, Option.bind_some] at hE'
  obtain ⟨td, _, hE'⟩ := Option.bind_eq_some_iff.1 hE'
  obtain ⟨es, h1, rfl⟩ := Option.map_eq_some_iff.1 hE'
  have hf := mapM_some_inv _ _ _ h1
  have hes : ∀ e ∈ es, ∃ u ∈ c.expressions, ∃ low high adj, e = Expr.mul (Expr.add (.Constant low) (Expr.mul (.Constant high) (Expr.pow .X adj))) u := by
    intro e he
    obtain ⟨i, hi, rfl⟩ := List.getElem_of_mem he
    have hi' : i < (c.expressions.zip (Constraints.tuples coefficients)).length := by rw [hf.length_eq]; exact hi
    have := (List.forall₂_iff_get.1 hf).2 i hi' hi
    unfold Constraints.combineOne at this
    obtain ⟨_, _, this⟩ := Option.bind_eq_some_iff.1 this
    obtain ⟨adj, _, this⟩ := Option.map_eq_some_iff.1 this
    exact ⟨_, (List.of_mem_zip (List.getElem_mem hi')).1, _, _, adj, this.symm⟩
  unfold oods_value_from_trace_values
  rw [hE, Option.bind_some, hclaims]
  have hncE : NoClaim (Expr.sum es) := by
    have h2 : ∀ e ∈ es, NoClaim e := by
      intro e he
      obtain ⟨u, hu, _, _, _, rfl⟩ := hes e he
      exact ⟨⟨trivial, trivial, trivial⟩, hnc u hu⟩
    cases es with
    | nil => trivial
    | cons e es =>
      rw [Expr.sum]
      have h0 := h2 e (by simp)
      have h3 : ∀ a ∈ es, NoClaim a := fun a ha => h2 a (by simp [ha])
      generalize e = e at h0
      clear * - h0 h3
      induction es generalizing e with
      | nil => exact h0
      | cons a es ih =>
        rw [List.foldl_cons]
        exact ih (fun b hb => h3 b (by simp [hb])) _ ⟨h0, h3 a (by simp)⟩
  have hfit : ∀ e : Expr F, NoClaim e → ClaimsFit [] e := by
    intro e
    induction e with
    | X => exact fun _ => trivial
    | Constant c => exact fun _ => trivial
    | Trace i j => exact fun _ => trivial
    | Polynomial p a ih => exact fun h => ih h
    | ClaimPolynomial i n a name ih => exact fun h => h.elim
    | Add a b iha ihb => exact fun h => ⟨iha h.1, ihb h.2⟩
    | Neg a ih => exact fun h => ih h
    | Mul a b iha ihb => exact fun h => ⟨iha h.1, ihb h.2⟩
    | Inv a ih => exact fun h => ih h
    | Exp a k ih => exact fun h => ih h
  obtain ⟨E', hE'⟩ := Option.isSome_iff_exists.1 ((C42_substitute_defined [] (Expr.sum es)).2 (hfit _ hncE))
  rw [hE', Option.bind_some, substitute_nil _ _ hE']
  refine sum_zero env A x _ es fun e he => ?_
  obtain ⟨u, hu, low, high, adj, rfl⟩ := hes e he
  have hc : evaluate env x (fun i j => assoc map (i, j)) (Expr.add (.Constant low) (Expr.mul (.Constant high) (Expr.pow .X adj))) =
      some (env.codec.rep (low + high * x ^ adj)) := by
    refine evaluate_sim env A x (fun _ _ => none) _ (fun _ _ => osim_none) _ _ ?_
    rfl
  rw [Expr.mul, evaluate, hc, h u hu, Option.bind_some, Option.map_some, A.mul, mul_zero]

/-! ## Acceptance -/

/-- the parts after the queries, and the last layer: reduced words -/
structure Back (c : Constraints F) (k b : Nat) (W : F) (P : Contents) (x : Challenges F) (f : Nat → F) : Prop where
  last_layer : Reduced P.last_layer
  fri : ∀ l ∈ P.fri, Reduced l.values ∧ ∀ h ∈ l.hashes, h.length = 32
  trace_rows : P.trace_rows.length = x.queries.length ∧ ∀ r ∈ P.trace_rows, r.length = c.trace_ncolumns ∧ Reduced r
  constraint_rows : P.constraint_rows.length = x.queries.length ∧ ∀ r ∈ P.constraint_rows, r.length = P.constraint_values.length ∧ Reduced r
  trace_hashes : ∀ h ∈ P.trace_hashes, h.length = 32
  constraint_hashes : ∀ h ∈ P.constraint_hashes, h.length = 32
  trace : Opened env (2 ^ (k + b)) P.trace_root P.trace_hashes x.queries (P.trace_rows.map (·.map env.codec.val))
  constraint : Opened env (2 ^ (k + b)) P.constraint_root P.constraint_hashes x.queries (P.constraint_rows.map (·.map env.codec.val))
  folded : FriOk env (P.last_layer.map env.codec.val) c.fri_layout P.fri x.folds W (k + b) f x.queries
  counted : P.Counted c.fri_layout (k + b) x.queries

omit [Field F] [DecidableEq F] in
theorem reps_rows (hr : ∀ u : U256, u.toNat < PF.BASE.modulus.toNat → env.codec.rep (env.codec.val u) = u) (is : List Nat) (rows : List (List U256)) (h : ∀ r ∈ rows, Reduced r) :
    reps env (is.zip (rows.map (·.map env.codec.val))) = is.zip rows := by
  induction is generalizing rows with
  | nil => rfl
  | cons i is ih =>
    cases rows with
    | nil => rfl
    | cons r rows =>
      have e := ih rows fun r hr => h r (by simp [hr])
      unfold reps at e ⊢
      rw [List.map_cons, List.zip_cons_cons, List.map_cons, e, List.zip_cons_cons]
      dsimp only
      rw [List.map_map, List.map_congr_left (f := env.codec.rep ∘ env.codec.val) (g := id) (fun u hu => hr u (h r (by simp) u hu)), List.map_id]

theorem accepted (A : Arith env.codec) (hroot : RootFn env.root) (hcompat : RootCompat env.root) (hsearch : SearchOk env.search) (c : Constraints F) (k b : Nat)
    (hkb : k + b < 64) (hk : c.trace_nrows = 2 ^ k) (hb : c.blowup = 2 ^ b) (hlayout : c.fri_layout.sum ≤ k) (hq : c.num_queries < 2 ^ 64) (hpow : c.pow_bits < 256)
    (hlay : c.fri_layout ≠ []) (W : F) (hW : env.root (2 ^ (k + b)) = some W) (args : List (Nat × Int)) (P : Contents) (x : Challenges F) (d : Nat) (hd : c.degree = some d)
    (hs : Front P args.length (next_power_of_two d) c.fri_layout.length (2 ^ (k + b) / 2 ^ c.fri_layout.sum / 2 ^ b)) (c' : Constraints F) (a1 : c.substitute = some c')
    (a2 : c'.trace_arguments = some args) (hdrawn : Drawn env c (k + b) args.length P.constraint_values.length P x) (hworked : Worked env c P)
    (f : Nat → F) (h : Back env c k b W P x f)
    (hknown : ∀ (q z : Nat) (row crow : List U256), x.queries[z]? = some q → P.trace_rows[z]? = some row → P.constraint_rows[z]? = some crow →
      out_of_domain_element env (W ^ rev (k + b) q) row crow x.point (args.zip P.trace_values) P.constraint_values x.oods (2 ^ k) = .ok (env.codec.rep (f q)))
    (hoods : oods_value_from_trace_values env c x.coefficients (args.zip P.trace_values) x.point = some (oods_value_from_constraint_values env P.constraint_values x.point)) :
    verify env c P.bytes = .ok () := by
  have hN : c.trace_nrows * c.blowup = 2 ^ (k + b) := by rw [hk, hb, pow_add]
  have hQ : ∀ q ∈ x.queries, q < 2 ^ (k + b) := by
    intro q hq
    obtain ⟨i, _, rfl⟩ := List.mem_map.1 (hdrawn.queries.2.subset hq)
    unfold queryWord
    exact Nat.mod_lt _ (Nat.two_pow_pos _)
  generalize hp : P.bytes = p
  have hp : p = P.front ++ P.trace_rows.flatMap words ++ P.trace_hashes.flatten ++ P.constraint_rows.flatMap words ++ P.constraint_hashes.flatten ++
      P.fri.flatMap fun l => words l.values ++ l.hashes.flatten := by
    rw [← hp]; unfold Contents.bytes Contents.front; simp only [List.append_assoc]
  have p5 : P.front ++ P.trace_rows.flatMap words ++ P.trace_hashes.flatten ++ P.constraint_rows.flatMap words ++ P.constraint_hashes.flatten ++
      (P.fri.flatMap fun l => words l.values ++ l.hashes.flatten) <+: p := by rw [← hp]
  have p4 := (List.prefix_append _ _).trans p5
  have p3 := (List.prefix_append _ _).trans p4
  have p2 := (List.prefix_append _ _).trans p3
  have p1 := (List.prefix_append _ _).trans p2
  obtain ⟨coin0, e0⟩ := transcript_fwd env c k b hkb hk hb (by omega) hq hpow p args P x d hd hs c' a1 a2 ((List.prefix_append _ _).trans p1) hdrawn hworked
  have ok_sim : ∀ {α β : Type} {g : α → β} {r : Except VerifierError α} {w : Except VerifierError β} {a : α}, Sim g r w → r = .ok a → w = .ok (g a) := by
    intro α β g r w a h1 h2
    rw [h2] at h1
    exact h1 (by simp)
  obtain ⟨coin1, e1⟩ := fwd_leaves env c.trace_ncolumns x.queries P.trace_rows h.trace_rows.1 h.trace_rows.2 coin0 P.front p p1
  replace e1 := ok_sim (leaves_sim env A _ _ _) e1
  dsimp only at e1
  obtain ⟨coin2, e2⟩ := fwd_check env .InvalidLDECommitment ⟨2 ^ (k + b), P.trace_root⟩ x.queries (x.queries.zip (P.trace_rows.map (·.map env.codec.val))) P.trace_hashes
    h.trace_hashes h.counted.trace (by rw [zip_hash]; exact h.trace) coin1 _ p p2
  rw [← check_sim] at e2
  obtain ⟨coin3, e3⟩ := fwd_leaves env P.constraint_values.length x.queries P.constraint_rows h.constraint_rows.1 h.constraint_rows.2 coin2 _ p p3
  replace e3 := ok_sim (leaves_sim env A _ _ _) e3
  dsimp only at e3
  obtain ⟨coin4, e4⟩ := fwd_check env .InvalidConstraintCommitment ⟨2 ^ (k + b), P.constraint_root⟩ x.queries (x.queries.zip (P.constraint_rows.map (·.map env.codec.val)))
    P.constraint_hashes h.constraint_hashes h.counted.constraint (by rw [zip_hash]; exact h.constraint) coin3 _ p p4
  rw [← check_sim] at e4
  rw [reps_rows env A.rep_val _ _ fun r hr => (h.trace_rows.2 r hr).2] at e1 e2
  rw [reps_rows env A.rep_val _ _ fun r hr => (h.constraint_rows.2 r hr).2] at e3 e4
  have hl : (P.last_layer.map env.codec.val).length = 2 ^ (k - c.fri_layout.sum) := by
    rw [List.length_map, hs.last_layer, Nat.pow_div (by omega) (by norm_num), Nat.pow_div (by omega) (by norm_num)]
    congr 1; omega
  have hWm : W ^ 2 ^ (k + b - (k + b)) = W := by rw [Nat.sub_self, pow_zero, pow_one]
  have hf2 := h.folded
  rw [← hWm] at hf2
  let known : Nat → Nat → Except VerifierError F := fun q z => if env.search x.queries q = some z then .ok (f q) else .error .Panic
  have hsim : ∀ q z, Sim env.codec.rep (known q z) (knownFirst env c (transcriptOf c (k + b) args P x) ((List.range (2 ^ (k + b))).map (W ^ ·)) (x.queries.zip P.trace_rows)
      (x.queries.zip P.constraint_rows) q z) := by
    intro q z
    by_cases hz : env.search x.queries q = some z
    · have hqz := (hsearch x.queries q hdrawn.queries.1).1 z hz
      have hzl := (List.getElem?_eq_some_iff.1 hqz).1
      have l1 : z < P.trace_rows.length := by rw [h.trace_rows.1]; exact hzl
      have l2 : z < P.constraint_rows.length := by rw [h.constraint_rows.1]; exact hzl
      have r1 : P.trace_rows[z]? = some P.trace_rows[z] := List.getElem?_eq_getElem l1
      have r2 : P.constraint_rows[z]? = some P.constraint_rows[z] := List.getElem?_eq_getElem l2
      have hk' := hknown q z _ _ hqz r1 r2
      show known q z ≠ _ → _
      rw [show known q z = .ok (f q) from if_pos hz]
      intro _
      have t1 : (transcriptOf c (k + b) args P x).queries = x.queries := rfl
      have z1 : (x.queries.zip P.trace_rows)[z]? = some (q, P.trace_rows[z]) := by
        rw [List.getElem?_zip_eq_some]; exact ⟨hqz, r1⟩
      have z2 : (x.queries.zip P.constraint_rows)[z]? = some (q, P.constraint_rows[z]) := by
        rw [List.getElem?_zip_eq_some]; exact ⟨hqz, r2⟩
      unfold knownFirst
      rw [t1, hqz, orPanic_some, ok_bind, hN, permute_index_eq (k + b) q hkb (hQ q (List.mem_of_getElem? hqz)), List.getElem?_map, List.getElem?_range (rev_lt _ q), Option.map_some,
        orPanic_some, ok_bind, z1, orPanic_some, ok_bind, z2, orPanic_some, ok_bind, hk]
      exact hk'
    · show known q z ≠ _ → _
      rw [show known q z = .error .Panic from if_neg hz]
      exact fun h => absurd rfl h
  obtain ⟨coin5, res, e5, e6⟩ := layers_fwd env hroot hcompat hsearch (k + b) hkb W hW _ _ hl p c.fri_layout P.fri x.folds (k + b) (le_refl _) (by omega) f x.queries
    hdrawn.queries.1 hQ h.fri hf2 h.counted.fri known []
    (fun q z hz => if_pos hz) (fun h0 => absurd h0 hlay) coin4 _ p5
  rw [Nat.sub_self, pow_zero] at e5
  replace e5 := ok_sim (layers_sim env A _ _ known _ hsim _ _ _ _ _) e5
  replace e6 := ok_sim (last_sim env A _ _ _ _) e6
  rw [List.map_map, List.map_congr_left (f := env.codec.rep ∘ env.codec.val) (g := id) (fun u hu => A.rep_val u (h.last_layer u hu)), List.map_id] at e6
  unfold verify
  dsimp only
  rw [hN, hW, orPanic_some, ok_bind, e0, ok_bind]
  dsimp only
  unfold checkTranscript
  have t1 : (transcriptOf c (k + b) args P x).queries = x.queries := rfl
  rw [t1, e1, ok_bind]
  dsimp only
  have t2 : (transcriptOf c (k + b) args P x).lde_commitment = ⟨2 ^ (k + b), P.trace_root⟩ := rfl
  have t3 : (transcriptOf c (k + b) args P x).constraint_commitment = ⟨2 ^ (k + b), P.constraint_root⟩ := rfl
  have t4 : (transcriptOf c (k + b) args P x).degree = P.constraint_values.length := rfl
  rw [t2, e2, ok_bind, t4, e3, ok_bind]
  dsimp only
  rw [t3, e4, ok_bind, if_neg (fun h0 => hlay h0.1)]
  have t5 : (transcriptOf c (k + b) args P x).layers = comsOf c.fri_layout P.fri x.folds (k + b) := rfl
  have hnil : repFolds env [] = [] := rfl
  rw [hnil] at e5
  rw [t5, hN, e5, ok_bind]
  dsimp only
  have hend : (vch coin5 p (P.front ++ P.trace_rows.flatMap words ++ P.trace_hashes.flatten ++ P.constraint_rows.flatMap words ++ P.constraint_hashes.flatten ++
      P.fri.flatMap fun l => words l.values ++ l.hashes.flatten)).at_end = true := by
    rw [← hp]
    simp [VerifierChannel.at_end, vch]
  rw [hend, if_neg (by simp)]
  have t6 : (transcriptOf c (k + b) args P x).last_layer = P.last_layer := rfl
  have t7 : (transcriptOf c (k + b) args P x).constraint_coefficients = x.coefficients := rfl
  have t8 : (transcriptOf c (k + b) args P x).trace_map = args.zip P.trace_values := rfl
  have t9 : (transcriptOf c (k + b) args P x).oods_point = x.point := rfl
  have t10 : (transcriptOf c (k + b) args P x).constraint_values = P.constraint_values := rfl
  rw [t6, e6, ok_bind, t7, t8, t9, t10, hoods, orPanic_some, ok_bind, if_neg (by simp)]

end
end Release
end Stark
end OpenZKP
