import Verif.Stark.Complete

/-!
Lemma: the verifier accepts what the prover wrote.
-/

namespace OpenZKP
namespace Stark
open FFT U256 Merkle Props Polynomial

section
variable {F : Type} [Field F] [DecidableEq F] (env : Env F)

theorem ok_bind {ε α β : Type} (a : α) (f : α → Except ε β) : (Except.ok a).bind f = f a := rfl
theorem orMerkle_ok {α : Type} (a : α) : orMerkle (.ok a) = .ok a := rfl

theorem complete_core (hroot : RootFn env.root) (hcompat : RootCompat env.root) (hgen : env.generator ≠ 0)
    (hsearch : ∀ l n z, env.search l n = some z → l[z]? = some n) (o : Oracles F) (hsolve : ∀ ch n, o.solve ch = some n → n < 2 ^ 64)
    (k e b : Nat) (heb : e ≤ b) (hkb : k + b < 64) (w wc g : F) (hw : env.root (2 ^ (k + b)) = some w) (hwc : env.root (2 ^ (k + e)) = some wc)
    (hg : env.root (2 ^ k) = some g) (c : Constraints F) (t : TraceTable F) (polys : List (List F)) (hpolys : t.interpolate env.root = some polys)
    (hne : polys ≠ []) (hlen : ∀ p ∈ polys, p.length = 2 ^ k) (hrows : c.trace_nrows = 2 ^ k) (htl : t.trace_length = 2 ^ k)
    (hcols : c.trace_ncolumns = polys.length) (hblow : c.blowup = 2 ^ b)
    (d : Nat) (hd : c.degree = some d) (hpow : next_power_of_two d = 2 ^ e) (hde : d ≤ 2 ^ e)
    (hlay : ∀ n ∈ c.fri_layout, 1 ≤ n ∧ n ≤ 4) (hsum : c.fri_layout.sum ≤ k) (hnil : c.fri_layout ≠ [] ∨ c.num_queries = 0)
    (hnq : c.num_queries < 2 ^ 64) (P : Expr F → F[X])
    (hP : ∀ a ∈ c.expressions, P a = 0 ∨ (P a).natDegree + (a.degree (c.trace_nrows - 1)).2 ≤ (a.degree (c.trace_nrows - 1)).1)
    (hval : ∀ r < 2 ^ (k + e), ∀ a ∈ c.expressions, claimValue (claimsOf c) (env.generator * wc ^ r)
      (traceAt g (fun i => (polys.map toPoly).getD i 0) (env.generator * wc ^ r)) a = some ((P a).eval (env.generator * wc ^ r)))
    (hocc : ∀ a ∈ c.expressions, ∀ i j, Occurs (i, j) a → i < polys.length ∧ 0 ≤ (2 ^ k : Int) + j)
    (s : Committed F) (ch : ProverChannel) (hrun : commitPhase env o c t = .ok (s, ch))
    (hgraph : ∀ E E', c.combine s.constraint_coefficients = some E → E.substitute_claim c.claim_polynomials = some E' →
      mark (o.seedHash env.generator (2 ^ (k + e))) o.traceHash E' ≠ none ∧
      ∀ a ∈ .Constant 0 :: .Constant 1 :: subexpressions E', ∀ a' ∈ .Constant 0 :: .Constant 1 :: subexpressions E',
        mark (o.seedHash env.generator (2 ^ (k + e))) o.traceHash a = mark (o.seedHash env.generator (2 ^ (k + e))) o.traceHash a' →
        ∀ r < 2 ^ (k + e), a.evaluate (env.generator * wc ^ r) (traceAt g (fun i => (polys.map toPoly).getD i 0) (env.generator * wc ^ r)) =
          a'.evaluate (env.generator * wc ^ r) (traceAt g (fun i => (polys.map toPoly).getD i 0) (env.generator * wc ^ r)))
    (hz1 : ∀ r < 2 ^ (k + b), ∀ a ∈ c.expressions, ∀ i j, Occurs (i, j) a → env.generator * w ^ r ≠ s.oods_point * g ^ j)
    (hz2 : ∀ r < 2 ^ (k + b), env.generator * w ^ r ≠ s.oods_point ^ 2 ^ e)
    (hz3 : ∀ a ∈ c.expressions, claimValue (claimsOf c) s.oods_point (traceAt g (fun i => (polys.map toPoly).getD i 0) s.oods_point) a =
      some ((P a).eval s.oods_point)) :
    ∃ p, prove env o c t = .ok p ∧ verify env c p = .ok () := by
  have hrun0 := hrun
  unfold commitPhase at hrun
  obtain ⟨polys', h1, hrun⟩ := bind_ok_inv hrun
  have h1 := pPanic_inv h1
  rw [hpolys] at h1
  cases h1
  obtain ⟨tree1, t1, t2, t3, t4⟩ := commitPolys_ok env hroot hcompat k b hkb w hw polys hne hlen (ProverChannel.init env.K c.channel_seed)
  obtain ⟨t0, h0, hrun⟩ := bind_ok_inv hrun
  rw [hblow, t1] at h0
  cases h0
  obtain ⟨co, h2, hrun⟩ := bind_ok_inv hrun
  have h2 := pPanic_inv h2
  obtain ⟨p, h3, hrun⟩ := bind_ok_inv hrun
  have h3 := pPanic_inv h3
  dsimp only at h2 h3
  obtain ⟨coeffs, pc2⟩ := co
  obtain ⟨cps, c'⟩ := p
  dsimp only at h3 hrun
  obtain ⟨sc, h4, hrun⟩ := bind_ok_inv hrun
  obtain ⟨args, h5, hrun⟩ := bind_ok_inv hrun
  have h5 := pPanic_inv h5
  obtain ⟨oods, h6, hrun⟩ := bind_ok_inv hrun
  have h6 := pPanic_inv h6
  obtain ⟨first, h7, hrun⟩ := bind_ok_inv hrun
  have h7 := pPanic_inv h7
  obtain ⟨fri, h8, hrun⟩ := bind_ok_inv hrun
  obtain ⟨seed, h9, hrun⟩ := bind_ok_inv hrun
  have h9 := pPanic_inv h9
  obtain ⟨challenge, h10, hrun⟩ := bind_ok_inv hrun
  have h10 := pPanic_inv h10
  obtain ⟨response, h11, hrun⟩ := bind_ok_inv hrun
  have h11 := pPanic_inv h11
  split at hrun
  · cases hrun
  rename_i h12
  obtain ⟨bits, h13, hrun⟩ := bind_ok_inv hrun
  have h13 := pPanic_inv h13
  obtain ⟨queries, h14, hrun⟩ := map_ok_inv hrun
  have h14 := pPanic_inv h14
  rw [Prod.mk.injEq] at hrun
  obtain ⟨hs, hch⟩ := hrun
  subst hs hch
  dsimp only at hgraph hz1 hz2 hz3
  -- the constraint polynomials
  obtain ⟨q1, q2, q3, E, E', hE, hE'⟩ := constraint_polys_ok env hroot hcompat hgen o k e b heb hkb w wc g hw hwc hg (polys.map toPoly) c c' hrows coeffs cps
    (by rw [← htl]; exact h3) d hd hpow hde P hP hval (by simpa using hocc) hgraph
  set Q := combinedPoly c coeffs d P with hQ
  obtain ⟨e1, e2, e3, e4, e5⟩ := substitute_spec c c' q1
  have e5 := e5 args h5
  rw [e1, hblow] at h4 h7 h8 h13
  rw [e2] at h8
  rw [e3] at h10
  rw [e4] at h14
  have hcl : ∀ p ∈ cps, p.length = 2 ^ k := by
    intro p hp
    rw [q2] at hp
    obtain ⟨i, _, rfl⟩ := List.mem_map.1 hp
    simp [decimate]
  have hcn : cps.length = 2 ^ e := by rw [q2]; simp
  have hcne : cps ≠ [] := by
    intro h0
    rw [h0] at hcn
    have := Nat.two_pow_pos e
    simp at hcn
    omega
  obtain ⟨tree2, u1, u2, u3, u4⟩ := commitPolys_ok env hroot hcompat k b hkb w hw cps hcne hcl pc2
  rw [u1] at h4
  cases h4
  obtain ⟨⟨z, combined⟩, pc3⟩ := oods
  dsimp only at h6 h7 h8 hz1 hz2 hz3
  obtain ⟨o1, o2, o3, tc, cc, o4, o5, o6⟩ := oods_combine_at env k polys hlen args cps hcl _ pc3 z combined h6 g hg
  rw [lde_eq env hroot hcompat k b hkb w hw combined o2] at h7
  cases h7
  obtain ⟨trees, pc4⟩ := fri
  have hkr : k - c.fri_layout.sum + c.fri_layout.sum = k := by omega
  set r := k - c.fri_layout.sum with hr
  have hW' : env.root (2 ^ (r + c.fri_layout.sum + b)) = some w := by rw [hkr]; exact hw
  obtain ⟨f1, x_inv, coms, last, points, P', f2, f3, f4, f5, f6, f7⟩ := fri_read env hroot hcompat r b c.fri_layout.sum w (by omega) hW' c.fri_layout
    hlay rfl (toPoly combined) (by rw [hkr, ← o2]; exact toPoly_degree_lt combined) pc3 pc4 trees (by rw [hkr]; exact h8)
  rw [hkr] at f2 f3 f7
  -- the nonce and the queries
  obtain ⟨seed, pc5⟩ := seed
  dsimp only at h9 h10 h14
  have hresp := hsolve _ _ h11
  have hbits : bits = k + b := by
    rw [htl, ← pow_add] at h13
    unfold csub Merkle.leading_zeros at h13
    rw [if_neg (Nat.two_pow_pos _).ne', Nat.log2_two_pow] at h13
    split at h13
    · have := Option.some.inj h13; omega
    · cases h13
  rw [hbits] at h14
  set pc6 := pc5.writeResponse env.K response with hpc6
  obtain ⟨l, coin, i1, -, i2, -, i3, -, -⟩ := C40_indices env.K true c.num_queries (k + b) hkb pc6 (vat pc6 []) rfl
    (by show 0 + _ < _; omega)
  rw [i1] at h14
  cases h14
  dsimp only at hrun0 ⊢
  -- the openings
  set pc7 : ProverChannel := { pc6 with coin := coin } with hpc7
  obtain ⟨pc8, v1, v2, v3⟩ := openLeaves_ok env _ (k + b) tree1 t4 (leavesOf_length _ _ _ _) c.trace_ncolumns (by
    intro x hx
    obtain ⟨i, _, rfl⟩ := List.mem_map.1 hx
    rw [hcols]; simp) l i3 pc7
  obtain ⟨pc9, v4, v5, v6⟩ := openLeaves_ok env _ (k + b) tree2 u4 (leavesOf_length _ _ _ _) (2 ^ e) (by
    intro x hx
    obtain ⟨i, _, rfl⟩ := List.mem_map.1 hx
    rw [← hcn]; simp) l i3 pc8
  set tvals := args.map fun a => (toPoly (polys.getD a.1 [])).eval (z * g ^ a.2) with htv
  set cvals := cps.map fun p => (toPoly p).eval (z ^ cps.length) with hcv
  let T : Transcript F := ⟨tree1.commitment, coeffs, tree2.commitment, z, args.zip tvals, 2 ^ e, cvals, tc ++ cc, coms, points, l⟩
  have hsize : c.trace_nrows * c.blowup = 2 ^ (k + b) := by rw [hrows, hblow, pow_add]
  have hargs : ∀ n < 2 ^ (k + b), ∀ a ∈ args, w ^ n * env.generator ≠ z * g ^ a.2 := by
    intro n hn a ha
    obtain ⟨x, hx, hoc⟩ := (e5 a).1 ha
    rw [mul_comm]
    exact hz1 n hn x hx a.1 a.2 hoc
  obtain ⟨pc10, d1, d2, d3⟩ := decommit_ok env hroot hsearch (k + b) hkb w hw x_inv f2 f3 (le_refl _) l i3
    (knownFirst env c T ((List.range (2 ^ (k + b))).map (w ^ ·)) (l.map fun i => (i, (leavesOf env w (k + b) (polys.map toPoly)).getD i []))
      (l.map fun i => (i, (leavesOf env w (k + b) (cps.map toPoly)).getD i [])))
    (by
      intro n y hy
      have hn := hsearch _ _ _ hy
      have hmem := i3 n (List.mem_of_getElem? hn)
      have hrev : rev (k + b) n < 2 ^ (k + b) := rev_lt _ _
      unfold knownFirst
      dsimp only [T]
      rw [hn, orPanic_some]
      rw [ok_bind]
      rw [hsize, permute_index_eq _ _ hkb hmem, List.getElem?_map, List.getElem?_range hrev, Option.map_some, orPanic_some]
      rw [ok_bind]
      rw [List.getElem?_map, hn, Option.map_some, orPanic_some]
      rw [ok_bind]
      rw [List.getElem?_map, hn, Option.map_some, orPanic_some]
      rw [ok_bind]
      dsimp only
      rw [leavesOf_get _ _ _ _ _ hmem, leavesOf_get _ _ _ _ _ hmem, hrows]
      rw [out_of_domain_ok env k polys args o1 cps z g hg tc cc o4 (w ^ rev (k + b) n) (hargs _ hrev) (by rw [mul_comm, hcn]; exact hz2 _ hrev)]
      rw [← o6 _ (fun a ha => by rw [mul_comm]; exact hargs _ hrev a ha) (by rw [hcn]; exact hz2 _ hrev), List.getD, ldeOf_get _ _ _ _ _ hmem]
      rfl)
    []
    (by
      intro h0
      rcases hnil with h | h
      · exact absurd h0 h
      · rw [h] at i2
        rw [List.length_eq_zero_iff.1 i2]
        simp) pc9
  -- prefixes
  have hp2 := (getFields_at env [] h2).2
  have hp5 := (getSeed_at [] h9).2
  have r7 : pc7.proof <+: pc10.proof := v2.trans (v5.trans d2)
  have r6 : pc6.proof <+: pc10.proof := r7
  have r6' : pc5.proof ++ to_be_bytes 8 response <+: pc10.proof := r6
  have r4 : pc4.proof <+: pc10.proof := by rw [← hp5]; exact (List.prefix_append _ _).trans r6'
  have r3 : pc3.proof <+: pc10.proof := f1.trans r4
  have r2 := o3.trans r3
  have r1 : pc2.proof <+: pc10.proof := (List.prefix_append _ _).trans r2
  have r0 : ((ProverChannel.init env.K c.channel_seed).writeHash env.K tree1.commitment.hash).proof <+: pc10.proof := by rw [← hp2]; exact r1
  have hread : readTranscript env c (VerifierChannel.init env.K pc10.proof c.channel_seed) = .ok (T, vat pc7 pc10.proof) := by
    unfold readTranscript
    dsimp only
    have x1 := readCommitment_at env t2 t3 r0
    have x2 := (getFields_at env pc10.proof h2).1
    have x3 := readCommitment_at env u2 u3 (pc := pc2) (o3.trans r3)
    obtain ⟨c1, c2, c3, y1, y2, y3, y4⟩ := o5 _ r3
    obtain ⟨c4, y5, y6⟩ := f7 _ r4
    have x4 := (getSeed_at pc10.proof h9).1
    have x5 : (vat pc5 pc10.proof).replayResponse env.K = some (response, vat pc6 pc10.proof) := replayResponse_pre env.K hresp r6'
    obtain ⟨l', coin', j1, j2, -⟩ := C40_indices env.K true c.num_queries (k + b) hkb pc6 (vat pc6 pc10.proof) rfl
      (by show 0 + _ < _; omega)
    rw [i1] at j1
    have j1 := Option.some.inj j1
    rw [Prod.mk.injEq] at j1
    obtain ⟨j3, j4⟩ := j1
    have j4 : coin = coin' := congrArg ProverChannel.coin j4
    subst j3 j4
    rw [hcn] at y3 y4
    rw [hsize, show VerifierChannel.init env.K pc10.proof c.channel_seed = vat (ProverChannel.init env.K c.channel_seed) pc10.proof from rfl,
      x1.1, orPanic_some, ok_bind]
    dsimp only
    rw [x1.2, orMerkle_ok, ok_bind, x2, orPanic_some, ok_bind]
    dsimp only
    rw [x3.1, orPanic_some, ok_bind]
    dsimp only
    rw [x3.2, orMerkle_ok, ok_bind, y1, orPanic_some, ok_bind, q1, orPanic_some, ok_bind, h5, orPanic_some, ok_bind]
    dsimp only
    rw [y2, orPanic_some, ok_bind, hd, orPanic_some, ok_bind, hpow]
    dsimp only
    rw [y3, orPanic_some, ok_bind]
    dsimp only
    rw [y4, orPanic_some, ok_bind]
    dsimp only
    rw [y5, ok_bind, hblow, if_neg (Nat.two_pow_pos b).ne']
    dsimp only
    rw [y6, orPanic_some, ok_bind]
    dsimp only
    rw [x4, orPanic_some, ok_bind]
    dsimp only
    rw [h10, orPanic_some, ok_bind, x5, orPanic_some, ok_bind]
    dsimp only
    rw [if_neg h12, trailing_zeros_two_pow _ hkb, j2]
    rfl
  have hcheck : checkTranscript env c ((List.range (2 ^ (k + b))).map (w ^ ·)) T (vat pc7 pc10.proof) = .ok () := by
    obtain ⟨c1, coin1, a1, a2⟩ := v3 .InvalidLDECommitment pc7.coin pc10.proof (v5.trans d2)
    obtain ⟨c2, coin2, a3, a4⟩ := v6 .InvalidConstraintCommitment coin1 pc10.proof d2
    obtain ⟨coin3, previous, folds, a5, a6⟩ := d3 coin2 pc10.proof (List.prefix_refl _)
    have hW2 : env.root (2 ^ (r + b)) = some (w ^ 2 ^ c.fri_layout.sum) :=
      hcompat (r + b) c.fri_layout.sum w (by omega) (by rw [show r + b + c.fri_layout.sum = k + b by omega]; exact hw)
    have a7 := checkLast_ok env r b (by omega) _ hW2 P' last points f4 f5 f6 previous folds a6
    have hnil' : ¬ (c.fri_layout = [] ∧ l ≠ []) := by
      rintro ⟨h, h'⟩
      rcases hnil with h0 | h0
      · exact h0 h
      · rw [h0] at i2
        exact h' (List.length_eq_zero_iff.1 i2)
    have hend : (vch coin3 pc10.proof pc10.proof).at_end = true := by simp [vch, VerifierChannel.at_end]
    have hoods : oods_value_from_trace_values c coeffs (args.zip tvals) z = some (Q.eval z) := by
      unfold oods_value_from_trace_values
      rw [hE, Option.bind_some, hE', Option.bind_some]
      rw [evaluate_congr z _ (traceAt g (fun i => (polys.map toPoly).getD i 0) z) E' ?_, C42_substitute _ _ _ hE']
      · exact combined_claimValue c coeffs E hE d hd (claimsOf c) _ _ P hz3
      · intro i j hij
        rw [occurs_substitute _ _ _ hE'] at hij
        obtain ⟨x, hx, hoc⟩ := occurs_combine c coeffs E hE _ hij
        have hm : (i, j) ∈ args := (e5 (i, j)).2 ⟨x, hx, hoc⟩
        have hi := o1 _ hm
        rw [htv, assoc_zip_map _ _ _ hm]
        unfold traceAt
        simp only [List.getD, List.getElem?_map]
        rw [List.getElem?_eq_getElem hi]
        rfl
    have hsumv : oods_value_from_constraint_values cvals z = Q.eval z := by
      rw [oods_sum, decimate_eval Q k e q3 z, hcv, List.length_map, hcn]
      congr 1
      apply List.map_congr_left
      intro i hi
      have hi := List.mem_range.1 hi
      congr 1
      rw [List.getD, List.getElem?_map, q2, List.getElem?_map, List.getElem?_range hi]
      simp
    unfold checkTranscript
    rw [show vat pc7 pc10.proof = vch pc7.coin pc10.proof pc7.proof from rfl]
    dsimp only [T]
    rw [a1, ok_bind]
    dsimp only
    rw [a2, ok_bind, a3, ok_bind]
    dsimp only
    rw [a4, ok_bind, if_neg hnil', hsize]
    rw [show (2 : Nat) ^ (k + b - (k + b)) = 1 by simp] at a5
    rw [a5, ok_bind]
    dsimp only
    rw [if_neg (by rw [hend]; simp), a7, ok_bind, hoods, orPanic_some, ok_bind, hsumv, if_neg (by simp)]
  have hverify : verify env c pc10.proof = .ok () := by
    unfold verify
    dsimp only
    rw [hsize, hw, orPanic_some]
    rw [ok_bind]
    rw [hread]
    exact hcheck
  refine ⟨pc10.proof, ?_, hverify⟩
  unfold prove
  rw [hrun0]
  rw [ok_bind]
  have hdec : decommitPhase env ⟨leavesOf env w (k + b) (polys.map toPoly), tree1, leavesOf env w (k + b) (cps.map toPoly), tree2, trees, l, coeffs, z⟩ pc7 =
      .ok pc10 := by
    unfold decommitPhase
    dsimp only
    rw [v1]
    rw [ok_bind]
    rw [v4]
    exact d1
  rw [hdec, ok_bind, hverify]

end

end Stark
end OpenZKP
