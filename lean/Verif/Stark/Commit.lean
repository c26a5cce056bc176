import Verif.Stark.CompleteMain

/-!
Lemmas: the prover reaches the queries.
-/

namespace OpenZKP
namespace Stark
open FFT U256 Merkle Props Polynomial

section
variable {F : Type} [Field F] [DecidableEq F] (env : Env F)

/-- the coin gives field elements: after a write, as many as anybody draws -/
def DrawsOk (K : Keccak) : Prop := ∀ digest n, n < 2 ^ 32 → PublicCoin.randomFields K n ⟨digest, 0⟩ ≠ none

omit [Field F] [DecidableEq F] in
theorem getFields_total (h : DrawsOk env.K) (pc : ProverChannel) (h0 : pc.coin.counter = 0) (n : Nat) (hn : n < 2 ^ 32) :
    ∃ r, pc.getFields env n = some r := by
  obtain ⟨⟨digest, counter⟩, proof⟩ := pc
  dsimp only at h0
  subst h0
  unfold ProverChannel.getFields
  obtain ⟨r, hr⟩ := Option.ne_none_iff_exists'.1 (h digest n hn)
  rw [hr]
  exact ⟨_, rfl⟩

omit [Field F] [DecidableEq F] in
theorem getField_total (h : DrawsOk env.K) (pc : ProverChannel) (h0 : pc.coin.counter = 0) : ∃ r, pc.getField env = some r := by
  obtain ⟨r, hr⟩ := getFields_total env h pc h0 1 (by norm_num)
  unfold ProverChannel.getFields at hr
  obtain ⟨s, hs, -⟩ := Option.map_eq_some_iff.1 hr
  rw [PublicCoin.randomFields] at hs
  obtain ⟨u, hu, -⟩ := Option.bind_eq_some_iff.1 hs
  unfold ProverChannel.getField
  rw [hu]
  exact ⟨_, rfl⟩

theorem claimsFit_of_value (polys : List (List F)) (x : F) (tr : Nat → Int → Option F) (e : Expr F)
    (h : claimValue (fun i => (polys[i]?).map toPoly) x tr e ≠ none) : ClaimsFit polys e := by
  induction e with
  | X => trivial
  | Constant c => trivial
  | Trace i j => trivial
  | Polynomial p a ih => exact ih fun h0 => h (by rw [claimValue, h0]; rfl)
  | ClaimPolynomial i n a nm ih =>
    rw [claimValue] at h
    split at h
    · rename_i P v h1 h2
      split at h
      · rename_i h3
        obtain ⟨p, h4, rfl⟩ := Option.map_eq_some_iff.1 h1
        exact ⟨⟨p, h4, h3⟩, ih (by rw [h2]; simp)⟩
      · exact absurd rfl h
    · exact absurd rfl h
  | Add a b iha ihb =>
    rw [claimValue] at h
    split at h
    · rename_i u v h1 h2
      exact ⟨iha (by rw [h1]; simp), ihb (by rw [h2]; simp)⟩
    · exact absurd rfl h
  | Neg a ih => exact ih fun h0 => h (by rw [claimValue, h0]; rfl)
  | Mul a b iha ihb =>
    rw [claimValue] at h
    split at h
    · rename_i u v h1 h2
      exact ⟨iha (by rw [h1]; simp), ihb (by rw [h2]; simp)⟩
    · exact absurd rfl h
  | Inv a ih => exact ih fun h0 => h (by rw [claimValue, h0])
  | Exp a n ih => exact ih fun h0 => h (by rw [claimValue, h0]; rfl)

theorem noClaim_of_value (x : F) (tr : Nat → Int → Option F) (e : Expr F) (h : e.evaluate x tr ≠ none) : NoClaim e := by
  induction e with
  | X => trivial
  | Constant c => trivial
  | Trace i j => trivial
  | Polynomial p a ih => exact ih fun h0 => h (by rw [Expr.evaluate, h0]; rfl)
  | ClaimPolynomial i n a nm ih => exact h rfl
  | Add a b iha ihb =>
    refine ⟨iha fun h0 => h (by rw [Expr.evaluate, h0]; rfl), ihb fun h0 => h ?_⟩
    rw [Expr.evaluate, h0]
    cases a.evaluate x tr <;> rfl
  | Neg a ih => exact ih fun h0 => h (by rw [Expr.evaluate, h0]; rfl)
  | Mul a b iha ihb =>
    refine ⟨iha fun h0 => h (by rw [Expr.evaluate, h0]; rfl), ihb fun h0 => h ?_⟩
    rw [Expr.evaluate, h0]
    cases a.evaluate x tr <;> rfl
  | Inv a ih => exact ih fun h0 => h (by rw [Expr.evaluate, h0]; rfl)
  | Exp a n ih => exact ih fun h0 => h (by rw [Expr.evaluate, h0]; rfl)

/-- a value somewhere means that the claim polynomials can be substituted -/
theorem substitute_total (polys : List (List F)) (x : F) (tr : Nat → Int → Option F) (e : Expr F)
    (h : claimValue (fun i => (polys[i]?).map toPoly) x tr e ≠ none) : ∃ e', e.substitute_claim polys = some e' ∧ NoClaim e' := by
  have h1 := (C42_substitute_defined polys e).2 (claimsFit_of_value polys x tr e h)
  obtain ⟨e', he⟩ := Option.isSome_iff_exists.1 h1
  refine ⟨e', he, noClaim_of_value x tr e' ?_⟩
  rw [C42_substitute polys e e' he]
  exact h

theorem mapM_total {α β : Type} (f : α → Option β) : ∀ (l : List α), (∀ a ∈ l, ∃ b, f a = some b) → ∃ l', l.mapM f = some l' := by
  intro l
  induction l with
  | nil => intro _; exact ⟨[], rfl⟩
  | cons a l ih =>
    intro h
    obtain ⟨b, hb⟩ := h a (by simp)
    obtain ⟨l', hl⟩ := ih fun a ha => h a (by simp [ha])
    exact ⟨b :: l', by rw [List.mapM_cons, hb, hl]; rfl⟩

theorem trace_arguments_total (c : Constraints F) (x : F) (tr : Nat → Int → Option F)
    (h : ∀ e ∈ c.expressions, claimValue (fun i => (c.claim_polynomials[i]?).map toPoly) x tr e ≠ none) :
    ∃ c' args, c.substitute = some c' ∧ c'.trace_arguments = some args := by
  have key : ∀ l : List (Expr F), (∀ e ∈ l, NoClaim e) → ∃ ls, l.mapM Expr.trace_arguments = some ls := by
    intro l hl
    exact mapM_total _ _ fun e he => ((C42_arguments e (hl e he)).imp fun t ht => ht.1)
  unfold Constraints.substitute
  split
  · rename_i h0
    have h0 : c.claim_polynomials = [] := by simpa using h0
    obtain ⟨ls, hls⟩ := key c.expressions (by
      intro e he
      obtain ⟨e', h1, h2⟩ := substitute_total c.claim_polynomials x tr e (h e he)
      rw [h0] at h1
      rw [← substitute_nil e e' h1]
      exact h2)
    refine ⟨c, ls.foldl Constraints.argUnion [], rfl, ?_⟩
    unfold Constraints.trace_arguments
    rw [hls]
    rfl
  · obtain ⟨es, hes⟩ := mapM_total (Expr.substitute_claim c.claim_polynomials) c.expressions (by
      intro e he
      obtain ⟨e', h1, h2⟩ := substitute_total c.claim_polynomials x tr e (h e he)
      exact ⟨e', h1⟩)
    obtain ⟨ls, hls⟩ := key es (by
      intro e' he'
      have hf := mapM_some_inv _ _ _ hes
      obtain ⟨e, he, h1⟩ : ∃ e ∈ c.expressions, e.substitute_claim c.claim_polynomials = some e' := by
        clear * - hf he'
        generalize c.expressions = l at hf ⊢
        induction hf with
        | nil => cases he'
        | cons hab _ ih =>
          rcases List.mem_cons.1 he' with rfl | h0
          · exact ⟨_, by simp, hab⟩
          · obtain ⟨e, he, h1⟩ := ih h0
            exact ⟨e, by simp [he], h1⟩
      obtain ⟨e'', h2, h3⟩ := substitute_total c.claim_polynomials x tr e (h e he)
      rw [h1] at h2
      cases h2
      exact h3)
    refine ⟨{ c with expressions := es }, ls.foldl Constraints.argUnion [], by rw [hes]; rfl, ?_⟩
    unfold Constraints.trace_arguments
    rw [show ({ c with expressions := es } : Constraints F).expressions = es from rfl, hls]
    rfl

theorem combine_total (c : Constraints F) (coeffs : List F) (hl : coeffs.length = 2 * c.expressions.length) (d : Nat) (hd : c.degree = some d)
    (hn : 0 < c.trace_nrows) (hpos : 0 < d)
    (hdeg : ∀ e ∈ c.expressions, (e.degree (c.trace_nrows - 1)).1 < d * c.trace_nrows + (e.degree (c.trace_nrows - 1)).2) :
    ∃ E, c.combine coeffs = some E := by
  have h1 : 0 < d * c.trace_nrows := Nat.mul_pos hpos hn
  unfold Constraints.combine
  rw [if_pos hl.symm, hd, Option.bind_some]
  rw [show csub (d * c.trace_nrows) 1 = some (d * c.trace_nrows - 1) from by unfold csub; rw [if_pos (by omega)], Option.bind_some]
  obtain ⟨Es, hE⟩ := mapM_total (fun x : Expr F × F × F => Constraints.combineOne c.trace_nrows (d * c.trace_nrows - 1) x.1 x.2.1 x.2.2)
    (c.expressions.zip (Constraints.tuples coeffs)) (by
      intro x hx
      have he := (List.of_mem_zip hx).1
      have := hdeg _ he
      unfold Constraints.combineOne
      rw [show csub c.trace_nrows 1 = some (c.trace_nrows - 1) from by unfold csub; rw [if_pos (by omega)], Option.bind_some]
      rw [show csub (d * c.trace_nrows - 1 + (x.1.degree (c.trace_nrows - 1)).2) (x.1.degree (c.trace_nrows - 1)).1 = some _ from by
        unfold csub; rw [if_pos (by omega)]]
      exact ⟨_, rfl⟩)
  rw [hE]
  exact ⟨_, rfl⟩

theorem friCommit_total (hdraw : DrawsOk env.K) (hroot : RootFn env.root) (M : Nat) (hM : M < 64) (W : F) (hW : env.root (2 ^ M) = some W) (x_inv : List F)
    (hx : friInverses env.root (2 ^ M) = some x_inv) (layout : List Nat) (hlay : ∀ k ∈ layout, 1 ≤ k ∧ k ≤ 4) (m' : Nat)
    (hm : m' + layout.sum ≤ M) (P : F[X]) (L : List F) (hP : IsLayer (m' + layout.sum) (W ^ 2 ^ (M - (m' + layout.sum))) P L)
    (pc : ProverChannel) : ∃ r, friCommit env x_inv layout L pc = .ok r := by
  induction layout generalizing P L pc with
  | nil => exact ⟨_, rfl⟩
  | cons k layout ih =>
    have hk := hlay k (by simp)
    have hs : m' + (k :: layout).sum = m' + layout.sum + k := by rw [List.sum_cons]; omega
    rw [hs] at hP hm
    set m := m' + layout.sum with hmdef
    rw [friCommit, if_neg (by omega)]
    dsimp only
    obtain ⟨leaves, hl1, hl2, hl3⟩ := friLeaves_ok L k m hP.1
    obtain ⟨t, ht1, ht2, ht3, ht4⟩ := makeTree_ok env leaves m (by omega) hl2
    obtain ⟨⟨c, pc1⟩, hg⟩ := getField_total env hdraw (pc.writeHash env.K t.commitment.hash) rfl
    obtain ⟨x', hx', hlayer⟩ := C39_layer env.root hroot M m k hM hk hm W hW
    rw [hx] at hx'
    cases hx'
    obtain ⟨L', hL1, hL2⟩ := hlayer c P L hP
    obtain ⟨r, hr⟩ := ih (fun k hk => hlay k (by simp [hk])) (by omega) (foldPolys k c P) L' hL2 pc1
    rw [hl1]
    simp only [pPanic, Except.bind]
    rw [ht1]
    dsimp only
    rw [hg]
    dsimp only
    rw [hL1]
    dsimp only
    rw [hr]
    exact ⟨_, rfl⟩

theorem fri_total (hdraw : DrawsOk env.K) (hroot : RootFn env.root) (hcompat : RootCompat env.root) (r b s : Nat) (W : F)
    (hM : r + s + b < 64) (hW : env.root (2 ^ (r + s + b)) = some W) (layout : List Nat) (hlay : ∀ k ∈ layout, 1 ≤ k ∧ k ≤ 4) (hs : layout.sum = s)
    (hMb : 0 < r + s + b) (P : F[X]) (hdeg : P.degree < (2 ^ (r + s) : Nat)) (pc : ProverChannel) :
    ∃ trees pc', perform_fri_layering env (ldeOf env W (r + s + b) P) layout (2 ^ b) pc = .ok (trees, pc') ∧ pc'.coin.counter = 0 := by
  unfold perform_fri_layering
  rw [ldeOf_length, hW]
  dsimp only
  obtain ⟨M', hM'⟩ : ∃ M', r + s + b = M' + 1 := ⟨r + s + b - 1, by omega⟩
  obtain ⟨x_inv, h1, -⟩ := friInverses_spec env.root hroot M' (by omega) W (by rw [← hM']; exact hW) (by omega)
  rw [← hM'] at h1
  have hlayer : IsLayer (r + b + layout.sum) (W ^ 2 ^ (r + s + b - (r + b + layout.sum))) (P.comp (C env.generator * X)) (ldeOf env W (r + s + b) P) := by
    rw [hs, show r + b + s = r + s + b by omega, Nat.sub_self, pow_zero, pow_one]
    refine ⟨ldeOf_length _ _ _ _, fun i f hi hf => ?_⟩
    rw [ldeOf_get _ _ _ _ _ hi, (isBitRev_iff _ _ _).1 hf, eval_comp, eval_mul, eval_C, eval_X]
  obtain ⟨⟨⟨ts, last⟩, pc1⟩, h2⟩ := friCommit_total env hdraw hroot (r + s + b) hM W hW x_inv h1 layout hlay (r + b) (by omega) _ _ hlayer pc
  obtain ⟨g1, ⟨P', g2, g3⟩, coms, g4, g5⟩ := friCommit_at env hroot (r + s + b) hM W hW x_inv h1 layout hlay (r + b) (by omega) _ _ hlayer pc pc1 ts last h2
  rw [show r + s + b - (r + b) = s by omega] at g2
  have hP' : P'.degree < (2 ^ r : Nat) := by
    apply g3
    rw [hs, ← pow_add]
    exact scale_degree _ _ _ hdeg
  have hw' : env.root (2 ^ (r + b)) = some (W ^ 2 ^ s) := hcompat (r + b) s W (by omega) (by rw [show r + b + s = r + s + b by omega]; exact hW)
  obtain ⟨l, k1, k2, k3⟩ := C39_final env.root hroot hcompat r b (by omega) _ hw' P' hP' last g2
  refine ⟨ts, pc1.writeFields env l, ?_, rfl⟩
  rw [h1]
  simp only [pPanic, Except.bind]
  rw [h2]
  dsimp only
  rw [k1]
  rfl

omit [DecidableEq F] [Field F] in
theorem writeFold_counter {α : Type} (f : α → F) (l : List α) (hl : l ≠ []) (pc : ProverChannel) :
    (l.foldl (fun ch a => ch.writeField env (f a)) pc).coin.counter = 0 := by
  rw [← List.dropLast_append_getLast hl, List.foldl_append]
  rfl

theorem oods_combine_total (hdraw : DrawsOk env.K) (k : Nat) (polys : List (List F)) (hne : polys ≠ []) (hlen : ∀ p ∈ polys, p.length = 2 ^ k)
    (args : List (Nat × Int)) (hargs : ∀ a ∈ args, a.1 < polys.length) (cps : List (List F)) (hcne : cps ≠ [])
    (hsmall : args.length + cps.length < 2 ^ 32) (pc : ProverChannel) (hpc : pc.coin.counter = 0) (g : F) (hg : env.root (2 ^ k) = some g) :
    ∃ r, oods_combine env polys args cps pc = some r := by
  unfold oods_combine
  obtain ⟨first, h1⟩ : ∃ first, polys[0]? = some first := ⟨_, List.getElem?_eq_getElem (List.length_pos_iff.2 hne)⟩
  have hf : first.length = 2 ^ k := hlen first (List.mem_of_getElem? h1)
  rw [h1, Option.bind_some]
  dsimp only
  obtain ⟨⟨z, pc1⟩, h2⟩ := getField_total env hdraw pc hpc
  obtain ⟨as, h3⟩ := mapM_total (fun a : Nat × Int => polys[a.1]?) args fun a ha => ⟨_, List.getElem?_eq_getElem (hargs a ha)⟩
  rw [hf, h2, Option.bind_some, hg, Option.bind_some, h3, Option.bind_some]
  dsimp only
  obtain ⟨⟨cs, pc3⟩, h4⟩ := getFields_total env hdraw (cps.foldl (fun ch p => ch.writeField env (Poly.evaluate p (z ^ cps.length)))
    ((as.zip (args.map fun a => z * g ^ a.2)).foldl (fun ch a => ch.writeField env (Poly.evaluate a.1 a.2)) pc1))
    (writeFold_counter env (fun p : List F => Poly.evaluate p (z ^ cps.length)) cps hcne _) _ hsmall
  unfold ProverChannel.getFields at h4
  rw [randomFields_add] at h4
  obtain ⟨r, h5, -⟩ := Option.map_eq_some_iff.1 h4
  obtain ⟨u, h6, h7⟩ := Option.bind_eq_some_iff.1 h5
  obtain ⟨v, h8, -⟩ := Option.map_eq_some_iff.1 h7
  unfold ProverChannel.getFields
  rw [h6, Option.map_some, Option.bind_some]
  dsimp only
  rw [h8, Option.map_some, Option.bind_some]
  unfold Poly.zeros
  rw [if_pos (by rw [Nat.log2_two_pow])]
  exact ⟨_, rfl⟩

theorem commit_core (hdraw : DrawsOk env.K) (hroot : RootFn env.root) (hcompat : RootCompat env.root) (hgen : env.generator ≠ 0) (o : Oracles F)
    (k e b : Nat) (heb : e ≤ b) (hkb : k + b < 64) (hpos : 0 < k + b) (w wc g : F) (hw : env.root (2 ^ (k + b)) = some w) (hwc : env.root (2 ^ (k + e)) = some wc)
    (hg : env.root (2 ^ k) = some g) (c : Constraints F) (t : TraceTable F) (polys : List (List F)) (hpolys : t.interpolate env.root = some polys)
    (hne : polys ≠ []) (hlen : ∀ p ∈ polys, p.length = 2 ^ k) (hrows : c.trace_nrows = 2 ^ k) (htl : t.trace_length = 2 ^ k)
    (hblow : c.blowup = 2 ^ b)
    (d : Nat) (hd : c.degree = some d) (hdpos : 0 < d) (hpow : next_power_of_two d = 2 ^ e) (hde : d ≤ 2 ^ e)
    (hdeg : ∀ a ∈ c.expressions, (a.degree (c.trace_nrows - 1)).1 < d * c.trace_nrows + (a.degree (c.trace_nrows - 1)).2)
    (hlay : ∀ n ∈ c.fri_layout, 1 ≤ n ∧ n ≤ 4) (hsum : c.fri_layout.sum ≤ k)
    (hnq : c.num_queries < 2 ^ 64) (hpb : c.pow_bits < 256) (hnc : 2 * c.expressions.length < 2 ^ 32)
    (hna : ∀ c' args, c.substitute = some c' → c'.trace_arguments = some args → args.length + 2 ^ e < 2 ^ 32) (P : Expr F → F[X])
    (hP : ∀ a ∈ c.expressions, P a = 0 ∨ (P a).natDegree + (a.degree (c.trace_nrows - 1)).2 ≤ (a.degree (c.trace_nrows - 1)).1)
    (hval : ∀ r < 2 ^ (k + e), ∀ a ∈ c.expressions, claimValue (claimsOf c) (env.generator * wc ^ r)
      (traceAt g (fun i => (polys.map toPoly).getD i 0) (env.generator * wc ^ r)) a = some ((P a).eval (env.generator * wc ^ r)))
    (hocc : ∀ a ∈ c.expressions, ∀ i j, Occurs (i, j) a → i < polys.length ∧ 0 ≤ (2 ^ k : Int) + j)
    (hsolve : ∀ seed ch, with_difficulty env.K seed c.pow_bits = some ch → ∃ n, o.solve ch = some n ∧ ch.verify env.K n = true)
    (hgraph : ∀ r co, commitPolys env c.blowup polys (ProverChannel.init env.K c.channel_seed) = .ok r → r.2.getFields env (2 * c.expressions.length) = some co →
      ∀ E E', c.combine co.1 = some E → E.substitute_claim c.claim_polynomials = some E' →
      mark (o.seedHash env.generator (2 ^ (k + e))) o.traceHash E' ≠ none ∧
      ∀ a ∈ .Constant 0 :: .Constant 1 :: subexpressions E', ∀ a' ∈ .Constant 0 :: .Constant 1 :: subexpressions E',
        mark (o.seedHash env.generator (2 ^ (k + e))) o.traceHash a = mark (o.seedHash env.generator (2 ^ (k + e))) o.traceHash a' →
        ∀ r < 2 ^ (k + e), a.evaluate (env.generator * wc ^ r) (traceAt g (fun i => (polys.map toPoly).getD i 0) (env.generator * wc ^ r)) =
          a'.evaluate (env.generator * wc ^ r) (traceAt g (fun i => (polys.map toPoly).getD i 0) (env.generator * wc ^ r))) :
    ∃ s ch r co, commitPhase env o c t = .ok (s, ch) ∧ commitPolys env c.blowup polys (ProverChannel.init env.K c.channel_seed) = .ok r ∧
      r.2.getFields env (2 * c.expressions.length) = some co ∧ s.constraint_coefficients = co.1 := by
  obtain ⟨tree1, t1, t2, t3, t4⟩ := commitPolys_ok env hroot hcompat k b hkb w hw polys hne hlen (ProverChannel.init env.K c.channel_seed)
  rw [← hblow] at t1
  obtain ⟨⟨coeffs, pc2⟩, h2⟩ := getFields_total env hdraw ((ProverChannel.init env.K c.channel_seed).writeHash env.K tree1.commitment.hash) rfl _ hnc
  have hcl := getFields_length env h2
  obtain ⟨E, hE⟩ := combine_total c coeffs hcl d hd (by rw [hrows]; exact Nat.two_pow_pos k) hdpos hdeg
  have hv0 := fun a ha => hval 0 (Nat.two_pow_pos _) a ha
  obtain ⟨E', hE', -⟩ := substitute_total c.claim_polynomials _ _ E (by
    have := combined_claimValue c coeffs E hE d hd (claimsOf c) _ _ P hv0
    unfold claimsOf at this
    rw [this]
    simp)
  obtain ⟨c', args, hc', hargs⟩ := trace_arguments_total c _ _ (fun a ha => by
    have := hv0 a ha
    unfold claimsOf at this
    rw [this]
    simp)
  obtain ⟨hmark, hmerge⟩ := hgraph _ _ t1 h2 E E' hE hE'
  obtain ⟨h3, hQ⟩ := constraint_polys_total env hroot hcompat hgen o k e b heb hkb w wc g hw hwc hg (polys.map toPoly) c c' hrows coeffs
    (by simpa using hne) E E' hE hE' hc' d hd hpow hde P hP hval (by simpa using hocc) hmark hmerge
  set Q := combinedPoly c coeffs d P
  set cps := (List.range (2 ^ e)).map (decimate Q (2 ^ k) (2 ^ e)) with hcps
  obtain ⟨e1, e2, e3, e4, e5⟩ := substitute_spec c c' hc'
  have e5 := e5 args hargs
  have hcpl : ∀ p ∈ cps, p.length = 2 ^ k := by
    intro p hp
    obtain ⟨i, _, rfl⟩ := List.mem_map.1 hp
    simp [decimate]
  have hcn : cps.length = 2 ^ e := by simp [hcps]
  have hcne : cps ≠ [] := by
    intro h0
    rw [h0] at hcn
    have := Nat.two_pow_pos e
    simp at hcn
    omega
  obtain ⟨tree2, u1, u2, u3, u4⟩ := commitPolys_ok env hroot hcompat k b hkb w hw cps hcne hcpl pc2
  rw [← hblow, ← e1] at u1
  have hin : ∀ a ∈ args, a.1 < polys.length := by
    intro a ha
    obtain ⟨x, hx, hoc⟩ := (e5 a).1 ha
    exact (hocc x hx a.1 a.2 hoc).1
  obtain ⟨⟨⟨z, combined⟩, pc3⟩, h6⟩ := oods_combine_total env hdraw k polys hne hlen args hin cps hcne (by rw [hcn]; exact hna c' args hc' hargs)
    (pc2.writeHash env.K tree2.commitment.hash) rfl g hg
  obtain ⟨-, o2, -⟩ := oods_combine_at env k polys hlen args cps hcpl _ pc3 z combined h6 g hg
  have h7 := lde_eq env hroot hcompat k b hkb w hw combined o2
  rw [← hblow, ← e1] at h7
  have hkr : k - c.fri_layout.sum + c.fri_layout.sum = k := by omega
  set r := k - c.fri_layout.sum with hr
  have hW' : env.root (2 ^ (r + c.fri_layout.sum + b)) = some w := by rw [hkr]; exact hw
  obtain ⟨trees, pc4, h8, hc4⟩ := fri_total env hdraw hroot hcompat r b c.fri_layout.sum w (by omega) hW' c.fri_layout
    hlay rfl (by omega) (toPoly combined) (by rw [hkr, ← o2]; exact toPoly_degree_lt combined) pc3
  rw [hkr, ← hblow, ← e1, ← e2] at h8
  have h9 : pc4.getSeed = some (pc4.coin.digest, { pc4 with coin := { pc4.coin with counter := pc4.coin.counter + 1 } }) := by
    unfold ProverChannel.getSeed PublicCoin.randomSeed PublicCoin.bump
    rw [if_pos (by rw [hc4]; norm_num)]
    rfl
  obtain ⟨challenge, h10⟩ : ∃ ch, with_difficulty env.K pc4.coin.digest c'.pow_bits = some ch := by
    unfold with_difficulty
    rw [if_pos (by rw [e3]; exact hpb)]
    exact ⟨_, rfl⟩
  obtain ⟨response, h11, h12⟩ := hsolve _ challenge (by rw [← e3]; exact h10)
  have h13 : csub (64 - Merkle.leading_zeros (t.trace_length * c'.blowup)) 1 = some (k + b) := by
    rw [htl, e1, hblow, ← pow_add]
    unfold csub Merkle.leading_zeros
    rw [if_neg (Nat.two_pow_pos _).ne', Nat.log2_two_pow, if_pos (by omega)]
    congr 1
    omega
  obtain ⟨l, coin, i1, -⟩ := C40_indices env.K true c.num_queries (k + b) hkb
    (ProverChannel.writeResponse env.K { pc4 with coin := { pc4.coin with counter := pc4.coin.counter + 1 } } response)
    (vat (ProverChannel.writeResponse env.K { pc4 with coin := { pc4.coin with counter := pc4.coin.counter + 1 } } response) []) rfl
    (by show 0 + _ < _; omega)
  rw [← e4] at i1
  have hrun : ∃ s ch, commitPhase env o c t = .ok (s, ch) ∧ s.constraint_coefficients = coeffs := by
    unfold commitPhase
    rw [hpolys]
    simp only [pPanic]
    rw [ok_bind, t1, ok_bind]
    dsimp only
    rw [h2]
    dsimp only
    rw [ok_bind, htl]
    dsimp only
    rw [h3]
    dsimp only
    rw [ok_bind]
    dsimp only
    rw [u1, ok_bind, hargs]
    dsimp only
    rw [ok_bind]
    rw [h6]
    dsimp only
    rw [ok_bind]
    dsimp only
    rw [h7]
    dsimp only
    rw [ok_bind, h8, ok_bind, h9]
    dsimp only
    rw [ok_bind, h10]
    dsimp only
    rw [ok_bind, h11]
    dsimp only
    rw [ok_bind, if_neg (by rw [h12]; simp), ← htl, h13]
    dsimp only
    rw [ok_bind, i1]
    exact ⟨_, _, rfl, rfl⟩
  obtain ⟨s, ch, hs, hco⟩ := hrun
  exact ⟨s, ch, _, _, hs, t1, h2, hco⟩

end

end Stark
end OpenZKP
