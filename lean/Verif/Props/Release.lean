import Verif.Stark.ReleaseForgery
import Verif.Props.ProofSystem

/-!
# C95: the verifier with and without debug assertions
-/

namespace OpenZKP
namespace Props
namespace ReleaseBuild
open Evm Evm.PrimeField FFT Stark Stark.Accept Stark.Release EvmVerifier EvmDefaultCs EvmRecurrence Examples

/-- C95 (partial: not if the assertions fail): whatever the proof, unless the verifier with debug assertions panics, the one without them gives the same verdict. -/
theorem C95_same_partial (env : Env Z) (hc : env.codec = montgomery) (c : Constraints Z) (proof : Bytes) (h : Stark.verify env c proof ≠ .error .Panic) :
    Release.verify env c proof = Stark.verify env c proof := by
  have := verify_sim env (by rw [hc]; exact arith) c proof h
  rw [this]
  cases Stark.verify env c proof <;> rfl

/-- the out-of-domain point is none of the points where a denominator is zero -/
structure PointOk (k : Nat) (z : Z) : Prop where
  rows : z ^ 2 ^ k ≠ 1
  domain : z ^ 2 ^ (k + 4) ≠ 3 ^ 2 ^ (k + 4)
  square : z ^ 2 ^ (k + 5) ≠ 3 ^ 2 ^ (k + 4)

theorem compat : RootCompat fieldRoot := by
  obtain ⟨-, r2⟩ := fieldRoot_ok
  intro a b w hab hw
  rw [r2 _ hab] at hw
  rw [r2 a (by omega), ← Option.some.inj hw]
  unfold gen
  rw [← pow_mul]
  congr 2
  obtain ⟨q, hq⟩ := dvd_modulus (a + b) (by omega)
  rw [hq, Nat.mul_div_cancel_left _ (Nat.two_pow_pos _), pow_add, mul_assoc, Nat.mul_div_cancel_left _ (Nat.two_pow_pos _), mul_comm]

theorem layout_some (k : Nat) (h1 : 1 ≤ k) (hk : k < 64) : default_fri_layout (2 ^ k) ≠ [] := by
  rw [← EvmDefaultCs.C77_layout k hk]
  exact (layouts_small k h1 hk).1

theorem worked_zero (env : Env Z) (c : Constraints Z) (P : Contents) (h : c.pow_bits = 0) : Worked env c P := by
  unfold Worked
  rw [h]
  obtain ⟨u, -, hu⟩ := U256.from_bytes_be_eq _ (env.K.len (env.K.hash ([0x01, 0x23, 0x45, 0x67, 0x89, 0xab, 0xcd, 0xed] ++ (coin env.K c.channel_seed P.body).digest ++
    [UInt8.ofNat 0]) ++ to_be_bytes 8 P.nonce))
  rw [← hu]
  exact U256.toNat_lt u

theorem no_trace (root : Nat → Option Z) (hroot : RootFn root) (rep : Z → U256) (r : Z) (k : Nat) (h1 : 1 ≤ k) (hk : k < 64) (c : Constraints Z)
    (hcon : Vdf.constraints root rep r (2 ^ k) 0 1 0 1 = some c) (g : Z) (hg : root (2 ^ k) = some g) (t : Nat → Nat → Z) : ¬ RowsSatisfy c g (2 ^ k) t := by
  rw [C71_system_partial root hroot rep k hk r 0 1 0 1 c hcon g hg t]
  rintro ⟨-, -, h⟩
  have hp : 2 ^ 1 ≤ 2 ^ k := Nat.pow_le_pow_right (by norm_num) h1
  obtain ⟨m, hm⟩ : ∃ m, 2 ^ k - 1 = m + 1 := ⟨2 ^ k - 2, by omega⟩
  rw [hm, Function.iterate_succ_apply] at h
  have h0 : ∀ m, (brokenCube r)^[m] (brokenCube r (0, 1)) = (0, 0) := by
    intro m
    induction m with
    | zero => simp [brokenCube]
    | succ m ih => rw [Function.iterate_succ_apply', ih]; simp [brokenCube]
  rw [h0] at h
  exact one_ne_zero (congrArg Prod.snd h)

/-- the challenges depend on what is written before the queries only -/
theorem same_drawn (env : Env Z) (c : Constraints Z) (m n w : Nat) (P Q : Contents) (x : Challenges Z) (h1 : P.trace_root = Q.trace_root) (h2 : P.constraint_root = Q.constraint_root)
    (h3 : P.trace_values = Q.trace_values) (h4 : P.constraint_values = Q.constraint_values) (h5 : P.fri.map (·.root) = Q.fri.map (·.root)) (h6 : P.last_layer = Q.last_layer)
    (h7 : P.nonce = Q.nonce) (h : Drawn env c m n w P x) : Drawn env c m n w Q x := by
  have hh : P.head = Q.head := by unfold Contents.head; rw [h1, h2, h3, h4]
  have hb : P.body = Q.body := by unfold Contents.body; rw [hh, h5, h6]
  have hl : P.fri.length = Q.fri.length := by simpa using congrArg List.length h5
  obtain ⟨d1, d2, d3, d4, d5⟩ := h
  refine ⟨by rw [← h1]; exact d1, by rw [← h1, ← h2]; exact d2, by rw [← hh]; exact d3, ⟨d4.1.trans hl, fun i hi => ?_⟩, d5.1, by rw [← hb, ← h7]; exact d5.2⟩
  have := d4.2 i (by rw [hl]; exact hi)
  rw [List.map_take, h5, ← List.map_take, hh] at this
  exact this

theorem zip_rows (Q : List Nat) (row : List U256) (env : Env Z) : Q.zip (((Q.map fun _ => row).map (·.map env.codec.val)).map (elementsHash env)) =
    Q.zip (Q.map fun _ => elementsHash env (row.map env.codec.val)) := by
  rw [List.map_map, List.map_map]
  rfl

/-- C95 is violated, and with it the soundness of the verifier that C64 shows of the one with debug assertions.  The claim of the example `vdf.rs` that the iterate of (0, 1) is (0, 1)
is false: no table satisfies its constraints.  Whatever the hash function, there are parts of a proof such that, unless the point drawn for them makes a denominator zero, there is a
proof with these parts that the verifier without debug assertions accepts.  With them it panics. -/
theorem C95_violated (env : Env Z) (hc : env.codec = montgomery) (hgen : env.generator = 3) (hroot : env.root = fieldRoot) (hsearch : SearchOk env.search) (k : Nat) (hk1 : 1 ≤ k)
    (hk : k + 4 < 64) (r : Z) (c : Constraints Z) (hcon : Vdf.constraints env.root env.codec.rep r (2 ^ k) 0 1 0 1 = some c) :
    (∀ g t, env.root (2 ^ k) = some g → ¬ RowsSatisfy c g (2 ^ k) t) ∧
    ∃ base : Contents, ∀ x : Challenges Z, Drawn env c (k + 4) 6 2 base x → PointOk k x.point →
      ∃ proof, Release.verify env c proof = .ok () ∧ Stark.verify env c proof = .error .Panic := by
  have A : Arith env.codec := by rw [hc]; exact arith
  have hrf : RootFn env.root := by rw [hroot]; exact fieldRoot_ok.1
  have hcompat : RootCompat env.root := by rw [hroot]; exact compat
  have hg : env.root (2 ^ k) = some (gen k) := by rw [hroot]; exact fieldRoot_ok.2 k (by omega)
  have hW : env.root (2 ^ (k + 4)) = some (gen (k + 4)) := by rw [hroot]; exact fieldRoot_ok.2 (k + 4) hk
  refine ⟨fun g t hg' => no_trace env.root hrf env.codec.rep r k hk1 (by omega) c hcon g hg' t, ?_⟩
  have hs := vdf_is env.root hrf env.codec.rep k (by omega) r 0 1 0 1 c hcon (gen k) hg
  obtain ⟨a1, a2⟩ := vdf_arguments env.root env.codec.rep r (2 ^ k) 0 1 0 1 c hcon
  obtain ⟨seed, es, hsys, -⟩ := hs.built
  obtain ⟨-, hcs⟩ := system_some _ _ _ _ _ _ hsys
  have c1 : c.trace_nrows = 2 ^ k := by rw [hcs]
  have c2 : c.blowup = 2 ^ 4 := by rw [hcs]; norm_num
  have c3 : c.num_queries = 45 := by rw [hcs]
  have c4 : c.pow_bits = 0 := by rw [hcs]
  have c5 : c.fri_layout = default_fri_layout (2 ^ k) := by rw [hcs]
  have c6 : c.trace_ncolumns = 4 := by rw [hcs]
  have hsum : c.fri_layout.sum ≤ k := by rw [c5]; exact layout_le k (by omega)
  have hne : c.fri_layout ≠ [] := by rw [c5]; exact layout_some k hk1 (by omega)
  clear hcs hsys
  have hord := order_gen k (by omega)
  have hord' := order_gen (k + 4) (by omega)
  have hgen1 : gen k ^ 2 ^ k = 1 := by rw [← hord]; exact pow_orderOf_eq_one _
  have hgen2 : gen (k + 4) ^ 2 ^ (k + 4) = 1 := by
    have := pow_orderOf_eq_one (gen (k + 4))
    rw [hord'] at this
    exact this
  generalize hlast : 2 ^ (k + 4) / 2 ^ c.fri_layout.sum / 2 ^ 4 = last
  have hred : ∀ x : Z, (montgomery.rep x).toNat < PF.BASE.modulus.toNat := montgomery.rep_lt
  obtain ⟨rt, t1, t2⟩ := tree_exists env.K (fun _ => elementsHash env ((vdfRow r).map env.codec.val)) (fun _ => leafHash_length _ _) (k + 4) (by omega)
  obtain ⟨rc, s1, s2⟩ := tree_exists env.K (fun _ => elementsHash env ([montgomery.rep 0, montgomery.rep 0].map env.codec.val)) (fun _ => leafHash_length _ _) (k + 4) (by omega)
  obtain ⟨roots, f1, f2, f3⟩ := zero_fri env hc ((List.replicate last (montgomery.rep 0)).map env.codec.val) (by
    intro x hx
    obtain ⟨v, hv, rfl⟩ := List.mem_map.1 hx
    rw [List.eq_of_mem_replicate hv, hc, montgomery.val_rep]) c.fri_layout (k + 4) (by omega) (by omega)
  refine ⟨⟨rt, rc, vdfValues r, [montgomery.rep 0, montgomery.rep 0], roots.map fun root => ⟨root, [], []⟩, List.replicate last (montgomery.rep 0), 0, [], [], [], []⟩, fun x hx hz => ?_⟩
  have hQ : ∀ q ∈ x.queries, q < 2 ^ (k + 4) := by
    intro q hq
    obtain ⟨i, _, rfl⟩ := List.mem_map.1 (hx.queries.2.subset hq)
    unfold queryWord
    exact Nat.mod_lt _ (Nat.two_pow_pos _)
  have hfolds : x.folds.length = c.fri_layout.length := by
    rw [hx.folds.1, List.length_map, f1]
  obtain ⟨th, u1, u2, u3⟩ := t2 x.queries hQ
  obtain ⟨ch, v1, v2, v3⟩ := s2 x.queries hQ
  obtain ⟨ls, g1, g2, g3, g4⟩ := f3 x.folds x.queries (gen (k + 4)) hfolds hQ
  have hlsl : ls.length = c.fri_layout.length := by
    rw [← f1, ← g1, List.length_map]
  generalize hP : (⟨rt, rc, vdfValues r, [montgomery.rep 0, montgomery.rep 0], ls, List.replicate last (montgomery.rep 0), 0, x.queries.map fun _ => vdfRow r, th,
    x.queries.map fun _ => [montgomery.rep 0, montgomery.rep 0], ch⟩ : Contents) = P
  have e1 : P.trace_root = rt := by rw [← hP]
  have e2 : P.constraint_root = rc := by rw [← hP]
  have e3 : P.trace_values = vdfValues r := by rw [← hP]
  have e4 : P.constraint_values = [montgomery.rep 0, montgomery.rep 0] := by rw [← hP]
  have e5 : P.fri = ls := by rw [← hP]
  have e6 : P.last_layer = List.replicate last (montgomery.rep 0) := by rw [← hP]
  have e7 : P.nonce = 0 := by rw [← hP]
  have e8 : P.trace_rows = x.queries.map fun _ => vdfRow r := by rw [← hP]
  have e9 : P.trace_hashes = th := by rw [← hP]
  have e10 : P.constraint_rows = x.queries.map fun _ => [montgomery.rep 0, montgomery.rep 0] := by rw [← hP]
  have e11 : P.constraint_hashes = ch := by rw [← hP]
  clear hP
  have hd : c.degree = some 2 := hs.degree.1
  have hdrawn : Drawn env c (k + 4) vdfArgs.length P.constraint_values.length P x := by
    rw [e4]
    refine same_drawn env c (k + 4) 6 2 _ P x ?_ ?_ ?_ ?_ ?_ ?_ ?_ hx
    · exact e1.symm
    · exact e2.symm
    · exact e3.symm
    · exact e4.symm
    · rw [e5, g1, List.map_map]
      exact List.map_id _
    · exact e6.symm
    · exact e7.symm
  have hfront : Front P vdfArgs.length (Merkle.next_power_of_two 2) c.fri_layout.length (2 ^ (k + 4) / 2 ^ c.fri_layout.sum / 2 ^ 4) := by
    refine ⟨by rw [e1]; exact t1, by rw [e2]; exact s1, by rw [e3]; rfl, by rw [e4]; decide, ⟨by rw [e5]; exact hlsl, ?_⟩, by rw [e6, List.length_replicate, hlast],
      by rw [e7]; norm_num⟩
    intro l hl
    rw [e5] at hl
    exact f2 _ (by rw [← g1]; exact List.mem_map.2 ⟨l, hl, rfl⟩)
  have hrow : ∀ row : List U256, row = vdfRow r ∨ row = [montgomery.rep 0, montgomery.rep 0] → Reduced row := by
    intro row hr u hu
    rcases hr with rfl | rfl
    · simp only [vdfRow, List.mem_cons, List.not_mem_nil, or_false] at hu
      rcases hu with rfl | rfl | rfl | rfl <;> exact hred _
    · simp only [List.mem_cons, List.not_mem_nil, or_false, or_self] at hu
      rw [hu]
      exact hred _
  have hback : Back env c k 4 (gen (k + 4)) P x fun _ => 0 := by
    refine ⟨?_, ?_, ⟨by rw [e8, List.length_map], ?_⟩, ⟨by rw [e10, List.length_map], ?_⟩, by rw [e9]; exact u1, by rw [e11]; exact v1, ?_, ?_, by rw [e6, e5]; exact g3,
      ⟨by rw [e1, e9]; exact u3, by rw [e2, e11]; exact v3, by rw [e5]; exact g4⟩⟩
    · intro u hu
      rw [e6] at hu
      rw [List.eq_of_mem_replicate hu]
      exact hred _
    · intro l hl
      rw [e5] at hl
      refine ⟨fun u hu => ?_, (g2 l hl).2⟩
      rw [(g2 l hl).1 u hu]
      decide +kernel
    · intro row hr
      rw [e8] at hr
      obtain ⟨_, -, rfl⟩ := List.mem_map.1 hr
      exact ⟨by rw [c6]; rfl, hrow _ (Or.inl rfl)⟩
    · intro row hr
      rw [e10] at hr
      obtain ⟨_, -, rfl⟩ := List.mem_map.1 hr
      exact ⟨by rw [e4], hrow _ (Or.inr rfl)⟩
    · unfold Opened
      rw [e1, e8, e9, zip_rows]
      exact u2
    · unfold Opened
      rw [e2, e10, e11, zip_rows]
      exact v2
  have hver : Release.verify env c P.bytes = .ok () := by
    refine accepted env A hrf hcompat hsearch c k 4 hk c1 c2 hsum (by rw [c3]; norm_num) (by rw [c4]; norm_num) hne (gen (k + 4)) hW vdfArgs P x 2 hd hfront c a1 a2 hdrawn
      (worked_zero env c P c4) (fun _ => 0) hback ?_ ?_
    · intro q z row crow hq hr hcr
      rw [e8, List.getElem?_map, hq, Option.map_some] at hr
      rw [e10, List.getElem?_map, hq, Option.map_some] at hcr
      cases hr
      cases hcr
      rw [e3, e4, A.zero]
      have hy : (gen (k + 4) ^ rev (k + 4) q * env.generator) ^ 2 ^ (k + 4) = 3 ^ 2 ^ (k + 4) := by
        rw [mul_pow, ← pow_mul, mul_comm (rev _ _), pow_mul, hgen2, one_pow, one_mul, hgen]
      generalize gen (k + 4) ^ rev (k + 4) q = y at hy ⊢
      have key := vdf_deep env hc (gen k) x.point r y k hg x.oods
      refine key ?_ ?_ ?_
      · intro h
        rw [h] at hy
        exact hz.domain hy
      · intro h
        rw [h, mul_pow, pow_add, pow_mul (gen k), hgen1, one_pow, one_mul, ← pow_add] at hy
        exact hz.domain hy
      · intro h
        rw [h, ← pow_mul, mul_comm 2, ← pow_succ] at hy
        exact hz.square hy
    · rw [e3, vdf_combined env hc (gen k) x.point r k hgen1 hz.rows c hcon hg hd x.coefficients (draws_length env _ _ _ hx.coefficients), e4,
        show [montgomery.rep 0, montgomery.rep 0] = [(0 : Z), 0].map env.codec.rep by rw [hc]; rfl, constraint_value_sim env A]
      congr 2
      unfold Stark.oods_value_from_constraint_values
      simp
  refine ⟨P.bytes, hver, ?_⟩
  by_contra hnp
  have hok := C95_same_partial env hc c P.bytes hnp
  rw [hver] at hok
  obtain ⟨w, g, args, P', x', -, -, hacc⟩ := C63_accepts env hrf hcompat hsearch c k 4 hk c1 c2 (by omega) (by rw [c3]; norm_num) P.bytes hok.symm
  obtain ⟨d, -, hsz⟩ := hacc.sized
  obtain ⟨-, -, -, -, hmem⟩ := substitute_spec c c a1
  have hargs : args = vdfArgs := sorted_unique _ _ hacc.args_sorted (by decide) fun a => (hacc.args_all a).trans (hmem vdfArgs a2 a).symm
  have hb := hacc.bytes
  unfold Contents.bytes at hb
  obtain ⟨-, hb⟩ := List.append_inj hb (by rw [hfront.trace_root, hsz.trace_root])
  obtain ⟨-, hb⟩ := List.append_inj hb (by rw [hfront.constraint_root, hsz.constraint_root])
  have hl : P.trace_values.length = P'.trace_values.length := by rw [hfront.trace_values, hsz.trace_values.1, hargs]
  obtain ⟨hb, -⟩ := List.append_inj hb (by rw [words_length, words_length, hl])
  have hv := words_inj _ _ hl hb
  refine unreduced_ge (hsz.trace_values.2 unreduced ?_)
  rw [← hv, e3]
  simp [vdfValues]

/-! ## Proofs that both accept -/

theorem montgomery_zero : montgomery.val ⟨0, 0, 0, 0⟩ = 0 := by
  have := montgomery.val_rep 0
  rw [arith.zero] at this
  exact this

/-- on cells that are zero the constraints of the claim are zero -/
theorem zero_values {F : Type} [Field F] [DecidableEq F] (root : Nat → Option F) (rep : F → U256) (g z r : F) (k : Nat) (hg : g ^ 2 ^ k = 1) (hz : z ^ 2 ^ k ≠ 1) (c : Constraints F)
    (h : Vdf.constraints root rep r (2 ^ k) 0 0 0 0 = some c) (hroot : root (2 ^ k) = some g) (hd : c.degree = some 2) (claims : Nat → Option (Polynomial F)) (tr : Nat → Int → Option F)
    (htr : ∀ a ∈ vdfArgs, tr a.1 a.2 = some 0) :
    (∀ e ∈ c.expressions, (e.degree (c.trace_nrows - 1)).1 ≤ 2 * c.trace_nrows - 1 + (e.degree (c.trace_nrows - 1)).2) ∧
    ∀ e ∈ c.expressions, claimValue claims z tr e = some 0 := by
  unfold Vdf.constraints at h
  rw [hroot, Option.bind_some] at h
  obtain ⟨-, rfl⟩ := system_some _ _ _ _ _ _ h
  have hp := Nat.two_pow_pos k
  have h00 : tr 0 0 = some 0 := htr (0, 0) (by decide)
  have h01 : tr 0 1 = some 0 := htr (0, 1) (by decide)
  have h10 : tr 1 0 = some 0 := htr (1, 0) (by decide)
  have h11 : tr 1 1 = some 0 := htr (1, 1) (by decide)
  have h20 : tr 2 0 = some 0 := htr (2, 0) (by decide)
  have h30 : tr 3 0 = some 0 := htr (3, 0) (by decide)
  have hon : ∀ i, z + -g ^ i ≠ 0 := by
    intro i h0
    apply hz
    rw [show z = g ^ i by linear_combination h0, ← pow_mul, mul_comm, pow_mul, hg, one_pow]
  have h1 := hon 0
  have h2 := hon (2 ^ k - 1)
  have h3 : z ^ 2 ^ k + -1 ≠ 0 := fun e => hz (by linear_combination e)
  rw [pow_zero] at h1
  dsimp only
  constructor
  · intro e he
    simp only [List.mem_cons, List.not_mem_nil, or_false] at he
    rcases he with rfl | rfl | rfl | rfl | rfl | rfl | rfl | rfl <;>
      simp [Expr.degree, Expr.degree_impl, every_row, on_row, Expr.sub, Expr.add, Expr.neg, Expr.mul, Expr.div, Expr.inv, Expr.pow] <;> omega
  · intro e he
    simp only [List.mem_cons, List.not_mem_nil, or_false] at he
    rcases he with rfl | rfl | rfl | rfl | rfl | rfl | rfl | rfl <;>
      simp [claimValue, every_row, on_row, Expr.sub, Expr.add, Expr.neg, Expr.mul, Expr.div, Expr.inv, Expr.pow, h00, h01, h10, h11, h20, h30, h1, h2, h3]

/-- the true claim that the iterate of (0, 0) is (0, 0) has a proof that the verifier with debug assertions accepts -/
theorem zero_accepted (env : Env Z) (hc : env.codec = montgomery) (hgen : env.generator = 3) (hroot : env.root = fieldRoot) (hsearch : SearchOk env.search) (k : Nat) (hk1 : 1 ≤ k)
    (hk : k + 4 < 64) (r : Z) (c : Constraints Z) (hcon : Vdf.constraints env.root env.codec.rep r (2 ^ k) 0 0 0 0 = some c) :
    ∃ base : Contents, ∀ x : Challenges Z, Drawn env c (k + 4) 6 2 base x → PointOk k x.point → ∃ proof, Stark.verify env c proof = .ok () := by
  have A : Arith env.codec := by rw [hc]; exact arith
  have hrf : RootFn env.root := by rw [hroot]; exact fieldRoot_ok.1
  have hcompat : RootCompat env.root := by rw [hroot]; exact compat
  have hg : env.root (2 ^ k) = some (gen k) := by rw [hroot]; exact fieldRoot_ok.2 k (by omega)
  have hW : env.root (2 ^ (k + 4)) = some (gen (k + 4)) := by rw [hroot]; exact fieldRoot_ok.2 (k + 4) hk
  have hs := vdf_is env.root hrf env.codec.rep k (by omega) r 0 0 0 0 c hcon (gen k) hg
  obtain ⟨a1, a2⟩ := vdf_arguments env.root env.codec.rep r (2 ^ k) 0 0 0 0 c hcon
  obtain ⟨seed, es, hsys, -⟩ := hs.built
  obtain ⟨-, hcs⟩ := system_some _ _ _ _ _ _ hsys
  have c1 : c.trace_nrows = 2 ^ k := by rw [hcs]
  have c2 : c.blowup = 2 ^ 4 := by rw [hcs]; norm_num
  have c3 : c.num_queries = 45 := by rw [hcs]
  have c4 : c.pow_bits = 0 := by rw [hcs]
  have c5 : c.fri_layout = default_fri_layout (2 ^ k) := by rw [hcs]
  have c6 : c.trace_ncolumns = 4 := by rw [hcs]
  have hsum : c.fri_layout.sum ≤ k := by rw [c5]; exact layout_le k (by omega)
  have hne : c.fri_layout ≠ [] := by rw [c5]; exact layout_some k hk1 (by omega)
  clear hcs hsys
  have hord := order_gen k (by omega)
  have hord' := order_gen (k + 4) (by omega)
  have hgen1 : gen k ^ 2 ^ k = 1 := by rw [← hord]; exact pow_orderOf_eq_one _
  have hgen2 : gen (k + 4) ^ 2 ^ (k + 4) = 1 := by
    have := pow_orderOf_eq_one (gen (k + 4))
    rw [hord'] at this
    exact this
  generalize hlast : 2 ^ (k + 4) / 2 ^ c.fri_layout.sum / 2 ^ 4 = last
  have hred : ∀ x : Z, (montgomery.rep x).toNat < PF.BASE.modulus.toNat := montgomery.rep_lt
  obtain ⟨rt, t1, t2⟩ := tree_exists env.K (fun _ => elementsHash env ((List.replicate 4 (montgomery.rep 0)).map env.codec.val)) (fun _ => leafHash_length _ _) (k + 4) (by omega)
  obtain ⟨rc, s1, s2⟩ := tree_exists env.K (fun _ => elementsHash env ([montgomery.rep 0, montgomery.rep 0].map env.codec.val)) (fun _ => leafHash_length _ _) (k + 4) (by omega)
  obtain ⟨roots, f1, f2, f3⟩ := zero_fri env hc ((List.replicate last (montgomery.rep 0)).map env.codec.val) (by
    intro x hx
    obtain ⟨v, hv, rfl⟩ := List.mem_map.1 hx
    rw [List.eq_of_mem_replicate hv, hc, montgomery.val_rep]) c.fri_layout (k + 4) (by omega) (by omega)
  refine ⟨⟨rt, rc, List.replicate 6 (montgomery.rep 0), [montgomery.rep 0, montgomery.rep 0], roots.map fun root => ⟨root, [], []⟩, List.replicate last (montgomery.rep 0), 0, [], [], [], []⟩, fun x hx hz => ?_⟩
  have hQ : ∀ q ∈ x.queries, q < 2 ^ (k + 4) := by
    intro q hq
    obtain ⟨i, _, rfl⟩ := List.mem_map.1 (hx.queries.2.subset hq)
    unfold queryWord
    exact Nat.mod_lt _ (Nat.two_pow_pos _)
  have hfolds : x.folds.length = c.fri_layout.length := by
    rw [hx.folds.1, List.length_map, f1]
  obtain ⟨th, u1, u2, u3⟩ := t2 x.queries hQ
  obtain ⟨ch, v1, v2, v3⟩ := s2 x.queries hQ
  obtain ⟨ls, g1, g2, g3, g4⟩ := f3 x.folds x.queries (gen (k + 4)) hfolds hQ
  have hlsl : ls.length = c.fri_layout.length := by
    rw [← f1, ← g1, List.length_map]
  generalize hP : (⟨rt, rc, List.replicate 6 (montgomery.rep 0), [montgomery.rep 0, montgomery.rep 0], ls, List.replicate last (montgomery.rep 0), 0, x.queries.map fun _ => (List.replicate 4 (montgomery.rep 0)), th,
    x.queries.map fun _ => [montgomery.rep 0, montgomery.rep 0], ch⟩ : Contents) = P
  have e1 : P.trace_root = rt := by rw [← hP]
  have e2 : P.constraint_root = rc := by rw [← hP]
  have e3 : P.trace_values = List.replicate 6 (montgomery.rep 0) := by rw [← hP]
  have e4 : P.constraint_values = [montgomery.rep 0, montgomery.rep 0] := by rw [← hP]
  have e5 : P.fri = ls := by rw [← hP]
  have e6 : P.last_layer = List.replicate last (montgomery.rep 0) := by rw [← hP]
  have e7 : P.nonce = 0 := by rw [← hP]
  have e8 : P.trace_rows = x.queries.map fun _ => (List.replicate 4 (montgomery.rep 0)) := by rw [← hP]
  have e9 : P.trace_hashes = th := by rw [← hP]
  have e10 : P.constraint_rows = x.queries.map fun _ => [montgomery.rep 0, montgomery.rep 0] := by rw [← hP]
  have e11 : P.constraint_hashes = ch := by rw [← hP]
  clear hP
  have hd : c.degree = some 2 := hs.degree.1
  have hdrawn : Drawn env c (k + 4) vdfArgs.length P.constraint_values.length P x := by
    rw [e4]
    refine same_drawn env c (k + 4) 6 2 _ P x ?_ ?_ ?_ ?_ ?_ ?_ ?_ hx
    · exact e1.symm
    · exact e2.symm
    · exact e3.symm
    · exact e4.symm
    · rw [e5, g1, List.map_map]
      exact List.map_id _
    · exact e6.symm
    · exact e7.symm
  have hfront : Front P vdfArgs.length (Merkle.next_power_of_two 2) c.fri_layout.length (2 ^ (k + 4) / 2 ^ c.fri_layout.sum / 2 ^ 4) := by
    refine ⟨by rw [e1]; exact t1, by rw [e2]; exact s1, by rw [e3]; rfl, by rw [e4]; decide, ⟨by rw [e5]; exact hlsl, ?_⟩, by rw [e6, List.length_replicate, hlast],
      by rw [e7]; norm_num⟩
    intro l hl
    rw [e5] at hl
    exact f2 _ (by rw [← g1]; exact List.mem_map.2 ⟨l, hl, rfl⟩)
  have hrow : ∀ row : List U256, row = (List.replicate 4 (montgomery.rep 0)) ∨ row = [montgomery.rep 0, montgomery.rep 0] → Reduced row := by
    intro row hr u hu
    rcases hr with rfl | rfl
    · rw [List.eq_of_mem_replicate hu]
      exact hred _
    · simp only [List.mem_cons, List.not_mem_nil, or_false, or_self] at hu
      rw [hu]
      exact hred _
  have hback : Back env c k 4 (gen (k + 4)) P x fun _ => 0 := by
    refine ⟨?_, ?_, ⟨by rw [e8, List.length_map], ?_⟩, ⟨by rw [e10, List.length_map], ?_⟩, by rw [e9]; exact u1, by rw [e11]; exact v1, ?_, ?_, by rw [e6, e5]; exact g3,
      ⟨by rw [e1, e9]; exact u3, by rw [e2, e11]; exact v3, by rw [e5]; exact g4⟩⟩
    · intro u hu
      rw [e6] at hu
      rw [List.eq_of_mem_replicate hu]
      exact hred _
    · intro l hl
      rw [e5] at hl
      refine ⟨fun u hu => ?_, (g2 l hl).2⟩
      rw [(g2 l hl).1 u hu]
      decide +kernel
    · intro row hr
      rw [e8] at hr
      obtain ⟨_, -, rfl⟩ := List.mem_map.1 hr
      exact ⟨by rw [c6]; rfl, hrow _ (Or.inl rfl)⟩
    · intro row hr
      rw [e10] at hr
      obtain ⟨_, -, rfl⟩ := List.mem_map.1 hr
      exact ⟨by rw [e4], hrow _ (Or.inr rfl)⟩
    · unfold Opened
      rw [e1, e8, e9, zip_rows]
      exact u2
    · unfold Opened
      rw [e2, e10, e11, zip_rows]
      exact v2
  have hzero : env.codec.val (montgomery.rep 0) = 0 := by rw [hc, montgomery.val_rep]
  have hvals : ∀ j, env.codec.val (P.trace_values.getD j ⟨0, 0, 0, 0⟩) = 0 := by
    intro j
    rw [e3, List.getD_eq_getElem?_getD, List.getElem?_replicate]
    split
    · exact hzero
    · rw [hc]; exact montgomery_zero
  have hcvals : ∀ j, env.codec.val (P.constraint_values.getD j ⟨0, 0, 0, 0⟩) = 0 := by
    intro j
    rw [e4, show [montgomery.rep 0, montgomery.rep 0] = List.replicate 2 (montgomery.rep 0) from rfl, List.getD_eq_getElem?_getD, List.getElem?_replicate]
    split
    · exact hzero
    · rw [hc]; exact montgomery_zero
  have hrep : ∀ n i, (List.map env.codec.val (List.replicate n (montgomery.rep 0))).getD i 0 = 0 := by
    intro n i
    rw [List.map_replicate, hzero, List.getD_eq_getElem?_getD, List.getElem?_replicate]
    split <;> rfl
  have hql : x.queries.length = c.num_queries := by rw [hx.queries.2.length_eq, List.length_map, List.length_range]
  obtain ⟨-, -, -, -, hmem⟩ := substitute_spec c c a1
  have hacc : Accepts env c k 4 (gen (k + 4)) (gen k) P.bytes vdfArgs P x := by
    refine ⟨rfl, ⟨2, hd, ?_⟩, by decide, fun a => hmem vdfArgs a2 a, hdrawn, worked_zero env c P c4, ?_, hback.trace, hback.constraint, ⟨fun _ => 0, ?_, hback.folded⟩⟩
    · refine ⟨hfront.trace_root, hfront.constraint_root, ⟨hfront.trace_values, ?_⟩, ⟨hfront.constraint_values, ?_⟩, ⟨hfront.fri.1, fun l hl => ⟨hfront.fri.2 l hl, hback.fri l hl⟩⟩,
        ⟨hfront.last_layer, hback.last_layer⟩, hfront.nonce, ⟨hback.trace_rows.1.trans hql, hback.trace_rows.2⟩, hback.trace_hashes, ⟨hback.constraint_rows.1.trans hql, ?_⟩, hback.constraint_hashes⟩
      · rw [e3]
        intro u hu
        rw [List.eq_of_mem_replicate hu]
        exact hred _
      · rw [e4]
        exact hrow _ (Or.inr rfl)
      · intro row hr
        have := hback.constraint_rows.2 row hr
        rw [hfront.constraint_values] at this
        exact this
    · obtain ⟨y1, y2⟩ := zero_values env.root env.codec.rep (gen k) x.point r k hgen1 hz.rows c hcon hg hd (fun i => (c.claim_polynomials[i]?).map toPoly) (claimedCell env vdfArgs P) (by
        unfold claimedCell
        rw [e3, List.map_replicate, hzero]
        decide)
      refine ⟨2, List.replicate c.expressions.length 0, hd, y1, ?_, ?_⟩
      · refine List.forall₂_iff_get.2 ⟨by rw [List.length_replicate], fun i h1 h2 => ?_⟩
        rw [List.get_eq_getElem, List.get_eq_getElem, List.getElem_replicate]
        exact y2 _ (List.getElem_mem _)
      · rw [Finset.sum_eq_zero, Finset.sum_eq_zero]
        · intro j _
          rw [hcvals, zero_mul]
        · intro i hi
          rw [List.getD_eq_getElem?_getD (l := List.replicate _ _), List.getElem?_replicate, if_pos (Finset.mem_range.1 hi), Option.getD_some, mul_zero]
    · intro q hq
      obtain ⟨z, hz1, hz2⟩ := List.getElem_of_mem hq
      have hzq : x.queries[z]? = some q := List.getElem?_eq_some_iff.2 ⟨hz1, hz2⟩
      have hy : (env.generator * gen (k + 4) ^ rev (k + 4) q) ^ 2 ^ (k + 4) = 3 ^ 2 ^ (k + 4) := by
        rw [mul_pow, ← pow_mul, mul_comm (rev _ _), pow_mul, hgen2, one_pow, mul_one, hgen]
      generalize env.generator * gen (k + 4) ^ rev (k + 4) q = y at hy ⊢
      refine ⟨z, List.replicate 4 (montgomery.rep 0), [montgomery.rep 0, montgomery.rep 0], hzq, by rw [e8, List.getElem?_map, hzq, Option.map_some],
        by rw [e10, List.getElem?_map, hzq, Option.map_some], ?_, ?_, ?_⟩
      · intro a ha
        have h1 : y ≠ x.point := fun h => hz.domain (by rw [← h]; exact hy)
        have h2 : y ≠ gen k * x.point := by
          intro h
          rw [h, mul_pow, pow_add, pow_mul (gen k), hgen1, one_pow, one_mul, ← pow_add] at hy
          exact hz.domain hy
        simp only [vdfArgs, List.mem_cons, List.not_mem_nil, or_false] at ha
        rcases ha with rfl | rfl | rfl | rfl | rfl | rfl
        · exact ⟨by decide, by rw [zpow_zero, one_mul]; exact h1⟩
        · exact ⟨by decide, by rw [zpow_one]; exact h2⟩
        · exact ⟨by decide, by rw [zpow_zero, one_mul]; exact h1⟩
        · exact ⟨by decide, by rw [zpow_one]; exact h2⟩
        · exact ⟨by decide, by rw [zpow_zero, one_mul]; exact h1⟩
        · exact ⟨by decide, by rw [zpow_zero, one_mul]; exact h1⟩
      · rw [e4]
        intro h
        rw [h, ← pow_mul] at hy
        refine hz.square ?_
        rw [← hy]
        congr 1
        rw [List.length_cons, List.length_cons, List.length_nil, pow_succ, mul_comm]
      · symm
        unfold deep
        rw [Finset.sum_eq_zero, Finset.sum_eq_zero, add_zero]
        · intro j hj
          rw [e4] at hj
          have : (List.map env.codec.val [montgomery.rep 0, montgomery.rep 0]).getD j 0 = 0 := hrep 2 j
          rw [this, hcvals, sub_zero, zero_div, mul_zero]
        · intro j hj
          rw [hrep, hvals, sub_zero, zero_div, mul_zero]
  refine ⟨P.bytes, converse env hrf hcompat hsearch c k 4 hk c1 c2 hsum (by rw [c3]; norm_num) (by rw [c4]; norm_num) (Or.inl hne) (by rw [hd]; simp) _ _ hW hg _ _ _ _ hacc hback.counted ?_⟩
  intro y z q hy hz
  rw [e8, e10]
  simp only [List.getElem?_map, hy, hz, Option.map_some, and_self]

/-! ## Cases -/

/-- the digest of the hash function of this example: the word of 2 -/
def digest : Bytes := U256.to_bytes_be (montgomery.rep 2)

def K : Keccak := ⟨fun _ => digest, fun _ => U256.to_bytes_be_length _⟩

def search (l : List Nat) (n : Nat) : Option Nat := l.findIdx? (· == n)

def env : Env Z := ⟨K, montgomery, fieldRoot, 3, search⟩

theorem search_ok : SearchOk search := by
  intro l n _
  constructor
  · intro z hz
    unfold search at hz
    obtain ⟨h, e, -⟩ := List.findIdx?_eq_some_iff_getElem.1 hz
    rw [List.getElem?_eq_getElem h]
    simpa using e
  · intro h hn
    unfold search at h
    rw [List.findIdx?_eq_none_iff] at h
    simpa using h n hn

theorem drawn_field (c : PublicCoin) (h : c.counter + 1 < 2 ^ 64) : PublicCoin.randomField K c = some (montgomery.rep 2, ⟨c.digest, c.counter + 1⟩) := by
  have h2 : U256.and (montgomery.rep 2) PublicCoin.MASK = montgomery.rep 2 ∧ U256.lt (montgomery.rep 2) PF.BASE.modulus = true := by
    have e : montgomery.rep 2 = Release.add (PF.one PF.BASE) (PF.one PF.BASE) := by
      rw [← rep_one, arith.add, one_add_one_eq_two]
    rw [e]
    decide +kernel
  unfold PublicCoin.randomField
  rw [show 2 ^ 64 = 18446744073709551615 + 1 by norm_num, PublicCoin.randomFieldLoop]
  have h1 : PublicCoin.randomU256 K c = some (montgomery.rep 2, ⟨c.digest, c.counter + 1⟩) := by
    unfold PublicCoin.randomU256 PublicCoin.randomBytes PublicCoin.bump
    rw [if_pos h]
    rw [Option.map_some, Option.bind_some]
    show (U256.from_bytes_be digest).map _ = _
    unfold digest
    rw [from_to_bytes]
    rfl
  rw [h1, Option.bind_some]
  dsimp only
  rw [h2.1, if_pos h2.2]

theorem drawn_fields (n : Nat) : ∀ c : PublicCoin, c.counter + n < 2 ^ 64 → ∃ c', PublicCoin.randomFields K n c = some (List.replicate n (montgomery.rep 2), c') := by
  induction n with
  | zero => exact fun c _ => ⟨c, rfl⟩
  | succ n ih =>
    intro c h
    obtain ⟨c', e⟩ := ih ⟨c.digest, c.counter + 1⟩ (by dsimp only; omega)
    refine ⟨c', ?_⟩
    rw [PublicCoin.randomFields, drawn_field c (by omega), Option.bind_some]
    dsimp only
    rw [e]
    rfl

theorem draws (seed : Bytes) (blocks : List Bytes) (n : Nat) (h : n < 2 ^ 64) : Draws env (coin K seed blocks) n (List.replicate n 2) := by
  obtain ⟨c', e⟩ := drawn_fields n (coin K seed blocks) (by show 0 + n < _; omega)
  refine ⟨_, c', e, ?_⟩
  rw [List.map_replicate]
  show _ = List.replicate n (montgomery.val (montgomery.rep 2))
  rw [montgomery.val_rep]

theorem point_ok : PointOk 1 2 := by
  have key : ∀ a b : Nat, a < MODULUS → b < MODULUS → a ≠ b → (a : Z) ≠ (b : Z) := fun a b ha hb h e => h (cast_inj ha hb e)
  refine ⟨?_, ?_, ?_⟩
  · have := key (2 ^ 2) 1 (by decide +kernel) (by decide +kernel) (by norm_num)
    rw [Nat.cast_pow, Nat.cast_one] at this
    exact this
  · have := key (2 ^ 32) (3 ^ 32) (by decide +kernel) (by decide +kernel) (by norm_num)
    rw [Nat.cast_pow, Nat.cast_pow] at this
    exact this
  · have := key (2 ^ 64) (3 ^ 32) (by decide +kernel) (by decide +kernel) (by norm_num)
    rw [Nat.cast_pow, Nat.cast_pow] at this
    exact this

theorem system_exists (a b a' b' : Z) : ∃ c, Vdf.constraints env.root env.codec.rep 3 2 a b a' b' = some c ∧ c.expressions.length = 8 := by
  have hg : env.root 2 = some (gen 1) := fieldRoot_ok.2 1 (by norm_num)
  unfold Vdf.constraints system Constraints.from_expressions
  rw [hg]
  exact ⟨_, rfl, rfl⟩

/-- the challenges that the constant hash function gives -/
def challenges (c : Constraints Z) (base : Contents) : Challenges Z := ⟨List.replicate (2 * c.expressions.length) 2, 2, List.replicate 8 2, List.replicate base.fri.length 2,
  ((List.range c.num_queries).map (queryWord K (coin K c.channel_seed (base.body ++ [to_be_bytes 8 base.nonce])) 5)).insertionSort (· ≤ ·)⟩

theorem challenges_drawn (c : Constraints Z) (hl : c.expressions.length = 8) (base : Contents) : Drawn env c 5 6 2 base (challenges c base) :=
  ⟨draws _ _ _ (by rw [hl]; norm_num), draws _ _ 1 (by norm_num), draws _ _ 8 (by norm_num), ⟨List.length_replicate .., fun i hi => by
    unfold challenges
    rw [List.getD_eq_getElem?_getD, List.getElem?_replicate, if_pos hi, Option.getD_some]
    exact draws _ _ 1 (by norm_num)⟩, List.pairwise_insertionSort _ _, List.perm_insertionSort _ _⟩

-- the hypothesis of `C95_same_partial` is met: a proof that both verifiers accept
example : ∃ c proof, Vdf.constraints env.root env.codec.rep 3 2 0 0 0 0 = some c ∧ Stark.verify env c proof = .ok () ∧ Release.verify env c proof = .ok () := by
  obtain ⟨c, hcon, hl⟩ := system_exists 0 0 0 0
  obtain ⟨base, h2⟩ := zero_accepted env rfl rfl rfl search_ok 1 (le_refl _) (by norm_num) 3 c hcon
  obtain ⟨proof, h3⟩ := h2 (challenges c base) (challenges_drawn c hl base) point_ok
  exact ⟨c, proof, hcon, h3, by rw [C95_same_partial env rfl c proof (by rw [h3]; exact fun h => nomatch h), h3]⟩

/-- With this hash function there is a proof as in `C95_violated`: two rows, 45 queries, the constant of the example. -/
theorem C95_violated_run : ∃ c proof, Vdf.constraints env.root env.codec.rep 3 2 0 1 0 1 = some c ∧ (∀ t, ¬ RowsSatisfy c (gen 1) 2 t) ∧
    Release.verify env c proof = .ok () ∧ Stark.verify env c proof = .error .Panic := by
  obtain ⟨c, hcon, hl⟩ := system_exists 0 1 0 1
  obtain ⟨h1, base, h2⟩ := C95_violated env rfl rfl rfl search_ok 1 (le_refl _) (by norm_num) 3 c hcon
  obtain ⟨proof, h3, h4⟩ := h2 (challenges c base) (challenges_drawn c hl base) point_ok
  exact ⟨c, proof, hcon, fun t => h1 _ t (fieldRoot_ok.2 1 (by norm_num)), h3, h4⟩

end ReleaseBuild
end Props
end OpenZKP
