import Verif.Stark.Commit
import Verif.Stark.ProofLength
import Verif.Props.Prover

/-!
# The prover never fails (C50) and the size of proofs (C45)
-/

namespace OpenZKP
namespace Props
open Stark FFT U256 Merkle Polynomial

section
variable {F : Type} [Field F] [DecidableEq F]

/-- what is needed besides `SystemOk` for the prover to get to the queries: the constraints do not exceed the degree of the combination, the
difficulty fits a byte, and there are fewer than 2^32 coefficients to draw (and elements for them in the coin, `DrawsOk`) -/
structure RunOk (env : Env F) (o : Oracles F) (c : Constraints F) : Prop where
  draws : DrawsOk env.K
  size : 1 < c.trace_nrows * c.blowup
  degree : ∀ d, c.degree = some d → 0 < d ∧
    ∀ e ∈ c.expressions, (e.degree (c.trace_nrows - 1)).1 < d * c.trace_nrows + (e.degree (c.trace_nrows - 1)).2
  pow_bits : c.pow_bits < 256
  constraints : 2 * c.expressions.length < 2 ^ 32
  arguments : ∀ c' args d, c.substitute = some c' → c'.trace_arguments = some args → c.degree = some d → args.length + next_power_of_two d < 2 ^ 32
  nonce : ∀ ch n, o.solve ch = some n → n < 2 ^ 64
  solve : ∀ seed ch, with_difficulty env.K seed c.pow_bits = some ch → ∃ n, o.solve ch = some n ∧ ch.verify env.K n = true

/-- the coefficients drawn after the commitment to the trace -/
def DrawnCoefficients (env : Env F) (c : Constraints F) (t : TraceTable F) (co : List F) : Prop :=
  ∃ polys r ch, t.interpolate env.root = some polys ∧ commitPolys env c.blowup polys (ProverChannel.init env.K c.channel_seed) = .ok r ∧
    r.2.getFields env (2 * c.expressions.length) = some (co, ch)

/-- C50: the prover gets to the queries. -/
theorem C50_reaches_queries (env : Env F) (hroot : RootFn env.root) (hcompat : RootCompat env.root) (hgen : env.generator ≠ 0) (o : Oracles F)
    (c : Constraints F) (t : TraceTable F) (hc : SystemOk c t) (hr : RunOk env o c) (w : F) (hw : env.root (c.trace_nrows * c.blowup) = some w) (g : F)
    (hg : env.root t.trace_length = some g) (T : Nat → F[X]) (hT : ColumnPolys t g T) (hsat : Satisfies c g T)
    (hdef : ∀ x, EvalPoint env c x → ∀ e ∈ c.expressions, constraintValue c g T x e ≠ none)
    (hgraph : ∀ co, DrawnCoefficients env c t co → GraphOk env o c g T co) :
    ∃ s ch, commitPhase env o c t = .ok (s, ch) ∧ DrawnCoefficients env c t s.constraint_coefficients := by
  obtain ⟨k, b, e, d, polys, wc, P, heb, hkb, hw', hwc, hg', hpolys, hne, hlen, hk, htl, hcols, hb, hd, hpow, hde, hsum, hP, hval, hocc, hpoint, hvalue, hgr⟩ :=
    setup env hroot hcompat o c t hc w hw g hg T hT hsat hdef
  obtain ⟨hd0, hdeg⟩ := hr.degree d hd
  obtain ⟨s, ch, r, co, h1, h2, h3, h4⟩ := commit_core env hr.draws hroot hcompat hgen o k e b heb hkb
    (by
      have h := hr.size
      rw [hk, hb, ← pow_add] at h
      by_contra h0
      rw [show k + b = 0 by omega] at h
      norm_num at h) w wc g hw' hwc hg' c t polys hpolys hne hlen hk htl
    hb d hd hd0 hpow hde hdeg hc.layout hsum hc.queries hr.pow_bits hr.constraints (fun c' args h h' => by rw [← hpow]; exact hr.arguments c' args d h h' hd)
    P hP hval hocc hr.solve (fun r co h h' => hgr co.1 (hgraph _ ⟨polys, r, co.2, hpolys, h, h'⟩))
  exact ⟨s, ch, h1, polys, r, co.2, hpolys, h2, by rw [h3, h4]⟩

/-- C50: the prover never fails: for a trace satisfying the constraints it produces a proof, which the verifier accepts, if the out-of-domain
point drawn is out of the domain. -/
theorem C50_total (env : Env F) (hroot : RootFn env.root) (hcompat : RootCompat env.root) (hgen : env.generator ≠ 0)
    (hsearch : ∀ l n z, env.search l n = some z → l[z]? = some n) (o : Oracles F)
    (c : Constraints F) (t : TraceTable F) (hc : SystemOk c t) (hr : RunOk env o c) (w : F) (hw : env.root (c.trace_nrows * c.blowup) = some w) (g : F)
    (hg : env.root t.trace_length = some g) (T : Nat → F[X]) (hT : ColumnPolys t g T) (hsat : Satisfies c g T)
    (hdef : ∀ x, EvalPoint env c x → ∀ e ∈ c.expressions, constraintValue c g T x e ≠ none)
    (hgraph : ∀ co, DrawnCoefficients env c t co → GraphOk env o c g T co)
    (hz : ∀ s ch, commitPhase env o c t = .ok (s, ch) → OutOfDomain env c g T s.oods_point) :
    ∃ p, prove env o c t = .ok p ∧ verify env c p = .ok () := by
  obtain ⟨s, ch, h1, h2⟩ := C50_reaches_queries env hroot hcompat hgen o c t hc hr w hw g hg T hT hsat hdef hgraph
  exact C50_complete env hroot hcompat hgen hsearch o hr.nonce c t hc w hw g hg T hT hsat hdef s ch h1 (hgraph _ h2) (hz s ch h1)

/-! ## The size of proofs -/

/-- the bytes that every proof contains: two commitments, one for each FRI layer, the values out of the domain, the coefficients of the last
layer, the nonce, and the values of trace and constraints at the queries -/
def fixedBytes (c : Constraints F) (arguments degree : Nat) : Nat :=
  72 + 32 * (arguments + degree + c.fri_layout.length + c.trace_nrows * c.blowup / 2 ^ c.fri_layout.sum / c.blowup +
    c.num_queries * (c.trace_ncolumns + degree))

/-- at most so many words open the layers of a domain of the given size at `q` places: a coset and a Merkle path for each -/
def layerWords (q : Nat) : List Nat → Nat → Nat
  | [], _ => 0
  | n :: layout, size => q * (2 ^ n + Merkle.trailing_zeros (size / 2 ^ n)) + layerWords q layout (size / 2 ^ n)

theorem layerWords_eq (q : Nat) : ∀ layout size, layerWords q layout size = friWords q layout size := by
  intro layout
  induction layout with
  | nil => intro size; rfl
  | cons n layout ih => intro size; rw [layerWords, friWords, ih]

/-- C45, a correct bound: the size of a proof that the verifier accepts (so of all that the prover produces). -/
theorem C45_size_partial (env : Env F) (c : Constraints F) (hq : c.num_queries < 2 ^ 64) (hs : Merkle.trailing_zeros (c.trace_nrows * c.blowup) < 64)
    (p : Bytes) (h : verify env c p = .ok ()) :
    ∃ c' args d, c.substitute = some c' ∧ c'.trace_arguments = some args ∧ c.degree = some d ∧
      fixedBytes c args.length (next_power_of_two d) ≤ p.length ∧
      p.length ≤ fixedBytes c args.length (next_power_of_two d) +
        32 * (2 * c.num_queries * Merkle.trailing_zeros (c.trace_nrows * c.blowup) + layerWords c.num_queries c.fri_layout (c.trace_nrows * c.blowup)) := by
  unfold Stark.verify at h
  obtain ⟨w, _, h⟩ := bind_ok_inv h
  obtain ⟨⟨T, ch⟩, h1, h⟩ := bind_ok_inv h
  unfold readTranscript at h1
  obtain ⟨⟨x1, c1⟩, a1, h1⟩ := bind_ok_inv h1
  have a1 := adv_read (orPanic_inv a1)
  obtain ⟨lc, hlc, h1⟩ := bind_ok_inv h1
  obtain ⟨⟨x2, c2⟩, a2, h1⟩ := bind_ok_inv h1
  have a2 := adv_getFields env (orPanic_inv a2)
  obtain ⟨⟨x3, c3⟩, a3, h1⟩ := bind_ok_inv h1
  have a3 := adv_read (orPanic_inv a3)
  obtain ⟨cc, hcc, h1⟩ := bind_ok_inv h1
  obtain ⟨⟨x4, c4⟩, a4, h1⟩ := bind_ok_inv h1
  have a4 := adv_getField env (orPanic_inv a4)
  obtain ⟨c', b1, h1⟩ := bind_ok_inv h1
  obtain ⟨args, b2, h1⟩ := bind_ok_inv h1
  obtain ⟨⟨x5, c5⟩, a5, h1⟩ := bind_ok_inv h1
  have a5 := adv_readFields env (orPanic_inv a5)
  obtain ⟨d, b3, h1⟩ := bind_ok_inv h1
  obtain ⟨⟨x6, c6⟩, a6, h1⟩ := bind_ok_inv h1
  have a6 := adv_readFields env (orPanic_inv a6)
  obtain ⟨⟨x7, c7⟩, a7, h1⟩ := bind_ok_inv h1
  have a7 := adv_getFields env (orPanic_inv a7)
  obtain ⟨⟨⟨coms, last⟩, c8⟩, a8, h1⟩ := bind_ok_inv h1
  obtain ⟨hsizes, a8⟩ := adv_readCommitments env _ _ _ _ _ _ a8
  split at h1
  · cases h1
  obtain ⟨⟨x9, c9⟩, a9, h1⟩ := bind_ok_inv h1
  have a9 := adv_readLayer env (orPanic_inv a9)
  obtain ⟨⟨x10, c10⟩, a10, h1⟩ := bind_ok_inv h1
  have a10 := adv_getSeed (orPanic_inv a10)
  obtain ⟨_, _, h1⟩ := bind_ok_inv h1
  obtain ⟨⟨x11, c11⟩, a11, h1⟩ := bind_ok_inv h1
  obtain ⟨a11, hc0⟩ := adv_response (orPanic_inv a11)
  split at h1
  · cases h1
  obtain ⟨⟨qs, c12⟩, a12, h1⟩ := map_ok_inv h1
  have a12 := orPanic_inv a12
  obtain ⟨l, coin, -, j2, j3, -⟩ := C40_indices env.K true c.num_queries _ hs ⟨c11.coin, []⟩ c11 rfl (by rw [hc0]; omega)
  rw [j2] at a12
  have k12 := Option.some.inj a12
  rw [Prod.mk.injEq] at k12
  obtain ⟨k13, k14⟩ := k12
  subst k13
  have k15 : Adv c11 0 c12 := by rw [← k14]; exact ⟨rfl, rfl⟩
  cases h1
  have hlsize : lc.size = c.trace_nrows * c.blowup := by
    have := verify_orMerkle_inv hlc
    unfold from_size_hash at this
    split at this
    · cases this; rfl
    · cases this
  have hcsize : cc.size = c.trace_nrows * c.blowup := by
    have := verify_orMerkle_inv hcc
    unfold from_size_hash at this
    split at this
    · cases this; rfl
    · cases this
  unfold checkTranscript at h
  dsimp only at h
  obtain ⟨⟨lv, d1⟩, e1, h⟩ := bind_ok_inv h
  have e1 := adv_readLeaves env _ _ _ _ _ e1
  obtain ⟨d2, e2, h⟩ := bind_ok_inv h
  obtain ⟨m1, hm1, e2⟩ := adv_checkLeaves env e2
  obtain ⟨⟨cv, d3⟩, e3, h⟩ := bind_ok_inv h
  have e3 := adv_readLeaves env _ _ _ _ _ e3
  obtain ⟨d4, e4, h⟩ := bind_ok_inv h
  obtain ⟨m2, hm2, e4⟩ := adv_checkLeaves env e4
  split at h
  · cases h
  obtain ⟨⟨r, d5⟩, e5, h⟩ := bind_ok_inv h
  obtain ⟨m3, hm3, e5⟩ := adv_friLayers env _ c.num_queries hsizes _ _ _ _ _ _ _ _ (by rw [j3]) e5
  split at h
  · cases h
  rename_i hend
  have hall := (((((((((((((((a1.trans a2).trans a3).trans a4).trans a5).trans a6).trans a7).trans a8).trans a9).trans a10).trans a11).trans k15).trans e1).trans e2).trans
    e3).trans e4).trans e5
  obtain ⟨f1, f2⟩ := hall
  have f3 : d5.proof_index = d5.proof.length := by simpa [VerifierChannel.at_end] using hend
  rw [f1] at f3
  have f1 : (VerifierChannel.init env.K p c.channel_seed).proof = p := rfl
  have f4 : (VerifierChannel.init env.K p c.channel_seed).proof_index = 0 := rfl
  rw [f1] at f3
  rw [f3, f4] at f2
  rw [hlsize, j3] at hm1
  rw [hcsize, j3] at hm2
  rw [hsizes.last, j3] at f2
  refine ⟨c', args, d, orPanic_inv b1, orPanic_inv b2, orPanic_inv b3, ?_⟩
  rw [layerWords_eq]
  unfold fixedBytes
  rw [show 2 * c.num_queries * Merkle.trailing_zeros (c.trace_nrows * c.blowup) =
    Merkle.trailing_zeros (c.trace_nrows * c.blowup) * c.num_queries + Merkle.trailing_zeros (c.trace_nrows * c.blowup) * c.num_queries by ring]
  rw [Nat.mul_add c.num_queries]
  dsimp only at f2
  generalize Merkle.trailing_zeros (c.trace_nrows * c.blowup) * c.num_queries = M at *
  generalize friWords c.num_queries c.fri_layout (c.trace_nrows * c.blowup) = N at *
  generalize c.num_queries * c.trace_ncolumns = A at *
  generalize c.num_queries * next_power_of_two d = B at *
  constructor <;> omega

theorem proofSizeLoop_none (q : Nat) : ∀ (layout : List Nat) (size total : Nat),
    Constraints.proofSizeLoop q layout size total = none ↔ size < layout.sum := by
  intro layout
  induction layout with
  | nil => intro size total; simp [Constraints.proofSizeLoop]
  | cons n layout ih =>
    intro size total
    rw [Constraints.proofSizeLoop, List.sum_cons]
    unfold Stark.csub
    split
    · rw [Option.bind_some, ih]; omega
    · simp only [Option.bind_none, true_iff]; omega

/-- C45: `max_proof_size` panics (with overflow checks) exactly when the FRI reductions leave fewer than eight coefficients. -/
theorem C45_panics (c : Constraints F) (k : Nat) (hk : k < 64) (hrows : c.trace_nrows = 2 ^ k) :
    c.max_proof_size = none ↔ k < 3 + c.fri_layout.sum := by
  unfold Constraints.max_proof_size
  rw [hrows]
  dsimp only
  rw [show Merkle.trailing_zeros (2 ^ k) = k from Merkle.trailing_zeros_two_pow k hk]
  unfold Stark.csub
  split
  · rw [Option.bind_some, Option.map_eq_none_iff, proofSizeLoop_none]; omega
  · simp only [Option.bind_none, true_iff]; omega

theorem default_layout_sum (k : Nat) (hk : k < 64) : (default_fri_layout (2 ^ k)).sum = if k > 8 then k - 8 else k := by
  unfold default_fri_layout
  dsimp only
  rw [show Merkle.trailing_zeros (2 ^ k) = k from Merkle.trailing_zeros_two_pow k hk]
  rw [List.sum_append, List.sum_replicate]
  split <;> split <;> simp at * <;> omega

/-- C45 is violated: for the default FRI layout and at most 256 rows there is no bound, only a panic. -/
theorem C45_violated_default (c : Constraints F) (k : Nat) (hk : k ≤ 8) (hrows : c.trace_nrows = 2 ^ k) (hl : c.fri_layout = default_fri_layout c.trace_nrows) :
    c.max_proof_size = none := by
  rw [C45_panics c k (by omega) hrows, hl, hrows, default_layout_sum k (by omega), if_neg (by omega)]
  omega

end

namespace Size
open OpenZKP.Props.Small (Z K e1 T T_eval rep_toNat o)

/-- the hash of the coin -/
def h0 : Bytes := (List.range 32).map fun i => UInt8.ofNat (i * 7 + 1)

theorem draw : ∃ u v : U256, from_bytes_be h0 = some u ∧ U256.and u PublicCoin.MASK = v ∧ U256.lt v PF.BASE.modulus = true ∧ v.toNat % 65537 = 28784 :=
  ⟨(from_bytes_be h0).getD ⟨0, 0, 0, 0⟩, U256.and ((from_bytes_be h0).getD ⟨0, 0, 0, 0⟩) PublicCoin.MASK, by decide +kernel, rfl, by decide +kernel, by decide +kernel⟩

theorem randomField_eq : ∃ v : U256, v.toNat % 65537 = 28784 ∧ ∀ c : PublicCoin, PublicCoin.randomField K c = c.bump.map fun c' => (v, c') := by
  obtain ⟨u, v, h1, h2, h3, h4⟩ := draw
  refine ⟨v, h4, fun c => ?_⟩
  unfold PublicCoin.randomField
  obtain ⟨f, hf⟩ : ∃ f, 2 ^ 64 = f + 1 := ⟨2 ^ 64 - 1, by norm_num⟩
  rw [hf]
  unfold PublicCoin.randomFieldLoop PublicCoin.randomU256 PublicCoin.randomBytes
  cases c.bump with
  | none => rfl
  | some c' =>
    rw [Option.map_some, Option.bind_some]
    dsimp only
    rw [show K.hash (c.digest ++ List.replicate 24 0 ++ to_be_bytes 8 c.counter) = h0 from rfl, h1, Option.map_some, Option.bind_some]
    dsimp only
    rw [h2, if_pos h3, Option.map_some]

theorem randomFields_eq : ∃ v : U256, v.toNat % 65537 = 28784 ∧ ∀ n d k, k + n < 2 ^ 64 →
    PublicCoin.randomFields K n ⟨d, k⟩ = some (List.replicate n v, ⟨d, k + n⟩) := by
  obtain ⟨v, h1, h2⟩ := randomField_eq
  refine ⟨v, h1, fun n => ?_⟩
  induction n with
  | zero => intro d k _; rfl
  | succ n ih =>
    intro d k hk
    unfold PublicCoin.randomFields
    rw [h2]
    unfold PublicCoin.bump
    rw [if_pos (show k + 1 < 2 ^ 64 by omega), Option.map_some, Option.bind_some]
    dsimp only
    rw [ih d (k + 1) (by omega), Option.map_some]
    dsimp only
    rw [List.replicate_succ, show k + 1 + n = k + (n + 1) by omega]

theorem draws : DrawsOk K := by
  obtain ⟨v, -, h⟩ := randomFields_eq
  intro d n hn
  rw [h n d 0 (by omega)]
  simp

/-- roots of unity up to 64 -/
def root (n : Nat) : Option Z :=
  if n = 1 then some 1 else if n = 2 then some 65536 else if n = 4 then some 65281 else if n = 8 then some 4096
  else if n = 16 then some 64 else if n = 32 then some 65529 else if n = 64 then some 8224 else none

theorem root_ok : RootFn root := by
  intro n w _ _ h
  unfold root at h
  split at h
  · cases h; rename_i h; rw [h]; exact orderOf_one
  split at h
  · cases h; rename_i h; rw [h]; exact orderOf_eq_prime (p := 2) (by decide +kernel) (by decide +kernel)
  split at h
  · cases h; rename_i h; rw [h]; exact orderOf_eq_prime_pow (p := 2) (n := 1) (by decide +kernel) (by decide +kernel)
  split at h
  · cases h; rename_i h; rw [h]; exact orderOf_eq_prime_pow (p := 2) (n := 2) (by decide +kernel) (by decide +kernel)
  split at h
  · cases h; rename_i h; rw [h]; exact orderOf_eq_prime_pow (p := 2) (n := 3) (by decide +kernel) (by decide +kernel)
  split at h
  · cases h; rename_i h; rw [h]; exact orderOf_eq_prime_pow (p := 2) (n := 4) (by decide +kernel) (by decide +kernel)
  split at h
  · cases h; rename_i h; rw [h]; exact orderOf_eq_prime_pow (p := 2) (n := 5) (by decide +kernel) (by decide +kernel)
  · cases h

theorem root_compat : RootCompat root := by
  intro a b w _ h
  have hle : a + b ≤ 6 := by
    by_contra hc
    have : 2 ^ 7 ≤ 2 ^ (a + b) := Nat.pow_le_pow_right (by norm_num) (by omega)
    generalize 2 ^ (a + b) = n at *
    unfold root at h
    rw [if_neg (by omega), if_neg (by omega), if_neg (by omega), if_neg (by omega), if_neg (by omega), if_neg (by omega), if_neg (by omega)] at h
    cases h
  have ha : a ≤ 6 := by omega
  have hb : b ≤ 6 := by omega
  interval_cases a <;> interval_cases b <;> first | omega | (cases h; decide +kernel)

def env : Env Z :=
  ⟨K, ⟨fun x => ⟨UInt64.ofNat x.val, 0, 0, 0⟩, fun u => (u.toNat : Z), fun x => by
      rw [rep_toNat]
      exact lt_trans (ZMod.val_lt x) (by decide +kernel),
    fun x => by rw [rep_toNat]; exact ZMod.natCast_zmod_val x⟩, root, 3, fun l n => l.findIdx? (· = n)⟩
/-- 32 rows with the values 7 - 2 x -/
def tr : TraceTable Z := ⟨32, 1, (List.range 32).map fun i => 7 - 2 * 65529 ^ i⟩
/-- the first row is 5; one query, one FRI layer -/
def c : Constraints Z := ⟨[1], 32, 1, [e1], 2, 0, 1, [1], []⟩

theorem system_ok : SystemOk c tr where
  table := rfl
  columns := by decide
  rows_eq := rfl
  columns_eq := rfl
  pow2 := ⟨5, 1, rfl, rfl, by norm_num, by decide⟩
  degree := ⟨1, by decide +kernel, by decide⟩
  layout := by decide
  layout_ne := Or.inl (by decide)
  queries := by decide
  references := by
    intro e he i j h
    simp only [c, List.mem_cons, List.not_mem_nil, or_false] at he
    rcases he with rfl
    simp [e1, Occurs] at h
    obtain ⟨rfl, rfl⟩ := h
    decide

theorem columns : ColumnPolys tr 65529 T := by
  intro j hj
  have hj : j < 1 := hj
  interval_cases j
  refine ⟨lt_of_lt_of_le (toPoly_degree_lt [7, 65535]) (by decide), fun i hi => ?_⟩
  have hi : i < 32 := hi
  unfold T
  rw [← C37_evaluate]
  interval_cases i <;> decide +kernel

theorem value1 (x : Z) : constraintValue c 65529 T x e1 = if x - 1 = 0 then none else some (-2) := by
  unfold constraintValue e1
  simp only [claimValue, T_eval, Option.map_some, ← sub_eq_add_neg]
  by_cases h : x - 1 = 0
  · rw [if_pos h, if_pos h]
  · rw [if_neg h, if_neg h]
    show some _ = some _
    rw [zpow_zero, mul_one, show 7 - 2 * x - 5 = -2 * (x - 1) by ring, mul_assoc, mul_inv_cancel₀ h, mul_one]

theorem satisfies : Satisfies c 65529 T := by
  intro e he
  simp only [c, List.mem_cons, List.not_mem_nil, or_false] at he
  rcases he with rfl
  refine ⟨C (-2), fun x v h => ?_, Or.inr ?_⟩
  · rw [value1] at h
    split at h
    · cases h
    · cases h; simp
  · rw [natDegree_C]; decide +kernel

theorem point_ne (x : Z) (h : EvalPoint env c x) : x ^ 64 = 3 ^ 64 := by
  obtain ⟨y, h1, rfl⟩ := h
  have h1 : y ^ 64 = 1 := h1
  show (3 * y) ^ 64 = 3 ^ 64
  rw [mul_pow, h1, mul_one]

/-- the combined constraint -/
def E : Expr Z := .Mul (.Add (.Constant 28784) (.Mul (.Constant 28784) (.Exp .X 1))) e1

theorem graph_ok : GraphOk env o c 65529 T [28784, 28784] := by
  intro d E0 E' _ hE hE'
  have h1 : c.combine [28784, 28784] = some E := by decide +kernel
  have h2 : E.substitute_claim [] = some E := by decide +kernel
  rw [h1] at hE
  cases hE
  rw [show c.claim_polynomials = [] from rfl, h2] at hE'
  cases hE'
  refine ⟨by show mark 77 _ _ ≠ none; decide +kernel, ?_⟩
  have key : ∀ a ∈ Expr.Constant 0 :: Expr.Constant 1 :: subexpressions E, ∀ a' ∈ Expr.Constant 0 :: Expr.Constant 1 :: subexpressions E,
      mark 77 o.traceHash a = mark 77 o.traceHash a' → a = a' ∨ (a ∈ [Expr.X, Expr.Exp .X 1] ∧ a' ∈ [Expr.X, Expr.Exp .X 1]) := by decide +kernel
  intro a ha a' ha' hm x _
  rcases key a ha a' ha' hm with h | ⟨h, h'⟩
  · rw [h]
  · simp only [List.mem_cons, List.not_mem_nil, or_false] at h h'
    rcases h with rfl | rfl <;> rcases h' with rfl | rfl <;> simp [Expr.evaluate]

theorem run_ok : RunOk env o c where
  draws := draws
  size := by decide
  degree := by
    intro d hd
    have : c.degree = some 1 := by decide +kernel
    rw [this] at hd
    cases hd
    refine ⟨by norm_num, fun e he => ?_⟩
    simp only [c, List.mem_cons, List.not_mem_nil, or_false] at he
    rcases he with rfl
    decide +kernel
  pow_bits := by decide
  constraints := by decide
  arguments := by
    intro c' args d h1 h2 h3
    have : c.degree = some 1 := by decide +kernel
    rw [this] at h3
    cases h3
    have : c.substitute.bind (fun c' => c'.trace_arguments) = some [(0, 0)] := by decide +kernel
    rw [h1, Option.bind_some, h2] at this
    cases this
    decide
  nonce := by
    intro ch n h
    cases h
    norm_num
  solve := by
    intro seed ch h
    refine ⟨0, rfl, ?_⟩
    unfold with_difficulty at h
    rw [if_pos (by decide)] at h
    cases h
    unfold Challenge.verify
    obtain ⟨u, _, h1, -⟩ := draw
    rw [show ∀ x, env.K.hash x = h0 from fun _ => rfl, h1]
    exact decide_eq_true (Nat.zero_le _)

theorem oods_point (s : Committed Z) (ch : ProverChannel) (h : commitPhase env o c tr = .ok (s, ch)) : s.oods_point = 28784 := by
  unfold commitPhase at h
  obtain ⟨_, _, h⟩ := bind_ok_inv h
  obtain ⟨_, _, h⟩ := bind_ok_inv h
  obtain ⟨_, _, h⟩ := bind_ok_inv h
  obtain ⟨_, _, h⟩ := bind_ok_inv h
  obtain ⟨_, _, h⟩ := bind_ok_inv h
  obtain ⟨_, _, h⟩ := bind_ok_inv h
  obtain ⟨oods, ho, h⟩ := bind_ok_inv h
  obtain ⟨_, _, h⟩ := bind_ok_inv h
  obtain ⟨_, _, h⟩ := bind_ok_inv h
  obtain ⟨_, _, h⟩ := bind_ok_inv h
  obtain ⟨_, _, h⟩ := bind_ok_inv h
  obtain ⟨_, _, h⟩ := bind_ok_inv h
  split at h
  · cases h
  obtain ⟨_, _, h⟩ := bind_ok_inv h
  obtain ⟨_, _, h⟩ := map_ok_inv h
  cases h
  have ho := pPanic_inv ho
  unfold oods_combine at ho
  obtain ⟨_, _, ho⟩ := Option.bind_eq_some_iff.1 ho
  obtain ⟨r, hr, ho⟩ := Option.bind_eq_some_iff.1 ho
  obtain ⟨_, _, ho⟩ := Option.bind_eq_some_iff.1 ho
  obtain ⟨_, _, ho⟩ := Option.bind_eq_some_iff.1 ho
  obtain ⟨_, _, ho⟩ := Option.bind_eq_some_iff.1 ho
  obtain ⟨_, _, ho⟩ := Option.bind_eq_some_iff.1 ho
  obtain ⟨_, _, ho⟩ := Option.map_eq_some_iff.1 ho
  rw [← ho]
  dsimp only
  unfold ProverChannel.getField at hr
  obtain ⟨v, hv, hall⟩ := randomField_eq
  rw [show env.K = K from rfl, hall] at hr
  obtain ⟨_, h1, h2⟩ := Option.map_eq_some_iff.1 hr
  obtain ⟨_, _, h3⟩ := Option.map_eq_some_iff.1 h1
  rw [← h2, ← h3]
  show (v.toNat : Z) = 28784
  rw [← ZMod.natCast_mod, hv]
  rfl

theorem drawn (co : List Z) (h : DrawnCoefficients env c tr co) : co = [28784, 28784] := by
  obtain ⟨polys, r, ch, -, -, h⟩ := h
  obtain ⟨v, hv, hall⟩ := randomField_eq
  unfold ProverChannel.getFields at h
  obtain ⟨l, h1, h2⟩ := Option.map_eq_some_iff.1 h
  rw [show 2 * c.expressions.length = 2 from rfl, show env.K = K from rfl] at h1
  unfold PublicCoin.randomFields PublicCoin.randomFields PublicCoin.randomFields at h1
  simp only [hall, Option.bind_eq_some_iff, Option.map_eq_some_iff, Option.some.injEq] at h1
  obtain ⟨a, ⟨_, _, rfl⟩, b, ⟨_, ⟨_, _, rfl⟩, _, rfl, rfl⟩, rfl⟩ := h1
  have : env.codec.val v = 28784 := by
    show (v.toNat : Z) = 28784
    rw [← ZMod.natCast_mod, hv]
    rfl
  have h3 := congrArg Prod.fst h2
  dsimp only [List.map] at h3
  rw [this] at h3
  exact h3.symm

theorem defined (x : Z) (hx : EvalPoint env c x) : ∀ e ∈ c.expressions, constraintValue c 65529 T x e ≠ none := by
  intro e he
  have hx := point_ne x hx
  simp only [c, List.mem_cons, List.not_mem_nil, or_false] at he
  rcases he with rfl
  rw [value1, if_neg]
  · simp
  · intro h0
    rw [sub_eq_zero.1 h0] at hx
    revert hx
    decide +kernel

theorem out_of_domain : OutOfDomain env c 65529 T 28784 := by
  refine ⟨fun x hx => ⟨fun e he i j hij => ?_, fun d hd => ?_⟩, fun e he => ?_⟩
  · have hx := point_ne x hx
    rintro rfl
    simp only [c, List.mem_cons, List.not_mem_nil, or_false] at he
    rcases he with rfl
    simp [e1, Occurs] at hij
    obtain ⟨rfl, rfl⟩ := hij
    revert hx
    decide +kernel
  · have hx := point_ne x hx
    have : c.degree = some 1 := by decide +kernel
    rw [this] at hd
    cases hd
    rintro rfl
    revert hx
    decide +kernel
  · simp only [c, List.mem_cons, List.not_mem_nil, or_false] at he
    rcases he with rfl
    rw [value1, if_neg (by decide +kernel)]; simp

theorem proved : ∃ p, prove env o c tr = .ok p ∧ verify env c p = .ok () := by
  refine C50_total env root_ok root_compat (by decide +kernel) ?_ o c tr system_ok run_ok 8224 rfl 65529 rfl T columns satisfies defined
    (fun co h => by rw [drawn co h]; exact graph_ok) (fun s ch h => by rw [oods_point s ch h]; exact out_of_domain)
  intro l n z hz
  obtain ⟨h3, h4, -⟩ := List.findIdx?_eq_some_iff_getElem.1 hz
  rw [List.getElem?_eq_getElem h3]
  simpa using h4

-- C50: the prover gets to the queries
example : ∃ s ch, commitPhase env o c tr = .ok (s, ch) ∧ DrawnCoefficients env c tr s.constraint_coefficients :=
  C50_reaches_queries env root_ok root_compat (by decide +kernel) o c tr system_ok run_ok 8224 rfl 65529 rfl T columns satisfies defined
    (fun co h => by rw [drawn co h]; exact graph_ok)

-- C45: the default layout leaves no bound for 32 rows
example : ({ c with fri_layout := default_fri_layout 32 } : Constraints Z).max_proof_size = none :=
  C45_violated_default _ 5 (by norm_num) rfl rfl
-- and one reduction does
example : c.max_proof_size ≠ none := by
  rw [Ne, C45_panics c 5 (by norm_num) rfl]
  decide

end Size
open Size in
/-- C45 is violated: a proof that the prover returns, and the verifier accepts, is longer than `max_proof_size` says. -/
theorem C45_violated : ∃ p n, prove Size.env Small.o Size.c Size.tr = .ok p ∧ verify Size.env Size.c p = .ok () ∧ Size.c.max_proof_size = some n ∧ n < p.length := by
  obtain ⟨p, h1, h2⟩ := proved
  refine ⟨p, 704, h1, h2, by decide +kernel, ?_⟩
  obtain ⟨c', args, d, h3, h4, h5, h6, -⟩ := C45_size_partial env c (by decide) (by decide) p h2
  have : c.degree = some 1 := by decide +kernel
  rw [this] at h5
  cases h5
  have : c.substitute.bind (fun c' => c'.trace_arguments) = some [(0, 0)] := by decide +kernel
  rw [h3, Option.bind_some, h4] at this
  cases this
  have : fixedBytes c 1 (next_power_of_two 1) = 744 := by decide +kernel
  simp only [List.length_singleton] at h6
  omega

end Props
end OpenZKP
