import Verif.Examples.Recurrence
import Verif.Props.Examples

/-!
# C78: the system `Recurrance` in Rust

`(state exponent secret index).1` is the value the code computes for a claim (`index_value`).
-/

namespace OpenZKP
namespace Props
open Stark FFT Polynomial Examples Stark.Accept

section
variable {F : Type} [Field F] [DecidableEq F]

/-! ## Lemmas -/

/-- the quotients of the system -/
def recQuotients (g : F) (n index : Nat) (v : F) (e : Nat) : List (Expr F × Expr F) :=
  [everyRow g n (Expr.sub (.Trace 0 1) (Expr.pow (.Trace 1 0) e)), everyRow g n (Expr.sub (Expr.sub (.Trace 1 1) (.Trace 0 0)) (.Trace 1 0)),
    onRow g n (Expr.sub (.Trace 0 0) (.Constant 1)), onRow g index (Expr.sub (.Trace 0 0) (.Constant v))]

theorem rec_system (root : Nat → Option F) (rep : F → U256) (index : Nat) (v : F) (e : Nat) (c : Constraints F) (h : Recurrence.constraints root rep index v e = some c) :
    ∃ g, root (Merkle.next_power_of_two (index + 1)) = some g ∧
      system root (Merkle.next_power_of_two (index + 1)) 2 (Recurrence.seed rep index v e) (Recurrence.expressions g (Merkle.next_power_of_two (index + 1)) index v e) = some c ∧
      Quotients c (recQuotients g (Merkle.next_power_of_two (index + 1)) index v e) ∧ c.degree = some (max e 1) ∧
      (∀ x ∈ Recurrence.expressions g (Merkle.next_power_of_two (index + 1)) index v e, ∀ i j, Occurs (i, j) x → i < 2 ∧ 0 ≤ j) ∧
      c.expressions = Recurrence.expressions g (Merkle.next_power_of_two (index + 1)) index v e := by
  unfold Recurrence.constraints at h
  obtain ⟨g, hg, h⟩ := Option.bind_eq_some_iff.1 h
  obtain ⟨-, hc⟩ := system_some _ _ _ _ _ _ h
  refine ⟨g, hg, h, ?_, ?_, ?_, by rw [hc]⟩
  · rw [hc]
    unfold Quotients recQuotients
    refine .cons (everyRow_quotient _ _ _ ?_) (.cons (everyRow_quotient _ _ _ ?_) (.cons (onRow_quotient _ _ _ ?_) (.cons (onRow_quotient _ _ _ ?_) .nil))) <;>
      simp [DivFree, Expr.sub, Expr.add, Expr.neg, Expr.pow]
  · rw [hc]
    simp [Recurrence.expressions, Constraints.degree, Expr.trace_degree, Expr.degree_impl, every_row, on_row, Expr.sub, Expr.add, Expr.neg, Expr.mul, Expr.div, Expr.inv, Expr.pow, csub,
      Constraints.maxOf]
    omega
  · intro x hx i j hij
    simp only [Recurrence.expressions, List.mem_cons, List.not_mem_nil, or_false] at hx
    rcases hx with rfl | rfl | rfl | rfl <;>
      simp [Occurs, every_row, on_row, Expr.sub, Expr.add, Expr.neg, Expr.mul, Expr.div, Expr.inv, Expr.pow] at hij <;> omega

theorem rec_hold (g : F) (n index : Nat) (v : F) (e : Nat) (hn : 0 < n) (hi : index < n) (hord : orderOf g = n) (t : Nat → Nat → F) :
    Hold g n t (recQuotients g n index v e) ↔
      (∀ r, r + 1 < n → t (r + 1) 0 = t r 1 ^ e ∧ t (r + 1) 1 = t r 0 + t r 1) ∧ t 0 0 = 1 ∧ t index 0 = v := by
  unfold Hold recQuotients
  simp only [List.forall_mem_cons, everyRow_iff g n hn hord, onRow_iff g n hn hord, value_sub, value_const, value_pow, value, List.not_mem_nil, false_imp_iff, implies_true, and_true,
    Nat.mod_self, Nat.mod_eq_of_lt hi]
  constructor
  · rintro ⟨h1, h2, h3, h4⟩
    rw [row_same _ _ hi] at h4
    rw [row_same 0 n hn] at h3
    refine ⟨fun r hr => ?_, sub_eq_zero.1 h3, sub_eq_zero.1 h4⟩
    have e1 := h1 r hr
    have e2 := h2 r hr
    rw [row_next r n hr, row_same r n (by omega)] at e1 e2
    exact ⟨sub_eq_zero.1 e1, by linear_combination e2⟩
  · rintro ⟨h1, h2, h3⟩
    refine ⟨fun r hr => ?_, fun r hr => ?_, ?_, ?_⟩
    · rw [row_next r n hr, row_same r n (by omega), (h1 r hr).1, sub_self]
    · rw [row_next r n hr, row_same r n (by omega), (h1 r hr).2]; ring
    · rw [row_same 0 n hn, h2, sub_self]
    · rw [row_same _ _ hi, h3, sub_self]

omit [DecidableEq F] in
theorem rec_rows (n : Nat) (e : Nat) (t : Nat → Nat → F) (h : ∀ r, r + 1 < n → t (r + 1) 0 = t r 1 ^ e ∧ t (r + 1) 1 = t r 0 + t r 1) (h0 : t 0 0 = 1) :
    ∀ r < n, (t r 0, t r 1) = Recurrence.state e (t 0 1) r := by
  intro r
  induction r with
  | zero => intro _; rw [h0]; rfl
  | succ r ih =>
    intro hr
    have i := ih (by omega)
    obtain ⟨h1, h2⟩ := h r hr
    rw [h1, h2, Recurrence.state, ← i]

theorem rec_length (index : Nat) : index < Merkle.next_power_of_two (index + 1) ∧ ∃ k, Merkle.next_power_of_two (index + 1) = 2 ^ k := by
  obtain ⟨k, -, h1, h2⟩ := next_power_of_two_spec (index + 1) (index + 1) Nat.lt_two_pow_self.le
  rw [h1]
  exact ⟨by omega, k, rfl⟩

/-! ## C78 -/

/-- C78: the system of the claim `(index, value)` says of a table that it is a run of the recurrence, started with 1 and the first cell of the second column, with `value` at `index`. -/
theorem C78_system (root : Nat → Option F) (hroot : RootFn root) (rep : F → U256) (index e : Nat) (hindex : Merkle.next_power_of_two (index + 1) < 2 ^ 64) (v : F) (c : Constraints F)
    (hc : Recurrence.constraints root rep index v e = some c) (g : F) (hg : root c.trace_nrows = some g) (t : Nat → Nat → F) :
    RowsSatisfy c g c.trace_nrows t ↔
      (∀ r < c.trace_nrows, (t r 0, t r 1) = Recurrence.state e (t 0 1) r) ∧ index < c.trace_nrows ∧ v = (Recurrence.state e (t 0 1) index).1 := by
  obtain ⟨g', hg', hsys, hqs, -⟩ := rec_system root rep index v e c hc
  obtain ⟨-, hcc⟩ := system_some _ _ _ _ _ _ hsys
  have hn : c.trace_nrows = Merkle.next_power_of_two (index + 1) := by rw [hcc]
  rw [hn] at hg ⊢
  obtain ⟨hi, -⟩ := rec_length index
  have hpos : 0 < Merkle.next_power_of_two (index + 1) := by omega
  have hord := hroot _ g' hpos hindex hg'
  have : g' = g := Option.some.inj (hg'.symm.trans hg)
  subst this
  generalize Merkle.next_power_of_two (index + 1) = n at *
  rw [rows_iff c _ hqs, rec_hold g' _ index v e hpos hi hord]
  constructor
  · rintro ⟨h1, h2, h3⟩
    have := rec_rows _ e t h1 h2
    exact ⟨this, hi, by rw [← h3, ← this index hi]⟩
  · rintro ⟨h1, -, h2⟩
    have h0 := h1 0 hpos
    refine ⟨fun r hr => ?_, (Prod.ext_iff.1 h0).1, by rw [h2, ← h1 index hi]⟩
    have a := h1 (r + 1) hr
    rw [Recurrence.state, ← h1 r (by omega)] at a
    exact Prod.ext_iff.1 a

/-- C78: an accepted proof shows that `value` is what the code computes at `index`, started with a cell of the table committed to. -/
theorem C78_accepted (env : Env F) (hroot : RootFn env.root) (hcompat : RootCompat env.root) (hsearch : SearchOk env.search) (hgen : env.generator ≠ 0)
    (rep : F → U256) (index k e : Nat) (hk : k + 4 < 64) (hn : Merkle.next_power_of_two (index + 1) = 2 ^ k) (v : F) (c : Constraints F)
    (hc : Recurrence.constraints env.root rep index v e = some c) (p : Bytes) (h : Stark.verify env c p = .ok ()) :
    Shows env c k (max e 1) p fun t => v = (Recurrence.state e (t 0 1) index).1 := by
  obtain ⟨g, hg, hsys, -, hd, -⟩ := rec_system env.root rep index v e c hc
  obtain ⟨-, hcc⟩ := system_some _ _ _ _ _ _ hsys
  refine shows_of_rows env hroot hcompat hsearch hgen k (max e 1) _ 2 hk hn _ _ c hsys hd p h _ fun g' t hg' ht => ?_
  have e1 : c.trace_nrows = Merkle.next_power_of_two (index + 1) := by rw [hcc]
  rw [← e1] at hg' ht
  exact ((C78_system env.root hroot rep index e (by rw [hn]; exact Nat.pow_lt_pow_right (by norm_num) (by omega)) v c hc g' hg' t).1 ht).2.2

/-- the trace of a witness -/
theorem rec_trace (index : Nat) (secret : F) (e : Nat) : ∃ t, Recurrence.trace index secret e = some t ∧ t.trace_length = Merkle.next_power_of_two (index + 1) ∧ t.num_columns = 2 ∧ TableOk t ∧
    ∀ r < Merkle.next_power_of_two (index + 1), t.get r 0 = some (Recurrence.state e secret r).1 ∧ t.get r 1 = some (Recurrence.state e secret r).2 := by
  have hpos : 0 < Merkle.next_power_of_two (index + 1) := by have := (rec_length index).1; omega
  unfold Recurrence.trace
  dsimp only
  generalize Merkle.next_power_of_two (index + 1) = n at *
  have hstate : ∀ k, stateAt (fun _ (s : F × F) => (s.2 ^ e, s.1 + s.2)) 0 (1, secret) k = Recurrence.state e secret k := by
    intro k
    induction k with
    | zero => rfl
    | succ k ih => rw [stateAt, ih]; rfl
  have key := tableOf_spec n 2 ([(0, 0, 1), (0, 1, secret)] ++
    loop (fun _ s => (s.2 ^ e, s.1 + s.2)) (fun i (s : F × F) => [(i + 1, 0, s.2 ^ e), (i + 1, 1, s.1 + s.2)]) (n - 1) 0 (1, secret))
    (fun i j => if j = 0 then (Recurrence.state e secret i).1 else (Recurrence.state e secret i).2) (by
      intro i j v h
      rw [List.mem_append, mem_loop] at h
      rcases h with h | ⟨k, hk, h⟩
      · simp only [List.mem_cons, List.not_mem_nil, or_false, Prod.mk.injEq] at h
        rcases h with ⟨rfl, rfl, rfl⟩ | ⟨rfl, rfl, rfl⟩
        · exact ⟨hpos, by norm_num, rfl⟩
        · exact ⟨hpos, by norm_num, rfl⟩
      · rw [hstate] at h
        simp only [List.mem_cons, List.not_mem_nil, or_false, Prod.mk.injEq, zero_add] at h
        rcases h with ⟨rfl, rfl, rfl⟩ | ⟨rfl, rfl, rfl⟩
        · exact ⟨by omega, by norm_num, rfl⟩
        · exact ⟨by omega, by norm_num, rfl⟩) (by
      intro i hi j hj
      rw [List.mem_append, mem_loop]
      cases i with
      | zero =>
        left
        rcases (by omega : j = 0 ∨ j = 1) with rfl | rfl
        · simp [Recurrence.state]
        · simp [Recurrence.state]
      | succ i =>
        right
        refine ⟨i, by omega, ?_⟩
        rw [hstate]
        rcases (by omega : j = 0 ∨ j = 1) with rfl | rfl
        · simp [Recurrence.state]
        · simp [Recurrence.state])
  obtain ⟨t, h1, h2, h3, h4, h5⟩ := key
  exact ⟨t, h1, h2, h3, h4, fun r hr => ⟨h5 r hr 0 (by norm_num), h5 r hr 1 (by norm_num)⟩⟩

theorem rec_honest (index n e : Nat) (hi : index < n) (secret : F) (g : F) (hord : orderOf g = n)
    (t : TraceTable F) (ht : ∀ r < n, t.get r 0 = some (Recurrence.state e secret r).1 ∧ t.get r 1 = some (Recurrence.state e secret r).2) :
    Hold g n (fun r i => (t.get r i).getD 0) (recQuotients g n index (Recurrence.state e secret index).1 e) := by
  rw [rec_hold g _ index _ e (by omega) hi hord]
  refine ⟨fun r hr => ?_, ?_, ?_⟩
  · simp only [(ht (r + 1) hr).1, (ht (r + 1) hr).2, (ht r (by omega)).1, (ht r (by omega)).2, Option.getD_some]
    exact ⟨rfl, rfl⟩
  · simp only [(ht 0 (by omega)).1, Option.getD_some]; rfl
  · simp only [(ht index hi).1, Option.getD_some]

/-- C78: for the claim the code makes (`claim`) `check` accepts the trace of the witness. -/
theorem C78_check (root : Nat → Option F) (hroot : RootFn root) (rep : F → U256) (index e : Nat) (hindex : Merkle.next_power_of_two (index + 1) < 2 ^ 64) (secret : F) (c : Constraints F)
    (hc : Recurrence.constraints root rep index (Recurrence.state e secret index).1 e = some c) :
    ∃ t, Recurrence.trace index secret e = some t ∧ TraceTable.check_constraints root c t = some (.ok ()) := by
  obtain ⟨g, hg, -, hqs, -, hocc, hes⟩ := rec_system root rep index _ e c hc
  obtain ⟨hi, -⟩ := rec_length index
  have hord := hroot _ g (by omega) hindex hg
  obtain ⟨t, h1, h2, h3, h4, h5⟩ := rec_trace index secret e
  refine ⟨t, h1, ?_⟩
  rw [check_iff root c _ hqs ?_ t h4 g (by rw [h2]; exact hg) ?_, h2]
  · exact rec_honest index _ e hi secret g hord t h5
  · intro q hq
    simp only [recQuotients, List.mem_cons, List.not_mem_nil, or_false] at hq
    rcases hq with rfl | rfl | rfl | rfl <;> simp [everyRow, onRow, NoZeroExp, Expr.sub, Expr.add]
  · intro x hx a ha
    rw [hes] at hx
    obtain ⟨o1, o2⟩ := hocc x hx a.1 a.2 ha
    exact ⟨by omega, by omega⟩

theorem rec_zeros (g : F) (n index : Nat) (v : F) (e : Nat) (hn : 0 < n) (hord : orderOf g = n) : ∀ q ∈ recQuotients g n index v e, SimpleZeros g n q.2 := by
  intro q hq
  simp only [recQuotients, List.mem_cons, List.not_mem_nil, or_false] at hq
  rcases hq with rfl | rfl | rfl | rfl
  · exact everyRow_zeros g n hord _
  · exact everyRow_zeros g n hord _
  · exact onRow_zeros g n hn hord _ _
  · exact onRow_zeros g n hn hord _ _

/-- C78: the claim the code makes can be proved, with the hypotheses of C50, for exponents up to 16. -/
theorem C78_prove (env : Env F) (hroot : RootFn env.root) (hcompat : RootCompat env.root) (hgen : env.generator ≠ 0)
    (hsearch : ∀ l n z, env.search l n = some z → l[z]? = some n) (o : Oracles F) (rep : F → U256) (index k e : Nat) (he : e ≤ 16) (hk : k + 4 < 64) (hk1 : 0 < k)
    (hn : Merkle.next_power_of_two (index + 1) = 2 ^ k) (secret : F) (c : Constraints F)
    (hc : Recurrence.constraints env.root rep index (Recurrence.state e secret index).1 e = some c) (hr : RunOk env o c) (w g : F) (hw : env.root (2 ^ k * 16) = some w)
    (hg : env.root (2 ^ k) = some g) (hcoset : ∀ x, EvalPoint env c x → x ^ 2 ^ k ≠ 1) :
    ∃ t, Recurrence.trace index secret e = some t ∧ ∀ T, ColumnPolys t g T → (∀ co, DrawnCoefficients env c t co → GraphOk env o c g T co) →
      (∀ s ch, commitPhase env o c t = .ok (s, ch) → OutOfDomain env c g T s.oods_point) →
      ∃ p, prove env o c t = .ok p ∧ Stark.verify env c p = .ok () := by
  obtain ⟨g', hg', hsys, hqs, hd, hocc, hes⟩ := rec_system env.root rep index _ e c hc
  obtain ⟨hi, -⟩ := rec_length index
  obtain ⟨t, h1, h2, h3, h4, h5⟩ := rec_trace index secret e
  refine ⟨t, h1, fun T hT hgraph hood => ?_⟩
  rw [hn] at *
  have hord := hroot _ g' (Nat.two_pow_pos _) (Nat.pow_lt_pow_right (by norm_num) (by omega)) hg'
  have hh := rec_honest index _ e hi secret g' hord t h5
  have : g' = g := Option.some.inj (hg'.symm.trans hg)
  subst this
  exact provable env hroot hcompat hgen hsearch o k (2 ^ k) 2 hk hk1 rfl (by norm_num) _ _ c hsys hr _ hqs g' hg (rec_zeros g' _ _ _ _ (Nat.two_pow_pos _) hord) (max e 1) hd
    (by omega) t h4 h2 h3 hocc hh w hw hcoset T hT hgraph hood

end

/-! ## A run

The claim that the value at index 3 is 961 (with the secret 5 and exponent 2: (1, 5), (25, 6), (36, 31), (961, 67)), over the field of 65537 elements. -/

namespace RecRun
open OpenZKP.Props.Small (Z K rep_toNat)
open Merkle (bind_ok_inv map_ok_inv)
open OpenZKP.Props.Size (env root root_ok root_compat draws draw h0 randomField_eq)

def o : Oracles Z := ⟨fun _ _ => 77, fun s i j => s ^ 2 * 9 + i * 5 + j * 11 + 1000, fun _ => some 0⟩
def rep (x : Z) : U256 := ⟨UInt64.ofNat x.val, 0, 0, 0⟩
def c : Constraints Z := (Recurrence.constraints root rep 3 (Recurrence.state 2 (5 : Z) 3).1 2).getD ⟨[], 0, 0, [], 0, 0, 0, [], []⟩

theorem system_eq : Recurrence.constraints root rep 3 (Recurrence.state 2 (5 : Z) 3).1 2 = some c := by
  unfold c
  cases h : Recurrence.constraints root rep 3 (Recurrence.state 2 (5 : Z) 3).1 2 with
  | some c0 => rfl
  | none =>
    have : (Recurrence.constraints root rep 3 (Recurrence.state 2 (5 : Z) 3).1 2).isSome = true := by decide +kernel
    rw [h] at this
    cases this

theorem rows_eq : Merkle.next_power_of_two (3 + 1) = 2 ^ 2 := by decide +kernel

-- the claim is true, and `check` accepts the trace
example : (Recurrence.state 2 (5 : Z) 3).1 = 961 := by decide +kernel
example : ∃ t, Recurrence.trace 3 (5 : Z) 2 = some t ∧ TraceTable.check_constraints root c t = some (.ok ()) :=
  C78_check root root_ok rep 3 2 (by rw [rows_eq]; norm_num) 5 c system_eq

open FibRun (norm norm_evaluate)

def combined : Expr Z := (c.combine (List.replicate 8 28784)).getD .X

theorem combined_eq : c.combine (List.replicate 8 28784) = some combined := by
  unfold combined
  cases h : c.combine (List.replicate 8 28784) with
  | some c0 => rfl
  | none =>
    have : (c.combine (List.replicate 8 28784)).isSome = true := by decide +kernel
    rw [h] at this
    cases this

theorem marks : ∀ p ∈ (Expr.Constant 0 :: Expr.Constant 1 :: subexpressions combined).map fun a => (mark 77 o.traceHash a, norm a),
    ∀ p' ∈ (Expr.Constant 0 :: Expr.Constant 1 :: subexpressions combined).map fun a => (mark 77 o.traceHash a, norm a),
    p.1 = p'.1 → p.2 = p'.2 := by decide +kernel

theorem graph_ok (T : Nat → Z[X]) (g : Z) : GraphOk env o c g T (List.replicate 8 28784) := by
  intro d E0 E' _ hE hE'
  rw [combined_eq] at hE
  cases hE
  have h2 : combined.substitute_claim [] = some combined := by decide +kernel
  rw [show c.claim_polynomials = [] by decide +kernel, h2] at hE'
  cases hE'
  refine ⟨by show mark 77 _ _ ≠ none; decide +kernel, ?_⟩
  intro a ha a' ha' hm x _
  have := marks _ (List.mem_map_of_mem ha) _ (List.mem_map_of_mem ha') hm
  rw [← norm_evaluate, show norm a = norm a' from this, norm_evaluate]

theorem degree : c.degree = some 2 := by decide +kernel

theorem run_ok : RunOk env o c where
  draws := draws
  size := by decide +kernel
  degree := by
    intro d hd
    rw [degree] at hd
    cases hd
    refine ⟨by norm_num, ?_⟩
    decide +kernel
  pow_bits := by decide +kernel
  constraints := by decide +kernel
  arguments := by
    intro c' args d h1 h2 h3
    rw [degree] at h3
    cases h3
    have : (c.substitute.bind (fun c' => c'.trace_arguments)).map List.length = some 4 := by decide +kernel
    rw [h1, Option.bind_some, h2] at this
    have := Option.some.inj this
    rw [this]
    decide +kernel
  nonce := by
    intro ch n h
    cases h
    norm_num
  solve := by
    intro seed ch h
    refine ⟨0, rfl, ?_⟩
    unfold with_difficulty at h
    rw [show c.pow_bits = 0 by decide +kernel, if_pos (by decide)] at h
    cases h
    unfold Challenge.verify
    obtain ⟨u, _, h1, -⟩ := draw
    rw [show ∀ x, env.K.hash x = h0 from fun _ => rfl, h1]
    exact decide_eq_true (Nat.zero_le _)

theorem point_ne (x : Z) (h : EvalPoint env c x) : x ^ 64 = 3 ^ 64 := by
  obtain ⟨y, h1, rfl⟩ := h
  rw [show c.trace_nrows * c.blowup = 64 by decide +kernel] at h1
  show (3 * y) ^ 64 = 3 ^ 64
  rw [mul_pow, h1, mul_one]

theorem oods_point (t : TraceTable Z) (s : Committed Z) (ch : ProverChannel) (h : commitPhase env o c t = .ok (s, ch)) : s.oods_point = 28784 := by
  unfold commitPhase at h
  obtain ⟨_, _, h⟩ := bind_ok_inv h
  obtain ⟨_, _, h⟩ := bind_ok_inv h
  obtain ⟨_, _, h⟩ := bind_ok_inv h
  obtain ⟨_, _, h⟩ := bind_ok_inv h
  obtain ⟨_, _, h⟩ := bind_ok_inv h
  obtain ⟨_, _, h⟩ := bind_ok_inv h
  obtain ⟨oods, ho, h⟩ := bind_ok_inv h
  obtain ⟨_, _, h⟩ := bind_ok_inv h
  obtain ⟨_, _, h⟩ := bind_ok_inv h
  obtain ⟨_, _, h⟩ := bind_ok_inv h
  obtain ⟨_, _, h⟩ := bind_ok_inv h
  obtain ⟨_, _, h⟩ := bind_ok_inv h
  split at h
  · cases h
  obtain ⟨_, _, h⟩ := bind_ok_inv h
  obtain ⟨_, _, h⟩ := map_ok_inv h
  cases h
  have ho := pPanic_inv ho
  unfold oods_combine at ho
  obtain ⟨_, _, ho⟩ := Option.bind_eq_some_iff.1 ho
  obtain ⟨r, hr, ho⟩ := Option.bind_eq_some_iff.1 ho
  obtain ⟨_, _, ho⟩ := Option.bind_eq_some_iff.1 ho
  obtain ⟨_, _, ho⟩ := Option.bind_eq_some_iff.1 ho
  obtain ⟨_, _, ho⟩ := Option.bind_eq_some_iff.1 ho
  obtain ⟨_, _, ho⟩ := Option.bind_eq_some_iff.1 ho
  obtain ⟨_, _, ho⟩ := Option.map_eq_some_iff.1 ho
  rw [← ho]
  dsimp only
  unfold ProverChannel.getField at hr
  obtain ⟨v, hv, hall⟩ := randomField_eq
  rw [show env.K = K from rfl, hall] at hr
  obtain ⟨_, h1, h2⟩ := Option.map_eq_some_iff.1 hr
  obtain ⟨_, _, h3⟩ := Option.map_eq_some_iff.1 h1
  rw [← h2, ← h3]
  show (v.toNat : Z) = 28784
  rw [← ZMod.natCast_mod, hv]
  rfl

theorem drawn (t : TraceTable Z) (co : List Z) (h : DrawnCoefficients env c t co) : co = List.replicate 8 28784 := by
  obtain ⟨polys, r, ch, -, -, h⟩ := h
  obtain ⟨v, hv, hall⟩ := randomField_eq
  have key : ∀ n c' l c'', PublicCoin.randomFields K n c' = some (l, c'') → l = List.replicate n v := by
    intro n
    induction n with
    | zero => intro c' l c'' h; cases h; rfl
    | succ n ih =>
      intro c' l c'' h
      unfold PublicCoin.randomFields at h
      simp only [hall, Option.bind_eq_some_iff, Option.map_eq_some_iff] at h
      obtain ⟨a, ⟨_, _, rfl⟩, b, hb, hl⟩ := h
      cases hl
      rw [ih _ _ _ hb, List.replicate_succ]
  unfold ProverChannel.getFields at h
  obtain ⟨l, h1, h2⟩ := Option.map_eq_some_iff.1 h
  rw [show 2 * c.expressions.length = 8 by decide +kernel] at h1
  have h3 := key 8 _ l.1 l.2 h1
  have h4 := congrArg Prod.fst h2
  dsimp only at h4
  have : env.codec.val v = 28784 := by
    show (v.toNat : Z) = 28784
    rw [← ZMod.natCast_mod, hv]
    rfl
  rw [← h4, h3, List.map_replicate, this]

theorem out_of_domain (T : Nat → Z[X]) : OutOfDomain env c 65281 T 28784 := by
  obtain ⟨g', hg', hsys, hqs, hd, hocc, hes⟩ := rec_system root rep 3 _ 2 c system_eq
  have : g' = 65281 := Option.some.inj (hg'.symm.trans (by decide +kernel))
  subst this
  refine ⟨fun x hx => ⟨fun e he i j hij => ?_, fun d hd => ?_⟩, ?_⟩
  · have hx := point_ne x hx
    rintro rfl
    have h4 : ((65281 : Z) ^ j) ^ 64 = 1 := by
      rw [← zpow_natCast, ← zpow_mul, mul_comm, zpow_mul, zpow_natCast, show (65281 : Z) ^ 64 = 1 by decide +kernel, one_zpow]
    rw [mul_pow, h4] at hx
    revert hx
    decide +kernel
  · have hx := point_ne x hx
    rw [degree] at hd
    cases hd
    rintro rfl
    revert hx
    decide +kernel
  · refine defined c _ hqs 65281 T 28784 fun q hq => ?_
    rw [rows_eq] at hq
    have ho : orderOf (65281 : Z) = 2 ^ 2 := root_ok _ _ (by norm_num) (by norm_num) (by decide +kernel)
    exact (rec_zeros 65281 (2 ^ 2) 3 _ 2 (by norm_num) ho q hq).2 28784 (by decide +kernel)

/-- the claim is proved and the proof accepted -/
theorem proved : ∃ p, Stark.verify env c p = .ok () := by
  obtain ⟨t, h1, h2⟩ := C78_prove env root_ok root_compat (by decide +kernel) (by
    intro l n z hz
    obtain ⟨h3, h4, -⟩ := List.findIdx?_eq_some_iff_getElem.1 hz
    rw [List.getElem?_eq_getElem h3]
    simpa using h4) o rep 3 2 2 (by norm_num) (by norm_num) (by norm_num) rows_eq 5 c system_eq run_ok 8224 65281 (by decide +kernel) (by decide +kernel) (by
    intro x hx h0
    have hx := point_ne x hx
    rw [show x ^ 64 = (x ^ 2 ^ 2) ^ 16 by ring, h0] at hx
    revert hx
    decide +kernel)
  obtain ⟨t', h3, h4, h5, h6, h7⟩ := rec_trace 3 (5 : Z) 2
  have : t' = t := Option.some.inj (h3.symm.trans h1)
  subst this
  obtain ⟨ps, i1, i2, i3⟩ := C46_interpolate root root_ok t' h6 2 (by norm_num) (by rw [h4, rows_eq]) 65281 (by
    unfold TraceTable.generator
    rw [h4, rows_eq]
    decide +kernel)
  obtain ⟨p, -, hp⟩ := h2 (fun j => toPoly (ps.getD j [])) (by
    intro j hj
    obtain ⟨q, q1, q2, q3⟩ := i3 j hj
    have : ps.getD j [] = q := by rw [List.getD, q1]; rfl
    simp only [this]
    refine ⟨?_, ?_⟩
    · have := toPoly_degree_lt q
      rw [q2] at this
      rw [h4, rows_eq]
      exact this
    · intro i hi
      rw [h4, rows_eq] at hi
      exact q3 i hi) (fun co hco => by rw [drawn t' co hco]; exact graph_ok _ _) (fun s ch hs => by rw [oods_point t' s ch hs]; exact out_of_domain _)
  exact ⟨p, hp⟩

-- what this proof shows
example : ∃ p, Stark.verify env c p = .ok () ∧ Shows env c 2 (max 2 1) p fun t => (Recurrence.state 2 (5 : Z) 3).1 = (Recurrence.state 2 (t 0 1) 3).1 := by
  obtain ⟨p, hp⟩ := proved
  refine ⟨p, hp, C78_accepted env root_ok root_compat ?_ (by decide +kernel) rep 3 2 2 (by norm_num) rows_eq _ c system_eq p hp⟩
  intro l n _
  refine ⟨fun z hz => ?_, fun h hn => ?_⟩
  · obtain ⟨h3, h4, -⟩ := List.findIdx?_eq_some_iff_getElem.1 hz
    rw [List.getElem?_eq_getElem h3]
    simpa using h4
  · have := List.findIdx?_eq_none_iff.1 h n hn
    simp at this

end RecRun

end Props
end OpenZKP
