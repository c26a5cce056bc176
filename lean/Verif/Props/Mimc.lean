import Verif.Examples.Run

/-!
# The example systems: C69 (MiMC)
-/

namespace OpenZKP
namespace Props
open Stark FFT Polynomial Examples Stark.Accept

section
variable {F : Type} [Field F] [DecidableEq F]

/-! ## Specification -/

/-- The MiMC permutation: `x ↦ x³ + k`, with the 16 constants in turn. -/
def mimcSequence (constants : List F) (start : F) : Nat → F
  | 0 => start
  | i + 1 => mimcSequence constants start i ^ 3 + constants.getD (i % 16) 0

/-- The sponge of the MiMC hash on two inputs, state by state: the state `(x, 0)`, 128 rounds, the left half replaced by `y`, 127 rounds. -/
def spongeState (q : F) (constants : List F) (x y : F) : Nat → F × F
  | 0 => (x, 0)
  | i + 1 =>
    let (left, right) := spongeState q constants x y i
    (if i + 1 = 128 then y else left ^ 3 + 3 * q * left * right ^ 2 + constants.getD (i % 128) 0, 3 * left ^ 2 + q * right ^ 3)

/-- The table can be proved for the system, under the conditions of C50 on the run of the prover (`RunOk`: no draw fails, sizes fit; the expression graph has no
false match; the out-of-domain point is out of the domain). -/
def Provable (env : Env F) (o : Oracles F) (c : Constraints F) (k : Nat) (g : F) (t : TraceTable F) : Prop :=
  RunOk env o c → (∃ w, env.root (2 ^ k * 16) = some w) → (∀ x, EvalPoint env c x → x ^ 2 ^ k ≠ 1) →
  ∀ T, ColumnPolys t g T → (∀ co, DrawnCoefficients env c t co → GraphOk env o c g T co) →
    (∀ s ch, commitPhase env o c t = .ok (s, ch) → OutOfDomain env c g T s.oods_point) →
    ∃ p, prove env o c t = .ok p ∧ Stark.verify env c p = .ok ()

/-! ## Systems of quotients -/

theorem system_shows (env : Env F) (hroot : RootFn env.root) (hcompat : RootCompat env.root) (hsearch : SearchOk env.search) (hgen : env.generator ≠ 0)
    (c : Constraints F) (k columns : Nat) (g : F) (qs : List (Expr F × Expr F)) (d : Nat) (h : SystemIs env.root c k columns g qs d) (hk : k + 4 < 64)
    (p : Bytes) (hp : Stark.verify env c p = .ok ()) (Claim : (Nat → Nat → F) → Prop) (hclaim : ∀ t, RowsSatisfy c g (2 ^ k) t → Claim t) : Shows env c k d p Claim := by
  obtain ⟨seed, es, hsys, -⟩ := h.built
  refine shows_of_rows env hroot hcompat hsearch hgen k d _ columns hk rfl seed es c hsys h.degree.1 p hp Claim fun g' t hg' ht => ?_
  have : g' = g := Option.some.inj (hg'.symm.trans h.generator)
  subst this
  exact hclaim t ht

theorem system_provable (env : Env F) (hroot : RootFn env.root) (hcompat : RootCompat env.root) (hgen : env.generator ≠ 0)
    (hsearch : ∀ l n z, env.search l n = some z → l[z]? = some n) (o : Oracles F)
    (c : Constraints F) (k columns : Nat) (g : F) (qs : List (Expr F × Expr F)) (d : Nat) (h : SystemIs env.root c k columns g qs d) (hk : k + 4 < 64) (hk1 : 0 < k)
    (t : TraceTable F) (ht : TableOk t) (hlen : t.trace_length = 2 ^ k) (hcols : t.num_columns = columns)
    (hhold : Hold g (2 ^ k) (fun r i => (t.get r i).getD 0) qs) : Provable env o c k g t := by
  rintro hr ⟨w, hw⟩ hcoset T hT hgraph hood
  obtain ⟨seed, es, hsys, hocc⟩ := h.built
  exact provable env hroot hcompat hgen hsearch o k _ columns hk hk1 rfl h.columns_pos seed es c hsys hr qs h.quotients g h.generator (fun q hq => (h.zeros q hq).1)
    d h.degree.1 h.degree.2 t ht hlen hcols hocc hhold w hw hcoset T hT hgraph hood

theorem root_order (root : Nat → Option F) (hroot : RootFn root) (k : Nat) (hk : k < 64) (g : F) (hg : root (2 ^ k) = some g) : orderOf g = 2 ^ k :=
  hroot _ g (Nat.two_pow_pos _) (Nat.pow_lt_pow_right (by norm_num) hk) hg

/-! ## mimc_cubic.rs -/

def cubicQuotients (g : F) (n : Nat) (e : Expr F) (before after : F) : List (Expr F × Expr F) :=
  [everyRow g n (Expr.sub (.Trace 0 1) (Expr.add (.Exp (.Trace 0 0) 3) e)), onRow g 0 (Expr.sub (.Trace 0 0) (.Constant before)),
    onRow g (n - 1) (Expr.sub (.Trace 0 0) (.Constant after))]

theorem cubic_is (root : Nat → Option F) (hroot : RootFn root) (hcompat : RootCompat root) (rep : F → U256) (k : Nat) (hk : k < 64) (hk4 : 4 ≤ k)
    (constants : List F) (hlen : constants.length = 16) (before after : F) (c : Constraints F)
    (h : Cubic.constraints root rep (2 ^ k) constants before after = some c) (g : F) (hg : root (2 ^ k) = some g) :
    ∃ e : Expr F, (∀ r tr, value (g ^ r) tr e = constants.getD (r % 16) 0) ∧ SystemIs root c k 1 g (cubicQuotients g (2 ^ k) e before after) 3 := by
  have hord := root_order root hroot k hk g hg
  unfold Cubic.constraints at h
  obtain ⟨g', hg', h⟩ := Option.bind_eq_some_iff.1 h
  have : g' = g := Option.some.inj (hg'.symm.trans hg)
  subst this
  obtain ⟨e, he, h⟩ := Option.bind_eq_some_iff.1 h
  obtain ⟨p, hp, -, hval⟩ := periodic_spec root hroot hcompat k 4 hk hk4 g' hg constants (by rw [hlen]; rfl)
  rw [hp] at he
  have := Option.some.inj he
  subst this
  obtain ⟨-, hc⟩ := system_some _ _ _ _ _ _ h
  refine ⟨_, hval, hk, hord, hg, ⟨_, _, h, ?_⟩, by norm_num, ?_, ?_, ?_, by norm_num⟩
  · intro e he i j hij
    simp only [List.mem_cons, List.not_mem_nil, or_false] at he
    rcases he with rfl | rfl | rfl <;>
      simp [Occurs, every_row, on_row, Expr.sub, Expr.add, Expr.neg, Expr.mul, Expr.div, Expr.inv, Expr.pow] at hij <;> omega
  · rw [hc]
    unfold Quotients cubicQuotients
    refine .cons (everyRow_quotient _ _ _ ?_) (.cons (onRow_quotient _ _ _ ?_) (.cons (onRow_quotient _ _ _ ?_) .nil)) <;>
      simp [DivFree, Expr.sub, Expr.add, Expr.neg, Expr.pow]
  · intro q hq
    simp only [cubicQuotients, List.mem_cons, List.not_mem_nil, or_false] at hq
    rcases hq with rfl | rfl | rfl
    · exact ⟨everyRow_zeros g' _ hord _, by simp [everyRow, onRow, NoZeroExp, Expr.sub, Expr.add, Expr.pow]⟩
    · exact ⟨onRow_zeros g' _ (Nat.two_pow_pos _) hord _ _, by simp [everyRow, onRow, NoZeroExp, Expr.sub, Expr.add]⟩
    · exact ⟨onRow_zeros g' _ (Nat.two_pow_pos _) hord _ _, by simp [everyRow, onRow, NoZeroExp, Expr.sub, Expr.add]⟩
  · rw [hc]
    simp [Constraints.degree, Expr.trace_degree, Expr.degree_impl, every_row, on_row, Expr.sub, Expr.add, Expr.neg, Expr.mul, Expr.div, Expr.inv, Expr.pow, csub, Constraints.maxOf]

theorem last_row (n : Nat) (hn : 0 < n) : (n - 1) % n = n - 1 := Nat.mod_eq_of_lt (by omega)

theorem cubic_hold (g : F) (n : Nat) (hn : 0 < n) (hord : orderOf g = n) (constants : List F) (e : Expr F) (he : ∀ r tr, value (g ^ r) tr e = constants.getD (r % 16) 0)
    (before after : F) (t : Nat → Nat → F) :
    Hold g n t (cubicQuotients g n e before after) ↔ (∀ r < n, t r 0 = mimcSequence constants before r) ∧ after = mimcSequence constants before (n - 1) := by
  unfold Hold cubicQuotients
  simp only [List.forall_mem_cons, everyRow_iff g n hn hord, onRow_iff g n hn hord, value_sub, value_add, value_const, value, he, List.not_mem_nil, false_imp_iff, implies_true,
    and_true, Nat.zero_mod, last_row n hn, row_same 0 n hn, row_same (n - 1) n (by omega)]
  constructor
  · rintro ⟨h1, h2, h3⟩
    have key : ∀ r < n, t r 0 = mimcSequence constants before r := by
      intro r
      induction r with
      | zero => intro _; exact sub_eq_zero.1 h2
      | succ r ih =>
        intro hr
        have := h1 r hr
        rw [row_next r n hr, row_same r n (by omega), ih (by omega)] at this
        exact sub_eq_zero.1 this
    exact ⟨key, by rw [← key _ (by omega)]; exact (sub_eq_zero.1 h3).symm⟩
  · rintro ⟨h1, h2⟩
    refine ⟨fun r hr => ?_, ?_, ?_⟩
    · rw [row_next r n hr, row_same r n (by omega), h1 _ hr, h1 r (by omega)]
      exact sub_self _
    · rw [h1 0 hn]; exact sub_self _
    · rw [h1 (n - 1) (by omega), h2, sub_self]

omit [DecidableEq F] in
theorem mimc_state (constants : List F) (start : F) (n : Nat) :
    stateAt (fun i prev => prev ^ 3 + constants.getD (i % 16) 0) 0 start n = mimcSequence constants start n := by
  induction n with
  | zero => rfl
  | succ n ih => rw [stateAt, ih, zero_add]; rfl

theorem cubic_trace (n : Nat) (hn : 0 < n) (constants : List F) (before after : F) (hafter : after = mimcSequence constants before (n - 1)) :
    ∃ t, Cubic.trace n constants before after = some t ∧ t.trace_length = n ∧ t.num_columns = 1 ∧ TableOk t ∧ ∀ r < n, t.get r 0 = some (mimcSequence constants before r) := by
  obtain ⟨t, h1, h2, h3, h4, h5⟩ := tableOf_spec n 1 (loop (fun i prev => prev ^ 3 + constants.getD (i % 16) 0) (fun i prev => [(i, 0, prev)]) n 0 before)
    (fun i _ => mimcSequence constants before i) (by
      intro i j v h
      rw [mem_loop] at h
      obtain ⟨k, hk, h⟩ := h
      rw [mimc_state, List.mem_singleton, zero_add] at h
      cases h
      exact ⟨hk, by norm_num, rfl⟩) (by
      intro i hi j hj
      rw [mem_loop]
      refine ⟨i, hi, ?_⟩
      rw [mimc_state, List.mem_singleton, zero_add, show j = 0 by omega])
  refine ⟨t, ?_, h2, h3, h4, fun r hr => h5 r hr 0 (by norm_num)⟩
  unfold Cubic.trace
  rw [h1, Option.bind_some, h5 (n - 1) (by omega) 0 (by norm_num), Option.bind_some, if_pos hafter.symm]

/-! ## mimc_quadratic.rs -/

def quadraticQuotients (g : F) (n : Nat) (e : Expr F) (before after : F) : List (Expr F × Expr F) :=
  [everyRow g n (Expr.sub (Expr.mul (.Trace 0 0) (.Trace 0 0)) (.Trace 1 0)), everyRow g n (Expr.sub (Expr.mul (.Trace 0 0) (.Trace 1 0)) (.Trace 2 0)),
    everyRow g n (Expr.sub (.Trace 0 1) (Expr.add (.Trace 2 0) e)), onRow g 0 (Expr.sub (.Trace 0 0) (.Constant before)),
    onRow g (n - 1) (Expr.sub (.Trace 0 0) (.Constant after))]

theorem quadratic_is (root : Nat → Option F) (hroot : RootFn root) (hcompat : RootCompat root) (rep : F → U256) (k : Nat) (hk : k < 64) (hk4 : 4 ≤ k)
    (constants : List F) (hlen : constants.length = 16) (before after : F) (c : Constraints F)
    (h : Quadratic.constraints root rep (2 ^ k) constants before after = some c) (g : F) (hg : root (2 ^ k) = some g) :
    ∃ e : Expr F, (∀ r tr, value (g ^ r) tr e = constants.getD (r % 16) 0) ∧ SystemIs root c k 3 g (quadraticQuotients g (2 ^ k) e before after) 2 := by
  have hord := root_order root hroot k hk g hg
  unfold Quadratic.constraints at h
  obtain ⟨g', hg', h⟩ := Option.bind_eq_some_iff.1 h
  have : g' = g := Option.some.inj (hg'.symm.trans hg)
  subst this
  obtain ⟨e, he, h⟩ := Option.bind_eq_some_iff.1 h
  obtain ⟨p, hp, -, hval⟩ := periodic_spec root hroot hcompat k 4 hk hk4 g' hg constants (by rw [hlen]; rfl)
  rw [hp] at he
  have := Option.some.inj he
  subst this
  obtain ⟨-, hc⟩ := system_some _ _ _ _ _ _ h
  refine ⟨_, hval, hk, hord, hg, ⟨_, _, h, ?_⟩, by norm_num, ?_, ?_, ?_, by norm_num⟩
  · intro e he i j hij
    simp only [List.mem_cons, List.not_mem_nil, or_false] at he
    rcases he with rfl | rfl | rfl | rfl | rfl <;>
      simp [Occurs, every_row, on_row, Expr.sub, Expr.add, Expr.neg, Expr.mul, Expr.div, Expr.inv, Expr.pow] at hij <;> omega
  · rw [hc]
    unfold Quotients quadraticQuotients
    refine .cons (everyRow_quotient _ _ _ ?_) (.cons (everyRow_quotient _ _ _ ?_) (.cons (everyRow_quotient _ _ _ ?_) (.cons (onRow_quotient _ _ _ ?_)
      (.cons (onRow_quotient _ _ _ ?_) .nil)))) <;>
      simp [DivFree, Expr.sub, Expr.add, Expr.neg, Expr.pow, Expr.mul]
  · intro q hq
    simp only [quadraticQuotients, List.mem_cons, List.not_mem_nil, or_false] at hq
    rcases hq with rfl | rfl | rfl | rfl | rfl
    · exact ⟨everyRow_zeros g' _ hord _, by simp [everyRow, onRow, NoZeroExp, Expr.sub, Expr.add, Expr.pow, Expr.mul]⟩
    · exact ⟨everyRow_zeros g' _ hord _, by simp [everyRow, onRow, NoZeroExp, Expr.sub, Expr.add, Expr.pow, Expr.mul]⟩
    · exact ⟨everyRow_zeros g' _ hord _, by simp [everyRow, onRow, NoZeroExp, Expr.sub, Expr.add, Expr.pow, Expr.mul]⟩
    · exact ⟨onRow_zeros g' _ (Nat.two_pow_pos _) hord _ _, by simp [everyRow, onRow, NoZeroExp, Expr.sub, Expr.add]⟩
    · exact ⟨onRow_zeros g' _ (Nat.two_pow_pos _) hord _ _, by simp [everyRow, onRow, NoZeroExp, Expr.sub, Expr.add]⟩
  · rw [hc]
    simp [Constraints.degree, Expr.trace_degree, Expr.degree_impl, every_row, on_row, Expr.sub, Expr.add, Expr.neg, Expr.mul, Expr.div, Expr.inv, Expr.pow, csub, Constraints.maxOf]

theorem quadratic_hold (g : F) (n : Nat) (hn : 0 < n) (hord : orderOf g = n) (constants : List F) (e : Expr F) (he : ∀ r tr, value (g ^ r) tr e = constants.getD (r % 16) 0)
    (before after : F) (t : Nat → Nat → F) :
    Hold g n t (quadraticQuotients g n e before after) ↔ (∀ r < n, t r 0 = mimcSequence constants before r) ∧
      (∀ r, r + 1 < n → t r 1 = t r 0 ^ 2 ∧ t r 2 = t r 0 ^ 3) ∧ after = mimcSequence constants before (n - 1) := by
  unfold Hold quadraticQuotients
  simp only [List.forall_mem_cons, everyRow_iff g n hn hord, onRow_iff g n hn hord, value_sub, value_add, value_mul, value_const, value, he, List.not_mem_nil, false_imp_iff,
    implies_true, and_true, Nat.zero_mod, last_row n hn, row_same 0 n hn, row_same (n - 1) n (by omega)]
  constructor
  · rintro ⟨h1, h2, h3, h4, h5⟩
    have sq : ∀ r, r + 1 < n → t r 1 = t r 0 ^ 2 ∧ t r 2 = t r 0 ^ 3 := by
      intro r hr
      have e1 := h1 r hr
      have e2 := h2 r hr
      rw [row_same r n (by omega)] at e1 e2
      have e1 : t r 1 = t r 0 ^ 2 := by linear_combination -e1
      rw [e1] at e2
      exact ⟨e1, by linear_combination -e2⟩
    have key : ∀ r < n, t r 0 = mimcSequence constants before r := by
      intro r
      induction r with
      | zero => intro _; exact sub_eq_zero.1 h4
      | succ r ih =>
        intro hr
        have := h3 r hr
        rw [row_next r n hr, row_same r n (by omega), (sq r hr).2, ih (by omega)] at this
        exact sub_eq_zero.1 this
    exact ⟨key, sq, by rw [← key _ (by omega)]; exact (sub_eq_zero.1 h5).symm⟩
  · rintro ⟨h1, h2, h3⟩
    refine ⟨fun r hr => ?_, fun r hr => ?_, fun r hr => ?_, ?_, ?_⟩
    · rw [row_same r n (by omega), (h2 r hr).1]; ring
    · rw [row_same r n (by omega), (h2 r hr).1, (h2 r hr).2]; ring
    · rw [row_next r n hr, row_same r n (by omega), h1 _ hr, (h2 r hr).2, h1 r (by omega)]
      exact sub_self _
    · rw [h1 0 hn]; exact sub_self _
    · rw [h1 (n - 1) (by omega), h3, sub_self]

omit [DecidableEq F] in
theorem quadratic_state (constants : List F) (start : F) (n : Nat) :
    stateAt (fun i prev => prev * prev ^ 2 + constants.getD (i % 16) 0) 0 start n = mimcSequence constants start n := by
  induction n with
  | zero => rfl
  | succ n ih => rw [stateAt, ih, zero_add, mimcSequence]; ring

theorem quadratic_trace (n : Nat) (hn : 0 < n) (constants : List F) (before after : F) (hafter : after = mimcSequence constants before (n - 1)) :
    ∃ t, Quadratic.trace n constants before after = some t ∧ t.trace_length = n ∧ t.num_columns = 3 ∧ TableOk t ∧
      ∀ r < n, t.get r 0 = some (mimcSequence constants before r) ∧ t.get r 1 = some (mimcSequence constants before r ^ 2) ∧ t.get r 2 = some (mimcSequence constants before r ^ 3) := by
  obtain ⟨t, h1, h2, h3, h4, h5⟩ := tableOf_spec n 3 (loop (fun i prev => prev * prev ^ 2 + constants.getD (i % 16) 0)
    (fun i prev => [(i, 0, prev), (i, 1, prev ^ 2), (i, 2, prev * prev ^ 2)]) n 0 before)
    (fun i j => mimcSequence constants before i ^ (j + 1)) (by
      intro i j v h
      rw [mem_loop] at h
      obtain ⟨k, hk, h⟩ := h
      rw [quadratic_state, zero_add] at h
      simp only [List.mem_cons, List.not_mem_nil, or_false, Prod.mk.injEq] at h
      rcases h with ⟨rfl, rfl, rfl⟩ | ⟨rfl, rfl, rfl⟩ | ⟨rfl, rfl, rfl⟩
      · exact ⟨hk, by norm_num, (pow_one _).symm⟩
      · exact ⟨hk, by norm_num, rfl⟩
      · exact ⟨hk, by norm_num, by ring⟩) (by
      intro i hi j hj
      rw [mem_loop]
      refine ⟨i, hi, ?_⟩
      rw [quadratic_state, zero_add]
      rcases (by omega : j = 0 ∨ j = 1 ∨ j = 2) with rfl | rfl | rfl
      · simp
      · simp
      · rw [show mimcSequence constants before i * mimcSequence constants before i ^ 2 = mimcSequence constants before i ^ (2 + 1) by ring]
        simp)
  refine ⟨t, ?_, h2, h3, h4, fun r hr => ⟨?_, h5 r hr 1 (by norm_num), h5 r hr 2 (by norm_num)⟩⟩
  · unfold Quadratic.trace
    rw [h1, Option.bind_some, h5 (n - 1) (by omega) 0 (by norm_num), Option.bind_some, zero_add, pow_one, if_pos hafter.symm]
  · rw [h5 r hr 0 (by norm_num), zero_add, pow_one]

/-! ## mimc_hash.rs -/

def hashQuotients (g : F) (q : F) (e : Expr F) (x y after : F) : List (Expr F × Expr F) :=
  [loopRows g 256 128 (Hash.leftStep q e), everyRow g 256 (Hash.rightStep q), onRow g 0 (Expr.sub (.Trace 0 0) (.Constant x)), onRow g 0 (.Trace 1 0),
    onRow g 128 (Expr.sub (.Trace 0 0) (.Constant y)), onRow g 255 (Expr.sub (.Trace 0 0) (.Constant after))]

theorem hash_is (root : Nat → Option F) (hroot : RootFn root) (hcompat : RootCompat root) (rep : F → U256)
    (q : F) (constants : List F) (hlen : constants.length = 128) (x y after : F) (c : Constraints F)
    (h : Hash.constraints root rep q constants x y after = some c) (g : F) (hg : root 256 = some g) :
    ∃ e : Expr F, (∀ r tr, value (g ^ r) tr e = constants.getD (r % 128) 0) ∧ SystemIs root c 8 2 g (hashQuotients g q e x y after) 3 := by
  have hord : orderOf g = 256 := root_order root hroot 8 (by norm_num) g hg
  unfold Hash.constraints at h
  obtain ⟨g', hg', h⟩ := Option.bind_eq_some_iff.1 h
  have : g' = g := Option.some.inj (hg'.symm.trans hg)
  subst this
  obtain ⟨e, he, h⟩ := Option.bind_eq_some_iff.1 h
  obtain ⟨p, hp, -, hval⟩ := periodic_spec root hroot hcompat 8 7 (by norm_num) (by norm_num) g' hg constants (by rw [hlen]; rfl)
  rw [show (256 : Nat) = 2 ^ 8 by norm_num, hp] at he
  have := Option.some.inj he
  subst this
  obtain ⟨-, hc⟩ := system_some _ _ _ _ _ _ h
  refine ⟨_, hval, by norm_num, hord, hg, ⟨_, _, h, ?_⟩, by norm_num, ?_, ?_, ?_, by norm_num⟩
  · intro e he i j hij
    simp only [List.mem_cons, List.not_mem_nil, or_false] at he
    rcases he with rfl | rfl | rfl | rfl | rfl | rfl <;>
      simp [Occurs, every_row, on_row, Hash.on_loop_rows, Hash.leftStep, Hash.rightStep, Expr.sub, Expr.add, Expr.neg, Expr.mul, Expr.div, Expr.inv, Expr.pow] at hij <;> omega
  · rw [hc]
    unfold Quotients hashQuotients
    refine .cons (loopRows_quotient _ _ _ _ ?_) (.cons (everyRow_quotient _ _ _ ?_) (.cons (onRow_quotient _ _ _ ?_) (.cons (onRow_quotient _ _ _ ?_)
      (.cons (onRow_quotient _ _ _ ?_) (.cons (onRow_quotient _ _ _ ?_) .nil))))) <;>
      simp [DivFree, Hash.leftStep, Hash.rightStep, Expr.sub, Expr.add, Expr.neg, Expr.pow, Expr.mul]
  · intro q hq
    simp only [hashQuotients, List.mem_cons, List.not_mem_nil, or_false] at hq
    rcases hq with rfl | rfl | rfl | rfl | rfl | rfl
    · exact ⟨loopRows_zeros g' _ _ hord _, by simp [loopRows, NoZeroExp, Hash.leftStep, Expr.sub, Expr.add, Expr.pow, Expr.mul]⟩
    · exact ⟨everyRow_zeros g' _ hord _, by simp [everyRow, NoZeroExp, Hash.rightStep, Expr.sub, Expr.add, Expr.pow, Expr.mul]⟩
    · exact ⟨onRow_zeros g' _ (Nat.two_pow_pos _) hord _ _, by simp [onRow, NoZeroExp, Expr.sub, Expr.add]⟩
    · exact ⟨onRow_zeros g' _ (Nat.two_pow_pos _) hord _ _, by simp [onRow, NoZeroExp, Expr.sub, Expr.add]⟩
    · exact ⟨onRow_zeros g' _ (Nat.two_pow_pos _) hord _ _, by simp [onRow, NoZeroExp, Expr.sub, Expr.add]⟩
    · exact ⟨onRow_zeros g' _ (Nat.two_pow_pos _) hord _ _, by simp [onRow, NoZeroExp, Expr.sub, Expr.add]⟩
  · rw [hc]
    simp [Constraints.degree, Expr.trace_degree, Expr.degree_impl, every_row, on_row, Hash.on_loop_rows, Hash.leftStep, Hash.rightStep, Expr.sub, Expr.add, Expr.neg, Expr.mul,
      Expr.div, Expr.inv, Expr.pow, csub, Constraints.maxOf]

omit [DecidableEq F] in
theorem sponge_succ (q : F) (constants : List F) (x y : F) (i : Nat) : spongeState q constants x y (i + 1) =
    (if i + 1 = 128 then y else (Hash.round q (constants.getD (i % 128) 0) (spongeState q constants x y i)).1,
      (Hash.round q (constants.getD (i % 128) 0) (spongeState q constants x y i)).2) := rfl

theorem hash_hold (g : F) (hord : orderOf g = 256) (q : F) (constants : List F) (e : Expr F) (he : ∀ r tr, value (g ^ r) tr e = constants.getD (r % 128) 0)
    (x y after : F) (t : Nat → Nat → F) :
    Hold g 256 t (hashQuotients g q e x y after) ↔
      (∀ r < 256, (t r 0, t r 1) = spongeState q constants x y r) ∧ after = (spongeState q constants x y 255).1 := by
  unfold Hold hashQuotients
  simp only [List.forall_mem_cons, loopRows_iff g 256 128 (by norm_num) hord (by norm_num), everyRow_iff g 256 (by norm_num) hord, onRow_iff g 256 (by norm_num) hord,
    Hash.leftStep, Hash.rightStep, value_sub, value_add, value_mul, value_const, value, he, List.not_mem_nil, false_imp_iff,
    implies_true, and_true, Nat.zero_mod, show 128 % 256 = 128 from rfl, show 255 % 256 = 255 from rfl, row_same 0 256 (by norm_num), row_same 128 256 (by norm_num),
    row_same 255 256 (by norm_num)]
  constructor
  · rintro ⟨h1, h2, h3, h4, h5, h6⟩
    have key : ∀ r < 256, (t r 0, t r 1) = spongeState q constants x y r := by
      intro r
      induction r with
      | zero => intro _; rw [spongeState, h4, sub_eq_zero.1 h3]
      | succ r ih =>
        intro hr
        have e2 := h2 r hr
        rw [row_next r 256 hr, row_same r 256 (by omega)] at e2
        have i1 := congrArg Prod.fst (ih (by omega))
        have i2 := congrArg Prod.snd (ih (by omega))
        dsimp only at i1 i2
        rw [sponge_succ]
        apply Prod.ext
        · dsimp only
          split
          · rename_i h128
            rw [h128, sub_eq_zero.1 h5]
          · have e1 := h1 r (by omega) (by omega)
            rw [row_next r 256 hr, row_same r 256 (by omega)] at e1
            rw [← sub_eq_zero.1 e1, i1, i2]
            rfl
        · dsimp only
          rw [← sub_eq_zero.1 e2, i1, i2]
          rfl
    exact ⟨key, by rw [← key 255 (by norm_num)]; exact (sub_eq_zero.1 h6).symm⟩
  · rintro ⟨h1, h2⟩
    have i1 : ∀ r < 256, t r 0 = (spongeState q constants x y r).1 := fun r hr => congrArg Prod.fst (h1 r hr)
    have i2 : ∀ r < 256, t r 1 = (spongeState q constants x y r).2 := fun r hr => congrArg Prod.snd (h1 r hr)
    refine ⟨fun r hr h0 => ?_, fun r hr => ?_, ?_, ?_, ?_, ?_⟩
    · have hr : r + 1 < 256 := by omega
      rw [row_next r 256 hr, row_same r 256 (by omega), i1 (r + 1) hr, i1 r (by omega), i2 r (by omega), sponge_succ, if_neg (by omega)]
      exact sub_self _
    · rw [row_next r 256 hr, row_same r 256 (by omega), i2 (r + 1) hr, i1 r (by omega), i2 r (by omega), sponge_succ]
      exact sub_self _
    · rw [i1 0 (by norm_num)]; exact sub_self _
    · rw [i2 0 (by norm_num)]; rfl
    · rw [i1 128 (by norm_num), sponge_succ, if_pos rfl]; exact sub_self _
    · rw [i1 255 (by norm_num), h2]; exact sub_self _

omit [Field F] [DecidableEq F] in
theorem foldl_range_state {σ : Type} (step : Nat → σ → σ) (s : σ) (n : Nat) : (List.range n).foldl (fun s i => step i s) s = stateAt step 0 s n := by
  induction n with
  | zero => rfl
  | succ n ih => rw [List.range_succ, List.foldl_append, ih, List.foldl_cons, List.foldl_nil, stateAt, zero_add]

omit [DecidableEq F] in
theorem sponge_first (q : F) (constants : List F) (x y : F) (i : Nat) (hi : i < 128) :
    stateAt (fun i s => Hash.round q (constants.getD i 0) s) 0 (x, 0) i = spongeState q constants x y i := by
  induction i with
  | zero => rfl
  | succ i ih => rw [stateAt, ih (by omega), sponge_succ, if_neg (by omega), zero_add, Nat.mod_eq_of_lt (show i < 128 by omega)]

omit [DecidableEq F] in
theorem sponge_middle (q : F) (constants : List F) (x y : F) :
    (stateAt (fun i s => Hash.round q (constants.getD i 0) s) 0 (x, 0) 128).2 = (spongeState q constants x y 128).2 := by
  rw [show 128 = 127 + 1 from rfl, stateAt, sponge_first q constants x y 127 (by norm_num), sponge_succ]
  rfl

omit [DecidableEq F] in
theorem sponge_second (q : F) (constants : List F) (x y : F) (i : Nat) (hi : i < 128) :
    stateAt (fun i s => Hash.round q (constants.getD i 0) s) 0 (y, (spongeState q constants x y 128).2) i = spongeState q constants x y (i + 128) := by
  induction i with
  | zero => rw [stateAt]; apply Prod.ext <;> rfl
  | succ i ih =>
    rw [stateAt, ih (by omega), show i + 1 + 128 = i + 128 + 1 by omega, sponge_succ q constants x y (i + 128), if_neg (by omega), zero_add, Nat.add_mod_right,
      Nat.mod_eq_of_lt (show i < 128 by omega)]

/-- the assignments of one hash, starting at row `start` -/
theorem sponge_writes (q : F) (constants : List F) (x y : F) (start i j : Nat) (v : F) :
    (i, j, v) ∈ (Tree.mimc_loop q constants x y start).1 ↔
      ∃ r < 256, i = start + r ∧ (j = 0 ∧ v = (spongeState q constants x y r).1 ∨ j = 1 ∧ v = (spongeState q constants x y r).2) := by
  unfold Tree.mimc_loop
  simp only [foldl_range_state (fun i s => Hash.round q (constants.getD i 0) s) (x, 0) 128, sponge_middle q constants x y, List.mem_append, mem_loop, zero_add]
  constructor
  · rintro (⟨k, hk, h⟩ | ⟨k, hk, h⟩)
    · rw [sponge_first q constants x y k hk] at h
      simp only [List.mem_cons, List.not_mem_nil, or_false, Prod.mk.injEq] at h
      refine ⟨k, by omega, ?_⟩
      rcases h with ⟨rfl, rfl, rfl⟩ | ⟨rfl, rfl, rfl⟩
      · exact ⟨by omega, Or.inl ⟨rfl, rfl⟩⟩
      · exact ⟨by omega, Or.inr ⟨rfl, rfl⟩⟩
    · rw [sponge_second q constants x y k hk] at h
      simp only [List.mem_cons, List.not_mem_nil, or_false, Prod.mk.injEq] at h
      refine ⟨k + 128, by omega, ?_⟩
      rcases h with ⟨rfl, rfl, rfl⟩ | ⟨rfl, rfl, rfl⟩
      · exact ⟨by omega, Or.inl ⟨rfl, rfl⟩⟩
      · exact ⟨by omega, Or.inr ⟨rfl, rfl⟩⟩
  · rintro ⟨r, hr, rfl, h⟩
    by_cases h1 : r < 128
    · left
      refine ⟨r, h1, ?_⟩
      rw [sponge_first q constants x y r h1]
      simp only [List.mem_cons, List.not_mem_nil, or_false, Prod.mk.injEq]
      rcases h with ⟨rfl, rfl⟩ | ⟨rfl, rfl⟩
      · exact Or.inl ⟨by omega, rfl, rfl⟩
      · exact Or.inr ⟨by omega, rfl, rfl⟩
    · right
      refine ⟨r - 128, by omega, ?_⟩
      rw [sponge_second q constants x y _ (by omega), show r - 128 + 128 = r by omega]
      simp only [List.mem_cons, List.not_mem_nil, or_false, Prod.mk.injEq]
      rcases h with ⟨rfl, rfl⟩ | ⟨rfl, rfl⟩
      · exact Or.inl ⟨by omega, rfl, rfl⟩
      · exact Or.inr ⟨by omega, rfl, rfl⟩

theorem hash_trace (q : F) (constants : List F) (x y after : F) (hafter : after = (spongeState q constants x y 255).1) :
    ∃ t, Hash.trace q constants x y after = some t ∧ t.trace_length = 256 ∧ t.num_columns = 2 ∧ TableOk t ∧
      ∀ r < 256, t.get r 0 = some (spongeState q constants x y r).1 ∧ t.get r 1 = some (spongeState q constants x y r).2 := by
  obtain ⟨t, h1, h2, h3, h4, h5⟩ := tableOf_spec 256 2 (Tree.mimc_loop q constants x y 0).1
    (fun i j => if j = 0 then (spongeState q constants x y i).1 else (spongeState q constants x y i).2) (by
      intro i j v h
      obtain ⟨r, hr, rfl, h | h⟩ := (sponge_writes q constants x y 0 i j v).1 h
      · rw [zero_add, h.1, h.2]; exact ⟨hr, by norm_num, rfl⟩
      · rw [zero_add, h.1, h.2]; exact ⟨hr, by norm_num, rfl⟩) (by
      intro i hi j hj
      rw [sponge_writes]
      refine ⟨i, hi, by omega, ?_⟩
      rcases (by omega : j = 0 ∨ j = 1) with rfl | rfl
      · exact Or.inl ⟨rfl, rfl⟩
      · exact Or.inr ⟨rfl, rfl⟩)
  refine ⟨t, ?_, h2, h3, h4, fun r hr => ⟨h5 r hr 0 (by norm_num), h5 r hr 1 (by norm_num)⟩⟩
  have hsame : Hash.trace q constants x y after = (tableOf 256 2 (Tree.mimc_loop q constants x y 0).1).bind fun t =>
      (t.get 255 0).bind fun last => if last = after then some t else none := rfl
  rw [hsame, h1, Option.bind_some, h5 255 (by norm_num) 0 (by norm_num), Option.bind_some, if_pos rfl, if_pos hafter.symm]

/-! ## C69 -/

/-- C69: `mimc` is the last element of the sequence. -/
theorem C69_mimc (rounds : Nat) (constants : List F) (start : F) : Cubic.mimc rounds constants start = mimcSequence constants start (rounds - 1) := by
  unfold Cubic.mimc
  rw [show (List.range rounds).drop 1 = List.range' 1 (rounds - 1) by rw [List.range_eq_range', List.drop_range']]
  generalize rounds - 1 = n
  induction n with
  | zero => rfl
  | succ n ih => rw [List.range'_concat, List.foldl_append, ih, List.foldl_cons, List.foldl_nil, mimcSequence]; congr 3; omega

/-- C69: the hash function of `mimc_hash` and `mimc_tree` is the sponge. -/
theorem C69_sponge (q : F) (constants : List F) (hlen : constants.length = 128) (x y : F) : Hash.mimc q constants x y = (spongeState q constants x y 255).1 := by
  have key : ∀ n ≤ 128, ∀ s, Hash.rounds q (constants.take n) s = stateAt (fun i s => Hash.round q (constants.getD i 0) s) 0 s n := by
    intro n hn s
    induction n with
    | zero => rfl
    | succ n ih =>
      unfold Hash.rounds at *
      rw [List.take_succ, List.getElem?_eq_getElem (by omega), Option.toList_some, List.foldl_append, ih (by omega), List.foldl_cons, List.foldl_nil, stateAt, zero_add,
        List.getD_eq_getElem _ _ (by omega)]
  unfold Hash.mimc
  have h1 := key 128 (le_refl _) (x, 0)
  rw [List.take_of_length_le (by omega)] at h1
  rw [h1, sponge_middle q constants x y, key 127 (by norm_num), sponge_second q constants x y 127 (by norm_num)]

/-- C69: the system of `mimc_cubic` says of a table that it is the sequence from `before` to `after`. -/
theorem C69_cubic (root : Nat → Option F) (hroot : RootFn root) (hcompat : RootCompat root) (rep : F → U256) (k : Nat) (hk : k < 64) (hk4 : 4 ≤ k)
    (constants : List F) (hlen : constants.length = 16) (before after : F) (c : Constraints F)
    (hc : Cubic.constraints root rep (2 ^ k) constants before after = some c) (g : F) (hg : root (2 ^ k) = some g) (t : Nat → Nat → F) :
    RowsSatisfy c g (2 ^ k) t ↔ (∀ r < 2 ^ k, t r 0 = mimcSequence constants before r) ∧ after = mimcSequence constants before (2 ^ k - 1) := by
  obtain ⟨e, he, hs⟩ := cubic_is root hroot hcompat rep k hk hk4 constants hlen before after c hc g hg
  rw [hs.rows, cubic_hold g _ (Nat.two_pow_pos _) hs.order constants e he]

/-- C69: the system of `mimc_quadratic` says of a table that its first column is the sequence from `before` to `after`, and that the other columns (but for
the last row) are its squares and cubes. -/
theorem C69_quadratic (root : Nat → Option F) (hroot : RootFn root) (hcompat : RootCompat root) (rep : F → U256) (k : Nat) (hk : k < 64) (hk4 : 4 ≤ k)
    (constants : List F) (hlen : constants.length = 16) (before after : F) (c : Constraints F)
    (hc : Quadratic.constraints root rep (2 ^ k) constants before after = some c) (g : F) (hg : root (2 ^ k) = some g) (t : Nat → Nat → F) :
    RowsSatisfy c g (2 ^ k) t ↔ (∀ r < 2 ^ k, t r 0 = mimcSequence constants before r) ∧ (∀ r, r + 1 < 2 ^ k → t r 1 = t r 0 ^ 2 ∧ t r 2 = t r 0 ^ 3) ∧
      after = mimcSequence constants before (2 ^ k - 1) := by
  obtain ⟨e, he, hs⟩ := quadratic_is root hroot hcompat rep k hk hk4 constants hlen before after c hc g hg
  rw [hs.rows, quadratic_hold g _ (Nat.two_pow_pos _) hs.order constants e he]

/-- C69: the system of `mimc_hash` says of a table that its rows are the states of the sponge on `x` and `y`, and that `after` is the hash. -/
theorem C69_hash (root : Nat → Option F) (hroot : RootFn root) (hcompat : RootCompat root) (rep : F → U256) (q : F) (constants : List F) (hlen : constants.length = 128)
    (x y after : F) (c : Constraints F) (hc : Hash.constraints root rep q constants x y after = some c) (g : F) (hg : root 256 = some g) (t : Nat → Nat → F) :
    RowsSatisfy c g 256 t ↔ (∀ r < 256, (t r 0, t r 1) = spongeState q constants x y r) ∧ after = (spongeState q constants x y 255).1 := by
  obtain ⟨e, he, hs⟩ := hash_is root hroot hcompat rep q constants hlen x y after c hc g hg
  rw [← hash_hold g hs.order q constants e he]
  exact hs.rows t

/-- C69: accepted proofs of `mimc_cubic` and `mimc_quadratic` show that `after` is the MiMC permutation of `before`. Both are deterministic, so the
claim is a statement about the two numbers only. -/
theorem C69_accepted (env : Env F) (hroot : RootFn env.root) (hcompat : RootCompat env.root) (hsearch : SearchOk env.search) (hgen : env.generator ≠ 0)
    (rep : F → U256) (k : Nat) (hk : k + 4 < 64) (hk4 : 4 ≤ k) (constants : List F) (hlen : constants.length = 16) (before after : F) (c : Constraints F) (p : Bytes)
    (hp : Stark.verify env c p = .ok ()) :
    (Cubic.constraints env.root rep (2 ^ k) constants before after = some c → Shows env c k 3 p fun _ => after = Cubic.mimc (2 ^ k) constants before) ∧
    (Quadratic.constraints env.root rep (2 ^ k) constants before after = some c → Shows env c k 2 p fun _ => after = Cubic.mimc (2 ^ k) constants before) := by
  rw [C69_mimc]
  constructor
  · intro hc
    have h := hc
    unfold Cubic.constraints at h
    obtain ⟨g, hg, -⟩ := Option.bind_eq_some_iff.1 h
    obtain ⟨e, he, hs⟩ := cubic_is env.root hroot hcompat rep k (by omega) hk4 constants hlen before after c hc g hg
    exact system_shows env hroot hcompat hsearch hgen c k 1 g _ 3 hs hk p hp _ fun t ht =>
      ((C69_cubic env.root hroot hcompat rep k (by omega) hk4 constants hlen before after c hc g hg t).1 ht).2
  · intro hc
    have h := hc
    unfold Quadratic.constraints at h
    obtain ⟨g, hg, -⟩ := Option.bind_eq_some_iff.1 h
    obtain ⟨e, he, hs⟩ := quadratic_is env.root hroot hcompat rep k (by omega) hk4 constants hlen before after c hc g hg
    exact system_shows env hroot hcompat hsearch hgen c k 3 g _ 2 hs hk p hp _ fun t ht =>
      ((C69_quadratic env.root hroot hcompat rep k (by omega) hk4 constants hlen before after c hc g hg t).1 ht).2.2

/-- C69: an accepted proof of `mimc_hash` shows that `after` is the hash of `x` and `y`. -/
theorem C69_hash_accepted (env : Env F) (hroot : RootFn env.root) (hcompat : RootCompat env.root) (hsearch : SearchOk env.search) (hgen : env.generator ≠ 0)
    (rep : F → U256) (q : F) (constants : List F) (hlen : constants.length = 128) (x y after : F) (c : Constraints F)
    (hc : Hash.constraints env.root rep q constants x y after = some c) (p : Bytes) (hp : Stark.verify env c p = .ok ()) :
    Shows env c 8 3 p fun _ => after = Hash.mimc q constants x y := by
  rw [C69_sponge q constants hlen]
  have h := hc
  unfold Hash.constraints at h
  obtain ⟨g, hg, -⟩ := Option.bind_eq_some_iff.1 h
  obtain ⟨e, he, hs⟩ := hash_is env.root hroot hcompat rep q constants hlen x y after c hc g hg
  exact system_shows env hroot hcompat hsearch hgen c 8 2 g _ 3 hs (by norm_num) p hp _ fun t ht =>
    ((C69_hash env.root hroot hcompat rep q constants hlen x y after c hc g hg t).1 ht).2

/-- C69: for a true claim the traces of `mimc_cubic` and `mimc_quadratic` pass the check and can be proved. -/
theorem C69_prove (env : Env F) (hroot : RootFn env.root) (hcompat : RootCompat env.root) (hgen : env.generator ≠ 0)
    (hsearch : ∀ l n z, env.search l n = some z → l[z]? = some n) (o : Oracles F)
    (rep : F → U256) (k : Nat) (hk : k + 4 < 64) (hk4 : 4 ≤ k) (constants : List F) (hlen : constants.length = 16) (before : F) (c : Constraints F) :
    (Cubic.constraints env.root rep (2 ^ k) constants before (Cubic.mimc (2 ^ k) constants before) = some c →
      ∃ t g, Cubic.trace (2 ^ k) constants before (Cubic.mimc (2 ^ k) constants before) = some t ∧ env.root (2 ^ k) = some g ∧
        TraceTable.check_constraints env.root c t = some (.ok ()) ∧ Provable env o c k g t) ∧
    (Quadratic.constraints env.root rep (2 ^ k) constants before (Cubic.mimc (2 ^ k) constants before) = some c →
      ∃ t g, Quadratic.trace (2 ^ k) constants before (Cubic.mimc (2 ^ k) constants before) = some t ∧ env.root (2 ^ k) = some g ∧
        TraceTable.check_constraints env.root c t = some (.ok ()) ∧ Provable env o c k g t) := by
  rw [C69_mimc]
  constructor
  · intro hc
    have h := hc
    unfold Cubic.constraints at h
    obtain ⟨g, hg, -⟩ := Option.bind_eq_some_iff.1 h
    obtain ⟨e, he, hs⟩ := cubic_is env.root hroot hcompat rep k (by omega) hk4 constants hlen before _ c hc g hg
    obtain ⟨t, h1, h2, h3, h4, h5⟩ := cubic_trace (2 ^ k) (Nat.two_pow_pos _) constants before _ rfl
    have hh : Hold g (2 ^ k) (fun r i => (t.get r i).getD 0) (cubicQuotients g (2 ^ k) e before (mimcSequence constants before (2 ^ k - 1))) := by
      rw [cubic_hold g _ (Nat.two_pow_pos _) hs.order constants e he]
      exact ⟨fun r hr => by simp only [h5 r hr]; rfl, rfl⟩
    exact ⟨t, g, h1, hg, (hs.check t h4 h2 h3).2 hh, system_provable env hroot hcompat hgen hsearch o c k 1 g _ 3 hs hk (by omega) t h4 h2 h3 hh⟩
  · intro hc
    have h := hc
    unfold Quadratic.constraints at h
    obtain ⟨g, hg, -⟩ := Option.bind_eq_some_iff.1 h
    obtain ⟨e, he, hs⟩ := quadratic_is env.root hroot hcompat rep k (by omega) hk4 constants hlen before _ c hc g hg
    obtain ⟨t, h1, h2, h3, h4, h5⟩ := quadratic_trace (2 ^ k) (Nat.two_pow_pos _) constants before _ rfl
    have hh : Hold g (2 ^ k) (fun r i => (t.get r i).getD 0) (quadraticQuotients g (2 ^ k) e before (mimcSequence constants before (2 ^ k - 1))) := by
      rw [quadratic_hold g _ (Nat.two_pow_pos _) hs.order constants e he]
      refine ⟨fun r hr => by simp only [h5 r hr]; rfl, fun r hr => ?_, rfl⟩
      obtain ⟨i1, i2, i3⟩ := h5 r (by omega)
      simp only [i1, i2, i3, Option.getD_some, and_self]
    exact ⟨t, g, h1, hg, (hs.check t h4 h2 h3).2 hh, system_provable env hroot hcompat hgen hsearch o c k 3 g _ 2 hs hk (by omega) t h4 h2 h3 hh⟩

/-- C69: for a true claim the trace of `mimc_hash` passes the check and can be proved. -/
theorem C69_hash_prove (env : Env F) (hroot : RootFn env.root) (hcompat : RootCompat env.root) (hgen : env.generator ≠ 0)
    (hsearch : ∀ l n z, env.search l n = some z → l[z]? = some n) (o : Oracles F) (rep : F → U256) (q : F) (constants : List F) (hlen : constants.length = 128) (x y : F)
    (c : Constraints F) (hc : Hash.constraints env.root rep q constants x y (Hash.mimc q constants x y) = some c) :
    ∃ t g, Hash.trace q constants x y (Hash.mimc q constants x y) = some t ∧ env.root 256 = some g ∧
      TraceTable.check_constraints env.root c t = some (.ok ()) ∧ Provable env o c 8 g t := by
  rw [C69_sponge q constants hlen] at *
  have h := hc
  unfold Hash.constraints at h
  obtain ⟨g, hg, -⟩ := Option.bind_eq_some_iff.1 h
  obtain ⟨e, he, hs⟩ := hash_is env.root hroot hcompat rep q constants hlen x y _ c hc g hg
  obtain ⟨t, h1, h2, h3, h4, h5⟩ := hash_trace q constants x y _ rfl
  have hh : Hold g (2 ^ 8) (fun r i => (t.get r i).getD 0) (hashQuotients g q e x y (spongeState q constants x y 255).1) := by
    show Hold g 256 _ _
    rw [hash_hold g hs.order q constants e he]
    refine ⟨fun r hr => ?_, rfl⟩
    simp only [h5 r hr, Option.getD_some]
  exact ⟨t, g, h1, hg, (hs.check t h4 h2 h3).2 hh, system_provable env hroot hcompat hgen hsearch o c 8 2 g _ 3 hs (by norm_num) (by norm_num) t h4 h2 h3 hh⟩

end
/-! ## Runs over the field of 65537 elements -/

namespace CubicRun
open OpenZKP.Props.Small (Z)
open Run

def coefficients : List Z := 5 :: 7 :: List.replicate 14 0
def constants : List Z := (List.range 16).map fun i => 5 + 7 * 64 ^ i

theorem periodic_eq : periodic root 16 constants = some (.Polynomial coefficients (Expr.pow .X 1)) :=
  periodic_unique root root_ok root_compat 4 4 (by norm_num) (by norm_num) 64 root16 constants rfl coefficients rfl (by decide +kernel)

def after : Z := Cubic.mimc 16 constants 3

def c0 : Option (Constraints Z) := system root 16 1 (elementBytes rep 3 ++ elementBytes rep after) [
    Expr.mul (Expr.sub (.Trace 0 1) (Expr.add (.Exp (.Trace 0 0) 3) (.Polynomial coefficients (Expr.pow .X 1)))) (every_row 64 16),
    Expr.mul (Expr.sub (.Trace 0 0) (.Constant 3)) (on_row 64 0),
    Expr.mul (Expr.sub (.Trace 0 0) (.Constant after)) (on_row 64 15)]
def c : Constraints Z := c0.getD ⟨[], 0, 0, [], 0, 0, 0, [], []⟩

theorem some_c : c0 = some c := by
  unfold c
  cases h : c0 with
  | some c0 => rfl
  | none =>
    have : c0.isSome = true := by decide +kernel
    rw [h] at this
    cases this

theorem system_eq : Cubic.constraints root rep (2 ^ 4) constants 3 after = some c := by
  rw [← some_c]
  unfold Cubic.constraints
  rw [root16, Option.bind_some, show 2 ^ 4 = 16 from rfl, periodic_eq]
  rfl

def E : Expr Z := (c.combine (List.replicate (2 * c.expressions.length) 28784)).getD .X

theorem computed : Computed c 4 3 E where
  combine := by
    unfold E
    cases h : c.combine (List.replicate (2 * c.expressions.length) 28784) with
    | some c0 => rfl
    | none =>
      have : (c.combine (List.replicate (2 * c.expressions.length) 28784)).isSome = true := by decide +kernel
      rw [h] at this
      cases this
  claims := by decide +kernel
  mark := by decide +kernel
  marks := by decide +kernel
  degree_pos := by norm_num
  degrees := by decide +kernel
  constraints := by decide +kernel
  arguments := by decide +kernel
  points := by decide +kernel

theorem proved : ∃ p, Stark.verify env c p = .ok () := by
  obtain ⟨e, he, hs⟩ := cubic_is root root_ok root_compat rep 4 (by norm_num) (by norm_num) constants rfl 3 after c system_eq 64 root16
  have ha : after = mimcSequence constants 3 (2 ^ 4 - 1) := C69_mimc _ _ _
  obtain ⟨t, h1, h2, h3, h4, h5⟩ := cubic_trace (2 ^ 4) (by norm_num) constants 3 after ha
  refine Run.proved hs computed (by norm_num) (by norm_num) t h4 h2 h3 ?_
  rw [cubic_hold 64 _ (by norm_num) hs.order constants e he]
  exact ⟨fun r hr => by simp only [h5 r hr]; rfl, ha⟩

end CubicRun
namespace QuadraticRun
open OpenZKP.Props.Small (Z)
open Run
open CubicRun (coefficients constants periodic_eq after)

def c0 : Option (Constraints Z) := system root 16 3 (elementBytes rep 3 ++ elementBytes rep after) [
    Expr.mul (Expr.sub (Expr.mul (.Trace 0 0) (.Trace 0 0)) (.Trace 1 0)) (every_row 64 16),
    Expr.mul (Expr.sub (Expr.mul (.Trace 0 0) (.Trace 1 0)) (.Trace 2 0)) (every_row 64 16),
    Expr.mul (Expr.sub (.Trace 0 1) (Expr.add (.Trace 2 0) (.Polynomial coefficients (Expr.pow .X 1)))) (every_row 64 16),
    Expr.mul (Expr.sub (.Trace 0 0) (.Constant 3)) (on_row 64 0),
    Expr.mul (Expr.sub (.Trace 0 0) (.Constant after)) (on_row 64 15)]
def c : Constraints Z := c0.getD ⟨[], 0, 0, [], 0, 0, 0, [], []⟩

theorem some_c : c0 = some c := by
  unfold c
  cases h : c0 with
  | some c0 => rfl
  | none =>
    have : c0.isSome = true := by decide +kernel
    rw [h] at this
    cases this

theorem system_eq : Quadratic.constraints root rep (2 ^ 4) constants 3 after = some c := by
  rw [← some_c]
  unfold Quadratic.constraints
  rw [root16, Option.bind_some, show 2 ^ 4 = 16 from rfl, periodic_eq]
  rfl

def E : Expr Z := (c.combine (List.replicate (2 * c.expressions.length) 28784)).getD .X

theorem computed : Computed c 4 2 E where
  combine := by
    unfold E
    cases h : c.combine (List.replicate (2 * c.expressions.length) 28784) with
    | some c0 => rfl
    | none =>
      have : (c.combine (List.replicate (2 * c.expressions.length) 28784)).isSome = true := by decide +kernel
      rw [h] at this
      cases this
  claims := by decide +kernel
  mark := by decide +kernel
  marks := by decide +kernel
  degree_pos := by norm_num
  degrees := by decide +kernel
  constraints := by decide +kernel
  arguments := by decide +kernel
  points := by decide +kernel

theorem proved : ∃ p, Stark.verify env c p = .ok () := by
  obtain ⟨e, he, hs⟩ := quadratic_is root root_ok root_compat rep 4 (by norm_num) (by norm_num) constants rfl 3 after c system_eq 64 root16
  have ha : after = mimcSequence constants 3 (2 ^ 4 - 1) := C69_mimc _ _ _
  obtain ⟨t, h1, h2, h3, h4, h5⟩ := quadratic_trace (2 ^ 4) (by norm_num) constants 3 after ha
  refine Run.proved hs computed (by norm_num) (by norm_num) t h4 h2 h3 ?_
  rw [quadratic_hold 64 _ (by norm_num) hs.order constants e he]
  refine ⟨fun r hr => by simp only [h5 r hr]; rfl, fun r hr => ?_, ha⟩
  obtain ⟨i1, i2, i3⟩ := h5 r (by omega)
  simp only [i1, i2, i3, Option.getD_some, and_self]

end QuadraticRun

namespace HashRun
open OpenZKP.Props.Small (Z)
open Run
open Merkle (next_power_of_two)

def coefficients : List Z := 5 :: 7 :: List.replicate 126 0
def constants : List Z := (List.range 128).map fun i => 5 + 7 * (282 ^ 2) ^ i

theorem periodic_eq : periodic root 256 constants = some (.Polynomial coefficients (Expr.pow .X 2)) := by
  have h := periodic_unique root root_ok root_compat 8 7 (by norm_num) (by norm_num) 282 (by decide +kernel) constants (by decide +kernel) coefficients (by decide +kernel)
    (by decide +kernel)
  rw [show constants.length = 128 by decide +kernel] at h
  exact h

def after : Z := Hash.mimc 10 constants 3 4

def c0 : Option (Constraints Z) := system root 256 2 (elementBytes rep 3 ++ elementBytes rep 4 ++ elementBytes rep after) [
    Expr.mul (Hash.leftStep 10 (.Polynomial coefficients (Expr.pow .X 2))) (Hash.on_loop_rows 282 256 128),
    Expr.mul (Hash.rightStep 10) (every_row 282 256),
    Expr.mul (Expr.sub (.Trace 0 0) (.Constant 3)) (on_row 282 0),
    Expr.mul (.Trace 1 0) (on_row 282 0),
    Expr.mul (Expr.sub (.Trace 0 0) (.Constant 4)) (on_row 282 128),
    Expr.mul (Expr.sub (.Trace 0 0) (.Constant after)) (on_row 282 255)]
def c : Constraints Z := c0.getD ⟨[], 0, 0, [], 0, 0, 0, [], []⟩

theorem some_c : c0 = some c := by
  unfold c
  cases h : c0 with
  | some c0 => rfl
  | none =>
    have : c0.isSome = true := by decide +kernel
    rw [h] at this
    cases this

theorem system_eq : Hash.constraints root rep 10 constants 3 4 after = some c := by
  rw [← some_c]
  unfold Hash.constraints
  dsimp only
  rw [show root 256 = some 282 by decide +kernel, Option.bind_some, periodic_eq]
  rfl

def E : Expr Z := (c.combine (List.replicate (2 * c.expressions.length) 28784)).getD .X

theorem computed : Computed c 8 3 E where
  combine := by
    unfold E
    cases h : c.combine (List.replicate (2 * c.expressions.length) 28784) with
    | some c0 => rfl
    | none =>
      have : (c.combine (List.replicate (2 * c.expressions.length) 28784)).isSome = true := by decide +kernel
      rw [h] at this
      cases this
  claims := by decide +kernel
  mark := by decide +kernel
  marks := by decide +kernel
  degree_pos := by norm_num
  degrees := by decide +kernel
  constraints := by decide +kernel
  arguments := by decide +kernel
  points := by
    rw [show 2 ^ (8 + 4) = 64 * 64 by norm_num, show next_power_of_two 3 = 4 by decide +kernel, ← pow_mul, show 4 * (64 * 64) = 64 * (64 * 4) by norm_num, pow_mul _ 64 64, pow_mul _ 64 64, pow_mul _ 64 (64 * 4), show (28784 : Z) ^ 64 = 10492 by decide +kernel, show (3 : Z) ^ 64 = 19139 by decide +kernel]
    decide +kernel

theorem proved : ∃ p, Stark.verify env c p = .ok () := by
  obtain ⟨e, he, hs⟩ := hash_is root root_ok root_compat rep 10 constants rfl 3 4 after c system_eq 282 (by decide +kernel)
  have ha : after = (spongeState 10 constants 3 4 255).1 := C69_sponge _ _ rfl _ _
  obtain ⟨t, h1, h2, h3, h4, h5⟩ := hash_trace 10 constants 3 4 after ha
  refine Run.proved hs computed (by norm_num) (by norm_num) t h4 h2 h3 ?_
  show Hold 282 256 _ _
  rw [hash_hold 282 hs.order 10 constants e he]
  refine ⟨fun r hr => ?_, ha⟩
  simp only [h5 r hr, Option.getD_some]

end HashRun

-- the claims are true, and the traces pass the check and can be proved
example : ∃ t g, Cubic.trace 16 CubicRun.constants 3 CubicRun.after = some t ∧ Run.root 16 = some g ∧
    TraceTable.check_constraints Run.root CubicRun.c t = some (.ok ()) ∧ Provable Run.env Run.o CubicRun.c 4 g t :=
  (C69_prove Run.env Run.root_ok Run.root_compat Run.gen_ne Run.search_some Run.o Run.rep 4 (by norm_num) (by norm_num) CubicRun.constants rfl 3 CubicRun.c).1 CubicRun.system_eq

-- there are accepted proofs, and they show what they should
example : ∃ p, Stark.verify Run.env CubicRun.c p = .ok () ∧ Shows Run.env CubicRun.c 4 3 p fun _ => CubicRun.after = Cubic.mimc (2 ^ 4) CubicRun.constants 3 := by
  obtain ⟨p, hp⟩ := CubicRun.proved
  exact ⟨p, hp, (C69_accepted Run.env Run.root_ok Run.root_compat Run.search_ok Run.gen_ne Run.rep 4 (by norm_num) (by norm_num) CubicRun.constants rfl 3 _ _ p hp).1 CubicRun.system_eq⟩

example : ∃ p, Stark.verify Run.env QuadraticRun.c p = .ok () ∧
    Shows Run.env QuadraticRun.c 4 2 p fun _ => CubicRun.after = Cubic.mimc (2 ^ 4) CubicRun.constants 3 := by
  obtain ⟨p, hp⟩ := QuadraticRun.proved
  exact ⟨p, hp, (C69_accepted Run.env Run.root_ok Run.root_compat Run.search_ok Run.gen_ne Run.rep 4 (by norm_num) (by norm_num) CubicRun.constants rfl 3 _ _ p hp).2
    QuadraticRun.system_eq⟩

example : ∃ p, Stark.verify Run.env HashRun.c p = .ok () ∧ Shows Run.env HashRun.c 8 3 p fun _ => HashRun.after = Hash.mimc 10 HashRun.constants 3 4 := by
  obtain ⟨p, hp⟩ := HashRun.proved
  exact ⟨p, hp, C69_hash_accepted Run.env Run.root_ok Run.root_compat Run.search_ok Run.gen_ne Run.rep 10 HashRun.constants rfl 3 4 _ _ HashRun.system_eq p hp⟩

end Props
end OpenZKP
