import Verif.Props.Mimc

/-!
# The example systems: C71 (verifiable delay function)
-/

namespace OpenZKP
namespace Props
open Stark FFT Polynomial Examples Stark.Accept

section
variable {F : Type} [Field F] [DecidableEq F]

/-! ## Specification -/

/-- `(a + b √r)³` -/
def cube (r : F) (s : F × F) : F × F := (s.1 ^ 3 + 3 * r * s.1 * s.2 ^ 2, 3 * s.1 ^ 2 * s.2 + r * s.2 ^ 3)

/-- What the example does instead: the second component takes the product of the first components in place of a mixed product. -/
def brokenCube (r : F) (s : F × F) : F × F := (s.1 ^ 3 + 3 * r * s.1 * s.2 ^ 2, s.1 ^ 3 + (r + 2) * s.1 * s.2 ^ 2)

omit [DecidableEq F] in
/-- `cube` is the third power of the extension by a square root of `r`: with the products `(a, b) (c, d) = (a c + r b d, a d + b c)`. -/
theorem cube_eq (r a b : F) : let mul := fun (x y : F × F) => (x.1 * y.1 + r * x.2 * y.2, x.1 * y.2 + x.2 * y.1); cube r (a, b) = mul (a, b) (mul (a, b) (a, b)) := by
  simp only [cube]
  apply Prod.ext <;> dsimp only <;> ring

/-! ## Lemmas -/

def vdfQuotients (g r : F) (n : Nat) (a b a' b' : F) : List (Expr F × Expr F) :=
  [everyRow g n (Expr.sub (Expr.add (Expr.mul (.Trace 0 0) (.Trace 0 0)) (Expr.mul (Expr.mul (.Constant r) (.Trace 1 0)) (.Trace 1 0))) (.Trace 2 0)),
    everyRow g n (Expr.sub (Expr.mul (Expr.mul (.Constant 2) (.Trace 0 0)) (.Trace 1 0)) (.Trace 3 0)),
    everyRow g n (Expr.sub (Expr.add (Expr.mul (.Trace 0 0) (.Trace 2 0)) (Expr.mul (Expr.mul (.Constant r) (.Trace 1 0)) (.Trace 3 0))) (.Trace 0 1)),
    everyRow g n (Expr.sub (Expr.add (Expr.mul (.Trace 0 0) (.Trace 2 0)) (Expr.mul (.Trace 1 0) (.Trace 3 0))) (.Trace 1 1)),
    onRow g 0 (Expr.sub (.Trace 0 0) (.Constant a)), onRow g 0 (Expr.sub (.Trace 1 0) (.Constant b)),
    onRow g (n - 1) (Expr.sub (.Trace 0 0) (.Constant a')), onRow g (n - 1) (Expr.sub (.Trace 1 0) (.Constant b'))]

theorem vdf_is (root : Nat → Option F) (hroot : RootFn root) (rep : F → U256) (k : Nat) (hk : k < 64) (r a b a' b' : F) (c : Constraints F)
    (h : Vdf.constraints root rep r (2 ^ k) a b a' b' = some c) (g : F) (hg : root (2 ^ k) = some g) : SystemIs root c k 4 g (vdfQuotients g r (2 ^ k) a b a' b') 2 := by
  have hord := root_order root hroot k hk g hg
  unfold Vdf.constraints at h
  obtain ⟨g', hg', h⟩ := Option.bind_eq_some_iff.1 h
  have : g' = g := Option.some.inj (hg'.symm.trans hg)
  subst this
  obtain ⟨-, hc⟩ := system_some _ _ _ _ _ _ h
  refine ⟨hk, hord, hg, ⟨_, _, h, ?_⟩, by norm_num, ?_, ?_, ?_, by norm_num⟩
  · intro e he i j hij
    simp only [List.mem_cons, List.not_mem_nil, or_false] at he
    rcases he with rfl | rfl | rfl | rfl | rfl | rfl | rfl | rfl <;>
      simp [Occurs, every_row, on_row, Expr.sub, Expr.add, Expr.neg, Expr.mul, Expr.div, Expr.inv, Expr.pow] at hij <;> omega
  · rw [hc]
    unfold Quotients vdfQuotients
    refine .cons (everyRow_quotient _ _ _ ?_) (.cons (everyRow_quotient _ _ _ ?_) (.cons (everyRow_quotient _ _ _ ?_) (.cons (everyRow_quotient _ _ _ ?_)
      (.cons (onRow_quotient _ _ _ ?_) (.cons (onRow_quotient _ _ _ ?_) (.cons (onRow_quotient _ _ _ ?_) (.cons (onRow_quotient _ _ _ ?_) .nil))))))) <;>
      simp [DivFree, Expr.sub, Expr.add, Expr.neg, Expr.pow, Expr.mul]
  · intro q hq
    simp only [vdfQuotients, List.mem_cons, List.not_mem_nil, or_false] at hq
    rcases hq with rfl | rfl | rfl | rfl | rfl | rfl | rfl | rfl
    · exact ⟨everyRow_zeros g' _ hord _, by simp [everyRow, NoZeroExp, Expr.sub, Expr.add, Expr.pow, Expr.mul]⟩
    · exact ⟨everyRow_zeros g' _ hord _, by simp [everyRow, NoZeroExp, Expr.sub, Expr.add, Expr.pow, Expr.mul]⟩
    · exact ⟨everyRow_zeros g' _ hord _, by simp [everyRow, NoZeroExp, Expr.sub, Expr.add, Expr.pow, Expr.mul]⟩
    · exact ⟨everyRow_zeros g' _ hord _, by simp [everyRow, NoZeroExp, Expr.sub, Expr.add, Expr.pow, Expr.mul]⟩
    · exact ⟨onRow_zeros g' _ (Nat.two_pow_pos _) hord _ _, by simp [onRow, NoZeroExp, Expr.sub, Expr.add]⟩
    · exact ⟨onRow_zeros g' _ (Nat.two_pow_pos _) hord _ _, by simp [onRow, NoZeroExp, Expr.sub, Expr.add]⟩
    · exact ⟨onRow_zeros g' _ (Nat.two_pow_pos _) hord _ _, by simp [onRow, NoZeroExp, Expr.sub, Expr.add]⟩
    · exact ⟨onRow_zeros g' _ (Nat.two_pow_pos _) hord _ _, by simp [onRow, NoZeroExp, Expr.sub, Expr.add]⟩
  · rw [hc]
    simp [Constraints.degree, Expr.trace_degree, Expr.degree_impl, every_row, on_row, Expr.sub, Expr.add, Expr.neg, Expr.mul, Expr.div, Expr.inv, Expr.pow, csub, Constraints.maxOf]

theorem vdf_hold (g r : F) (n : Nat) (hn : 0 < n) (hord : orderOf g = n) (a b a' b' : F) (t : Nat → Nat → F) :
    Hold g n t (vdfQuotients g r n a b a' b') ↔ (∀ i < n, (t i 0, t i 1) = (brokenCube r)^[i] (a, b)) ∧
      (∀ i, i + 1 < n → t i 2 = t i 0 ^ 2 + r * t i 1 ^ 2 ∧ t i 3 = 2 * t i 0 * t i 1) ∧ (a', b') = (brokenCube r)^[n - 1] (a, b) := by
  unfold Hold vdfQuotients
  simp only [List.forall_mem_cons, everyRow_iff g n hn hord, onRow_iff g n hn hord, value_sub, value_add, value_mul, value_const, value, List.not_mem_nil, false_imp_iff,
    implies_true, and_true, Nat.zero_mod, last_row n hn, row_same 0 n hn, row_same (n - 1) n (by omega)]
  constructor
  · rintro ⟨h1, h2, h3, h4, h5, h6, h7, h8⟩
    have sq : ∀ i, i + 1 < n → t i 2 = t i 0 ^ 2 + r * t i 1 ^ 2 ∧ t i 3 = 2 * t i 0 * t i 1 := by
      intro i hi
      have e1 := h1 i hi
      have e2 := h2 i hi
      rw [row_same i n (by omega)] at e1 e2
      exact ⟨by linear_combination -e1, by linear_combination -e2⟩
    have key : ∀ i < n, (t i 0, t i 1) = (brokenCube r)^[i] (a, b) := by
      intro i
      induction i with
      | zero => intro _; rw [sub_eq_zero.1 h5, sub_eq_zero.1 h6]; rfl
      | succ i ih =>
        intro hi
        rw [Function.iterate_succ_apply', ← ih (by omega)]
        have e3 := h3 i hi
        have e4 := h4 i hi
        rw [row_next i n hi, row_same i n (by omega), (sq i hi).1, (sq i hi).2] at e3 e4
        unfold brokenCube
        dsimp only
        exact Prod.ext (by dsimp only; linear_combination -e3) (by dsimp only; linear_combination -e4)
    exact ⟨key, sq, by rw [← key (n - 1) (by omega), sub_eq_zero.1 h7, sub_eq_zero.1 h8]⟩
  · rintro ⟨h1, h2, h3⟩
    have hstep : ∀ i, i + 1 < n → (t (i + 1) 0, t (i + 1) 1) = brokenCube r (t i 0, t i 1) := by
      intro i hi
      rw [h1 _ hi, h1 i (by omega), Function.iterate_succ_apply']
    have h0 := h1 0 hn
    have hl := h1 (n - 1) (by omega)
    rw [← h3] at hl
    refine ⟨fun i hi => ?_, fun i hi => ?_, fun i hi => ?_, fun i hi => ?_, ?_, ?_, ?_, ?_⟩
    · rw [row_same i n (by omega), (h2 i hi).1]; ring
    · rw [row_same i n (by omega), (h2 i hi).2]; ring
    · rw [row_next i n hi, row_same i n (by omega), (h2 i hi).1, (h2 i hi).2, show t (i + 1) 0 = _ from congrArg Prod.fst (hstep i hi)]
      unfold brokenCube
      ring
    · rw [row_next i n hi, row_same i n (by omega), (h2 i hi).1, (h2 i hi).2, show t (i + 1) 1 = _ from congrArg Prod.snd (hstep i hi)]
      unfold brokenCube
      ring
    · rw [show t 0 0 = a from congrArg Prod.fst h0, sub_self]
    · rw [show t 0 1 = b from congrArg Prod.snd h0, sub_self]
    · rw [show t (n - 1) 0 = a' from congrArg Prod.fst hl, sub_self]
    · rw [show t (n - 1) 1 = b' from congrArg Prod.snd hl, sub_self]

omit [DecidableEq F] in
theorem vdf_state (r : F) (s : F × F) (n : Nat) : stateAt (fun _ => Vdf.step r) 0 s n = (brokenCube r)^[n] s := by
  have hs : Vdf.step r = brokenCube r := by
    funext s
    unfold Vdf.step brokenCube
    apply Prod.ext <;> dsimp only <;> ring
  induction n with
  | zero => rfl
  | succ n ih => rw [stateAt, ih, hs, Function.iterate_succ_apply']

theorem vdf_trace (r : F) (n : Nat) (hn : 0 < n) (a b a' b' : F) (hend : (a', b') = (brokenCube r)^[n - 1] (a, b)) :
    ∃ t, Vdf.trace r n a b a' b' = some t ∧ t.trace_length = n ∧ t.num_columns = 4 ∧ TableOk t ∧
      ∀ i < n, t.get i 0 = some ((brokenCube r)^[i] (a, b)).1 ∧ t.get i 1 = some ((brokenCube r)^[i] (a, b)).2 ∧
        t.get i 2 = some (((brokenCube r)^[i] (a, b)).1 ^ 2 + r * ((brokenCube r)^[i] (a, b)).2 ^ 2) ∧
        t.get i 3 = some (2 * ((brokenCube r)^[i] (a, b)).1 * ((brokenCube r)^[i] (a, b)).2) := by
  obtain ⟨t, h1, h2, h3, h4, h5⟩ := tableOf_spec n 4 (loop (fun _ => Vdf.step r)
    (fun i s => [(i, 0, s.1), (i, 1, s.2), (i, 2, s.1 ^ 2 + r * s.2 ^ 2), (i, 3, 2 * s.1 * s.2)]) n 0 (a, b))
    (fun i j => let s := (brokenCube r)^[i] (a, b); if j = 0 then s.1 else if j = 1 then s.2 else if j = 2 then s.1 ^ 2 + r * s.2 ^ 2 else 2 * s.1 * s.2) (by
      intro i j v h
      rw [mem_loop] at h
      obtain ⟨k, hk, h⟩ := h
      rw [vdf_state, zero_add] at h
      simp only [List.mem_cons, List.not_mem_nil, or_false, Prod.mk.injEq] at h
      rcases h with ⟨rfl, rfl, rfl⟩ | ⟨rfl, rfl, rfl⟩ | ⟨rfl, rfl, rfl⟩ | ⟨rfl, rfl, rfl⟩
      · exact ⟨hk, by norm_num, rfl⟩
      · exact ⟨hk, by norm_num, rfl⟩
      · exact ⟨hk, by norm_num, rfl⟩
      · exact ⟨hk, by norm_num, rfl⟩) (by
      intro i hi j hj
      rw [mem_loop]
      refine ⟨i, hi, ?_⟩
      rw [vdf_state, zero_add]
      rcases (by omega : j = 0 ∨ j = 1 ∨ j = 2 ∨ j = 3) with rfl | rfl | rfl | rfl <;> simp)
  have hlast := fun j hj => h5 (n - 1) (by omega) j hj
  refine ⟨t, ?_, h2, h3, h4, fun i hi => ⟨h5 i hi 0 (by norm_num), h5 i hi 1 (by norm_num), h5 i hi 2 (by norm_num), h5 i hi 3 (by norm_num)⟩⟩
  unfold Vdf.trace
  rw [h1, Option.bind_some, hlast 0 (by norm_num), Option.bind_some, hlast 1 (by norm_num), Option.bind_some, ← hend]
  simp

/-! ## C71 -/

/-- C71 (partial: the step of the example is not the cube): the system says of a table that the first two columns are the iterates of the step of the example, from
the start to the end of the claim, and the other two (but for the last row) the square. -/
theorem C71_system_partial (root : Nat → Option F) (hroot : RootFn root) (rep : F → U256) (k : Nat) (hk : k < 64) (r a b a' b' : F) (c : Constraints F)
    (hc : Vdf.constraints root rep r (2 ^ k) a b a' b' = some c) (g : F) (hg : root (2 ^ k) = some g) (t : Nat → Nat → F) :
    RowsSatisfy c g (2 ^ k) t ↔ (∀ i < 2 ^ k, (t i 0, t i 1) = (brokenCube r)^[i] (a, b)) ∧
      (∀ i, i + 1 < 2 ^ k → t i 2 = t i 0 ^ 2 + r * t i 1 ^ 2 ∧ t i 3 = 2 * t i 0 * t i 1) ∧ (a', b') = (brokenCube r)^[2 ^ k - 1] (a, b) := by
  have hs := vdf_is root hroot rep k hk r a b a' b' c hc g hg
  rw [hs.rows, vdf_hold g r _ (Nat.two_pow_pos _) hs.order]

/-- C71 (partial: the step of the example is not the cube): an accepted proof shows that the end is the iterate of the start. -/
theorem C71_accepted_partial (env : Env F) (hroot : RootFn env.root) (hcompat : RootCompat env.root) (hsearch : SearchOk env.search) (hgen : env.generator ≠ 0)
    (rep : F → U256) (k : Nat) (hk : k + 4 < 64) (r a b a' b' : F) (c : Constraints F) (hc : Vdf.constraints env.root rep r (2 ^ k) a b a' b' = some c) (p : Bytes)
    (hp : Stark.verify env c p = .ok ()) : Shows env c k 2 p fun _ => (a', b') = (brokenCube r)^[2 ^ k - 1] (a, b) := by
  have h := hc
  unfold Vdf.constraints at h
  obtain ⟨g, hg, -⟩ := Option.bind_eq_some_iff.1 h
  exact system_shows env hroot hcompat hsearch hgen c k 4 g _ 2 (vdf_is env.root hroot rep k (by omega) r a b a' b' c hc g hg) hk p hp _ fun t ht =>
    ((C71_system_partial env.root hroot rep k (by omega) r a b a' b' c hc g hg t).1 ht).2.2

/-- C71 (partial: the step of the example is not the cube): if the end is the iterate of the start, the trace passes the check and can be proved. -/
theorem C71_prove_partial (env : Env F) (hroot : RootFn env.root) (hcompat : RootCompat env.root) (hgen : env.generator ≠ 0)
    (hsearch : ∀ l n z, env.search l n = some z → l[z]? = some n) (o : Oracles F) (rep : F → U256) (k : Nat) (hk : k + 4 < 64) (hk1 : 0 < k) (r a b a' b' : F)
    (hend : (a', b') = (brokenCube r)^[2 ^ k - 1] (a, b)) (c : Constraints F) (hc : Vdf.constraints env.root rep r (2 ^ k) a b a' b' = some c) :
    ∃ t g, Vdf.trace r (2 ^ k) a b a' b' = some t ∧ env.root (2 ^ k) = some g ∧ TraceTable.check_constraints env.root c t = some (.ok ()) ∧ Provable env o c k g t := by
  have h := hc
  unfold Vdf.constraints at h
  obtain ⟨g, hg, -⟩ := Option.bind_eq_some_iff.1 h
  have hs := vdf_is env.root hroot rep k (by omega) r a b a' b' c hc g hg
  obtain ⟨t, h1, h2, h3, h4, h5⟩ := vdf_trace r (2 ^ k) (Nat.two_pow_pos _) a b a' b' hend
  have hh : Hold g (2 ^ k) (fun r i => (t.get r i).getD 0) (vdfQuotients g r (2 ^ k) a b a' b') := by
    rw [vdf_hold g r _ (Nat.two_pow_pos _) hs.order]
    refine ⟨fun i hi => ?_, fun i hi => ?_, hend⟩
    · obtain ⟨e1, e2, -⟩ := h5 i hi
      simp only [e1, e2, Option.getD_some]
    · obtain ⟨e1, e2, e3, e4⟩ := h5 i (by omega)
      simp only [e1, e2, e3, e4, Option.getD_some, and_self]
  exact ⟨t, g, h1, hg, (hs.check t h4 h2 h3).2 hh, system_provable env hroot hcompat hgen hsearch o c k 4 g _ 2 hs hk hk1 t h4 h2 h3 hh⟩

/-- C71 is violated: with two rows, the system for the start `(0, b)` can be satisfied for the end `(0, 0)` only; but the cube of `b √r` is `b³ r √r`, which is not zero
unless `b` or `r` is. -/
theorem C71_violated (root : Nat → Option F) (hroot : RootFn root) (rep : F → U256) (r b a' b' : F) (hr : r ≠ 0) (hb : b ≠ 0) (c : Constraints F)
    (hc : Vdf.constraints root rep r (2 ^ 1) 0 b a' b' = some c) (g : F) (hg : root (2 ^ 1) = some g) :
    ((∃ t, RowsSatisfy c g (2 ^ 1) t) ↔ (a', b') = (0, 0)) ∧ cube r (0, b) ≠ (0, 0) := by
  have hstep : (brokenCube r)^[2 ^ 1 - 1] (0, b) = (0, 0) := by
    show brokenCube r (0, b) = _
    unfold brokenCube
    apply Prod.ext <;> dsimp only <;> ring
  refine ⟨⟨?_, fun h => ?_⟩, ?_⟩
  · rintro ⟨t, ht⟩
    rw [C71_system_partial root hroot rep 1 (by norm_num) r 0 b a' b' c hc g hg, hstep] at ht
    exact ht.2.2
  · refine ⟨fun i j => if j = 0 then ((brokenCube r)^[i] (0, b)).1 else if j = 1 then ((brokenCube r)^[i] (0, b)).2 else
      if j = 2 then ((brokenCube r)^[i] (0, b)).1 ^ 2 + r * ((brokenCube r)^[i] (0, b)).2 ^ 2 else 2 * ((brokenCube r)^[i] (0, b)).1 * ((brokenCube r)^[i] (0, b)).2, ?_⟩
    rw [C71_system_partial root hroot rep 1 (by norm_num) r 0 b a' b' c hc g hg, hstep]
    exact ⟨fun i _ => rfl, fun i _ => ⟨rfl, rfl⟩, h⟩
  · intro h
    have := congrArg Prod.snd h
    unfold cube at this
    simp [hr, hb] at this

end

/-! ## A run over the field of 65537 elements -/

namespace VdfRun
open OpenZKP.Props.Small (Z)
open Run

def last : Z × Z := (brokenCube 3)^[15] (2, 3)
theorem last_eq : (last.1, last.2) = (brokenCube (3 : Z))^[2 ^ 4 - 1] (2, 3) := by
  rw [show 2 ^ 4 - 1 = 15 by norm_num]
  rfl

def c0 : Option (Constraints Z) := Vdf.constraints (fun n => if n = 16 then some 64 else root n) rep 3 16 2 3 last.1 last.2
def c : Constraints Z := c0.getD ⟨[], 0, 0, [], 0, 0, 0, [], []⟩

theorem some_c : c0 = some c := by
  unfold c
  cases h : c0 with
  | some c0 => rfl
  | none =>
    have : c0.isSome = true := by decide +kernel
    rw [h] at this
    cases this

theorem system_eq : Vdf.constraints root rep 3 (2 ^ 4) 2 3 last.1 last.2 = some c := by
  rw [← some_c]
  unfold c0
  congr 1
  funext n
  split
  · next h => rw [h]; exact root16
  · rfl

def E : Expr Z := (c.combine (List.replicate (2 * c.expressions.length) 28784)).getD .X

theorem computed : Computed c 4 2 E where
  combine := by
    unfold E
    cases h : c.combine (List.replicate (2 * c.expressions.length) 28784) with
    | some c0 => rfl
    | none =>
      have : (c.combine (List.replicate (2 * c.expressions.length) 28784)).isSome = true := by decide +kernel
      rw [h] at this
      cases this
  claims := by decide +kernel
  mark := by decide +kernel
  marks := by decide +kernel
  degree_pos := by norm_num
  degrees := by decide +kernel
  constraints := by decide +kernel
  arguments := by decide +kernel
  points := by decide +kernel

/-- The claim that the step of the example leads from `(2, 3)` to `last` in fifteen steps has a proof. -/
theorem proved : ∃ p, Stark.verify env c p = .ok () := by
  have hs := vdf_is root root_ok rep 4 (by norm_num) 3 2 3 last.1 last.2 c system_eq 64 root16
  obtain ⟨t, h1, h2, h3, h4, h5⟩ := vdf_trace (3 : Z) (2 ^ 4) (by norm_num) 2 3 last.1 last.2 last_eq
  refine Run.proved hs computed (by norm_num) (by norm_num) t h4 h2 h3 ?_
  rw [vdf_hold 64 3 _ (by norm_num) hs.order]
  refine ⟨fun i hi => ?_, fun i hi => ?_, last_eq⟩
  · obtain ⟨e1, e2, -⟩ := h5 i hi
    simp only [e1, e2, Option.getD_some]
  · obtain ⟨e1, e2, e3, e4⟩ := h5 i (by omega)
    simp only [e1, e2, e3, e4, Option.getD_some, and_self]

end VdfRun

-- the hypotheses of the theorems are met: the trace passes the check and can be proved
example : ∃ t g, Vdf.trace 3 16 2 3 VdfRun.last.1 VdfRun.last.2 = some t ∧ Run.root 16 = some g ∧
    TraceTable.check_constraints Run.root VdfRun.c t = some (.ok ()) ∧ Provable Run.env Run.o VdfRun.c 4 g t :=
  C71_prove_partial Run.env Run.root_ok Run.root_compat Run.gen_ne Run.search_some Run.o Run.rep 4 (by norm_num) (by norm_num) 3 2 3 _ _ VdfRun.last_eq VdfRun.c VdfRun.system_eq

-- there are accepted proofs
example : ∃ p, Stark.verify Run.env VdfRun.c p = .ok () ∧ Shows Run.env VdfRun.c 4 2 p fun _ => (VdfRun.last.1, VdfRun.last.2) = (brokenCube 3)^[2 ^ 4 - 1] (2, 3) := by
  obtain ⟨p, hp⟩ := VdfRun.proved
  exact ⟨p, hp, C71_accepted_partial Run.env Run.root_ok Run.root_compat Run.search_ok Run.gen_ne Run.rep 4 (by norm_num) 3 2 3 _ _ VdfRun.c VdfRun.system_eq p hp⟩

-- the cube of `5 √3` is `375 √3`; the example can show that it is zero, and nothing else
example : ∃ c, Vdf.constraints Run.root Run.rep 3 (2 ^ 1) 0 5 0 0 = some c ∧ Run.root (2 ^ 1) = some 65536 := by
  have hr : Run.root (2 ^ 1) = some 65536 := by
    unfold Run.root
    rw [if_pos (by norm_num), show 65536 / 2 ^ 1 = 256 * 128 by norm_num, pow_mul, show (3 : Small.Z) ^ 256 = 282 by decide +kernel]
    decide +kernel
  unfold Vdf.constraints system Constraints.from_expressions
  simp only [hr, Option.bind_some]
  exact ⟨_, rfl, trivial⟩
example : cube (3 : Small.Z) (0, 5) = (0, 375) := by decide +kernel
end Props
end OpenZKP
