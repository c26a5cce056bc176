import Verif.Examples.Rows

/-!
# The example systems: C68 (Fibonacci)

What a satisfied system says is stated for the table of cells `t row column` of which `RowsSatisfy` (C64) speaks.
-/

namespace OpenZKP
namespace Props
open Stark FFT Polynomial Examples Stark.Accept

section
variable {F : Type} [Field F] [DecidableEq F]

/-! ## Specification -/

/-- The bytes `p`, accepted for the system `c` with `2^k` rows and degree `d`, show that `Claim` holds of a table: whatever tables the roots in the proof are
those of, there is a hash collision, or a challenge is bad (C64 bounds their number), or the columns committed to are close to polynomials
whose values at the powers of `g` are a table for which `Claim` holds. -/
def Shows (env : Env F) (c : Constraints F) (k d : Nat) (p : Bytes) (Claim : (Nat → Nat → F) → Prop) : Prop :=
  ∃ w g args P x, env.root (2 ^ (k + 4)) = some w ∧ env.root (2 ^ k) = some g ∧ Accepts env c k 4 w g p args P x ∧
  ∀ R C Ls e, Tables env c (k + 4) P R C Ls → 2 ^ k + 2 * (e * 2 ^ c.fri_layout.sum) < 2 ^ (k + 4) →
    SomeCollision env c (k + 4) P x R C Ls ∨ Lucky env c k 4 d w g args P x R C Ls e ∨
    ∃ T, Fits (Used c) (2 ^ k) (e * 2 ^ c.fri_layout.sum) (2 ^ (k + 4)) (cosetPoint env w (k + 4)) R T ∧ Claim fun r i => (T i).eval (g ^ r)

/-- The sequence that starts with 1 and `secret` and in which every element is the sum of the two before. -/
def fibonacci (secret : F) : Nat → F
  | 0 => 1
  | 1 => secret
  | n + 2 => fibonacci secret n + fibonacci secret (n + 1)

/-! ## Lemmas -/

theorem shows_of_rows (env : Env F) (hroot : RootFn env.root) (hcompat : RootCompat env.root) (hsearch : SearchOk env.search) (hgen : env.generator ≠ 0)
    (k d rows columns : Nat) (hk : k + 4 < 64) (hrows : rows = 2 ^ k) (seed : Bytes) (es : List (Expr F)) (c : Constraints F)
    (hsys : system env.root rows columns seed es = some c) (hd : c.degree = some d) (p : Bytes) (h : Stark.verify env c p = .ok ()) (Claim : (Nat → Nat → F) → Prop)
    (hclaim : ∀ g t, env.root rows = some g → RowsSatisfy c g rows t → Claim t) : Shows env c k d p Claim := by
  obtain ⟨-, hc⟩ := system_some _ _ _ _ _ _ hsys
  subst hrows
  obtain ⟨w, g, args, P, x, h1, h2, h3, h4⟩ := C64_sound env hroot hcompat hsearch hgen c k 4 d hk (by rw [hc]) (by rw [hc]; show 16 = 2 ^ 4; norm_num)
    (by rw [hc]; exact layout_le k (by omega)) (by rw [hc]; show 45 < 2 ^ 64; norm_num) hd p h
  refine ⟨w, g, args, P, x, h1, h2, h3, fun R C Ls e ht he => ?_⟩
  rcases h4 R C Ls e ht he with h5 | h5 | ⟨T, h5, -, h6⟩
  · exact Or.inl h5
  · exact Or.inr (Or.inl h5)
  · exact Or.inr (Or.inr ⟨T, h5, hclaim g _ h2 h6⟩)

theorem row_same (r n : Nat) (h : r < n) : (((r : Int) + 0) % (n : Int)).toNat = r := by
  rw [add_zero, ← Int.natCast_mod, Nat.mod_eq_of_lt h, Int.toNat_natCast]

theorem row_next (r n : Nat) (h : r + 1 < n) : (((r : Int) + 1) % (n : Int)).toNat = r + 1 := by
  rw [← Nat.cast_one (R := Int), ← Nat.cast_add, ← Int.natCast_mod, Nat.mod_eq_of_lt h, Int.toNat_natCast]

/-! ## Fibonacci -/

/-- the quotients of the Fibonacci system -/
def fibQuotients (g : F) (n index : Nat) (v : F) : List (Expr F × Expr F) :=
  [everyRow g n (Expr.sub (.Trace 0 1) (.Trace 1 0)), everyRow g n (Expr.sub (Expr.sub (.Trace 1 1) (.Trace 0 0)) (.Trace 1 0)),
    onRow g 0 (Expr.sub (.Trace 0 0) (.Constant 1)), onRow g index (Expr.sub (.Trace 0 0) (.Constant v))]

theorem fib_system (root : Nat → Option F) (rep : F → U256) (index : Nat) (v : F) (c : Constraints F) (h : Fib.constraints root rep index v = some c) :
    ∃ g es, root (Merkle.next_power_of_two index) = some g ∧
      system root (Merkle.next_power_of_two index) 2 (usizeBytes index ++ elementBytes rep v) es = some c ∧
      Quotients c (fibQuotients g (Merkle.next_power_of_two index) index v) ∧ c.degree = some 1 ∧
      (∀ e ∈ es, ∀ i j, Occurs (i, j) e → i < 2 ∧ 0 ≤ j) ∧ c.expressions = es := by
  unfold Fib.constraints at h
  obtain ⟨g, hg, h⟩ := Option.bind_eq_some_iff.1 h
  obtain ⟨-, hc⟩ := system_some _ _ _ _ _ _ h
  refine ⟨g, _, hg, h, ?_, ?_, ?_, by rw [hc]⟩
  · rw [hc]
    unfold Quotients fibQuotients
    refine .cons (everyRow_quotient _ _ _ ?_) (.cons (everyRow_quotient _ _ _ ?_) (.cons (onRow_quotient _ _ _ ?_) (.cons (onRow_quotient _ _ _ ?_) .nil))) <;>
      simp [DivFree, Expr.sub, Expr.add, Expr.neg]
  · rw [hc]
    simp [Constraints.degree, Expr.trace_degree, Expr.degree_impl, every_row, on_row, Expr.sub, Expr.add, Expr.neg, Expr.mul, Expr.div, Expr.inv, Expr.pow, csub, Constraints.maxOf]
  · intro e he i j hij
    simp only [List.mem_cons, List.not_mem_nil, or_false] at he
    rcases he with rfl | rfl | rfl | rfl <;>
      simp [Occurs, every_row, on_row, Expr.sub, Expr.add, Expr.neg, Expr.mul, Expr.div, Expr.inv, Expr.pow] at hij <;> omega

theorem fib_hold (g : F) (n index : Nat) (v : F) (hn : 0 < n) (hord : orderOf g = n) (t : Nat → Nat → F) :
    Hold g n t (fibQuotients g n index v) ↔
      (∀ r, r + 1 < n → t (r + 1) 0 = t r 1 ∧ t (r + 1) 1 = t r 0 + t r 1) ∧ t 0 0 = 1 ∧ t (index % n) 0 = v := by
  unfold Hold fibQuotients
  simp only [List.forall_mem_cons, everyRow_iff g n hn hord, onRow_iff g n hn hord, value_sub, value_const, value, List.not_mem_nil, false_imp_iff, implies_true, and_true,
    Nat.zero_mod]
  constructor
  · rintro ⟨h1, h2, h3, h4⟩
    rw [row_same _ _ (Nat.mod_lt _ hn)] at h4
    rw [row_same 0 n hn] at h3
    refine ⟨fun r hr => ?_, sub_eq_zero.1 h3, sub_eq_zero.1 h4⟩
    have e1 := h1 r hr
    have e2 := h2 r hr
    rw [row_next r n hr, row_same r n (by omega)] at e1 e2
    exact ⟨sub_eq_zero.1 e1, by linear_combination e2⟩
  · rintro ⟨h1, h2, h3⟩
    refine ⟨fun r hr => ?_, fun r hr => ?_, ?_, ?_⟩
    · rw [row_next r n hr, row_same r n (by omega), (h1 r hr).1, sub_self]
    · rw [row_next r n hr, row_same r n (by omega), (h1 r hr).2]; ring
    · rw [row_same 0 n hn, h2, sub_self]
    · rw [row_same _ _ (Nat.mod_lt _ hn), h3, sub_self]

omit [DecidableEq F] in
theorem fib_rows (n : Nat) (t : Nat → Nat → F) (h : ∀ r, r + 1 < n → t (r + 1) 0 = t r 1 ∧ t (r + 1) 1 = t r 0 + t r 1) (h0 : t 0 0 = 1) :
    ∀ r < n, t r 0 = fibonacci (t 0 1) r ∧ t r 1 = fibonacci (t 0 1) (r + 1) := by
  intro r
  induction r with
  | zero => intro _; exact ⟨h0, rfl⟩
  | succ r ih =>
    intro hr
    obtain ⟨i1, i2⟩ := ih (by omega)
    obtain ⟨h1, h2⟩ := h r hr
    exact ⟨by rw [h1, i2], by rw [h2, i1, i2]; rfl⟩

theorem fib_order (root : Nat → Option F) (hroot : RootFn root) (k index : Nat) (hk : k < 64) (hn : Merkle.next_power_of_two index = 2 ^ k) (g : F)
    (hg : root (Merkle.next_power_of_two index) = some g) : 0 < Merkle.next_power_of_two index ∧ orderOf g = Merkle.next_power_of_two index := by
  have h1 : 0 < Merkle.next_power_of_two index := by rw [hn]; exact Nat.two_pow_pos _
  refine ⟨h1, hroot _ g h1 ?_ hg⟩
  rw [hn]
  exact Nat.pow_lt_pow_right (by norm_num) hk

/-! ## C68 -/

/-- C68 (partial: the index is not a power of two): the system of the claim `(index, value)` says of a table that its first column is the Fibonacci sequence that
starts with 1 and the first cell of the second column, with `value` at `index`. -/
theorem C68_system_partial (root : Nat → Option F) (hroot : RootFn root) (rep : F → U256) (index k : Nat) (hk : k < 64) (hn : Merkle.next_power_of_two index = 2 ^ k)
    (hindex : index < 2 ^ k) (v : F) (c : Constraints F) (hc : Fib.constraints root rep index v = some c) (g : F) (hg : root (2 ^ k) = some g) (t : Nat → Nat → F) :
    RowsSatisfy c g (2 ^ k) t ↔
      (∀ r < 2 ^ k, t r 0 = fibonacci (t 0 1) r ∧ t r 1 = fibonacci (t 0 1) (r + 1)) ∧ v = fibonacci (t 0 1) index := by
  obtain ⟨g', es, hg', -, hqs, -⟩ := fib_system root rep index v c hc
  obtain ⟨hpos, hord⟩ := fib_order root hroot k index hk hn g' hg'
  rw [hn] at *
  have : g' = g := Option.some.inj (hg'.symm.trans hg)
  subst this
  rw [rows_iff c _ hqs, fib_hold g' _ index v hpos hord, Nat.mod_eq_of_lt hindex]
  constructor
  · rintro ⟨h1, h2, h3⟩
    have := fib_rows _ t h1 h2
    exact ⟨this, by rw [← h3, (this index hindex).1]⟩
  · rintro ⟨h1, h2⟩
    refine ⟨fun r hr => ?_, (h1 0 hpos).1, by rw [h2, (h1 index hindex).1]⟩
    rw [(h1 (r + 1) hr).1, (h1 (r + 1) hr).2, (h1 r (by omega)).1, (h1 r (by omega)).2]
    exact ⟨rfl, rfl⟩

/-- C68 (partial: the index is not a power of two): an accepted proof shows that `value` is at `index` of the Fibonacci sequence that starts with 1 and
a cell of the table committed to. -/
theorem C68_accepted_partial (env : Env F) (hroot : RootFn env.root) (hcompat : RootCompat env.root) (hsearch : SearchOk env.search) (hgen : env.generator ≠ 0)
    (rep : F → U256) (index k : Nat) (hk : k + 4 < 64) (hn : Merkle.next_power_of_two index = 2 ^ k) (hindex : index < 2 ^ k) (v : F) (c : Constraints F)
    (hc : Fib.constraints env.root rep index v = some c) (p : Bytes) (h : Stark.verify env c p = .ok ()) :
    Shows env c k 1 p fun t => v = fibonacci (t 0 1) index := by
  obtain ⟨g, es, hg, hsys, -, hd, -⟩ := fib_system env.root rep index v c hc
  refine shows_of_rows env hroot hcompat hsearch hgen k 1 _ 2 hk hn _ es c hsys hd p h _ fun g' t hg' ht => ?_
  rw [hn] at hg' ht
  exact ((C68_system_partial env.root hroot rep index k (by omega) hn hindex v c hc g' hg' t).1 ht).2

/-- the trace of a witness -/
theorem fib_trace (index : Nat) (secret : F) : ∃ t, Fib.trace index secret = some t ∧ t.trace_length = Merkle.next_power_of_two index ∧ t.num_columns = 2 ∧ TableOk t ∧
    ∀ r < Merkle.next_power_of_two index, t.get r 0 = some (fibonacci secret r) ∧ t.get r 1 = some (fibonacci secret (r + 1)) := by
  have hpos : 0 < Merkle.next_power_of_two index := by
    unfold Merkle.next_power_of_two
    split
    · norm_num
    · exact Nat.two_pow_pos _
  set n := Merkle.next_power_of_two index with hn
  have hstate : ∀ k, stateAt (fun _ (s : F × F) => (s.2, s.1 + s.2)) 0 (1, secret) k = (fibonacci secret k, fibonacci secret (k + 1)) := by
    intro k
    induction k with
    | zero => rfl
    | succ k ih => rw [stateAt, ih]; rfl
  have key := tableOf_spec n 2 ([(0, 0, 1), (0, 1, secret)] ++
    loop (fun _ s => (s.2, s.1 + s.2)) (fun i (s : F × F) => [(i + 1, 0, s.2), (i + 1, 1, s.1 + s.2)]) (n - 1) 0 (1, secret))
    (fun i j => if j = 0 then fibonacci secret i else fibonacci secret (i + 1)) (by
      intro i j v h
      rw [List.mem_append, mem_loop] at h
      rcases h with h | ⟨k, hk, h⟩
      · simp only [List.mem_cons, List.not_mem_nil, or_false, Prod.mk.injEq] at h
        rcases h with ⟨rfl, rfl, rfl⟩ | ⟨rfl, rfl, rfl⟩
        · exact ⟨hpos, by norm_num, rfl⟩
        · exact ⟨hpos, by norm_num, rfl⟩
      · rw [hstate] at h
        simp only [List.mem_cons, List.not_mem_nil, or_false, Prod.mk.injEq, zero_add] at h
        rcases h with ⟨rfl, rfl, rfl⟩ | ⟨rfl, rfl, rfl⟩
        · exact ⟨by omega, by norm_num, rfl⟩
        · exact ⟨by omega, by norm_num, rfl⟩) (by
      intro i hi j hj
      rw [List.mem_append, mem_loop]
      cases i with
      | zero =>
        left
        rcases (by omega : j = 0 ∨ j = 1) with rfl | rfl
        · simp [fibonacci]
        · simp [fibonacci]
      | succ i =>
        right
        refine ⟨i, by omega, ?_⟩
        rw [hstate]
        rcases (by omega : j = 0 ∨ j = 1) with rfl | rfl
        · simp
        · simp [fibonacci])
  obtain ⟨t, h1, h2, h3, h4, h5⟩ := key
  exact ⟨t, h1, h2, h3, h4, fun r hr => ⟨h5 r hr 0 (by norm_num), h5 r hr 1 (by norm_num)⟩⟩

theorem fib_honest (index k : Nat) (hn : Merkle.next_power_of_two index = 2 ^ k) (hindex : index < 2 ^ k) (secret : F) (g : F) (hord : orderOf g = 2 ^ k)
    (t : TraceTable F) (ht : ∀ r < Merkle.next_power_of_two index, t.get r 0 = some (fibonacci secret r) ∧ t.get r 1 = some (fibonacci secret (r + 1))) :
    Hold g (2 ^ k) (fun r i => (t.get r i).getD 0) (fibQuotients g (2 ^ k) index (fibonacci secret index)) := by
  rw [fib_hold g _ index _ (Nat.two_pow_pos _) hord, Nat.mod_eq_of_lt hindex]
  rw [hn] at ht
  refine ⟨fun r hr => ?_, ?_, ?_⟩
  · simp only [(ht (r + 1) hr).1, (ht (r + 1) hr).2, (ht r (by omega)).1, (ht r (by omega)).2, Option.getD_some, true_and]
    rfl
  · simp only [(ht 0 (Nat.two_pow_pos _)).1, Option.getD_some]; rfl
  · simp only [(ht index hindex).1, Option.getD_some]

/-- C68 (partial: the index is not a power of two): for a true claim `check` accepts the trace of the witness. -/
theorem C68_check_partial (root : Nat → Option F) (hroot : RootFn root) (rep : F → U256) (index k : Nat) (hk : k < 64) (hn : Merkle.next_power_of_two index = 2 ^ k)
    (hindex : index < 2 ^ k) (secret : F) (c : Constraints F) (hc : Fib.constraints root rep index (fibonacci secret index) = some c) :
    ∃ t, Fib.trace index secret = some t ∧ TraceTable.check_constraints root c t = some (.ok ()) := by
  obtain ⟨g, es, hg, -, hqs, -, hocc, hes⟩ := fib_system root rep index _ c hc
  obtain ⟨hpos, hord⟩ := fib_order root hroot k index hk hn g hg
  obtain ⟨t, h1, h2, h3, h4, h5⟩ := fib_trace index secret
  refine ⟨t, h1, ?_⟩
  rw [check_iff root c _ hqs ?_ t h4 g (by rw [h2]; exact hg) ?_, h2, hn]
  · rw [hn] at hord
    exact fib_honest index k hn hindex secret g hord t h5
  · intro q hq
    simp only [fibQuotients, List.mem_cons, List.not_mem_nil, or_false] at hq
    rcases hq with rfl | rfl | rfl | rfl <;> simp [everyRow, onRow, NoZeroExp, Expr.sub, Expr.add]
  · intro e he a ha
    rw [hes] at he
    obtain ⟨o1, o2⟩ := hocc e he a.1 a.2 ha
    exact ⟨by omega, by omega⟩

theorem fib_zeros (g : F) (n index : Nat) (v : F) (hn : 0 < n) (hord : orderOf g = n) : ∀ q ∈ fibQuotients g n index v, SimpleZeros g n q.2 := by
  intro q hq
  simp only [fibQuotients, List.mem_cons, List.not_mem_nil, or_false] at hq
  rcases hq with rfl | rfl | rfl | rfl
  · exact everyRow_zeros g n hord _
  · exact everyRow_zeros g n hord _
  · exact onRow_zeros g n hn hord _ _
  · exact onRow_zeros g n hn hord _ _

/-- C68 (partial: the index is not a power of two): a true claim can be proved, with the hypotheses of C50. -/
theorem C68_prove_partial (env : Env F) (hroot : RootFn env.root) (hcompat : RootCompat env.root) (hgen : env.generator ≠ 0)
    (hsearch : ∀ l n z, env.search l n = some z → l[z]? = some n) (o : Oracles F) (rep : F → U256) (index k : Nat) (hk : k + 4 < 64) (hk1 : 0 < k)
    (hn : Merkle.next_power_of_two index = 2 ^ k) (hindex : index < 2 ^ k) (secret : F) (c : Constraints F)
    (hc : Fib.constraints env.root rep index (fibonacci secret index) = some c) (hr : RunOk env o c) (w g : F) (hw : env.root (2 ^ k * 16) = some w)
    (hg : env.root (2 ^ k) = some g) (hcoset : ∀ x, EvalPoint env c x → x ^ 2 ^ k ≠ 1) :
    ∃ t, Fib.trace index secret = some t ∧ ∀ T, ColumnPolys t g T → (∀ co, DrawnCoefficients env c t co → GraphOk env o c g T co) →
      (∀ s ch, commitPhase env o c t = .ok (s, ch) → OutOfDomain env c g T s.oods_point) →
      ∃ p, prove env o c t = .ok p ∧ Stark.verify env c p = .ok () := by
  obtain ⟨g', es, hg', hsys, hqs, hd, hocc, hes⟩ := fib_system env.root rep index _ c hc
  obtain ⟨hpos, hord⟩ := fib_order env.root hroot k index (by omega) hn g' hg'
  obtain ⟨t, h1, h2, h3, h4, h5⟩ := fib_trace index secret
  refine ⟨t, h1, fun T hT hgraph hood => ?_⟩
  have hh := fib_honest index k hn hindex secret g' (by rw [hord, hn]) t h5
  rw [hn] at *
  have : g' = g := Option.some.inj (hg'.symm.trans hg)
  subst this
  exact provable env hroot hcompat hgen hsearch o k (2 ^ k) 2 hk hk1 rfl (by norm_num) _ es c hsys hr _ hqs g' hg (fib_zeros g' _ _ _ hpos hord) 1 hd (by norm_num) t h4 h2 h3
    hocc hh w hw hcoset T hT hgraph hood

/-- C68 is violated: if the index is a power of two, the system says `value = 1` instead. -/
theorem C68_violated (root : Nat → Option F) (hroot : RootFn root) (rep : F → U256) (k : Nat) (hk : k < 64) (v : F) (c : Constraints F)
    (hc : Fib.constraints root rep (2 ^ k) v = some c) (g : F) (hg : root (2 ^ k) = some g) :
    (∃ t, RowsSatisfy c g (2 ^ k) t) ↔ v = 1 := by
  have hn := Merkle.nextPowerOfTwo_two_pow k
  obtain ⟨g', es, hg', -, hqs, -⟩ := fib_system root rep (2 ^ k) v c hc
  obtain ⟨hpos, hord⟩ := fib_order root hroot k (2 ^ k) hk hn g' hg'
  rw [hn] at *
  have : g' = g := Option.some.inj (hg'.symm.trans hg)
  subst this
  constructor
  · rintro ⟨t, ht⟩
    rw [rows_iff c _ hqs, fib_hold g' _ _ v hpos hord, Nat.mod_self] at ht
    rw [← ht.2.2, ht.2.1]
  · rintro rfl
    refine ⟨fun r i => if i = 0 then fibonacci 1 r else fibonacci 1 (r + 1), ?_⟩
    rw [rows_iff c _ hqs, fib_hold g' _ _ _ hpos hord, Nat.mod_self]
    exact ⟨fun r hr => ⟨rfl, rfl⟩, rfl, rfl⟩

end

/-! ## A run

The claim that the element at index 3 is 11 (with the secret 5: 1, 5, 6, 11), over the field of 65537 elements. -/

namespace FibRun
open OpenZKP.Props.Small (Z K rep_toNat)
open Merkle (bind_ok_inv map_ok_inv)
open OpenZKP.Props.Size (env root root_ok root_compat draws draw h0 randomField_eq)

def o : Oracles Z := ⟨fun _ _ => 77, fun s i j => s ^ 2 * 9 + i * 5 + j * 11 + 1000, fun _ => some 0⟩
def rep (x : Z) : U256 := ⟨UInt64.ofNat x.val, 0, 0, 0⟩
def c : Constraints Z := (Fib.constraints root rep 3 (fibonacci 5 3)).getD ⟨[], 0, 0, [], 0, 0, 0, [], []⟩

theorem system_eq : Fib.constraints root rep 3 (fibonacci 5 3) = some c := by
  unfold c
  cases h : Fib.constraints root rep 3 (fibonacci (5 : Z) 3) with
  | some c0 => rfl
  | none =>
    have : (Fib.constraints root rep 3 (fibonacci (5 : Z) 3)).isSome = true := by decide +kernel
    rw [h] at this
    cases this

theorem rows_eq : Merkle.next_power_of_two 3 = 2 ^ 2 := by decide +kernel

-- the claim is true, and `check` accepts the trace
example : fibonacci (5 : Z) 3 = 11 := by decide +kernel
example : ∃ t, Fib.trace 3 (5 : Z) = some t ∧ TraceTable.check_constraints root c t = some (.ok ()) :=
  C68_check_partial root root_ok rep 3 2 (by norm_num) rows_eq (by norm_num) 5 c system_eq

/-- constants multiplied out -/
def norm {F : Type} [Field F] : Expr F → Expr F
  | .Exp (.Constant a) k => .Constant (a ^ k)
  | .Neg (.Exp (.Constant a) k) => .Constant (-(a ^ k))
  | .Neg (.Constant a) => .Constant (-a)
  | .Exp .X 1 => .X
  | e => e

theorem norm_evaluate {F : Type} [Field F] [DecidableEq F] (x : F) (tr : Nat → Int → Option F) (e : Expr F) : (norm e).evaluate x tr = e.evaluate x tr := by
  unfold norm
  split <;> simp [Expr.evaluate]

def combined : Expr Z := (c.combine (List.replicate 8 28784)).getD .X

theorem combined_eq : c.combine (List.replicate 8 28784) = some combined := by
  unfold combined
  cases h : c.combine (List.replicate 8 28784) with
  | some c0 => rfl
  | none =>
    have : (c.combine (List.replicate 8 28784)).isSome = true := by decide +kernel
    rw [h] at this
    cases this

theorem marks : ∀ p ∈ (Expr.Constant 0 :: Expr.Constant 1 :: subexpressions combined).map fun a => (mark 77 o.traceHash a, norm a),
    ∀ p' ∈ (Expr.Constant 0 :: Expr.Constant 1 :: subexpressions combined).map fun a => (mark 77 o.traceHash a, norm a),
    p.1 = p'.1 → p.2 = p'.2 := by decide +kernel

theorem graph_ok (T : Nat → Z[X]) (g : Z) : GraphOk env o c g T (List.replicate 8 28784) := by
  intro d E0 E' _ hE hE'
  rw [combined_eq] at hE
  cases hE
  have h2 : combined.substitute_claim [] = some combined := by decide +kernel
  rw [show c.claim_polynomials = [] by decide +kernel, h2] at hE'
  cases hE'
  refine ⟨by show mark 77 _ _ ≠ none; decide +kernel, ?_⟩
  intro a ha a' ha' hm x _
  have := marks _ (List.mem_map_of_mem ha) _ (List.mem_map_of_mem ha') hm
  rw [← norm_evaluate, show norm a = norm a' from this, norm_evaluate]

theorem degree : c.degree = some 1 := by decide +kernel

theorem run_ok : RunOk env o c where
  draws := draws
  size := by decide +kernel
  degree := by
    intro d hd
    rw [degree] at hd
    cases hd
    refine ⟨by norm_num, ?_⟩
    decide +kernel
  pow_bits := by decide +kernel
  constraints := by decide +kernel
  arguments := by
    intro c' args d h1 h2 h3
    rw [degree] at h3
    cases h3
    have : (c.substitute.bind (fun c' => c'.trace_arguments)).map List.length = some 4 := by decide +kernel
    rw [h1, Option.bind_some, h2] at this
    have := Option.some.inj this
    rw [this]
    decide +kernel
  nonce := by
    intro ch n h
    cases h
    norm_num
  solve := by
    intro seed ch h
    refine ⟨0, rfl, ?_⟩
    unfold with_difficulty at h
    rw [show c.pow_bits = 0 by decide +kernel, if_pos (by decide)] at h
    cases h
    unfold Challenge.verify
    obtain ⟨u, _, h1, -⟩ := draw
    rw [show ∀ x, env.K.hash x = h0 from fun _ => rfl, h1]
    exact decide_eq_true (Nat.zero_le _)

theorem point_ne (x : Z) (h : EvalPoint env c x) : x ^ 64 = 3 ^ 64 := by
  obtain ⟨y, h1, rfl⟩ := h
  rw [show c.trace_nrows * c.blowup = 64 by decide +kernel] at h1
  show (3 * y) ^ 64 = 3 ^ 64
  rw [mul_pow, h1, mul_one]

theorem oods_point (t : TraceTable Z) (s : Committed Z) (ch : ProverChannel) (h : commitPhase env o c t = .ok (s, ch)) : s.oods_point = 28784 := by
  unfold commitPhase at h
  obtain ⟨_, _, h⟩ := bind_ok_inv h
  obtain ⟨_, _, h⟩ := bind_ok_inv h
  obtain ⟨_, _, h⟩ := bind_ok_inv h
  obtain ⟨_, _, h⟩ := bind_ok_inv h
  obtain ⟨_, _, h⟩ := bind_ok_inv h
  obtain ⟨_, _, h⟩ := bind_ok_inv h
  obtain ⟨oods, ho, h⟩ := bind_ok_inv h
  obtain ⟨_, _, h⟩ := bind_ok_inv h
  obtain ⟨_, _, h⟩ := bind_ok_inv h
  obtain ⟨_, _, h⟩ := bind_ok_inv h
  obtain ⟨_, _, h⟩ := bind_ok_inv h
  obtain ⟨_, _, h⟩ := bind_ok_inv h
  split at h
  · cases h
  obtain ⟨_, _, h⟩ := bind_ok_inv h
  obtain ⟨_, _, h⟩ := map_ok_inv h
  cases h
  have ho := pPanic_inv ho
  unfold oods_combine at ho
  obtain ⟨_, _, ho⟩ := Option.bind_eq_some_iff.1 ho
  obtain ⟨r, hr, ho⟩ := Option.bind_eq_some_iff.1 ho
  obtain ⟨_, _, ho⟩ := Option.bind_eq_some_iff.1 ho
  obtain ⟨_, _, ho⟩ := Option.bind_eq_some_iff.1 ho
  obtain ⟨_, _, ho⟩ := Option.bind_eq_some_iff.1 ho
  obtain ⟨_, _, ho⟩ := Option.bind_eq_some_iff.1 ho
  obtain ⟨_, _, ho⟩ := Option.map_eq_some_iff.1 ho
  rw [← ho]
  dsimp only
  unfold ProverChannel.getField at hr
  obtain ⟨v, hv, hall⟩ := randomField_eq
  rw [show env.K = K from rfl, hall] at hr
  obtain ⟨_, h1, h2⟩ := Option.map_eq_some_iff.1 hr
  obtain ⟨_, _, h3⟩ := Option.map_eq_some_iff.1 h1
  rw [← h2, ← h3]
  show (v.toNat : Z) = 28784
  rw [← ZMod.natCast_mod, hv]
  rfl

theorem drawn (t : TraceTable Z) (co : List Z) (h : DrawnCoefficients env c t co) : co = List.replicate 8 28784 := by
  obtain ⟨polys, r, ch, -, -, h⟩ := h
  obtain ⟨v, hv, hall⟩ := randomField_eq
  have key : ∀ n c' l c'', PublicCoin.randomFields K n c' = some (l, c'') → l = List.replicate n v := by
    intro n
    induction n with
    | zero => intro c' l c'' h; cases h; rfl
    | succ n ih =>
      intro c' l c'' h
      unfold PublicCoin.randomFields at h
      simp only [hall, Option.bind_eq_some_iff, Option.map_eq_some_iff] at h
      obtain ⟨a, ⟨_, _, rfl⟩, b, hb, hl⟩ := h
      cases hl
      rw [ih _ _ _ hb, List.replicate_succ]
  unfold ProverChannel.getFields at h
  obtain ⟨l, h1, h2⟩ := Option.map_eq_some_iff.1 h
  rw [show 2 * c.expressions.length = 8 by decide +kernel] at h1
  have h3 := key 8 _ l.1 l.2 h1
  have h4 := congrArg Prod.fst h2
  dsimp only at h4
  have : env.codec.val v = 28784 := by
    show (v.toNat : Z) = 28784
    rw [← ZMod.natCast_mod, hv]
    rfl
  rw [← h4, h3, List.map_replicate, this]

theorem out_of_domain (T : Nat → Z[X]) : OutOfDomain env c 65281 T 28784 := by
  obtain ⟨g', es, hg', hsys, hqs, hd, hocc, hes⟩ := fib_system root rep 3 _ c system_eq
  have : g' = 65281 := Option.some.inj (hg'.symm.trans (by decide +kernel))
  subst this
  refine ⟨fun x hx => ⟨fun e he i j hij => ?_, fun d hd => ?_⟩, ?_⟩
  · have hx := point_ne x hx
    rintro rfl
    have h4 : ((65281 : Z) ^ j) ^ 64 = 1 := by
      rw [← zpow_natCast, ← zpow_mul, mul_comm, zpow_mul, zpow_natCast, show (65281 : Z) ^ 64 = 1 by decide +kernel, one_zpow]
    rw [mul_pow, h4] at hx
    revert hx
    decide +kernel
  · have hx := point_ne x hx
    rw [degree] at hd
    cases hd
    rintro rfl
    revert hx
    decide +kernel
  · refine defined c _ hqs 65281 T 28784 fun q hq => ?_
    rw [rows_eq] at hq
    have ho : orderOf (65281 : Z) = 2 ^ 2 := root_ok _ _ (by norm_num) (by norm_num) (by decide +kernel)
    exact (fib_zeros 65281 (2 ^ 2) 3 _ (by norm_num) ho q hq).2 28784 (by decide +kernel)

/-- the claim is proved and the proof accepted -/
theorem proved : ∃ p, Stark.verify env c p = .ok () := by
  obtain ⟨t, h1, h2⟩ := C68_prove_partial env root_ok root_compat (by decide +kernel) (by
    intro l n z hz
    obtain ⟨h3, h4, -⟩ := List.findIdx?_eq_some_iff_getElem.1 hz
    rw [List.getElem?_eq_getElem h3]
    simpa using h4) o rep 3 2 (by norm_num) (by norm_num) rows_eq (by norm_num) 5 c system_eq run_ok 8224 65281 (by decide +kernel) (by decide +kernel) (by
    intro x hx h0
    have hx := point_ne x hx
    rw [show x ^ 64 = (x ^ 2 ^ 2) ^ 16 by ring, h0] at hx
    revert hx
    decide +kernel)
  obtain ⟨t', h3, h4, h5, h6, h7⟩ := fib_trace 3 (5 : Z)
  have : t' = t := Option.some.inj (h3.symm.trans h1)
  subst this
  obtain ⟨ps, i1, i2, i3⟩ := C46_interpolate root root_ok t' h6 2 (by norm_num) (by rw [h4, rows_eq]) 65281 (by
    unfold TraceTable.generator
    rw [h4, rows_eq]
    decide +kernel)
  obtain ⟨p, -, hp⟩ := h2 (fun j => toPoly (ps.getD j [])) (by
    intro j hj
    obtain ⟨q, q1, q2, q3⟩ := i3 j hj
    have : ps.getD j [] = q := by rw [List.getD, q1]; rfl
    simp only [this]
    refine ⟨?_, ?_⟩
    · have := toPoly_degree_lt q
      rw [q2] at this
      rw [h4, rows_eq]
      exact this
    · intro i hi
      rw [h4, rows_eq] at hi
      exact q3 i hi) (fun co hco => by rw [drawn t' co hco]; exact graph_ok _ _) (fun s ch hs => by rw [oods_point t' s ch hs]; exact out_of_domain _)
  exact ⟨p, hp⟩

-- what this proof shows
example : ∃ p, Stark.verify env c p = .ok () ∧ Shows env c 2 1 p fun t => fibonacci 5 3 = fibonacci (t 0 1) 3 := by
  obtain ⟨p, hp⟩ := proved
  refine ⟨p, hp, C68_accepted_partial env root_ok root_compat ?_ (by decide +kernel) rep 3 2 (by norm_num) rows_eq (by norm_num) _ c system_eq p hp⟩
  intro l n _
  refine ⟨fun z hz => ?_, fun h hn => ?_⟩
  · obtain ⟨h3, h4, -⟩ := List.findIdx?_eq_some_iff_getElem.1 hz
    rw [List.getElem?_eq_getElem h3]
    simpa using h4
  · have := List.findIdx?_eq_none_iff.1 h n hn
    simp at this

-- for index 2 the true claim that the element is 6 cannot be satisfied
example : ∃ c', Fib.constraints root rep (2 ^ 1) (fibonacci (5 : Z) (2 ^ 1)) = some c' ∧ ∀ t, ¬ RowsSatisfy c' 65536 (2 ^ 1) t := by
  cases h : Fib.constraints root rep (2 ^ 1) (fibonacci (5 : Z) (2 ^ 1)) with
  | none =>
    have : (Fib.constraints root rep (2 ^ 1) (fibonacci (5 : Z) (2 ^ 1))).isSome = true := by decide +kernel
    rw [h] at this
    cases this
  | some c' =>
    refine ⟨c', rfl, fun t ht => ?_⟩
    have := (C68_violated root root_ok rep 1 (by norm_num) _ c' h 65536 (by decide +kernel)).1 ⟨t, ht⟩
    revert this
    decide +kernel

end FibRun

end Props
end OpenZKP
