import Verif.Props.Mimc

/-!
# The example systems: C70 (Merkle tree of MiMC hashes)
-/

namespace OpenZKP
namespace Props
open Stark FFT Polynomial Examples Stark.Accept

section
variable {F : Type} [Field F] [DecidableEq F]

/-! ## Specification -/

/-- The table has an authentication path: block `b` of 256 rows hashes the cells `256 b` and `256 b + 128` of the first column; one of the cells of the first
block is the leaf, one of the cells of every other block is the hash of the block before, and the hash of the last block is the root. -/
def HasPath (hash : F → F → F) (hashes : Nat) (element merkle_root : F) (t : Nat → Nat → F) : Prop :=
  (t 0 0 = element ∨ t 128 0 = element) ∧
  (∀ b, b + 1 < hashes → hash (t (256 * b) 0) (t (256 * b + 128) 0) = t (256 * (b + 1)) 0 ∨ hash (t (256 * b) 0) (t (256 * b + 128) 0) = t (256 * (b + 1) + 128) 0) ∧
  hash (t (256 * (hashes - 1)) 0) (t (256 * (hashes - 1) + 128) 0) = merkle_root

/-- Block `b` is a computation of the hash of its two inputs. -/
def BlockHashes (q : F) (constants : List F) (t : Nat → Nat → F) (b : Nat) : Prop :=
  ∀ r < 256, (t (256 * b + r) 0, t (256 * b + r) 1) = spongeState q constants (t (256 * b) 0) (t (256 * b + 128) 0) r

/-! ## Lemmas -/

def treeQuotients (g : F) (n : Nat) (q : F) (e : Expr F) (element merkle_root start_left : F) : List (Expr F × Expr F) :=
  [loopRows g n 128 (Hash.leftStep q e), loopRows g n 256 (Hash.rightStep q),
    onRow g 128 (Expr.mul (.Constant start_left) (Expr.sub (.Trace 0 0) (.Constant element))),
    onRow g 0 (Expr.mul (Expr.sub (.Constant start_left) (.Constant 1)) (Expr.sub (.Trace 0 0) (.Constant element))),
    loopStart n 256 (.Trace 1 0), onRow g (n - 1) (Expr.sub (.Trace 0 0) (.Constant merkle_root))]

theorem tree_is (root : Nat → Option F) (hroot : RootFn root) (hcompat : RootCompat root) (rep : F → U256) (h : Nat) (hh : h + 8 < 64)
    (q : F) (constants : List F) (hlen : constants.length = 128) (element merkle_root start_left : F) (c : Constraints F)
    (hc : Tree.constraints root rep q constants (2 ^ h) element merkle_root start_left = some c) (g : F) (hg : root (2 ^ (h + 8)) = some g) :
    ∃ e : Expr F, (∀ r tr, value (g ^ r) tr e = constants.getD (r % 128) 0) ∧
      SystemIs root c (h + 8) 2 g (treeQuotients g (2 ^ (h + 8)) q e element merkle_root start_left) 3 := by
  have hord := root_order root hroot (h + 8) hh g hg
  have hn : 256 * 2 ^ h = 2 ^ (h + 8) := by rw [pow_add, mul_comm]; norm_num
  have hdvd : 256 ∣ 2 ^ (h + 8) := Dvd.intro _ hn
  unfold Tree.constraints at hc
  rw [hn] at hc
  obtain ⟨g', hg', hc⟩ := Option.bind_eq_some_iff.1 hc
  have : g' = g := Option.some.inj (hg'.symm.trans hg)
  subst this
  obtain ⟨e, he, hc⟩ := Option.bind_eq_some_iff.1 hc
  obtain ⟨p, hp, -, hval⟩ := periodic_spec root hroot hcompat (h + 8) 7 hh (by omega) g' hg constants (by rw [hlen]; rfl)
  rw [hp] at he
  have := Option.some.inj he
  subst this
  obtain ⟨-, hc'⟩ := system_some _ _ _ _ _ _ hc
  refine ⟨_, hval, hh, hord, hg, ⟨_, _, hc, ?_⟩, by norm_num, ?_, ?_, ?_, by norm_num⟩
  · intro e he i j hij
    simp only [List.mem_cons, List.not_mem_nil, or_false] at he
    rcases he with rfl | rfl | rfl | rfl | rfl | rfl <;>
      simp [Occurs, every_row, on_row, Hash.on_loop_rows, Hash.leftStep, Hash.rightStep, Expr.sub, Expr.add, Expr.neg, Expr.mul, Expr.div, Expr.inv, Expr.pow] at hij <;> omega
  · rw [hc']
    unfold Quotients treeQuotients
    refine .cons (loopRows_quotient _ _ _ _ ?_) (.cons (loopRows_quotient _ _ _ _ ?_) (.cons (onRow_quotient _ _ _ ?_) (.cons (onRow_quotient _ _ _ ?_)
      (.cons (loopStart_quotient _ _ _ ?_) (.cons (onRow_quotient _ _ _ ?_) .nil))))) <;>
      simp [DivFree, Hash.leftStep, Hash.rightStep, Expr.sub, Expr.add, Expr.neg, Expr.pow, Expr.mul]
  · intro q hq
    simp only [treeQuotients, List.mem_cons, List.not_mem_nil, or_false] at hq
    rcases hq with rfl | rfl | rfl | rfl | rfl | rfl
    · exact ⟨loopRows_zeros g' _ _ hord _, by simp [loopRows, NoZeroExp, Hash.leftStep, Expr.sub, Expr.add, Expr.pow, Expr.mul, Nat.div_eq_zero_iff, hn.symm]⟩
    · exact ⟨loopRows_zeros g' _ _ hord _, by simp [loopRows, NoZeroExp, Hash.rightStep, Expr.sub, Expr.add, Expr.pow, Expr.mul, Nat.div_eq_zero_iff, hn.symm]⟩
    · exact ⟨onRow_zeros g' _ (Nat.two_pow_pos _) hord _ _, by simp [onRow, NoZeroExp, Expr.sub, Expr.add, Expr.mul]⟩
    · exact ⟨onRow_zeros g' _ (Nat.two_pow_pos _) hord _ _, by simp [onRow, NoZeroExp, Expr.sub, Expr.add, Expr.mul]⟩
    · exact ⟨loopStart_zeros g' _ _ (Nat.two_pow_pos _) hord hdvd _, by simp [loopStart, NoZeroExp, Expr.sub, Expr.add]⟩
    · exact ⟨onRow_zeros g' _ (Nat.two_pow_pos _) hord _ _, by simp [onRow, NoZeroExp, Expr.sub, Expr.add]⟩
  · rw [hc']
    simp [Constraints.degree, Expr.trace_degree, Expr.degree_impl, every_row, on_row, Hash.on_loop_rows, Hash.leftStep, Hash.rightStep, Expr.sub, Expr.add, Expr.neg, Expr.mul,
      Expr.div, Expr.inv, Expr.pow, csub, Constraints.maxOf]

theorem tree_hold (g : F) (hashes : Nat) (hh : 0 < hashes) (hord : orderOf g = 256 * hashes) (q : F) (constants : List F) (e : Expr F)
    (he : ∀ r tr, value (g ^ r) tr e = constants.getD (r % 128) 0) (element merkle_root start_left : F) (t : Nat → Nat → F) :
    Hold g (256 * hashes) t (treeQuotients g (256 * hashes) q e element merkle_root start_left) ↔
      (∀ b < hashes, BlockHashes q constants t b) ∧ (start_left ≠ 0 → t 128 0 = element) ∧ (start_left ≠ 1 → t 0 0 = element) ∧ t (256 * hashes - 1) 0 = merkle_root := by
  have hn : 0 < 256 * hashes := by omega
  have h128 : 128 ∣ 256 * hashes := ⟨2 * hashes, by ring⟩
  have h256 : 256 ∣ 256 * hashes := Dvd.intro _ rfl
  unfold Hold treeQuotients
  simp only [List.forall_mem_cons, loopRows_iff g _ 128 hn hord h128, loopRows_iff g _ 256 hn hord h256, loopStart_iff g _ 256 hn hord h256, onRow_iff g _ hn hord,
    Hash.leftStep, Hash.rightStep, value_sub, value_add, value_mul, value_const, value, he, List.not_mem_nil, false_imp_iff,
    implies_true, and_true, Nat.zero_mod, Nat.mod_eq_of_lt (show 128 < 256 * hashes by omega), last_row _ hn, row_same 0 _ hn, row_same 128 (256 * hashes) (by omega),
    row_same (256 * hashes - 1) (256 * hashes) (by omega), mul_eq_zero, sub_eq_zero]
  constructor
  · rintro ⟨h1, h2, h3, h4, h5, h6⟩
    refine ⟨fun b hb r => ?_, fun h => h3.resolve_left h, fun h => h4.resolve_left h, h6⟩
    induction r with
    | zero =>
      intro _
      have := h5 (256 * b) (by omega) (by omega)
      rw [row_same _ _ (by omega)] at this
      rw [add_zero, this]
      rfl
    | succ r ih =>
      intro hr
      have e2 := h2 (256 * b + r) (by omega) (by omega)
      rw [row_next _ _ (by omega), row_same _ _ (by omega)] at e2
      have i1 := congrArg Prod.fst (ih (by omega))
      have i2 := congrArg Prod.snd (ih (by omega))
      dsimp only at i1 i2
      rw [sponge_succ]
      apply Prod.ext
      · dsimp only
        split
        · rename_i h128
          rw [h128]
        · have e1 := h1 (256 * b + r) (by omega) (by omega)
          rw [row_next _ _ (by omega), row_same _ _ (by omega)] at e1
          rw [← add_assoc, ← e1, i1, i2, show (256 * b + r) % 128 = r % 128 by omega]
          rfl
      · dsimp only
        rw [← add_assoc, ← e2, i1, i2]
        rfl
  · rintro ⟨h1, h2, h3, h4⟩
    have i1 : ∀ b < hashes, ∀ r < 256, t (256 * b + r) 0 = (spongeState q constants (t (256 * b) 0) (t (256 * b + 128) 0) r).1 := fun b hb r hr => congrArg Prod.fst (h1 b hb r hr)
    have i2 : ∀ b < hashes, ∀ r < 256, t (256 * b + r) 1 = (spongeState q constants (t (256 * b) 0) (t (256 * b + 128) 0) r).2 := fun b hb r hr => congrArg Prod.snd (h1 b hb r hr)
    refine ⟨fun r hr h0 => ?_, fun r hr h0 => ?_, ?_, ?_, fun r hr h0 => ?_, h4⟩
    · obtain ⟨b, r, hr', rfl⟩ : ∃ b r', r' < 256 ∧ r = 256 * b + r' := ⟨r / 256, r % 256, Nat.mod_lt _ (by norm_num), (Nat.div_add_mod r 256).symm⟩
      have hb : b < hashes := by omega
      have hr1 : r + 1 < 256 := by omega
      rw [row_next _ _ (by omega), row_same _ _ (by omega), add_assoc (256 * b) r 1, i1 b hb (r + 1) hr1, i1 b hb r (by omega), i2 b hb r (by omega), sponge_succ, if_neg (by omega),
        show (256 * b + r) % 128 = r % 128 by omega]
      rfl
    · obtain ⟨b, r, hr', rfl⟩ : ∃ b r', r' < 256 ∧ r = 256 * b + r' := ⟨r / 256, r % 256, Nat.mod_lt _ (by norm_num), (Nat.div_add_mod r 256).symm⟩
      have hb : b < hashes := by omega
      have hr1 : r + 1 < 256 := by omega
      rw [row_next _ _ (by omega), row_same _ _ (by omega), add_assoc (256 * b) r 1, i2 b hb (r + 1) hr1, i1 b hb r (by omega), i2 b hb r (by omega), sponge_succ]
      rfl
    · by_cases h : start_left = 0
      · exact Or.inl h
      · exact Or.inr (h2 h)
    · by_cases h : start_left = 1
      · exact Or.inl h
      · exact Or.inr (h3 h)
    · obtain ⟨b, rfl⟩ : ∃ b, r = 256 * b := ⟨r / 256, by omega⟩
      have := i2 b (by omega) 0 (by norm_num)
      rw [add_zero] at this
      rw [row_same _ _ hr, this]
      rfl

theorem block_output (q : F) (constants : List F) (hlen : constants.length = 128) (t : Nat → Nat → F) (b : Nat) (h : BlockHashes q constants t b) :
    t (256 * b + 255) 0 = Hash.mimc q constants (t (256 * b) 0) (t (256 * b + 128) 0) := by
  rw [C69_sponge q constants hlen]
  exact congrArg Prod.fst (h 255 (by norm_num))

/-- a table of blocks -/
def blocks (q : F) (constants : List F) (x y : Nat → F) (i j : Nat) : F :=
  if j = 0 then (spongeState q constants (x (i / 256)) (y (i / 256)) (i % 256)).1 else (spongeState q constants (x (i / 256)) (y (i / 256)) (i % 256)).2

omit [DecidableEq F] in
theorem blocks_hash (q : F) (constants : List F) (x y : Nat → F) (b : Nat) : BlockHashes q constants (blocks q constants x y) b ∧
    blocks q constants x y (256 * b) 0 = x b ∧ blocks q constants x y (256 * b + 128) 0 = y b := by
  have h1 : blocks q constants x y (256 * b) 0 = x b := by
    unfold blocks
    rw [if_pos rfl, Nat.mul_div_cancel_left _ (by norm_num), Nat.mul_mod_right]
    rfl
  have h2 : blocks q constants x y (256 * b + 128) 0 = y b := by
    unfold blocks
    rw [if_pos rfl, show (256 * b + 128) / 256 = b by omega, show (256 * b + 128) % 256 = 127 + 1 by omega, sponge_succ, if_pos rfl]
  refine ⟨fun r hr => ?_, h1, h2⟩
  rw [h1, h2]
  unfold blocks
  rw [if_pos rfl, if_neg (by norm_num), show (256 * b + r) / 256 = b by omega, show (256 * b + r) % 256 = r by omega]

/-! ## C70 -/

/-- C70: the system of the claim says of a table that every block is a hash computation, that the leaf is the input of the first block on the side given, and that
the last block has the root. It says nothing about how the blocks are connected. -/
theorem C70_system (root : Nat → Option F) (hroot : RootFn root) (hcompat : RootCompat root) (rep : F → U256) (h : Nat) (hh : h + 8 < 64)
    (q : F) (constants : List F) (hlen : constants.length = 128) (element merkle_root start_left : F) (c : Constraints F)
    (hc : Tree.constraints root rep q constants (2 ^ h) element merkle_root start_left = some c) (g : F) (hg : root (2 ^ (h + 8)) = some g) (t : Nat → Nat → F) :
    RowsSatisfy c g (2 ^ (h + 8)) t ↔
      (∀ b < 2 ^ h, BlockHashes q constants t b) ∧ (start_left ≠ 0 → t 128 0 = element) ∧ (start_left ≠ 1 → t 0 0 = element) ∧
        Hash.mimc q constants (t (256 * (2 ^ h - 1)) 0) (t (256 * (2 ^ h - 1) + 128) 0) = merkle_root := by
  obtain ⟨e, he, hs⟩ := tree_is root hroot hcompat rep h hh q constants hlen element merkle_root start_left c hc g hg
  have hn : 256 * 2 ^ h = 2 ^ (h + 8) := by rw [pow_add, mul_comm]; norm_num
  have hpos := Nat.two_pow_pos h
  rw [hs.rows]
  have := tree_hold g (2 ^ h) hpos (by rw [hs.order, hn]) q constants e he element merkle_root start_left t
  rw [hn] at this
  rw [this, ← hn]
  refine and_congr_right fun h1 => and_congr_right fun _ => and_congr_right fun _ => ?_
  rw [show 256 * 2 ^ h - 1 = 256 * (2 ^ h - 1) + 255 by omega, block_output q constants hlen t _ (h1 _ (by omega))]

/-- C70 (partial: only trees of height one): an accepted proof shows that the table committed to has an authentication path from the leaf to the root. -/
theorem C70_accepted_partial (env : Env F) (hroot : RootFn env.root) (hcompat : RootCompat env.root) (hsearch : SearchOk env.search) (hgen : env.generator ≠ 0)
    (rep : F → U256) (q : F) (constants : List F) (hlen : constants.length = 128) (element merkle_root start_left : F) (c : Constraints F)
    (hc : Tree.constraints env.root rep q constants 1 element merkle_root start_left = some c) (p : Bytes) (hp : Stark.verify env c p = .ok ()) :
    Shows env c 8 3 p (HasPath (Hash.mimc q constants) 1 element merkle_root) := by
  have h := hc
  unfold Tree.constraints at h
  obtain ⟨g, hg, -⟩ := Option.bind_eq_some_iff.1 h
  obtain ⟨e, he, hs⟩ := tree_is env.root hroot hcompat rep 0 (by norm_num) q constants hlen element merkle_root start_left c hc g hg
  refine system_shows env hroot hcompat hsearch hgen c 8 2 g _ 3 hs (by norm_num) p hp _ fun t ht => ?_
  obtain ⟨-, h2, h3, h4⟩ := (C70_system env.root hroot hcompat rep 0 (by norm_num) q constants hlen element merkle_root start_left c hc g hg t).1 ht
  refine ⟨?_, fun b hb => absurd hb (by omega), h4⟩
  by_cases h0 : start_left = 0
  · exact Or.inl (h3 (by rw [h0]; exact zero_ne_one))
  · exact Or.inr (h2 h0)

/-- C70 is violated for higher trees: for any leaf and any two inputs of which the root is the hash, there is a table that satisfies the system, although the
hashes of its blocks need not be connected: whoever knows the two children of the root can prove that anything is a leaf. -/
theorem C70_violated (root : Nat → Option F) (hroot : RootFn root) (hcompat : RootCompat root) (rep : F → U256) (h : Nat) (hh : h + 8 < 64) (h1 : 0 < h)
    (q : F) (constants : List F) (hlen : constants.length = 128) (element start_left x y : F) (c : Constraints F)
    (hc : Tree.constraints root rep q constants (2 ^ h) element (Hash.mimc q constants x y) start_left = some c) (g : F) (hg : root (2 ^ (h + 8)) = some g) :
    ∃ t, RowsSatisfy c g (2 ^ (h + 8)) t ∧ t (256 * (2 ^ h - 1)) 0 = x ∧ t (256 * (2 ^ h - 1) + 128) 0 = y ∧ ∀ b < 2 ^ h - 1, t (256 * b) 0 = element ∧ t (256 * b + 128) 0 = element := by
  have hpow : 2 ^ 1 ≤ 2 ^ h := Nat.pow_le_pow_right (by norm_num) h1
  have hb := blocks_hash q constants (fun b => if b = 2 ^ h - 1 then x else element) (fun b => if b = 2 ^ h - 1 then y else element)
  refine ⟨blocks q constants (fun b => if b = 2 ^ h - 1 then x else element) (fun b => if b = 2 ^ h - 1 then y else element), ?_, ?_, ?_, ?_⟩
  · rw [C70_system root hroot hcompat rep h hh q constants hlen element _ start_left c hc g hg]
    refine ⟨fun b _ => (hb b).1, fun _ => ?_, fun _ => ?_, ?_⟩
    · rw [show 128 = 256 * 0 + 128 from rfl, (hb 0).2.2, if_neg (by omega)]
    · rw [show 0 = 256 * 0 from rfl, (hb 0).2.1, if_neg (by omega)]
    · rw [(hb _).2.1, (hb _).2.2, if_pos rfl, if_pos rfl]
  · rw [(hb _).2.1, if_pos rfl]
  · rw [(hb _).2.2, if_pos rfl]
  · intro b hlt
    rw [(hb _).2.1, (hb _).2.2, if_neg (by omega), if_neg (by omega)]
    exact ⟨rfl, rfl⟩

/-- the inputs of the blocks on a path -/
def pathInputs (q : F) (constants : List F) (element : F) (path : List (F × Bool)) (b : Nat) : F × F :=
  match path[b]? with
  | none => (0, 0)
  | some node => if node.2 then (node.1, Tree.mimc_path q constants element (path.take b)) else (Tree.mimc_path q constants element (path.take b), node.1)

theorem mem_traceLoop (q : F) (constants : List F) (hlen : constants.length = 128) (path : List (F × Bool)) (element : F) (start : Nat) (w : Nat × Nat × F) :
    w ∈ Tree.traceLoop q constants path element start ↔
      ∃ b < path.length, w ∈ (Tree.mimc_loop q constants (pathInputs q constants element path b).1 (pathInputs q constants element path b).2 (start + 256 * b)).1 := by
  induction path generalizing element start with
  | nil => simp [Tree.traceLoop]
  | cons node path ih =>
    have hout : ∀ x y s, (Tree.mimc_loop q constants x y s).2 = Hash.mimc q constants x y := by
      intro x y s
      rw [C69_sponge q constants hlen]
      unfold Tree.mimc_loop
      simp only [foldl_range_state (fun i s => Hash.round q (constants.getD i 0) s) (x, 0) 128, sponge_middle q constants x y]
      rw [foldl_range_state (fun i s => Hash.round q (constants.getD i 0) s) (y, (spongeState q constants x y 128).2) 127, sponge_second q constants x y 127 (by norm_num)]
    have hprev : (if node.2 then Tree.mimc_loop q constants node.1 element start else Tree.mimc_loop q constants element node.1 start).2 =
        Tree.mimc_path q constants element [node] := by
      unfold Tree.mimc_path
      rw [List.foldl_cons, List.foldl_nil]
      split <;> exact hout _ _ _
    have hin : ∀ b, pathInputs q constants (Tree.mimc_path q constants element [node]) path b = pathInputs q constants element (node :: path) (b + 1) := by
      intro b
      unfold pathInputs
      rw [List.getElem?_cons_succ, List.take_succ_cons]
      rfl
    have h0 : (if node.2 then Tree.mimc_loop q constants node.1 element start else Tree.mimc_loop q constants element node.1 start).1 =
        (Tree.mimc_loop q constants (pathInputs q constants element (node :: path) 0).1 (pathInputs q constants element (node :: path) 0).2 start).1 := by
      unfold pathInputs
      rw [List.getElem?_cons_zero]
      split <;> simp_all [Tree.mimc_path]
    rw [Tree.traceLoop]
    rw [List.mem_append, hprev, ih, h0]
    simp only [hin]
    constructor
    · rintro (h | ⟨b, hb, h⟩)
      · exact ⟨0, by simp, h⟩
      · exact ⟨b + 1, by simpa using hb, by rw [show start + 256 * (b + 1) = start + 256 + 256 * b by ring]; exact h⟩
    · rintro ⟨b, hb, h⟩
      cases b with
      | zero => exact Or.inl h
      | succ b => exact Or.inr ⟨b, by simpa using hb, by rw [show start + 256 + 256 * b = start + 256 * (b + 1) by ring]; exact h⟩

theorem tree_trace (q : F) (constants : List F) (hlen : constants.length = 128) (path : List (F × Bool)) (hpath : 0 < path.length) (element : F) :
    ∃ t, Tree.trace q constants element (Tree.mimc_path q constants element path) path = some t ∧ t.trace_length = 256 * path.length ∧ t.num_columns = 2 ∧ TableOk t ∧
      ∀ r < 256 * path.length, ∀ j < 2, t.get r j =
        some (blocks q constants (fun b => (pathInputs q constants element path b).1) (fun b => (pathInputs q constants element path b).2) r j) := by
  obtain ⟨t, h1, h2, h3, h4, h5⟩ := tableOf_spec (256 * path.length) 2 (Tree.traceLoop q constants path element 0)
    (blocks q constants (fun b => (pathInputs q constants element path b).1) (fun b => (pathInputs q constants element path b).2)) (by
      intro i j v hw
      rw [mem_traceLoop q constants hlen] at hw
      obtain ⟨b, hb, hw⟩ := hw
      obtain ⟨r, hr, hi, hw'⟩ := (sponge_writes q constants _ _ _ i j v).1 hw
      rw [zero_add] at hi
      subst hi
      unfold blocks
      rw [ show (256 * b + r) / 256 = b by omega, show (256 * b + r) % 256 = r by omega]
      rcases hw' with ⟨h1, h2⟩ | ⟨h1, h2⟩
      · rw [h1, h2]; exact ⟨by omega, by norm_num, rfl⟩
      · rw [h1, h2]; exact ⟨by omega, by norm_num, rfl⟩) (by
      intro i hi j hj
      rw [mem_traceLoop q constants hlen]
      refine ⟨i / 256, by omega, ?_⟩
      rw [sponge_writes]
      refine ⟨i % 256, Nat.mod_lt _ (by norm_num), by omega, ?_⟩
      unfold blocks
      rcases (by omega : j = 0 ∨ j = 1) with rfl | rfl
      · exact Or.inl ⟨rfl, rfl⟩
      · exact Or.inr ⟨rfl, rfl⟩)
  refine ⟨t, ?_, h2, h3, h4, h5⟩
  unfold Tree.trace
  rw [h1, Option.bind_some, show csub (256 * path.length) 1 = some (256 * path.length - 1) from if_pos (by omega), Option.bind_some, h5 _ (by omega) 0 (by norm_num), Option.bind_some,
    if_pos]
  obtain ⟨h6, h7, h8⟩ := blocks_hash q constants (fun b => (pathInputs q constants element path b).1) (fun b => (pathInputs q constants element path b).2) (path.length - 1)
  rw [show 256 * path.length - 1 = 256 * (path.length - 1) + 255 by omega, block_output q constants hlen _ _ h6, h7, h8]
  obtain ⟨l, node, rfl⟩ : ∃ l node, path = l ++ [node] := ⟨path.dropLast, path.getLast (by intro h; simp [h] at hpath), (List.dropLast_append_getLast _).symm⟩
  unfold pathInputs Tree.mimc_path
  rw [List.length_append, List.length_singleton, Nat.add_sub_cancel, List.getElem?_append_right (le_refl _), Nat.sub_self]
  simp only [List.getElem?_cons_zero, List.take_left', List.foldl_append, List.foldl_cons, List.foldl_nil]
  split <;> rfl

/-- C70: for a true claim - the path from the leaf has the root and starts on the side given - the trace passes the check and can be proved. -/
theorem C70_prove (env : Env F) (hroot : RootFn env.root) (hcompat : RootCompat env.root) (hgen : env.generator ≠ 0)
    (hsearch : ∀ l n z, env.search l n = some z → l[z]? = some n) (o : Oracles F) (rep : F → U256) (h : Nat) (hh : h + 12 < 64) (q : F) (constants : List F)
    (hlen : constants.length = 128) (element : F) (path : List (F × Bool)) (hpath : path.length = 2 ^ h) (c : Constraints F)
    (hc : Tree.constraints env.root rep q constants (2 ^ h) element (Tree.mimc_path q constants element path) (if path.head?.any (·.2) then 1 else 0) = some c) :
    ∃ t g, Tree.trace q constants element (Tree.mimc_path q constants element path) path = some t ∧ env.root (2 ^ (h + 8)) = some g ∧
      TraceTable.check_constraints env.root c t = some (.ok ()) ∧ Provable env o c (h + 8) g t := by
  have hn : 256 * 2 ^ h = 2 ^ (h + 8) := by rw [pow_add, mul_comm]; norm_num
  have hpos := Nat.two_pow_pos h
  have hc' := hc
  unfold Tree.constraints at hc'
  obtain ⟨g, hg, -⟩ := Option.bind_eq_some_iff.1 hc'
  rw [hn] at hg
  obtain ⟨e, he, hs⟩ := tree_is env.root hroot hcompat rep h (by omega) q constants hlen element _ _ c hc g hg
  obtain ⟨t, h1, h2, h3, h4, h5⟩ := tree_trace q constants hlen path (by omega) element
  rw [hpath, hn] at h2 h5
  have hcell : ∀ r < 2 ^ (h + 8), ∀ j < 2, (t.get r j).getD 0 =
      blocks q constants (fun b => (pathInputs q constants element path b).1) (fun b => (pathInputs q constants element path b).2) r j := by
    intro r hr j hj
    rw [h5 r hr j hj]
    rfl
  have hbl := blocks_hash q constants (fun b => (pathInputs q constants element path b).1) (fun b => (pathInputs q constants element path b).2)
  have hhold : Hold g (2 ^ (h + 8)) (fun r i => (t.get r i).getD 0)
      (treeQuotients g (2 ^ (h + 8)) q e element (Tree.mimc_path q constants element path) (if path.head?.any (·.2) then 1 else 0)) := by
    have hroot1 : Tree.trace q constants element (Tree.mimc_path q constants element path) path = some t := h1
    have := tree_hold g (2 ^ h) hpos (by rw [hs.order, hn]) q constants e he element (Tree.mimc_path q constants element path) (if path.head?.any (·.2) then 1 else 0)
      (fun r i => (t.get r i).getD 0)
    rw [hn] at this
    rw [this]
    obtain ⟨node, rest, hnode⟩ : ∃ node rest, path = node :: rest := by
      cases path with
      | nil => simp at hpath; omega
      | cons a b => exact ⟨a, b, rfl⟩
    have hfirst : pathInputs q constants element path 0 = if node.2 then (node.1, element) else (element, node.1) := by
      rw [hnode]
      rfl
    refine ⟨fun b hb r hr => ?_, fun hl => ?_, fun hl => ?_, ?_⟩
    · beta_reduce
      rw [hcell _ (by omega) 0 (by norm_num), hcell _ (by omega) 1 (by norm_num), hcell _ (by omega) 0 (by norm_num), hcell _ (by omega) 0 (by norm_num)]
      exact (hbl b).1 r hr
    · beta_reduce
      rw [hcell 128 (by omega) 0 (by norm_num), show 128 = 256 * 0 + 128 from rfl, (hbl 0).2.2, hfirst]
      rw [hnode] at hl
      by_cases hside : node.2 = true
      · rw [if_pos hside]
      · simp [hside] at hl
    · beta_reduce
      rw [hcell 0 (by omega) 0 (by norm_num), show 0 = 256 * 0 from rfl, (hbl 0).2.1, hfirst]
      rw [hnode] at hl
      by_cases hside : node.2 = true
      · simp [hside] at hl
      · rw [if_neg hside]
    · unfold Tree.trace at hroot1
      obtain ⟨t', _, hroot1⟩ := Option.bind_eq_some_iff.1 hroot1
      rw [hpath, show csub (256 * 2 ^ h) 1 = some (256 * 2 ^ h - 1) from if_pos (by omega), Option.bind_some] at hroot1
      obtain ⟨last, hlast, hroot1⟩ := Option.bind_eq_some_iff.1 hroot1
      split at hroot1
      · rename_i heq
        cases hroot1
        rw [← hn, hlast, ← heq]
        rfl
      · cases hroot1
  exact ⟨t, g, h1, hg, (hs.check t h4 h2 h3).2 hhold, system_provable env hroot hcompat hgen hsearch o c (h + 8) 2 g _ 3 hs (by omega) (by omega) t h4 h2 h3 hhold⟩

end
/-! ## Runs over the field of 65537 elements -/

/- the leaf 3 with the sibling 3; the side 5 demands that both inputs are the leaf -/
namespace TreeRun
open OpenZKP.Props.Small (Z)
open Run
open Merkle (next_power_of_two)

open HashRun (coefficients constants periodic_eq)

def after : Z := Hash.mimc 10 constants 3 3

def c0 : Option (Constraints Z) := system root 256 2 (elementBytes rep 3 ++ elementBytes rep after) [
    Expr.mul (Hash.leftStep 10 (.Polynomial coefficients (Expr.pow .X 2))) (Hash.on_loop_rows 282 256 128),
    Expr.mul (Hash.rightStep 10) (Hash.on_loop_rows 282 256 256),
    Expr.mul (Expr.mul (.Constant 5) (Expr.sub (.Trace 0 0) (.Constant 3))) (on_row 282 128),
    Expr.mul (Expr.mul (Expr.sub (.Constant 5) (.Constant 1)) (Expr.sub (.Trace 0 0) (.Constant 3))) (on_row 282 0),
    Expr.mul (.Trace 1 0) (Expr.div (.Constant 1) (Expr.sub (Expr.pow .X (256 / 256)) (.Constant 1))),
    Expr.mul (Expr.sub (.Trace 0 0) (.Constant after)) (on_row 282 255)]
def c : Constraints Z := c0.getD ⟨[], 0, 0, [], 0, 0, 0, [], []⟩

theorem some_c : c0 = some c := by
  unfold c
  cases h : c0 with
  | some c0 => rfl
  | none =>
    have : c0.isSome = true := by decide +kernel
    rw [h] at this
    cases this

theorem system_eq : Tree.constraints root rep 10 constants 1 3 after 5 = some c := by
  rw [← some_c]
  unfold Tree.constraints
  dsimp only
  rw [show 256 * 1 = 256 from rfl, show root 256 = some 282 by decide +kernel, Option.bind_some, periodic_eq]
  rfl

def E : Expr Z := (c.combine (List.replicate (2 * c.expressions.length) 28784)).getD .X

theorem computed : Computed c 8 3 E where
  combine := by
    unfold E
    cases h : c.combine (List.replicate (2 * c.expressions.length) 28784) with
    | some c0 => rfl
    | none =>
      have : (c.combine (List.replicate (2 * c.expressions.length) 28784)).isSome = true := by decide +kernel
      rw [h] at this
      cases this
  claims := by decide +kernel
  mark := by decide +kernel
  marks := by decide +kernel
  degree_pos := by norm_num
  degrees := by decide +kernel
  constraints := by decide +kernel
  arguments := by decide +kernel
  points := by
    rw [show 2 ^ (8 + 4) = 64 * 64 by norm_num, show next_power_of_two 3 = 4 by decide +kernel, ← pow_mul, show 4 * (64 * 64) = 64 * (64 * 4) by norm_num, pow_mul _ 64 64, pow_mul _ 64 64, pow_mul _ 64 (64 * 4), show (28784 : Z) ^ 64 = 10492 by decide +kernel, show (3 : Z) ^ 64 = 19139 by decide +kernel]
    decide +kernel

theorem proved : ∃ p, Stark.verify env c p = .ok () := by
  obtain ⟨e, he, hs⟩ := tree_is root root_ok root_compat rep 0 (by norm_num) 10 constants rfl 3 after 5 c system_eq 282 (by decide +kernel)
  obtain ⟨t, h1, h2, h3, h4, h5⟩ := tree_trace 10 constants rfl [((3 : Z), true)] (by norm_num) 3
  have hb := blocks_hash 10 constants (fun b => (pathInputs 10 constants 3 [(3, true)] b).1) (fun b => (pathInputs 10 constants 3 [(3, true)] b).2) 0
  have hcell : ∀ r < 256, ∀ j < 2, (t.get r j).getD 0 =
      blocks 10 constants (fun b => (pathInputs 10 constants 3 [(3, true)] b).1) (fun b => (pathInputs 10 constants 3 [(3, true)] b).2) r j := by
    intro r hr j hj
    rw [h5 r hr j hj]
    rfl
  refine Run.proved hs computed (by norm_num) (by norm_num) t h4 h2 h3 ?_
  show Hold 282 (256 * 1) _ _
  refine (tree_hold 282 1 (by norm_num) hs.order 10 constants e he 3 after 5 _).2 ⟨fun b hb' r hr => ?_, fun _ => ?_, fun _ => ?_, ?_⟩
  · obtain rfl : b = 0 := by omega
    beta_reduce
    rw [hcell _ (by omega) 0 (by norm_num), hcell _ (by omega) 1 (by norm_num), hcell _ (by omega) 0 (by norm_num), hcell _ (by omega) 0 (by norm_num)]
    exact hb.1 r hr
  · beta_reduce
    rw [hcell 128 (by norm_num) 0 (by norm_num)]
    exact hb.2.2
  · beta_reduce
    rw [hcell 0 (by norm_num) 0 (by norm_num)]
    exact hb.2.1
  · beta_reduce
    rw [hcell _ (by norm_num) 0 (by norm_num), show 256 * 1 - 1 = 256 * 0 + 255 from rfl, block_output 10 constants rfl _ _ hb.1, hb.2.1, hb.2.2]
    rfl

/-! two hashes -/

theorem periodic_eq2 : periodic root 512 constants = some (.Polynomial coefficients (Expr.pow .X 4)) := by
  have h := periodic_unique root root_ok root_compat 9 7 (by norm_num) (by norm_num) (3 ^ 128) (by decide +kernel) constants (by decide +kernel) coefficients (by decide +kernel)
    (by decide +kernel)
  rw [show constants.length = 128 by decide +kernel] at h
  exact h

theorem exists_system (element merkle_root start_left : Z) : ∃ c, Tree.constraints root rep 10 constants (2 ^ 1) element merkle_root start_left = some c := by
  unfold Tree.constraints
  dsimp only
  rw [show 256 * 2 ^ 1 = 512 from rfl, show root 512 = some (3 ^ 128) by decide +kernel, Option.bind_some, periodic_eq2]
  exact ⟨_, rfl⟩

end TreeRun

-- a leaf in a tree of height one: there is an accepted proof
example : ∃ p, Stark.verify Run.env TreeRun.c p = .ok () ∧ Shows Run.env TreeRun.c 8 3 p (HasPath (Hash.mimc 10 HashRun.constants) 1 3 TreeRun.after) := by
  obtain ⟨p, hp⟩ := TreeRun.proved
  exact ⟨p, hp, C70_accepted_partial Run.env Run.root_ok Run.root_compat Run.search_ok Run.gen_ne Run.rep 10 HashRun.constants rfl 3 _ 5 _ TreeRun.system_eq p hp⟩

-- a leaf in a tree of height two, with a sibling on the left and one on the right
example : ∃ c t g, Tree.trace 10 HashRun.constants 3 (Tree.mimc_path 10 HashRun.constants 3 [(4, true), (5, false)]) [(4, true), (5, false)] = some t ∧ Run.root (2 ^ 9) = some g ∧
    TraceTable.check_constraints Run.root c t = some (.ok ()) ∧ Provable Run.env Run.o c 9 g t := by
  obtain ⟨c, hc⟩ := TreeRun.exists_system 3 (Tree.mimc_path 10 HashRun.constants 3 [(4, true), (5, false)]) 1
  exact ⟨c, C70_prove Run.env Run.root_ok Run.root_compat Run.gen_ne Run.search_some Run.o Run.rep 1 (by norm_num) 10 HashRun.constants rfl 3 _ rfl c hc⟩

-- the system for the leaf 9 and the root above 3 and 4 has a table without a path
example : ∃ c t, Tree.constraints Run.root Run.rep 10 HashRun.constants (2 ^ 1) 9 (Hash.mimc 10 HashRun.constants 3 4) 1 = some c ∧ RowsSatisfy c (3 ^ 128) (2 ^ 9) t ∧
    ¬ HasPath (Hash.mimc 10 HashRun.constants) (2 ^ 1) 9 (Hash.mimc 10 HashRun.constants 3 4) t := by
  obtain ⟨c, hc⟩ := TreeRun.exists_system 9 (Hash.mimc 10 HashRun.constants 3 4) 1
  obtain ⟨t, h1, h2, h3, h4⟩ := C70_violated Run.root Run.root_ok Run.root_compat Run.rep 1 (by norm_num) (by norm_num) 10 HashRun.constants rfl 9 1 3 4 c hc (3 ^ 128) (by decide +kernel)
  refine ⟨c, t, hc, h1, ?_⟩
  rintro ⟨-, h5, -⟩
  have := h5 0 (by norm_num)
  rw [(h4 0 (by norm_num)).1, (h4 0 (by norm_num)).2, show t (256 * (0 + 1)) 0 = 3 from h2, show t (256 * (0 + 1) + 128) 0 = 4 from h3] at this
  revert this
  decide +kernel

end Props
end OpenZKP
