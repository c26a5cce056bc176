import Verif.Props.ClaimForgery
import Verif.Props.MimcTree
import Verif.Props.Equality
import Verif.Examples.Recurrence
import Verif.Props.Recurrence2
import Verif.Props.Vdf
import Verif.Props.Examples
import Verif.Examples.Constant
import Verif.Examples.GroupSig

/-!
# C101: the seed of a proof determines the claim

The seed of a system (`channel_seed`) is what the challenges of a proof are drawn from before its first commitment (C66).
-/

namespace OpenZKP
namespace Props
namespace Seeds
open Stark Stark.Accept Examples Polynomial
variable {F : Type} [Field F] [DecidableEq F]

/-! ## Lemmas -/

theorem usizeBytes_eq (n : Nat) : usizeBytes n = to_be_bytes 8 n := by
  simp only [usizeBytes, List.range, List.range.loop, List.map_cons, List.map_nil, to_be_bytes, List.nil_append, List.cons_append, Nat.div_div_eq_div_mul]
  norm_num

theorem usizeBytes_length (n : Nat) : (usizeBytes n).length = 8 := by
  rw [usizeBytes_eq, to_be_bytes_length]

theorem usizeBytes_inj {n m : Nat} (hn : n < 2 ^ 64) (hm : m < 2 ^ 64) (h : usizeBytes n = usizeBytes m) : n = m := by
  rw [usizeBytes_eq, usizeBytes_eq] at h
  exact Equality.to_be_bytes_inj 8 n m (by norm_num; omega) (by norm_num; omega) h

omit [DecidableEq F] in
theorem elementBytes_length (rep : F → U256) (x : F) : (elementBytes rep x).length = 32 := U256.to_bytes_be_length _

theorem bytes_inj {x y : U256} (h : U256.to_bytes_be x = U256.to_bytes_be y) : x = y := by
  have e := C06_roundtrip_value x
  rw [h, C06_roundtrip_value y] at e
  exact (Option.some.inj e).symm

omit [DecidableEq F] in
theorem elementBytes_inj (rep : F → U256) (hrep : Function.Injective rep) {x y : F} (h : elementBytes rep x = elementBytes rep y) : x = y := hrep (bytes_inj h)

omit [DecidableEq F] in
theorem two (rep : F → U256) (hrep : Function.Injective rep) {x y x' y' : F} (h : elementBytes rep x ++ elementBytes rep y = elementBytes rep x' ++ elementBytes rep y') : x = x' ∧ y = y' := by
  obtain ⟨h1, h2⟩ := List.append_inj h (by rw [elementBytes_length, elementBytes_length])
  exact ⟨elementBytes_inj rep hrep h1, elementBytes_inj rep hrep h2⟩

omit [Field F] [DecidableEq F] in
theorem flatMap_inj {α : Type} (f : α → Bytes) (n : Nat) (hn : ∀ a, (f a).length = n) (P : α → Prop) (hf : ∀ a b, P a → P b → f a = f b → a = b) {xs ys : List α}
    (hx : ∀ a ∈ xs, P a) (hy : ∀ a ∈ ys, P a) (hl : xs.length = ys.length) (h : xs.flatMap f = ys.flatMap f) : xs = ys := by
  induction xs generalizing ys with
  | nil => exact (List.length_eq_zero_iff.1 hl.symm).symm
  | cons x xs ih =>
    cases ys with
    | nil => simp at hl
    | cons y ys =>
      rw [List.flatMap_cons, List.flatMap_cons] at h
      obtain ⟨e1, e2⟩ := List.append_inj h (by rw [hn, hn])
      rw [List.forall_mem_cons] at hx hy
      rw [hf x y hx.1 hy.1 e1, ih hx.2 hy.2 (by simpa using hl) e2]

theorem flatMap_length {α : Type} (f : α → Bytes) (n : Nat) (hn : ∀ a, (f a).length = n) (xs : List α) : (xs.flatMap f).length = n * xs.length := by
  induction xs with
  | nil => simp
  | cons x xs ih => rw [List.flatMap_cons, List.length_append, ih, hn, List.length_cons]; ring

theorem seed_of (root : Nat → Option F) (rows columns : Nat) (seed : Bytes) (es : List (Expr F)) (c : Constraints F) (h : system root rows columns seed es = some c) :
    c.channel_seed = seed := by
  rw [(system_some _ _ _ _ _ _ h).2]

theorem fib_seed (root : Nat → Option F) (rep : F → U256) (i : Nat) (v : F) (c : Constraints F) (h : Fib.constraints root rep i v = some c) :
    c.channel_seed = usizeBytes i ++ elementBytes rep v := by
  obtain ⟨g, -, h⟩ := Option.bind_eq_some_iff.1 h
  exact seed_of _ _ _ _ _ _ h

theorem cubic_seed (root : Nat → Option F) (rep : F → U256) (n : Nat) (ks : List F) (x y : F) (c : Constraints F) (h : Cubic.constraints root rep n ks x y = some c) :
    c.channel_seed = elementBytes rep x ++ elementBytes rep y := by
  obtain ⟨g, -, h⟩ := Option.bind_eq_some_iff.1 h
  obtain ⟨k, -, h⟩ := Option.bind_eq_some_iff.1 h
  exact seed_of _ _ _ _ _ _ h

theorem quadratic_seed (root : Nat → Option F) (rep : F → U256) (n : Nat) (ks : List F) (x y : F) (c : Constraints F) (h : Quadratic.constraints root rep n ks x y = some c) :
    c.channel_seed = elementBytes rep x ++ elementBytes rep y := by
  obtain ⟨g, -, h⟩ := Option.bind_eq_some_iff.1 h
  obtain ⟨k, -, h⟩ := Option.bind_eq_some_iff.1 h
  exact seed_of _ _ _ _ _ _ h

theorem hash_seed (root : Nat → Option F) (rep : F → U256) (q : F) (ks : List F) (x y z : F) (c : Constraints F) (h : Hash.constraints root rep q ks x y z = some c) :
    c.channel_seed = elementBytes rep x ++ elementBytes rep y ++ elementBytes rep z := by
  obtain ⟨g, -, h⟩ := Option.bind_eq_some_iff.1 h
  obtain ⟨k, -, h⟩ := Option.bind_eq_some_iff.1 h
  exact seed_of _ _ _ _ _ _ h

theorem tree_seed (root : Nat → Option F) (rep : F → U256) (q : F) (ks : List F) (n : Nat) (x y s : F) (c : Constraints F) (h : Tree.constraints root rep q ks n x y s = some c) :
    c.channel_seed = elementBytes rep x ++ elementBytes rep y := by
  obtain ⟨g, -, h⟩ := Option.bind_eq_some_iff.1 h
  obtain ⟨k, -, h⟩ := Option.bind_eq_some_iff.1 h
  exact seed_of _ _ _ _ _ _ h

theorem vdf_seed (root : Nat → Option F) (rep : F → U256) (r : F) (n : Nat) (x y z w : F) (c : Constraints F) (h : Vdf.constraints root rep r n x y z w = some c) :
    c.channel_seed = elementBytes rep x ++ elementBytes rep y ++ elementBytes rep z ++ elementBytes rep w := by
  obtain ⟨g, -, h⟩ := Option.bind_eq_some_iff.1 h
  exact seed_of _ _ _ _ _ _ h

theorem concrete_seed (root : Nat → Option F) (rep : F → U256) (v : F) (c : Constraints F) (h : Constant.concrete_system root rep v = some c) : c.channel_seed = elementBytes rep v := by
  obtain ⟨p, -, h⟩ := Option.bind_eq_some_iff.1 h
  obtain ⟨c', -, h⟩ := Option.bind_eq_some_iff.1 h
  obtain ⟨es, -, h⟩ := Option.bind_eq_some_iff.1 h
  exact seed_of _ _ _ _ _ _ h

theorem recurrence_seed (root : Nat → Option F) (rep : F → U256) (i : Nat) (v : F) (e : Nat) (c : Constraints F) (h : Recurrence.constraints root rep i v e = some c) :
    c.channel_seed = Recurrence.seed rep i v e := by
  obtain ⟨g, -, h⟩ := Option.bind_eq_some_iff.1 h
  exact seed_of _ _ _ _ _ _ h

theorem recurrence2_seed (root : Nat → Option F) (rep : F → U256) (i : Nat) (cs : List F) (es : List Nat) (v : F) (c : Constraints F)
    (h : Recurrence2.constraints root rep i cs es v = some c) : c.channel_seed = Recurrence2.seed rep i cs es v := by
  obtain ⟨g, -, h⟩ := Option.bind_eq_some_iff.1 h
  obtain ⟨l, -, h⟩ := Option.bind_eq_some_iff.1 h
  obtain ⟨ps, -, h⟩ := Option.bind_eq_some_iff.1 h
  obtain ⟨xs, -, h⟩ := Option.bind_eq_some_iff.1 h
  exact seed_of _ _ _ _ _ _ h

theorem signature_seed (root : Nat → Option F) (uint : F → U256) (hash : F) (who : F × F) (c : Constraints F) (h : GroupSig.constraints root uint hash who = some c) :
    c.channel_seed = GroupSig.claimBytes uint hash who := by
  obtain ⟨g, -, h⟩ := Option.bind_eq_some_iff.1 h
  exact seed_of _ _ _ _ _ _ h

theorem read_seed (env : Env F) (c : Constraints F) (s : Bytes) (ch) : readTranscript env { c with channel_seed := s } ch = readTranscript env c ch := by
  unfold readTranscript Constraints.substitute
  dsimp only
  by_cases h0 : c.claim_polynomials.isEmpty = true
  · simp only [if_pos h0]
    rfl
  · simp only [if_neg h0]
    cases h : c.expressions.mapM (Expr.substitute_claim c.claim_polynomials) with
    | none => rfl
    | some es => rfl

theorem check_seed (env : Env F) (c : Constraints F) (s : Bytes) (x t ch) : checkTranscript env { c with channel_seed := s } x t ch = checkTranscript env c x t ch := by
  unfold checkTranscript
  rfl

/-! ## C101 -/

/-- C101 (partial: not all claims of the library - `C101_violated`): Fibonacci. -/
theorem C101_fib_partial (root : Nat → Option F) (rep : F → U256) (hrep : Function.Injective rep) (i i' : Nat) (hi : i < 2 ^ 64) (hi' : i' < 2 ^ 64) (v v' : F) (c c' : Constraints F)
    (h : Fib.constraints root rep i v = some c) (h' : Fib.constraints root rep i' v' = some c') (hs : c.channel_seed = c'.channel_seed) : i = i' ∧ v = v' := by
  rw [fib_seed _ _ _ _ _ h, fib_seed _ _ _ _ _ h'] at hs
  obtain ⟨h1, h2⟩ := List.append_inj hs (by rw [usizeBytes_length, usizeBytes_length])
  exact ⟨usizeBytes_inj hi hi' h1, elementBytes_inj rep hrep h2⟩

/-- C101 (partial): the two MiMC sequences. -/
theorem C101_mimc_partial (root : Nat → Option F) (rep : F → U256) (hrep : Function.Injective rep) (n : Nat) (ks : List F) (x y x' y' : F) (c c' : Constraints F)
    (h : Cubic.constraints root rep n ks x y = some c ∧ Cubic.constraints root rep n ks x' y' = some c' ∨
      Quadratic.constraints root rep n ks x y = some c ∧ Quadratic.constraints root rep n ks x' y' = some c')
    (hs : c.channel_seed = c'.channel_seed) : x = x' ∧ y = y' := by
  rcases h with ⟨h, h'⟩ | ⟨h, h'⟩
  · rw [cubic_seed _ _ _ _ _ _ _ h, cubic_seed _ _ _ _ _ _ _ h'] at hs
    exact two rep hrep hs
  · rw [quadratic_seed _ _ _ _ _ _ _ h, quadratic_seed _ _ _ _ _ _ _ h'] at hs
    exact two rep hrep hs

/-- C101 (partial): the MiMC hash. -/
theorem C101_hash_partial (root : Nat → Option F) (rep : F → U256) (hrep : Function.Injective rep) (q : F) (ks : List F) (x y z x' y' z' : F) (c c' : Constraints F)
    (h : Hash.constraints root rep q ks x y z = some c) (h' : Hash.constraints root rep q ks x' y' z' = some c') (hs : c.channel_seed = c'.channel_seed) :
    x = x' ∧ y = y' ∧ z = z' := by
  rw [hash_seed _ _ _ _ _ _ _ _ h, hash_seed _ _ _ _ _ _ _ _ h'] at hs
  obtain ⟨h1, h2⟩ := List.append_inj hs (by simp only [List.length_append, elementBytes_length])
  obtain ⟨h3, h4⟩ := two rep hrep h1
  exact ⟨h3, h4, elementBytes_inj rep hrep h2⟩

/-- C101 (partial): the delay function. -/
theorem C101_vdf_partial (root : Nat → Option F) (rep : F → U256) (hrep : Function.Injective rep) (r : F) (n : Nat) (x y z w x' y' z' w' : F) (c c' : Constraints F)
    (h : Vdf.constraints root rep r n x y z w = some c) (h' : Vdf.constraints root rep r n x' y' z' w' = some c') (hs : c.channel_seed = c'.channel_seed) :
    x = x' ∧ y = y' ∧ z = z' ∧ w = w' := by
  rw [vdf_seed _ _ _ _ _ _ _ _ _ h, vdf_seed _ _ _ _ _ _ _ _ _ h'] at hs
  obtain ⟨h1, h2⟩ := List.append_inj hs (by simp only [List.length_append, elementBytes_length])
  obtain ⟨h3, h4⟩ := List.append_inj h1 (by simp only [List.length_append, elementBytes_length])
  obtain ⟨h5, h6⟩ := two rep hrep h3
  exact ⟨h5, h6, elementBytes_inj rep hrep h4, elementBytes_inj rep hrep h2⟩

/-- C101 (partial): the examples `constant` and `claim_polynomial`. -/
theorem C101_constant_partial (root : Nat → Option F) (rep : F → U256) (hrep : Function.Injective rep) (v v' : F) (c c' : Constraints F)
    (h : Constant.constraints root rep v = some c ∧ Constant.constraints root rep v' = some c' ∨
      Constant.concrete_system root rep v = some c ∧ Constant.concrete_system root rep v' = some c')
    (hs : c.channel_seed = c'.channel_seed) : v = v' := by
  rcases h with ⟨h, h'⟩ | ⟨h, h'⟩
  · rw [seed_of _ _ _ _ _ _ h, seed_of _ _ _ _ _ _ h'] at hs
    exact elementBytes_inj rep hrep hs
  · rw [concrete_seed _ _ _ _ h, concrete_seed _ _ _ _ h'] at hs
    exact elementBytes_inj rep hrep hs

/-- C101 (partial): the signature. -/
theorem C101_signature_partial (root : Nat → Option F) (uint : F → U256) (huint : Function.Injective uint) (hash hash' : F) (who who' : F × F) (c c' : Constraints F)
    (h : GroupSig.constraints root uint hash who = some c) (h' : GroupSig.constraints root uint hash' who' = some c') (hs : c.channel_seed = c'.channel_seed) :
    hash = hash' ∧ who = who' := by
  rw [signature_seed _ _ _ _ _ h, signature_seed _ _ _ _ _ h'] at hs
  obtain ⟨h1, h2⟩ := List.append_inj hs (by simp only [List.length_append, U256.to_bytes_be_length])
  obtain ⟨h3, h4⟩ := List.append_inj h1 (by simp only [U256.to_bytes_be_length])
  exact ⟨huint (bytes_inj h3), Prod.ext (huint (bytes_inj h4)) (huint (bytes_inj h2))⟩

/-- C101 (partial): the recurrence, whose seed has the exponent only if it is not 1. -/
theorem C101_recurrence_partial (root : Nat → Option F) (rep : F → U256) (hrep : Function.Injective rep) (i i' : Nat) (hi : i < 2 ^ 64) (hi' : i' < 2 ^ 64) (v v' : F)
    (e e' : Nat) (he : e < 2 ^ 64) (he' : e' < 2 ^ 64) (c c' : Constraints F) (h : Recurrence.constraints root rep i v e = some c)
    (h' : Recurrence.constraints root rep i' v' e' = some c') (hs : c.channel_seed = c'.channel_seed) : i = i' ∧ v = v' ∧ e = e' := by
  rw [recurrence_seed _ _ _ _ _ _ h, recurrence_seed _ _ _ _ _ _ h'] at hs
  unfold Recurrence.seed at hs
  obtain ⟨h1, h2⟩ := List.append_inj hs (by simp only [List.length_append, usizeBytes_length, elementBytes_length])
  obtain ⟨h3, h4⟩ := List.append_inj h1 (by rw [usizeBytes_length, usizeBytes_length])
  refine ⟨usizeBytes_inj hi hi' h3, elementBytes_inj rep hrep h4, ?_⟩
  by_cases k : e = 1 <;> by_cases k' : e' = 1
  · rw [k, k']
  · rw [if_neg (by simpa using k), if_pos k'] at h2
    have := congrArg List.length h2
    rw [usizeBytes_length] at this
    cases this
  · rw [if_pos k, if_neg (by simpa using k')] at h2
    have := congrArg List.length h2
    rw [usizeBytes_length] at this
    cases this
  · rw [if_pos k, if_pos k'] at h2
    exact usizeBytes_inj he he' h2

/-- C101 (partial): recurrences of any order, with as many exponents as coefficients. -/
theorem C101_recurrence2_partial (root : Nat → Option F) (rep : F → U256) (hrep : Function.Injective rep) (i i' : Nat) (hi : i < 2 ^ 64) (hi' : i' < 2 ^ 64) (v v' : F)
    (cs cs' : List F) (es es' : List Nat) (hl : es.length = cs.length) (hl' : es'.length = cs'.length) (he : ∀ e ∈ es, e < 2 ^ 64) (he' : ∀ e ∈ es', e < 2 ^ 64)
    (c c' : Constraints F) (h : Recurrence2.constraints root rep i cs es v = some c) (h' : Recurrence2.constraints root rep i' cs' es' v' = some c')
    (hs : c.channel_seed = c'.channel_seed) : i = i' ∧ cs = cs' ∧ es = es' ∧ v = v' := by
  rw [recurrence2_seed _ _ _ _ _ _ _ h, recurrence2_seed _ _ _ _ _ _ _ h'] at hs
  unfold Recurrence2.seed at hs
  have e1 := fun l : List F => flatMap_length (fun c => elementBytes rep c) 32 (elementBytes_length rep) l
  have e2 := fun l : List Nat => flatMap_length (fun e => usizeBytes e) 8 usizeBytes_length l
  have len := congrArg List.length hs
  simp only [List.length_append, usizeBytes_length, elementBytes_length, e1, e2] at len
  have hcl : cs.length = cs'.length := by omega
  have hel : es.length = es'.length := by omega
  obtain ⟨h1, h2⟩ := List.append_inj hs (by simp only [List.length_append, usizeBytes_length, e1, e2]; omega)
  obtain ⟨h3, h4⟩ := List.append_inj h1 (by simp only [List.length_append, usizeBytes_length, e1, e2]; omega)
  obtain ⟨h5, h6⟩ := List.append_inj h3 (by simp only [List.length_append, usizeBytes_length, e1]; omega)
  obtain ⟨h7, h8⟩ := List.append_inj h5 (by simp only [usizeBytes_length])
  exact ⟨usizeBytes_inj hi hi' h7, flatMap_inj _ 32 (elementBytes_length rep) (fun _ => True) (fun a b _ _ => elementBytes_inj rep hrep) (fun _ _ => trivial) (fun _ _ => trivial) hcl h8,
    flatMap_inj _ 8 usizeBytes_length (· < 2 ^ 64) (fun a b ha hb => usizeBytes_inj ha hb) he he' hel h6, elementBytes_inj rep hrep h2⟩

/-- C101 (partial): the MiMC tree without the side of the leaf. -/
theorem C101_tree_partial (root : Nat → Option F) (rep : F → U256) (hrep : Function.Injective rep) (q : F) (ks : List F) (n : Nat) (x y s x' y' s' : F) (c c' : Constraints F)
    (h : Tree.constraints root rep q ks n x y s = some c) (h' : Tree.constraints root rep q ks n x' y' s' = some c') (hs : c.channel_seed = c'.channel_seed) :
    x = x' ∧ y = y' := by
  rw [tree_seed _ _ _ _ _ _ _ _ _ h, tree_seed _ _ _ _ _ _ _ _ _ h'] at hs
  exact two rep hrep hs

/-- C101 is violated: in the MiMC tree the claims for all sides of the leaf have the same seed, although their systems differ. -/
theorem C101_violated (root : Nat → Option F) (rep : F → U256) (q : F) (ks : List F) (n : Nat) (x y s : F) (c : Constraints F) (h : Tree.constraints root rep q ks n x y s = some c) (s' : F)
    (hs : s' ≠ s) : ∃ c', Tree.constraints root rep q ks n x y s' = some c' ∧ c'.channel_seed = c.channel_seed ∧ c'.expressions ≠ c.expressions := by
  have h0 := h
  unfold Tree.constraints at h ⊢
  dsimp only at h ⊢
  obtain ⟨g, hg, h⟩ := Option.bind_eq_some_iff.1 h
  obtain ⟨k, hk, h⟩ := Option.bind_eq_some_iff.1 h
  have hc := (system_some _ _ _ _ _ _ h).2
  rw [hg, Option.bind_some, hk, Option.bind_some]
  unfold system Constraints.from_expressions
  rw [hg]
  refine ⟨_, rfl, by rw [hc], ?_⟩
  rw [hc]
  intro e
  simp only [List.cons.injEq, true_and, Expr.mul, Expr.Mul.injEq, Expr.Constant.injEq, and_true] at e
  exact hs e.1

/-- the constraints of the side of the leaf -/
def sideRight (g element side : F) : Expr F := Expr.mul (Expr.mul (.Constant side) (Expr.sub (.Trace 0 0) (.Constant element))) (on_row g 128)

def sideLeft (g element side : F) : Expr F := Expr.mul (Expr.mul (Expr.sub (.Constant side) (.Constant 1)) (Expr.sub (.Trace 0 0) (.Constant element))) (on_row g 0)

theorem right_value (z : F) (tr : Nat → Int → Option F) (g element side v : F) : claimValue (fun _ => none) z tr (sideRight g element side) = some v ↔
    ∃ u, tr 0 0 = some u ∧ z ≠ g ^ 128 ∧ v = side * (u - element) / (z - g ^ 128) := by
  unfold sideRight on_row Expr.mul Expr.sub Expr.add Expr.neg Expr.inv Expr.pow
  simp only [claimValue]
  cases h0 : tr 0 0 with
  | none => simp
  | some u =>
    simp only [Option.map_some]
    by_cases hz : z = g ^ 128
    · rw [if_pos (by rw [hz]; ring)]
      simp [hz]
    · rw [if_neg (fun e => hz (by linear_combination e))]
      simp only [Option.some.injEq]
      constructor
      · rintro rfl
        exact ⟨u, rfl, hz, by rw [div_eq_mul_inv]; ring⟩
      · rintro ⟨_, rfl, -, rfl⟩
        rw [div_eq_mul_inv]; ring

theorem left_value (z : F) (tr : Nat → Int → Option F) (g element side v : F) : claimValue (fun _ => none) z tr (sideLeft g element side) = some v ↔
    ∃ u, tr 0 0 = some u ∧ z ≠ 1 ∧ v = (side - 1) * (u - element) / (z - 1) := by
  unfold sideLeft on_row Expr.mul Expr.sub Expr.add Expr.neg Expr.inv Expr.pow
  simp only [claimValue, pow_zero]
  cases h0 : tr 0 0 with
  | none => simp
  | some u =>
    simp only [Option.map_some]
    by_cases hz : z = 1
    · rw [if_pos (by rw [hz]; ring)]
      simp [hz]
    · rw [if_neg (fun e => hz (by linear_combination e))]
      simp only [Option.some.injEq]
      constructor
      · rintro rfl
        exact ⟨u, rfl, hz, by rw [div_eq_mul_inv]; ring⟩
      · rintro ⟨_, rfl, -, rfl⟩
        rw [div_eq_mul_inv]; ring

/-- for which sides of the leaf a proof is accepted that was made with some seed and the system of the leaf `known`, if the others have this seed too -/
theorem sides (env : Env F) (hroot : RootFn env.root) (hcompat : RootCompat env.root) (hsearch : SearchOk env.search) (rep : F → U256) (h : Nat) (hh : h + 12 < 64)
    (q : F) (constants : List F) (hlen : constants.length = 128) (seed : Bytes) (known merkle_root side : F) (c : Constraints F)
    (hc : Tree.constraints env.root rep q constants (2 ^ h) known merkle_root side = some c) (p : Bytes)
    (hp : Stark.verify env { c with channel_seed := seed } p = .ok ()) :
    ∃ (g : F) (rt rc rest : Bytes) (coefs : List F) (z u : F), env.root (2 ^ (h + 8)) = some g ∧ p = rt ++ (rc ++ rest) ∧ rt.length = 32 ∧ rc.length = 32 ∧
      Draws env (coin env.K seed [rt]) 12 coefs ∧
      Draws env (coin env.K seed [rt, rc]) 1 [z] ∧ z ≠ 1 ∧ z ≠ g ^ 128 ∧
      ∀ element side' : F, ∃ c', Tree.constraints env.root rep q constants (2 ^ h) element merkle_root side' = some c' ∧
        (Stark.verify env { c' with channel_seed := seed } p = .ok () ↔
          (side' * (u - element) - side * (u - known)) * ((coefs.getD 4 0 + coefs.getD 5 0 * z ^ (2 * 2 ^ (h + 8) + 1)) / (z - g ^ 128)) +
          ((side' - 1) * (u - element) - (side - 1) * (u - known)) * ((coefs.getD 6 0 + coefs.getD 7 0 * z ^ (2 * 2 ^ (h + 8) + 1)) / (z - 1)) = 0) := by
  have hn : 256 * 2 ^ h = 2 ^ (h + 8) := by rw [pow_add, mul_comm]; norm_num
  have hc0 := hc
  unfold Tree.constraints at hc
  dsimp only at hc
  rw [hn] at hc
  obtain ⟨g, hg, hc⟩ := Option.bind_eq_some_iff.1 hc
  obtain ⟨k, hk, hc⟩ := Option.bind_eq_some_iff.1 hc
  have hcc := (system_some _ _ _ _ _ _ hc).2
  obtain ⟨_, -, his⟩ := tree_is env.root hroot hcompat rep h (by omega) q constants hlen known merkle_root side c hc0 g hg
  let es : F → F → List (Expr F) := fun element side' => [
    Expr.mul (Hash.leftStep q k) (Hash.on_loop_rows g (2 ^ (h + 8)) 128),
    Expr.mul (Hash.rightStep q) (Hash.on_loop_rows g (2 ^ (h + 8)) 256),
    sideRight g element side', sideLeft g element side',
    Expr.mul (.Trace 1 0) (Expr.div (.Constant 1) (Expr.sub (Expr.pow .X (2 ^ (h + 8) / 256)) (.Constant 1))),
    Expr.mul (Expr.sub (.Trace 0 0) (.Constant merkle_root)) (on_row g (2 ^ (h + 8) - 1))]
  let sys : F → F → Constraints F := fun element' side' =>
    ⟨seed, 2 ^ (h + 8), 2, es element' side', 16, 0, 45, default_fri_layout (2 ^ (h + 8)), []⟩
  have hsys : ∀ element side', ∃ c', Tree.constraints env.root rep q constants (2 ^ h) element merkle_root side' = some c' ∧ { c' with channel_seed := seed } = sys element side' := by
    intro element side'
    unfold Tree.constraints
    dsimp only
    rw [hn, hg, Option.bind_some, hk, Option.bind_some]
    unfold system Constraints.from_expressions
    rw [hg]
    exact ⟨_, rfl, rfl⟩
  have hc' : { c with channel_seed := seed } = sys known side := by
    rw [hcc]
    rfl
  have hdeg : (sys known side).degree = some 3 := by
    rw [← hc']
    exact his.degree.1
  rw [hc'] at hp
  clear hcc his
  generalize hcs : sys known side = cs at *
  have hA : ∀ element side', Alike cs (sys element side') := by
    intro element side'
    rw [← hcs]
    exact ⟨rfl, rfl, rfl, rfl, rfl, rfl, rfl, ⟨rfl, rfl⟩, rfl⟩
  have hrows : cs.trace_nrows = 2 ^ (h + 8) := by rw [← hcs]
  have hex : cs.expressions = es known side := by rw [← hcs]
  have hseed : cs.channel_seed = seed := by rw [← hcs]
  have hl := layout_le (h + 8) (by omega)
  obtain ⟨w, g', args, P, x, hacc, hiff⟩ := ClaimBinding.C85_systems env hroot hcompat hsearch cs (h + 8) 4 (by omega) hrows (by rw [← hcs]; rfl)
    (by rw [← hcs]; exact hl.trans (by omega)) (by rw [← hcs]; norm_num) p hp
  obtain ⟨d, vs, k1, k2, k3, k4⟩ := hacc.out_of_domain
  have hno : (fun i => (cs.claim_polynomials[i]?).map toPoly) = (fun _ : Nat => (none : Option F[X])) := by
    rw [← hcs]
    rfl
  rw [hno] at k3
  have hsome : ∀ (i : Nat) (e : Expr F), cs.expressions[i]? = some e → ∃ v, claimValue (fun _ => none) x.point (claimedCell env args P) e = some v := by
    intro i e he
    obtain ⟨hi, rfl⟩ := List.getElem?_eq_some_iff.1 he
    have := (List.forall₂_iff_get.1 k3).2 i hi (by rw [← k3.length_eq]; exact hi)
    exact ⟨_, this⟩
  have he1 : cs.expressions[2]? = some (sideRight g known side) := by rw [hex]; rfl
  have he2 : cs.expressions[2 + 1]? = some (sideLeft g known side) := by rw [hex]; rfl
  obtain ⟨v1, hv1⟩ := hsome 2 _ he1
  obtain ⟨v2, hv2⟩ := hsome 3 _ he2
  obtain ⟨u, m0, hz2, e1⟩ := (right_value _ _ _ _ _ _).1 hv1
  obtain ⟨u', m0', hz1, e2⟩ := (left_value _ _ _ _ _ _).1 hv2
  have : u' = u := Option.some.inj (m0'.symm.trans m0)
  subst this
  refine ⟨g, P.trace_root, P.constraint_root, _, x.coefficients, x.point, u', hg, hacc.bytes, ?_, ?_, ?_, ?_, hz1, hz2, fun element side' => ?_⟩
  · obtain ⟨_, -, hsz⟩ := hacc.sized
    exact hsz.trace_root
  · obtain ⟨_, -, hsz⟩ := hacc.sized
    exact hsz.constraint_root
  · have := hacc.drawn.coefficients
    rwa [hseed, hex] at this
  · have := hacc.drawn.point
    rwa [hseed] at this
  obtain ⟨c', hcs', hce⟩ := hsys element side'
  refine ⟨c', hcs', ?_⟩
  rw [hce]
  refine (show _ ↔ _ from hiff _ (hA element side')).trans ?_
  have hmain := ClaimBinding.out_of_domain_two env cs _ (hA element side') args P x 2 _ _ (sideRight g element side') (sideLeft g element side') he1 he2
    (by rw [hex]; rfl) 3 hdeg hacc.out_of_domain v1 v2 _ _ hv1 hv2 ((right_value _ _ _ _ _ _).2 ⟨u', m0, hz2, rfl⟩) ((left_value _ _ _ _ _ _).2 ⟨u', m0, hz1, rfl⟩)
  have a1 : adjustment cs.trace_nrows (3 * cs.trace_nrows - 1) (sideRight g known side) = 2 * 2 ^ (h + 8) + 1 := by
    rw [hrows]
    generalize hn : 2 ^ (h + 8) = n
    have hn0 : 0 < n := hn ▸ Nat.two_pow_pos _
    simp only [adjustment, sideRight, on_row, Expr.degree, Expr.degree_impl, Expr.mul, Expr.sub, Expr.add, Expr.neg, Expr.inv, Expr.pow]
    omega
  have a2 : adjustment cs.trace_nrows (3 * cs.trace_nrows - 1) (sideLeft g known side) = 2 * 2 ^ (h + 8) + 1 := by
    rw [hrows]
    generalize hn : 2 ^ (h + 8) = n
    have hn0 : 0 < n := hn ▸ Nat.two_pow_pos _
    simp only [adjustment, sideLeft, on_row, Expr.degree, Expr.degree_impl, Expr.mul, Expr.sub, Expr.add, Expr.neg, Expr.inv, Expr.pow]
    omega
  rw [hmain, a1, a2, e1, e2]
  have hz1' := sub_ne_zero.2 hz1
  have hz2' := sub_ne_zero.2 hz2
  refine Eq.congr_left ?_
  field_simp

/-- C101 (partial): for which sides of the leaf a proof of the MiMC tree is accepted, given one of them.  The challenges depend only on the leaf, the root and the two roots
`rt` and `rc` with which the proof begins; `u` is the value that the proof gives for the column of the leaf. -/
theorem C101_sides_partial (env : Env F) (hroot : RootFn env.root) (hcompat : RootCompat env.root) (hsearch : SearchOk env.search) (rep : F → U256) (h : Nat) (hh : h + 12 < 64)
    (q : F) (constants : List F) (hlen : constants.length = 128) (element merkle_root side : F) (c : Constraints F)
    (hc : Tree.constraints env.root rep q constants (2 ^ h) element merkle_root side = some c) (p : Bytes) (hp : Stark.verify env c p = .ok ()) :
    ∃ (g : F) (rt rc rest : Bytes) (coefs : List F) (z u : F), env.root (2 ^ (h + 8)) = some g ∧ p = rt ++ (rc ++ rest) ∧ rt.length = 32 ∧ rc.length = 32 ∧
      Draws env (coin env.K (elementBytes rep element ++ elementBytes rep merkle_root) [rt]) 12 coefs ∧
      Draws env (coin env.K (elementBytes rep element ++ elementBytes rep merkle_root) [rt, rc]) 1 [z] ∧ z ≠ 1 ∧ z ≠ g ^ 128 ∧
      ∀ side' : F, ∃ c', Tree.constraints env.root rep q constants (2 ^ h) element merkle_root side' = some c' ∧
        (Stark.verify env c' p = .ok () ↔
          (side' - side) * (u - element) * ((coefs.getD 4 0 + coefs.getD 5 0 * z ^ (2 * 2 ^ (h + 8) + 1)) / (z - g ^ 128) +
            (coefs.getD 6 0 + coefs.getD 7 0 * z ^ (2 * 2 ^ (h + 8) + 1)) / (z - 1)) = 0) := by
  have hs := tree_seed _ _ _ _ _ _ _ _ _ hc
  obtain ⟨g, rt, rc, rest, coefs, z, u, h1, h2, h3, h4, h5, h6, h7, h8, h9⟩ := sides env hroot hcompat hsearch rep h hh q constants hlen (elementBytes rep element ++ elementBytes rep merkle_root) element merkle_root side c hc p
    (by rw [← hs]; exact hp)
  refine ⟨g, rt, rc, rest, coefs, z, u, h1, h2, h3, h4, h5, h6, h7, h8, fun side' => ?_⟩
  obtain ⟨c', k1, k2⟩ := h9 element side'
  rw [← tree_seed _ _ _ _ _ _ _ _ _ k1] at k2
  refine ⟨c', k1, (show _ ↔ _ from k2).trans (Eq.congr_left ?_)⟩
  ring

/-- C101 is violated, with consequences: who knows a path from some leaf to a root can claim that any other element is a leaf under this root.  They make the proof for the leaf they know with
the seed of the other element (the seed does not fix the side), and then choose the side: unless the challenges satisfy an equation, the proof is accepted for one. -/
theorem C101_every_leaf_violated (env : Env F) (hroot : RootFn env.root) (hcompat : RootCompat env.root) (hsearch : SearchOk env.search) (rep : F → U256) (h : Nat) (hh : h + 12 < 64)
    (q : F) (constants : List F) (hlen : constants.length = 128) (element known merkle_root side : F) (c : Constraints F)
    (hc : Tree.constraints env.root rep q constants (2 ^ h) known merkle_root side = some c) (p : Bytes)
    (hp : Stark.verify env { c with channel_seed := elementBytes rep element ++ elementBytes rep merkle_root } p = .ok ()) :
    ∃ (g : F) (rt rc rest : Bytes) (coefs : List F) (z u : F), env.root (2 ^ (h + 8)) = some g ∧ p = rt ++ (rc ++ rest) ∧ rt.length = 32 ∧ rc.length = 32 ∧
      Draws env (coin env.K (elementBytes rep element ++ elementBytes rep merkle_root) [rt]) 12 coefs ∧
      Draws env (coin env.K (elementBytes rep element ++ elementBytes rep merkle_root) [rt, rc]) 1 [z] ∧
      ((u - element) * ((coefs.getD 4 0 + coefs.getD 5 0 * z ^ (2 * 2 ^ (h + 8) + 1)) / (z - g ^ 128) +
        (coefs.getD 6 0 + coefs.getD 7 0 * z ^ (2 * 2 ^ (h + 8) + 1)) / (z - 1)) ≠ 0 →
      ∃ side' c', Tree.constraints env.root rep q constants (2 ^ h) element merkle_root side' = some c' ∧ Stark.verify env c' p = .ok ()) := by
  obtain ⟨g, rt, rc, rest, coefs, z, u, h1, h2, h3, h4, h5, h6, -, -, h9⟩ := sides env hroot hcompat hsearch rep h hh q constants hlen _ known merkle_root side c hc p hp
  refine ⟨g, rt, rc, rest, coefs, z, u, h1, h2, h3, h4, h5, h6, fun hne => ?_⟩
  generalize (coefs.getD 4 0 + coefs.getD 5 0 * z ^ (2 * 2 ^ (h + 8) + 1)) / (z - g ^ 128) = A at hne h9
  generalize (coefs.getD 6 0 + coefs.getD 7 0 * z ^ (2 * 2 ^ (h + 8) + 1)) / (z - 1) = B at hne h9
  obtain ⟨c', k1, k2⟩ := h9 element ((side * (u - known) * A + (side - 1) * (u - known) * B + (u - element) * B) / ((u - element) * (A + B)))
  rw [← tree_seed _ _ _ _ _ _ _ _ _ k1] at k2
  refine ⟨_, c', k1, (show _ ↔ _ from k2).2 ?_⟩
  have hu : u - element ≠ 0 := left_ne_zero_of_mul hne
  have hAB : A + B ≠ 0 := right_ne_zero_of_mul hne
  field_simp
  ring

/-- the honest prover makes the proof that `C101_every_leaf_violated` needs: with any seed the trace of a path can be proved, with the hypotheses of C50. -/
theorem C101_other_seed (env : Env F) (hroot : RootFn env.root) (hcompat : RootCompat env.root) (hgen : env.generator ≠ 0)
    (hsearch : ∀ l n z, env.search l n = some z → l[z]? = some n) (o : Oracles F) (rep : F → U256) (h : Nat) (hh : h + 12 < 64) (q : F) (constants : List F)
    (hlen : constants.length = 128) (known : F) (path : List (F × Bool)) (hpath : path.length = 2 ^ h) (c : Constraints F)
    (hc : Tree.constraints env.root rep q constants (2 ^ h) known (Tree.mimc_path q constants known path) (if path.head?.any (·.2) then 1 else 0) = some c) (seed : Bytes) :
    ∃ t g, Tree.trace q constants known (Tree.mimc_path q constants known path) path = some t ∧ env.root (2 ^ (h + 8)) = some g ∧
      Provable env o { c with channel_seed := seed } (h + 8) g t := by
  have hn : 256 * 2 ^ h = 2 ^ (h + 8) := by rw [pow_add, mul_comm]; norm_num
  have hpos := Nat.two_pow_pos h
  obtain ⟨t, g, h1, hg, hcheck, -⟩ := C70_prove env hroot hcompat hgen hsearch o rep h hh q constants hlen known path hpath c hc
  refine ⟨t, g, h1, hg, ?_⟩
  obtain ⟨e, he, hs⟩ := tree_is env.root hroot hcompat rep h (by omega) q constants hlen known _ _ c hc g hg
  obtain ⟨t', k1, k2, k3, k4, -⟩ := tree_trace q constants hlen path (by omega) known
  cases Option.some.inj (h1.symm.trans k1)
  rw [hpath, hn] at k2
  have hhold := (hs.check t k4 k2 k3).1 hcheck
  obtain ⟨seed', es, hsys, hocc⟩ := hs.built
  have hcc := (system_some _ _ _ _ _ _ hsys).2
  refine system_provable env hroot hcompat hgen hsearch o { c with channel_seed := seed } (h + 8) 2 g _ 3 ⟨hs.size, hs.order, hs.generator, ⟨seed, es, ?_, hocc⟩, hs.columns_pos, hs.quotients, hs.zeros, hs.degree⟩
    (by omega) (by omega) t k4 k2 k3 hhold
  unfold system Constraints.from_expressions
  rw [hg, hcc]

/-! ## Runs over the field of 65537 elements -/

section
open Run
open OpenZKP.Props.Small (Z)

theorem rep_inj : Function.Injective rep := by
  intro x y h
  have h1 : (rep x).toNat = (rep y).toNat := by rw [h]
  rw [show (rep x).toNat = x.val from OpenZKP.Props.Small.rep_toNat x, show (rep y).toNat = y.val from OpenZKP.Props.Small.rep_toNat y] at h1
  exact ZMod.val_injective _ h1

/-- C101 is violated in a run: a proof made for the leaf 3 is accepted for every other element but one as a leaf under the same root. -/
theorem C101_forged_violated : ∃ p u, ∀ element : Z, element ≠ u →
    ∃ side' c', Tree.constraints root rep 10 HashRun.constants 1 element TreeRun.after side' = some c' ∧ Stark.verify env c' p = .ok () := by
  obtain ⟨p, hp⟩ := TreeRun.proved
  have hseed : ∀ (c : Constraints Z) (seed : Bytes), Stark.verify env { c with channel_seed := seed } p = Stark.verify env c p := by
    intro c seed
    have e : VerifierChannel.init env.K p seed = VerifierChannel.init env.K p c.channel_seed := rfl
    unfold Stark.verify
    dsimp only
    rw [e]
    simp only [read_seed, check_seed]
  obtain ⟨g, rt, rc, rest, coefs, z, u, h1, -, -, -, h5, h6, -, -, h9⟩ := sides env root_ok root_compat search_ok rep 0 (by norm_num) 10 HashRun.constants rfl [] 3 TreeRun.after 5 TreeRun.c
    TreeRun.system_eq p (by rw [hseed]; exact hp)
  refine ⟨p, u, fun element hne => ?_⟩
  have hz : z = 28784 := by simpa using ClaimBinding.run_draws _ _ _ h6
  have hc := ClaimBinding.run_draws _ _ _ h5
  have hg : g = 282 := Option.some.inj (h1.symm.trans (by decide +kernel))
  subst hz hc hg
  have hAB : ((List.replicate 12 (28784 : Z)).getD 4 0 + (List.replicate 12 (28784 : Z)).getD 5 0 * 28784 ^ (2 * 2 ^ (0 + 8) + 1)) / (28784 - 282 ^ 128) +
      ((List.replicate 12 (28784 : Z)).getD 6 0 + (List.replicate 12 (28784 : Z)).getD 7 0 * 28784 ^ (2 * 2 ^ (0 + 8) + 1)) / (28784 - 1) ≠ 0 := by
    decide +kernel
  generalize ((List.replicate 12 (28784 : Z)).getD 4 0 + (List.replicate 12 (28784 : Z)).getD 5 0 * 28784 ^ (2 * 2 ^ (0 + 8) + 1)) / (28784 - 282 ^ 128) = A at hAB h9
  generalize ((List.replicate 12 (28784 : Z)).getD 6 0 + (List.replicate 12 (28784 : Z)).getD 7 0 * 28784 ^ (2 * 2 ^ (0 + 8) + 1)) / (28784 - 1) = B at hAB h9
  obtain ⟨c', k1, k2⟩ := h9 element ((5 * (u - 3) * A + (5 - 1) * (u - 3) * B + (u - element) * B) / ((u - element) * (A + B)))
  rw [hseed] at k2
  refine ⟨_, c', k1, k2.2 ?_⟩
  have hu : u - element ≠ 0 := sub_ne_zero.2 (Ne.symm hne)
  field_simp
  ring

-- the hypotheses are met by the runs of the examples
example : Function.Injective rep ∧ (∃ c, Fib.constraints OpenZKP.Props.Size.root FibRun.rep 3 (fibonacci 5 3) = some c) ∧ (∃ c, Cubic.constraints root rep (2 ^ 4) CubicRun.constants 3 CubicRun.after = some c) ∧
    (∃ c, Hash.constraints root rep 10 HashRun.constants 3 4 HashRun.after = some c) ∧ (∃ c, Tree.constraints root rep 10 HashRun.constants 1 3 TreeRun.after 5 = some c) ∧
    (∃ c, Vdf.constraints root rep 3 (2 ^ 4) 2 3 VdfRun.last.1 VdfRun.last.2 = some c) ∧ (∃ c, Recurrence2.constraints root rep 3 [2, 3] [2, 1] (8 : Z) = some c) :=
  ⟨rep_inj, ⟨_, FibRun.system_eq⟩, ⟨_, CubicRun.system_eq⟩, ⟨_, HashRun.system_eq⟩, ⟨_, TreeRun.system_eq⟩, ⟨_, VdfRun.system_eq⟩, ⟨_, Rec2Run.system_eq⟩⟩

-- two claims of each kind with a system, and different seeds
example : (Constant.constraints root rep (3 : Z)).map (·.channel_seed) ≠ (Constant.constraints root rep (4 : Z)).map (·.channel_seed) ∧
    (Recurrence.seed rep 3 (7 : Z) 1 ≠ Recurrence.seed rep 3 (7 : Z) 2) ∧ Recurrence2.seed rep 3 [2, 3] [2, 1] (8 : Z) ≠ Recurrence2.seed rep 3 [2, 3] [1, 2] (8 : Z) := by
  decide +kernel

-- two lists of different lengths can be confused: four exponents and a coefficient with the same bytes
example : Recurrence2.seed rep 3 [(2 : Z)] [] 8 = Recurrence2.seed rep 3 [] [0, 0, 0, 2] (8 : Z) := by decide +kernel

end

end Seeds
end Props
end OpenZKP
