import Verif.Stark.Release
import Verif.Stark.Forward

/-!
Lemmas: where the verifier with debug assertions does not panic, the words of the one without are those of its field elements.
-/

namespace OpenZKP
namespace Stark
namespace Release
open FFT U256

/-- on the words of field elements the arithmetic is that of the field -/
structure Arith {F : Type} [Field F] (codec : Codec F) : Prop where
  rep_val : ∀ u : U256, u.toNat < PF.BASE.modulus.toNat → codec.rep (codec.val u) = u
  zero : codec.rep 0 = U256.ZERO
  add : ∀ x y, add (codec.rep x) (codec.rep y) = codec.rep (x + y)
  sub : ∀ x y, sub (codec.rep x) (codec.rep y) = codec.rep (x - y)
  neg : ∀ x, neg (codec.rep x) = codec.rep (-x)
  mul : ∀ x y, mul (codec.rep x) (codec.rep y) = codec.rep (x * y)
  pow : ∀ x e, pow (codec.rep x) e = codec.rep (x ^ e)

/-! ## Simulation -/

/-- unless `r` is a panic, `w` is `r` up to `f` -/
def Sim {α β : Type} (f : α → β) (r : Except VerifierError α) (w : Except VerifierError β) : Prop := r ≠ .error .Panic → w = r.map f

theorem sim_bind {α β γ δ : Type} {f : α → β} {g : γ → δ} {r : Except VerifierError α} {w : Except VerifierError β}
    {k : α → Except VerifierError γ} {k' : β → Except VerifierError δ} (h : Sim f r w) (hk : ∀ a, r = .ok a → Sim g (k a) (k' (f a))) :
    Sim g (r.bind k) (w.bind k') := by
  intro hp
  cases r with
  | error e =>
    have : w = .error e := h (fun h0 => hp (by rw [h0]; rfl))
    rw [this]; rfl
  | ok a =>
    have : w = .ok (f a) := h (by simp)
    rw [this]
    exact hk a rfl hp

theorem sim_map {α β γ δ : Type} {f : α → β} {g : γ → δ} {r : Except VerifierError α} {w : Except VerifierError β}
    {k : α → γ} {k' : β → δ} (h : Sim f r w) (hk : ∀ a, r = .ok a → k' (f a) = g (k a)) : Sim g (r.map k) (w.map k') := by
  intro hp
  cases r with
  | error e =>
    have : w = .error e := h (fun h0 => hp (by rw [h0]; rfl))
    rw [this]; rfl
  | ok a =>
    have : w = .ok (f a) := h (by simp)
    rw [this]
    show Except.ok (k' (f a)) = Except.ok (g (k a))
    rw [hk a rfl]

theorem sim_id {α : Type} (r : Except VerifierError α) : Sim id r r := by
  intro _
  cases r <;> rfl

theorem sim_ok {α β : Type} {f : α → β} {a : α} {b : β} (h : b = f a) : Sim f (.ok a) (.ok b) := by
  intro _; rw [h]; rfl

theorem sim_error {α β : Type} {f : α → β} (e : VerifierError) : Sim f (.error e) (.error e) := fun _ => rfl

/-- where `o` has a value, `o'` has it up to `f` -/
def OSim {α β : Type} (f : α → β) (o : Option α) (o' : Option β) : Prop := ∀ a, o = some a → o' = some (f a)

theorem sim_panic {α β : Type} {f : α → β} {o : Option α} {o' : Option β} (h : OSim f o o') : Sim f (orPanic o) (orPanic o') := by
  intro hp
  cases o with
  | none => exact absurd rfl hp
  | some a => rw [h a rfl]; rfl

theorem osim_bind {α β γ δ : Type} {f : α → β} {g : γ → δ} {r : Option α} {w : Option β}
    {k : α → Option γ} {k' : β → Option δ} (h : OSim f r w) (hk : ∀ a, r = some a → OSim g (k a) (k' (f a))) :
    OSim g (r.bind k) (w.bind k') := by
  intro c hc
  obtain ⟨a, ha, hc⟩ := Option.bind_eq_some_iff.1 hc
  rw [h a ha, Option.bind_some]
  exact hk a ha c hc

theorem osim_map {α β γ δ : Type} {f : α → β} {g : γ → δ} {r : Option α} {w : Option β}
    {k : α → γ} {k' : β → δ} (h : OSim f r w) (hk : ∀ a, r = some a → k' (f a) = g (k a)) : OSim g (r.map k) (w.map k') := by
  intro c hc
  obtain ⟨a, ha, rfl⟩ := Option.map_eq_some_iff.1 hc
  rw [h a ha, Option.map_some, hk a ha]

theorem osim_id {α : Type} (r : Option α) : OSim id r r := fun _ h => h

theorem osim_some {α β : Type} {f : α → β} {a : α} {b : β} (h : b = f a) : OSim f (some a) (some b) := by
  rintro _ ⟨⟩; rw [h]

theorem osim_none {α β : Type} {f : α → β} {b : Option β} : OSim f none b := by
  rintro _ ⟨⟩

/-- two `mapM`s -/
theorem osim_mapM {α β γ δ : Type} {f : α → β} {g : γ → δ} {k : α → Option γ} {k' : β → Option δ} : ∀ (l : List α),
    (∀ a ∈ l, OSim g (k a) (k' (f a))) → OSim (List.map g) (l.mapM k) ((l.map f).mapM k')
  | [], _ => by
    rintro _ ⟨⟩; rfl
  | a :: l, h => by
    rw [List.map_cons, List.mapM_cons, List.mapM_cons]
    refine osim_bind (f := g) (h a (by simp)) fun c _ => osim_bind (f := List.map g) (osim_mapM l fun b hb => h b (by simp [hb])) fun cs _ => ?_
    exact osim_some rfl

section
variable {F : Type} [Field F] [DecidableEq F] (env : Env F)

/-! ## Reading -/

omit [DecidableEq F] in
theorem field_sim (A : Arith env.codec) (c : VerifierChannel) :
    OSim (fun r : F × VerifierChannel => (env.codec.rep r.1, r.2)) (c.readField env) (c.replayField env.K false) := by
  unfold VerifierChannel.readField VerifierChannel.replayField
  rintro a ha
  obtain ⟨r, h1, rfl⟩ := Option.map_eq_some_iff.1 ha
  obtain ⟨s, h2, h1⟩ := Option.bind_eq_some_iff.1 h1
  obtain ⟨u, h3, rfl⟩ := Option.map_eq_some_iff.1 h1
  rw [h2, Option.bind_some]
  unfold VerifierChannel.fromMontgomery at h3 ⊢
  split at h3
  · cases h3
  · rename_i hn
    cases h3
    have : s.1.toNat < PF.BASE.modulus.toNat := by
      rw [Bool.true_and, Bool.not_eq_true, Bool.not_eq_false'] at hn
      exact (lt_iff _ _).1 hn
    rw [if_neg (by simp), Option.map_some]
    dsimp only
    rw [A.rep_val _ this]

omit [DecidableEq F] in
theorem fields_sim (A : Arith env.codec) : ∀ (n : Nat) (c : VerifierChannel),
    OSim (fun r : List F × VerifierChannel => (r.1.map env.codec.rep, r.2)) (c.readFields env n) (readWords env n c) := by
  intro n
  unfold VerifierChannel.readFields readWords
  induction n with
  | zero => intro c; exact osim_some rfl
  | succ n ih =>
    intro c
    rw [VerifierChannel.replayMany, VerifierChannel.replayMany]
    refine osim_bind (field_sim env A c) fun a _ => ?_
    refine osim_map (ih a.2) fun b _ => rfl

omit [DecidableEq F] in
theorem layer_sim (A : Arith env.codec) (n : Nat) (c : VerifierChannel) :
    OSim (fun r : List F × VerifierChannel => (r.1.map env.codec.rep, r.2)) (c.readLayer env n) (c.replayLayer env.K false n) := by
  unfold VerifierChannel.readLayer VerifierChannel.replayLayer
  rintro a ha
  obtain ⟨r, h1, rfl⟩ := Option.map_eq_some_iff.1 ha
  obtain ⟨s, h2, h1⟩ := Option.bind_eq_some_iff.1 h1
  obtain ⟨us, h3, rfl⟩ := Option.map_eq_some_iff.1 h1
  rw [h2, Option.bind_some]
  dsimp only
  have key : ∀ (l : List Bytes) (us : List U256), (l.mapM fun b => (from_bytes_be b).bind (VerifierChannel.fromMontgomery true)) = some us →
      (l.mapM fun b => (from_bytes_be b).bind (VerifierChannel.fromMontgomery false)) = some us ∧ (us.map env.codec.val).map env.codec.rep = us := by
    intro l
    induction l with
    | nil => rintro us ⟨⟩; exact ⟨rfl, rfl⟩
    | cons b l ih =>
      intro us h
      rw [List.mapM_cons] at h
      obtain ⟨u, h4, h⟩ := Option.bind_eq_some_iff.1 h
      obtain ⟨vs, h5, h⟩ := Option.bind_eq_some_iff.1 h
      cases h
      obtain ⟨x, h6, h7⟩ := Option.bind_eq_some_iff.1 h4
      obtain ⟨i1, i2⟩ := ih vs h5
      unfold VerifierChannel.fromMontgomery at h7
      split at h7
      · cases h7
      · rename_i hn
        cases h7
        have : u.toNat < PF.BASE.modulus.toNat := by
          rw [Bool.true_and, Bool.not_eq_true, Bool.not_eq_false'] at hn
          exact (lt_iff _ _).1 hn
        refine ⟨?_, ?_⟩
        · rw [List.mapM_cons, h6, i1, Option.bind_some]
          unfold VerifierChannel.fromMontgomery
          rw [if_neg (by simp)]
          rfl
        · rw [List.map_cons, List.map_cons, i2, A.rep_val _ this]
  obtain ⟨k1, k2⟩ := key _ _ h3
  rw [k1, k2]
  rfl

/-- positions with words for field elements -/
def reps (l : List (Nat × List F)) : List (Nat × List U256) := l.map fun v => (v.1, v.2.map env.codec.rep)

omit [DecidableEq F] in
theorem leaves_sim (A : Arith env.codec) (width : Nat) : ∀ (is : List Nat) (c : VerifierChannel),
    Sim (fun r : List (Nat × List F) × VerifierChannel => (reps env r.1, r.2)) (Stark.readLeaves env width is c) (readLeaves env width is c)
  | [], c => sim_ok rfl
  | i :: is, c => by
    rw [Stark.readLeaves, readLeaves]
    refine sim_bind (sim_panic (layer_sim env A width c)) fun a _ => ?_
    exact sim_map (leaves_sim A width is a.2) fun b _ => rfl

omit [Field F] [DecidableEq F] in
theorem check_sim (err : VerifierError) (com : Merkle.Commitment Bytes) (indices : List Nat) (values : List (Nat × List F)) (c : VerifierChannel) :
    checkLeaves env err com indices (reps env values) c = Stark.checkLeaves env err com indices values c := by
  unfold checkLeaves Stark.checkLeaves reps
  simp only [List.map_map]
  rfl

/-! ## The layers -/

theorem single_sim (A : Arith env.codec) (a b x e : F) :
    OSim env.codec.rep (Stark.fri_single_fold a b x e) (fri_single_fold env (env.codec.rep a) (env.codec.rep b) x e) := by
  unfold Stark.fri_single_fold fri_single_fold
  refine osim_map (f := id) (osim_id _) fun i _ => ?_
  show add (add _ _) (mul _ _) = _
  rw [A.sub, A.mul, A.add, A.add]
  rfl

theorem pairs_sim (A : Arith env.codec) (eval_x : List F) (e : F) (step index len : Nat) : ∀ (n : Nat) (l : List F), l.length ≤ n → ∀ (k : Nat),
    OSim (List.map env.codec.rep) (Stark.friFoldPairs eval_x e step index len k l) (friFoldPairs env eval_x e step index len k (l.map env.codec.rep)) := by
  intro n
  induction n with
  | zero =>
    intro l hl k
    obtain rfl := List.length_eq_zero_iff.1 (Nat.le_zero.1 hl)
    exact osim_some rfl
  | succ n ih =>
    intro l hl k
    match l, hl with
    | [], _ => exact osim_some rfl
    | [_], _ => exact osim_none
    | p0 :: p1 :: rest, hl =>
      rw [List.map_cons, List.map_cons, Stark.friFoldPairs, friFoldPairs]
      refine osim_bind (f := id) (osim_id _) fun x _ => osim_bind (single_sim env A p0 p1 x e) fun v _ => ?_
      refine osim_map (ih rest (by simp only [List.length_cons] at hl; omega) (k + 1)) fun vs _ => rfl

theorem loop_sim (A : Arith env.codec) (eval_x : List F) : ∀ (fuel : Nat) (l : List F) (e : F) (step index len : Nat),
    OSim env.codec.rep (Stark.friFoldLoop eval_x fuel l e step index len) (friFoldLoop env eval_x fuel (l.map env.codec.rep) e step index len)
  | 0, l, e, step, index, len => osim_none
  | fuel + 1, l, e, step, index, len => by
    rw [Stark.friFoldLoop, friFoldLoop, List.length_map]
    split
    · exact osim_bind (pairs_sim env A eval_x e step index len _ l (le_refl _) 0) fun next _ => loop_sim A eval_x fuel next _ _ _ _
    · intro a ha
      rw [List.getElem?_map, ha]; rfl

theorem fold_sim (A : Arith env.codec) (l : List F) (e : F) (step index len : Nat) (eval_x : List F) :
    OSim env.codec.rep (Stark.fri_fold l e step index len eval_x) (fri_fold env (l.map env.codec.rep) e step index len eval_x) := by
  unfold Stark.fri_fold fri_fold
  rw [List.length_map]
  exact loop_sim env A eval_x _ _ _ _ _ _

omit [DecidableEq F] in
theorem coset_sim (A : Arith env.codec) {known : Nat → Nat → Except VerifierError F} {known' : Nat → Nat → Except VerifierError U256}
    (hk : ∀ n z, Sim env.codec.rep (known n z) (known' n z)) (previous : List Nat) : ∀ (ns : List Nat) (c : VerifierChannel),
    Sim (fun r : List F × VerifierChannel => (r.1.map env.codec.rep, r.2)) (Stark.readCoset env known previous ns c) (readCoset env known' previous ns c)
  | [], c => sim_ok rfl
  | n :: ns, c => by
    rw [Stark.readCoset, readCoset]
    cases env.search previous n with
    | some z => exact sim_bind (hk n z) fun v _ => sim_map (coset_sim A hk previous ns c) fun r _ => rfl
    | none => exact sim_bind (sim_panic (field_sim env A c)) fun v _ => sim_map (coset_sim A hk previous ns v.2) fun r _ => rfl

omit [DecidableEq F] in
theorem cosets_sim (A : Arith env.codec) {known : Nat → Nat → Except VerifierError F} {known' : Nat → Nat → Except VerifierError U256}
    (hk : ∀ n z, Sim env.codec.rep (known n z) (known' n z)) (previous : List Nat) (size : Nat) : ∀ (is : List Nat) (c : VerifierChannel),
    Sim (fun r : List (Nat × List F) × VerifierChannel => (reps env r.1, r.2)) (Stark.readCosets env known previous size is c)
      (readCosets env known' previous size is c)
  | [], c => sim_ok rfl
  | i :: is, c => by
    rw [Stark.readCosets, readCosets]
    exact sim_bind (coset_sim env A hk previous _ c) fun v _ => sim_map (cosets_sim A hk previous size is v.2) fun r _ => rfl

/-- the words of an association list -/
def repFolds (l : List (Nat × F)) : List (Nat × U256) := l.map fun v => (v.1, env.codec.rep v.2)

omit [Field F] [DecidableEq F] in
theorem assoc_rep {α : Type} [DecidableEq α] (l : List (α × F)) (a : α) :
    assoc (l.map fun v => (v.1, env.codec.rep v.2)) a = (assoc l a).map env.codec.rep := by
  unfold assoc
  rw [List.find?_map, Option.map_map, Option.map_map]
  rfl

omit [Field F] [DecidableEq F] in
theorem knownFold_sim (folds : List (Nat × F)) (n z : Nat) : Sim env.codec.rep (Stark.knownFold folds n z) (knownFold (repFolds env folds) n z) := by
  unfold Stark.knownFold knownFold repFolds
  rw [assoc_rep]
  cases assoc folds n with
  | none => exact sim_error _
  | some x => exact sim_ok rfl

theorem layers_sim (A : Arith env.codec) (eval_x : List F) : ∀ (layers : List (Nat × Merkle.Commitment Bytes × F))
    (known : Nat → Nat → Except VerifierError F) (known' : Nat → Nat → Except VerifierError U256) (_ : ∀ n z, Sim env.codec.rep (known n z) (known' n z))
    (previous : List Nat) (folds : List (Nat × F)) (step len : Nat) (c : VerifierChannel),
    Sim (fun r : (List Nat × List (Nat × F) × Nat) × VerifierChannel => ((r.1.1, repFolds env r.1.2.1, r.1.2.2), r.2))
      (Stark.friLayers env eval_x layers known previous folds step len c) (friLayers env eval_x layers known' previous (repFolds env folds) step len c)
  | [], known, known', hk, previous, folds, step, len, c => sim_ok rfl
  | (num_folds, commitment, eval_point) :: layers, known, known', hk, previous, folds, step, len, c => by
    rw [Stark.friLayers, friLayers]
    refine sim_bind (cosets_sim env A hk previous _ _ c) fun values _ => ?_
    refine sim_bind (f := repFolds env) (sim_panic ?_) fun folds _ => ?_
    · refine osim_mapM (f := fun v : Nat × List F => (v.1, v.2.map env.codec.rep)) (g := fun v : Nat × F => (v.1, env.codec.rep v.2)) values.1 fun v _ => ?_
      exact osim_map (fold_sim env A v.2 eval_point _ _ _ eval_x) fun x _ => rfl
    · refine sim_bind (f := id) ?_ fun c _ => ?_
      · dsimp only
        rw [check_sim]
        exact sim_id _
      · exact layers_sim A eval_x layers _ _ (knownFold_sim env folds) _ folds _ _ c

/-! ## The values -/

omit [DecidableEq F] in
theorem poly_sim (A : Arith env.codec) (p : List F) (x : F) : evaluatePoly (p.map env.codec.rep) (env.codec.rep x) = env.codec.rep (Poly.evaluate p x) := by
  unfold evaluatePoly Poly.evaluate
  rw [← List.map_reverse, ← A.zero]
  generalize (0 : F) = r
  generalize p.reverse = l
  induction l generalizing r with
  | nil => rfl
  | cons a l ih => rw [List.map_cons, List.foldl_cons, List.foldl_cons, A.mul, A.add, ih]

omit [DecidableEq F] in
theorem sum_sim (A : Arith env.codec) (l : List F) : sum (l.map env.codec.rep) = env.codec.rep l.sum := by
  have key : ∀ (l : List F) (r : F), (l.map env.codec.rep).foldl (PF.add PF.BASE) (env.codec.rep r) = env.codec.rep (r + l.sum) := by
    intro l
    induction l with
    | nil => intro r; simp
    | cons a l ih =>
      intro r
      rw [List.map_cons, List.foldl_cons, show PF.add PF.BASE (env.codec.rep r) (env.codec.rep a) = env.codec.rep (r + a) from A.add r a, ih, List.sum_cons, add_assoc]
  have := key l 0
  rw [zero_add, A.zero] at this
  exact this

omit [Field F] [DecidableEq F] in
theorem rep_inj {x y : F} (h : env.codec.rep x = env.codec.rep y) : x = y := by
  rw [← env.codec.val_rep x, h, env.codec.val_rep]

theorem last_sim (A : Arith env.codec) (last : List F) (previous : List Nat) (folds : List (Nat × F)) (len : Nat) :
    Sim id (Stark.checkLast env last previous folds len) (checkLast env (last.map env.codec.rep) previous (repFolds env folds) len) := by
  unfold Stark.checkLast checkLast
  cases env.root len with
  | none => exact sim_error _
  | some w =>
    dsimp only
    induction previous with
    | nil => exact sim_ok rfl
    | cons key previous ih =>
      rw [List.foldlM_cons, List.foldlM_cons]
      refine sim_bind (f := id) ?_ fun _ _ => ih
      refine sim_bind (f := env.codec.rep) (sim_panic ?_) fun calculated _ => ?_
      · unfold repFolds
        rw [assoc_rep]
        intro a ha
        rw [ha]; rfl
      refine sim_bind (f := List.map env.codec.rep) (sim_panic ?_) fun poly _ => ?_
      · unfold Poly.new
        rw [List.length_map]
        split
        · exact osim_some rfl
        · exact osim_none
      rw [poly_sim env A]
      by_cases h : Poly.evaluate poly (w ^ permute_index len key) = calculated
      · rw [if_pos h, if_pos (by rw [h])]; exact sim_ok rfl
      · rw [if_neg h, if_neg (fun h0 => h (rep_inj env h0))]; exact sim_error _

theorem evaluate_sim (A : Arith env.codec) (x : F) (trace : Nat → Int → Option F) (trace' : Nat → Int → Option U256)
    (ht : ∀ i j, OSim env.codec.rep (trace i j) (trace' i j)) : ∀ e : Expr F, OSim env.codec.rep (e.evaluate x trace) (evaluate env x trace' e)
  | .X => osim_some rfl
  | .Constant c => osim_some rfl
  | .Trace i j => ht i j
  | .Polynomial p a => osim_map (evaluate_sim A x trace trace' ht a) fun v _ => poly_sim env A p v
  | .ClaimPolynomial _ _ _ _ => osim_none
  | .Add a b => osim_bind (evaluate_sim A x trace trace' ht a) fun u _ => osim_map (evaluate_sim A x trace trace' ht b) fun v _ => A.add u v
  | .Neg a => osim_map (evaluate_sim A x trace trace' ht a) fun u _ => A.neg u
  | .Mul a b => osim_bind (evaluate_sim A x trace trace' ht a) fun u _ => osim_map (evaluate_sim A x trace trace' ht b) fun v _ => A.mul u v
  | .Inv a => osim_bind (evaluate_sim A x trace trace' ht a) fun u _ => by
      rw [env.codec.val_rep]
      intro v hv
      rw [hv]; rfl
  | .Exp a e => osim_map (evaluate_sim A x trace trace' ht a) fun u _ => A.pow u e

theorem trace_value_sim (A : Arith env.codec) (c : Constraints F) (coefficients : List F) (map : List ((Nat × Int) × F)) (x : F) :
    OSim env.codec.rep (Stark.oods_value_from_trace_values c coefficients map x)
      (oods_value_from_trace_values env c coefficients (map.map fun v => (v.1, env.codec.rep v.2)) x) := by
  unfold Stark.oods_value_from_trace_values oods_value_from_trace_values
  refine osim_bind (f := id) (osim_id _) fun e _ => osim_bind (f := id) (osim_id _) fun e _ => ?_
  refine evaluate_sim env A x _ _ (fun i j => ?_) _
  rw [assoc_rep]
  intro a ha
  rw [ha]; rfl

omit [DecidableEq F] in
theorem constraint_value_sim (A : Arith env.codec) (values : List F) (x : F) :
    oods_value_from_constraint_values env (values.map env.codec.rep) x = env.codec.rep (Stark.oods_value_from_constraint_values values x) := by
  unfold oods_value_from_constraint_values Stark.oods_value_from_constraint_values
  rw [← A.zero]
  generalize (0 : F) = r
  generalize (1 : F) = p
  induction values generalizing r p with
  | nil => rfl
  | cons a l ih =>
    rw [List.map_cons, List.foldl_cons, List.foldl_cons]
    dsimp only
    rw [A.mul, A.add, ih]

omit [DecidableEq F] in
theorem term_sim (A : Arith env.codec) (a b i : F) : mul (sub (env.codec.rep a) (env.codec.rep b)) (env.codec.rep i) = env.codec.rep ((a - b) * i) := by
  rw [A.sub, A.mul]

omit [DecidableEq F] in
theorem terms_sim (A : Arith env.codec) (ts coefficients : List F) :
    sum (((ts.map env.codec.rep).zip coefficients).map fun t => mul t.1 (env.codec.rep t.2)) = env.codec.rep ((ts.zip coefficients).map fun t => t.1 * t.2).sum := by
  rw [← sum_sim env A]
  congr 1
  induction ts generalizing coefficients with
  | nil => rfl
  | cons t ts ih =>
    cases coefficients with
    | nil => rfl
    | cons a l =>
      rw [List.map_cons, List.zip_cons_cons, List.zip_cons_cons, List.map_cons, List.map_cons, List.map_cons, ih]
      dsimp only
      rw [A.mul]

theorem traceTerm_sim (A : Arith env.codec) (row : List F) (d : Int → F) (t : (Nat × Int) × F) :
    OSim env.codec.rep ((row[t.1.1]?).bind fun value => (finv (d t.1.2)).map fun inv => (value - t.2) * inv)
      (((row.map env.codec.rep)[t.1.1]?).bind fun value => (finv (d t.1.2)).map fun inv => mul (sub value (env.codec.rep t.2)) (env.codec.rep inv)) := by
  refine osim_bind (f := env.codec.rep) ?_ fun v _ => osim_map (f := id) (osim_id _) fun i _ => term_sim env A v t.2 i
  rw [List.getElem?_map]
  intro a ha
  rw [ha]; rfl

theorem constraintTerms_sim (A : Arith env.codec) (d : F) : ∀ (l r : List F),
    OSim (List.map env.codec.rep) ((l.zip r).mapM fun v : F × F => (finv d).map fun inv => (v.1 - v.2) * inv)
      (((l.map env.codec.rep).zip (r.map env.codec.rep)).mapM fun v : U256 × U256 => (finv d).map fun inv => mul (sub v.1 v.2) (env.codec.rep inv))
  | [], _ => osim_some rfl
  | _ :: _, [] => osim_some rfl
  | a :: l, b :: r => by
    rw [List.map_cons, List.map_cons, List.zip_cons_cons, List.zip_cons_cons, List.mapM_cons, List.mapM_cons]
    refine osim_bind (f := env.codec.rep) (osim_map (f := id) (osim_id _) fun i _ => term_sim env A a b i) fun v _ => ?_
    exact osim_bind (constraintTerms_sim A d l r) fun vs _ => osim_some rfl

theorem deep_sim (A : Arith env.codec) (query_x : F) (row crow : List F) (x : F) (map : List ((Nat × Int) × F)) (values coefficients : List F) (n : Nat) :
    Sim env.codec.rep (Stark.out_of_domain_element env query_x row crow x map values coefficients n)
      (out_of_domain_element env query_x (row.map env.codec.rep) (crow.map env.codec.rep) x (map.map fun v => (v.1, env.codec.rep v.2))
        (values.map env.codec.rep) coefficients n) := by
  unfold Stark.out_of_domain_element out_of_domain_element
  dsimp only
  cases env.root n with
  | none => exact sim_error _
  | some g =>
    dsimp only
    rw [List.length_map]
    refine sim_bind (f := List.map env.codec.rep) (sim_panic ?_) fun ts _ => sim_map (f := List.map env.codec.rep) (sim_panic ?_) fun cs _ => ?_
    · exact osim_mapM map fun t _ => traceTerm_sim env A row (fun j => query_x * env.generator - g ^ j * x) t
    · exact constraintTerms_sim env A _ crow values
    · rw [← List.map_append]
      exact terms_sim env A (ts ++ cs) coefficients

/-! ## The verifier -/

/-- the transcript with words -/
def repTranscript (t : Stark.Transcript F) : Transcript F :=
  ⟨t.lde_commitment, t.constraint_coefficients, t.constraint_commitment, t.oods_point, t.trace_map.map fun v => (v.1, env.codec.rep v.2), t.degree,
    t.constraint_values.map env.codec.rep, t.oods_coefficients, t.layers, t.last_layer.map env.codec.rep, t.queries⟩

theorem transcript_sim (A : Arith env.codec) (c : Constraints F) (ch : VerifierChannel) :
    Sim (fun r : Stark.Transcript F × VerifierChannel => (repTranscript env r.1, r.2)) (Stark.readTranscript env c ch) (readTranscript env c ch) := by
  unfold Stark.readTranscript readTranscript
  dsimp only
  refine sim_bind (f := id) (sim_id _) fun lde _ => sim_bind (f := id) (sim_id _) fun lde_commitment _ => sim_bind (f := id) (sim_id _) fun coefficients _ =>
    sim_bind (f := id) (sim_id _) fun con _ => sim_bind (f := id) (sim_id _) fun constraint_commitment _ => sim_bind (f := id) (sim_id _) fun oods_point _ =>
    sim_bind (f := id) (sim_id _) fun parseable _ => sim_bind (f := id) (sim_id _) fun args _ => sim_bind (sim_panic (fields_sim env A _ _)) fun trace_values _ =>
    sim_bind (f := id) (sim_id _) fun degree _ => sim_bind (sim_panic (fields_sim env A _ _)) fun constraint_values _ =>
    sim_bind (f := id) (sim_id _) fun oods_coefficients _ => sim_bind (f := id) (sim_id _) fun layers _ => ?_
  dsimp only [id]
  split
  · exact sim_error _
  refine sim_bind (sim_panic (layer_sim env A _ _)) fun last _ => sim_bind (f := id) (sim_id _) fun pow_seed _ => sim_bind (f := id) (sim_id _) fun challenge _ =>
    sim_bind (f := id) (sim_id _) fun response _ => ?_
  dsimp only [id]
  split
  · exact sim_error _
  refine sim_map (f := id) (sim_id _) fun queries _ => ?_
  unfold repTranscript
  dsimp only [id]
  congr 2
  rw [List.zip_map_right]
  rfl

theorem first_sim (A : Arith env.codec) (c : Constraints F) (t : Stark.Transcript F) (eval_x : List F) (rows crows : List (Nat × List F)) (n z : Nat) :
    Sim env.codec.rep (Stark.knownFirst env c t eval_x rows crows n z) (knownFirst env c (repTranscript env t) eval_x (reps env rows) (reps env crows) n z) := by
  unfold Stark.knownFirst knownFirst
  have key : ∀ l : List (Nat × List F), OSim (fun v : Nat × List F => (v.1, v.2.map env.codec.rep)) (l[z]?) ((reps env l)[z]?) := by
    intro l a ha
    unfold reps
    rw [List.getElem?_map, ha]; rfl
  exact sim_bind (f := id) (sim_id _) fun q _ => sim_bind (f := id) (sim_id _) fun x _ => sim_bind (sim_panic (key rows)) fun lde _ =>
    sim_bind (sim_panic (key crows)) fun con _ => deep_sim env A _ _ _ _ _ _ _ _

theorem checks_sim (A : Arith env.codec) (c : Constraints F) (eval_x : List F) (t : Stark.Transcript F) (ch : VerifierChannel) :
    Sim id (Stark.checkTranscript env c eval_x t ch) (checkTranscript env c eval_x (repTranscript env t) ch) := by
  unfold Stark.checkTranscript checkTranscript
  refine sim_bind (leaves_sim env A _ _ ch) fun lde _ => sim_bind (f := id) ?_ fun ch _ => sim_bind (leaves_sim env A _ _ ch) fun con _ =>
    sim_bind (f := id) ?_ fun ch _ => ?_
  · dsimp only
    rw [check_sim]; exact sim_id _
  · dsimp only
    rw [check_sim]; exact sim_id _
  dsimp only [id]
  show Sim id _ (if c.fri_layout = [] ∧ t.queries ≠ [] then _ else _)
  split
  · exact sim_error _
  refine sim_bind (layers_sim env A eval_x _ _ _ (first_sim env A c t eval_x lde.1 con.1) _ [] _ _ _) fun r _ => ?_
  dsimp only
  split
  · exact sim_error _
  refine sim_bind (f := id) (last_sim env A _ _ _ _) fun _ _ => sim_bind (sim_panic (trace_value_sim env A c _ _ _)) fun v _ => ?_
  have : (repTranscript env t).constraint_values = t.constraint_values.map env.codec.rep := rfl
  rw [this, constraint_value_sim env A]
  show Sim id _ (if env.codec.rep v ≠ env.codec.rep (Stark.oods_value_from_constraint_values t.constraint_values t.oods_point) then _ else _)
  by_cases h : v = Stark.oods_value_from_constraint_values t.constraint_values t.oods_point
  · rw [if_neg (by simpa using h), if_neg (by simpa using congrArg env.codec.rep h)]; exact sim_ok rfl
  · rw [if_pos h, if_pos (fun h0 => h (rep_inj env h0))]; exact sim_error _

theorem verify_sim (A : Arith env.codec) (c : Constraints F) (proof : Bytes) : Sim id (Stark.verify env c proof) (verify env c proof) := by
  unfold Stark.verify verify
  exact sim_bind (f := id) (sim_id _) fun w _ => sim_bind (transcript_sim env A c _) fun t _ => checks_sim env A c _ _ _

end

end Release
end Stark
end OpenZKP
