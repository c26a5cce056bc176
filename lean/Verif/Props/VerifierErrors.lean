import Verif.Stark.AcceptFri
import Verif.Stark.CombineLemmas
import Verif.Props.Prover

/-!
# C81: the error of the verifier names the check that failed
-/

namespace OpenZKP
namespace Props
namespace VerifierErrors
open FFT U256 Stark Stark.Accept Merkle

variable {F : Type} [Field F] [DecidableEq F] (env : Env F)

/-- every error of a computation is one of these -/
def ErrIn {α : Type} (S : VerifierError → Prop) (x : Except VerifierError α) : Prop := ∀ e, x = .error e → S e

variable {S : VerifierError → Prop}

theorem errIn_ok {α : Type} (a : α) : ErrIn S (.ok a) := by intro e h; cases h
theorem errIn_error {α : Type} {e : VerifierError} (h : S e) : ErrIn S (.error e : Except VerifierError α) := by
  intro e' h'; cases h'; exact h
theorem errIn_bind {α β : Type} {x : Except VerifierError α} {f : α → Except VerifierError β} (hx : ErrIn S x) (hf : ∀ a, x = .ok a → ErrIn S (f a)) :
    ErrIn S (x.bind f) := by
  intro e h
  cases x with
  | error e' => cases h; exact hx _ rfl
  | ok a => exact hf a rfl e h
theorem errIn_map {α β : Type} {x : Except VerifierError α} {f : α → β} (hx : ErrIn S x) : ErrIn S (x.map f) := by
  intro e h
  cases x with
  | error e' => cases h; exact hx _ rfl
  | ok a => cases h
theorem errIn_orPanic {α : Type} (x : Option α) (h : S .Panic) : ErrIn S (orPanic x) := by
  intro e he
  cases x with
  | none => cases he; exact h
  | some a => cases he
theorem errIn_orMerkle {α : Type} (x : Except Merkle.Error α) (h : S .Panic) (hm : ∀ e, S (.Merkle e)) : ErrIn S (orMerkle x) := by
  intro e he
  cases x with
  | ok a => cases he
  | error a => cases a <;> cases he <;> first | exact h | exact hm _

/-- a panic, or an error of the Merkle tree library -/
def General : VerifierError → Prop
  | .Panic => True
  | .Merkle _ => True
  | _ => False

/-- Which hashes were wrong: a Merkle proof that is read and well formed, and refused -/
def Refused (com : Merkle.Commitment Bytes) (indices : List Nat) (values : List (Nat × List F)) (c : VerifierChannel) : Prop :=
  ∃ n hs c' e, Merkle.proof_size com indices = .ok n ∧ c.readHashes env n = some (hs, c') ∧ e ≠ .Panic ∧
    Merkle.verify (nodeHash env.K) ⟨com, indices, hs⟩ (values.map fun v => (v.1, elementsHash env v.2)) = .error e

theorem bind_error_inv {α β ε : Type} {x : Except ε α} {f : α → Except ε β} {e : ε} (h : x.bind f = .error e) :
    x = .error e ∨ ∃ a, x = .ok a ∧ f a = .error e := by
  cases x with
  | error e' => cases h; exact Or.inl rfl
  | ok a => exact Or.inr ⟨a, rfl, h⟩
theorem map_error_inv {α β ε : Type} {x : Except ε α} {f : α → β} {e : ε} (h : x.map f = .error e) : x = .error e := by
  cases x with
  | error e' => cases h; rfl
  | ok a => cases h

theorem checkLeaves_error {err e : VerifierError} {com : Merkle.Commitment Bytes} {indices : List Nat} {values : List (Nat × List F)}
    {c : VerifierChannel} (h : checkLeaves env err com indices values c = .error e) :
    General e ∨ (e = err ∧ Refused env com indices values c) := by
  unfold checkLeaves at h
  rcases bind_error_inv h with h | ⟨n, hn, h⟩
  · exact Or.inl (errIn_orMerkle (S := General) _ trivial (fun _ => trivial) e h)
  rcases bind_error_inv h with h | ⟨r, hr, h⟩
  · exact Or.inl (errIn_orPanic (S := General) _ trivial e h)
  rcases bind_error_inv h with h | ⟨p, hp, h⟩
  · exact Or.inl (errIn_orMerkle (S := General) _ trivial (fun _ => trivial) e h)
  have h := map_error_inv h
  have hp := verify_orMerkle_inv hp
  unfold Merkle.from_hashes at hp
  obtain ⟨_, _, hp⟩ := bind_ok_inv hp
  obtain ⟨m, _, hp⟩ := bind_ok_inv hp
  split at hp
  · cases hp
    cases hv : Merkle.verify (nodeHash env.K) ⟨com, indices, r.1⟩ (values.map fun v => (v.1, elementsHash env v.2)) with
    | ok u => rw [hv] at h; cases h
    | error x =>
      rw [hv] at h
      by_cases hx : x = .Panic
      · subst hx; cases h; exact Or.inl trivial
      · refine Or.inr ⟨?_, n, r.1, r.2, x, verify_orMerkle_inv hn, verify_orPanic_inv hr, hx, hv⟩
        cases x <;> first | exact absurd rfl hx | (cases h; rfl)
  · cases hp

theorem readLeaves_error (width : Nat) (is : List Nat) (c : VerifierChannel) : ErrIn General (readLeaves env width is c) := by
  induction is generalizing c with
  | nil => exact errIn_ok _
  | cons i is ih => exact errIn_bind (errIn_orPanic _ trivial) fun r _ => errIn_map (ih r.2)

theorem readCommitments_error (layout : List Nat) (size : Nat) (c : VerifierChannel) : ErrIn General (readCommitments env layout size c) := by
  induction layout generalizing size c with
  | nil => exact errIn_ok _
  | cons k layout ih =>
    rw [readCommitments]
    split
    · exact errIn_error trivial
    · exact errIn_bind (errIn_orPanic _ trivial) fun _ _ => errIn_bind (errIn_orMerkle _ trivial fun _ => trivial) fun _ _ =>
        errIn_bind (errIn_orPanic _ trivial) fun _ _ => errIn_map (ih _ _)

/-- The proof of work of a proof is not a solution: of the challenge of difficulty `pow_bits` for the seed drawn, with the number read next -/
def WrongNonce (c : Constraints F) : Prop :=
  ∃ (ch ch' ch'' : VerifierChannel) (seed : Bytes) (challenge : _) (nonce : Nat), ch.getSeed = some (seed, ch') ∧
    with_difficulty env.K seed c.pow_bits = some challenge ∧ ch'.replayResponse env.K = some (nonce, ch'') ∧ challenge.verify env.K nonce = false

theorem readTranscript_error {c : Constraints F} {ch : VerifierChannel} {e : VerifierError} (h : readTranscript env c ch = .error e) :
    General e ∨ (e = .InvalidPoW ∧ WrongNonce env c) := by
  have gp : ∀ {α : Type} (x : Option α), ErrIn General (orPanic x) := fun x => errIn_orPanic x trivial
  have gm : ∀ {α : Type} (x : Except Merkle.Error α), ErrIn General (orMerkle x) := fun x => errIn_orMerkle x trivial fun _ => trivial
  unfold readTranscript at h
  dsimp only at h
  rcases bind_error_inv h with h | ⟨_, _, h⟩; · exact Or.inl (gp _ _ h)
  rcases bind_error_inv h with h | ⟨_, _, h⟩; · exact Or.inl (gm _ _ h)
  rcases bind_error_inv h with h | ⟨_, _, h⟩; · exact Or.inl (gp _ _ h)
  rcases bind_error_inv h with h | ⟨_, _, h⟩; · exact Or.inl (gp _ _ h)
  rcases bind_error_inv h with h | ⟨_, _, h⟩; · exact Or.inl (gm _ _ h)
  rcases bind_error_inv h with h | ⟨_, _, h⟩; · exact Or.inl (gp _ _ h)
  rcases bind_error_inv h with h | ⟨_, _, h⟩; · exact Or.inl (gp _ _ h)
  rcases bind_error_inv h with h | ⟨_, _, h⟩; · exact Or.inl (gp _ _ h)
  rcases bind_error_inv h with h | ⟨_, _, h⟩; · exact Or.inl (gp _ _ h)
  rcases bind_error_inv h with h | ⟨_, _, h⟩; · exact Or.inl (gp _ _ h)
  rcases bind_error_inv h with h | ⟨_, _, h⟩; · exact Or.inl (gp _ _ h)
  rcases bind_error_inv h with h | ⟨_, _, h⟩; · exact Or.inl (gp _ _ h)
  rcases bind_error_inv h with h | ⟨_, _, h⟩; · exact Or.inl (readCommitments_error env _ _ _ _ h)
  split at h
  · cases h; exact Or.inl trivial
  rcases bind_error_inv h with h | ⟨_, _, h⟩; · exact Or.inl (gp _ _ h)
  rcases bind_error_inv h with h | ⟨seed, hs, h⟩; · exact Or.inl (gp _ _ h)
  rcases bind_error_inv h with h | ⟨challenge, hc, h⟩; · exact Or.inl (gp _ _ h)
  rcases bind_error_inv h with h | ⟨response, hr, h⟩; · exact Or.inl (gp _ _ h)
  split at h
  next hf =>
    cases h
    exact Or.inr ⟨rfl, _, seed.2, response.2, seed.1, challenge, response.1, verify_orPanic_inv hs, verify_orPanic_inv hc, verify_orPanic_inv hr, hf⟩
  · exact Or.inl (gp _ _ (map_error_inv h))

/-- `binary_search` returns a position of what was searched for -/
def Found (search : List Nat → Nat → Option Nat) : Prop := ∀ l n z, search l n = some z → l[z]? = some n

theorem readCoset_error (known : Nat → Nat → Except VerifierError F) (previous : List Nat) (hs : S .Panic)
    (hk : ∀ n z, env.search previous n = some z → ErrIn S (known n z)) (ns : List Nat) (c : VerifierChannel) :
    ErrIn S (readCoset env known previous ns c) := by
  induction ns generalizing c with
  | nil => exact errIn_ok _
  | cons n ns ih =>
    rw [readCoset]
    split
    next z hz => exact errIn_bind (hk n z hz) fun _ _ => errIn_map (ih _)
    · exact errIn_bind (errIn_orPanic _ hs) fun _ _ => errIn_map (ih _)

theorem readCosets_error (known : Nat → Nat → Except VerifierError F) (previous : List Nat) (hs : S .Panic)
    (hk : ∀ n z, env.search previous n = some z → ErrIn S (known n z)) (size : Nat) (is : List Nat) (c : VerifierChannel) :
    ErrIn S (readCosets env known previous size is c) := by
  induction is generalizing c with
  | nil => exact errIn_ok _
  | cons i is ih => exact errIn_bind (readCoset_error env known previous hs hk _ _) fun _ _ => errIn_map (ih _)

theorem readCosets_keys (known : Nat → Nat → Except VerifierError F) (previous : List Nat) (size : Nat) (is : List Nat) (c : VerifierChannel)
    {r : List (Nat × List F) × VerifierChannel} (h : readCosets env known previous size is c = .ok r) : r.1.map Prod.fst = is := by
  induction is generalizing c r with
  | nil => cases h; rfl
  | cons i is ih =>
    rw [readCosets] at h
    obtain ⟨a, h1, h⟩ := bind_ok_inv h
    obtain ⟨b, h2, h⟩ := map_ok_inv h
    cases h
    rw [List.map_cons, ih _ h2]

theorem assoc_of_key (l : List (Nat × F)) (n : Nat) (h : n ∈ l.map Prod.fst) : ∃ x, assoc l n = some x := by
  obtain ⟨p, hp, rfl⟩ := List.mem_map.1 h
  unfold assoc
  cases hf : l.find? fun q => q.1 = p.1 with
  | none => simpa using List.find?_eq_none.1 hf p hp
  | some q => exact ⟨q.2, rfl⟩

theorem folds_keys {values : List (Nat × List F)} {g : Nat × List F → Option F} {folds : List (Nat × F)}
    (h : values.mapM (fun v => (g v).map fun x => (v.1, x)) = some folds) : folds.map Prod.fst = values.map Prod.fst := by
  have := mapM_some_inv _ _ _ h
  clear h
  induction this with
  | nil => rfl
  | cons h _ ih =>
    obtain ⟨x, _, rfl⟩ := Option.map_eq_some_iff.1 h
    rw [List.map_cons, List.map_cons, ih]

/-- an opening of one of the FRI layers is refused -/
def RefusedFri (layers : List (Merkle.Commitment Bytes × F)) : Prop :=
  ∃ com a indices values ch, (com, a) ∈ layers ∧ Refused env com indices values ch

theorem friLayers_error (hfound : Found env.search) (hs : S .Panic) (hm : ∀ e, S (.Merkle e)) (eval_x : List F)
    (layers : List (Nat × Merkle.Commitment Bytes × F)) (all : List (Merkle.Commitment Bytes × F)) (hall : ∀ l ∈ layers, l.2 ∈ all)
    (hfri : RefusedFri env all → S .InvalidFriCommitment) (known : Nat → Nat → Except VerifierError F) (previous : List Nat)
    (hk : ∀ n z, env.search previous n = some z → ErrIn S (known n z)) (folds : List (Nat × F)) (step len : Nat) (c : VerifierChannel) :
    ErrIn S (friLayers env eval_x layers known previous folds step len c) := by
  induction layers generalizing known previous folds step len c with
  | nil => exact errIn_ok _
  | cons l layers ih =>
    obtain ⟨num_folds, com, a⟩ := l
    rw [friLayers]
    refine errIn_bind (readCosets_error env known previous hs hk _ _ _) fun values hv => ?_
    refine errIn_bind (errIn_orPanic _ hs) fun folds' hf => ?_
    refine errIn_bind ?_ fun c' _ => ?_
    · intro e he
      rcases checkLeaves_error env he with h | ⟨rfl, h⟩
      · cases e <;> first | exact hs | exact hm _ | exact h.elim
      · exact hfri ⟨com, a, _, _, _, hall (num_folds, com, a) (by simp), h⟩
    · refine ih (fun l hl => hall l (by simp [hl])) _ _ ?_ _ _ _ _
      intro n z hz e he
      obtain ⟨x, hx⟩ := assoc_of_key folds' n (by
        rw [folds_keys (verify_orPanic_inv hf), readCosets_keys env known previous _ _ _ hv]
        exact List.mem_of_getElem? (hfound _ _ _ hz))
      unfold knownFold at he
      rw [hx] at he
      cases he

theorem checkLast_error {last : List F} {previous : List Nat} {folds : List (Nat × F)} {len : Nat} {e : VerifierError}
    (h : checkLast env last previous folds len = .error e) :
    e = .Panic ∨ (e = .RootUnavailable ∧ env.root len = none) ∨
      (e = .OodsCalculationFailure ∧ ∃ w key y p, env.root len = some w ∧ key ∈ previous ∧ assoc folds key = some y ∧
        Poly.new last = some p ∧ Poly.evaluate p (w ^ permute_index len key) ≠ y) := by
  unfold checkLast at h
  split at h
  next hr => cases h; exact Or.inr (Or.inl ⟨rfl, hr⟩)
  next w hr =>
    have key : ∀ (l : List Nat), (∀ k ∈ l, k ∈ previous) → (l.foldlM (init := ()) fun _ key =>
      (orPanic (assoc folds key)).bind fun calculated =>
      (orPanic (Poly.new last)).bind fun poly =>
      if Poly.evaluate poly (w ^ permute_index len key) = calculated then .ok () else .error .OodsCalculationFailure) = .error e →
      e = .Panic ∨ (e = .OodsCalculationFailure ∧ ∃ key y p, key ∈ previous ∧ assoc folds key = some y ∧
        Poly.new last = some p ∧ Poly.evaluate p (w ^ permute_index len key) ≠ y) := by
      intro l
      induction l with
      | nil => intro _ h; cases h
      | cons k l ih =>
        intro hl h
        rw [List.foldlM_cons] at h
        rcases bind_error_inv h with h | ⟨_, _, h⟩
        · rcases bind_error_inv h with h | ⟨y, hy, h⟩
          · exact Or.inl (errIn_orPanic (S := (· = .Panic)) _ rfl _ h)
          rcases bind_error_inv h with h | ⟨p, hp, h⟩
          · exact Or.inl (errIn_orPanic (S := (· = .Panic)) _ rfl _ h)
          split at h
          · cases h
          next hne =>
            cases h
            exact Or.inr ⟨rfl, k, y, p, hl k (by simp), verify_orPanic_inv hy, verify_orPanic_inv hp, hne⟩
        · exact ih (fun x hx => hl x (by simp [hx])) h
    rcases key previous (fun _ h => h) h with h | ⟨h, k, y, p, h1, h2, h3, h4⟩
    · exact Or.inl h
    · exact Or.inr (Or.inr ⟨h, w, k, y, p, hr, h1, h2, h3, h4⟩)

theorem knownFirst_error (c : Constraints F) (t : Transcript F) (eval_x : List F) (a b : List (Nat × List F)) (n z : Nat) :
    ErrIn (fun e => e = .Panic ∨ (e = .RootUnavailable ∧ env.root c.trace_nrows = none)) (knownFirst env c t eval_x a b n z) := by
  refine errIn_bind (errIn_orPanic _ (Or.inl rfl)) fun _ _ => errIn_bind (errIn_orPanic _ (Or.inl rfl)) fun _ _ =>
    errIn_bind (errIn_orPanic _ (Or.inl rfl)) fun _ _ => errIn_bind (errIn_orPanic _ (Or.inl rfl)) fun _ _ => ?_
  unfold out_of_domain_element
  dsimp only
  split
  next h => exact errIn_error (Or.inr ⟨rfl, h⟩)
  · exact errIn_bind (errIn_orPanic _ (Or.inl rfl)) fun _ _ => errIn_map (errIn_orPanic _ (Or.inl rfl))

/-- The openings of the two trees were accepted: the leaves and the channel after them -/
def LeavesOk (c : Constraints F) (t : Transcript F) (ch : VerifierChannel) (trace constraints : List (Nat × List F)) (ch' : VerifierChannel) : Prop :=
  ∃ c1 c2 c3, readLeaves env c.trace_ncolumns t.queries ch = .ok (trace, c1) ∧
    checkLeaves env .InvalidLDECommitment t.lde_commitment t.queries trace c1 = .ok c2 ∧
    readLeaves env t.degree t.queries c2 = .ok (constraints, c3) ∧
    checkLeaves env .InvalidConstraintCommitment t.constraint_commitment t.queries constraints c3 = .ok ch'

/-- The openings of all trees were accepted: the positions and values in the last layer, its size, and the channel after them -/
def LayersOk (c : Constraints F) (eval_x : List F) (t : Transcript F) (ch : VerifierChannel) (positions : List Nat) (folds : List (Nat × F)) (len : Nat)
    (ch' : VerifierChannel) : Prop :=
  ∃ trace constraints c4, LeavesOk env c t ch trace constraints c4 ∧
    friLayers env eval_x (c.fri_layout.zip t.layers) (knownFirst env c t eval_x trace constraints) t.queries [] 1 (c.trace_nrows * c.blowup) c4 =
      .ok ((positions, folds, len), ch')

/-- What an error says about the proof: which check failed, after which others were passed.  `t` is what was read before the queries, `ch` the
channel after that. -/
def Meaning (c : Constraints F) (eval_x : List F) (t : Transcript F) (ch : VerifierChannel) : VerifierError → Prop
  | .InvalidLDECommitment => ∃ values ch', readLeaves env c.trace_ncolumns t.queries ch = .ok (values, ch') ∧
      Refused env t.lde_commitment t.queries values ch'
  | .InvalidConstraintCommitment => ∃ trace c1 c2 values c3, readLeaves env c.trace_ncolumns t.queries ch = .ok (trace, c1) ∧
      checkLeaves env .InvalidLDECommitment t.lde_commitment t.queries trace c1 = .ok c2 ∧
      readLeaves env t.degree t.queries c2 = .ok (values, c3) ∧ Refused env t.constraint_commitment t.queries values c3
  | .InvalidFriCommitment => (∃ trace constraints c4, LeavesOk env c t ch trace constraints c4) ∧ RefusedFri env t.layers
  | .ProofTooLong => ∃ positions folds len ch', LayersOk env c eval_x t ch positions folds len ch' ∧ ch'.at_end = false
  | .OodsCalculationFailure => ∃ positions folds len ch', LayersOk env c eval_x t ch positions folds len ch' ∧ ch'.at_end = true ∧
      ∃ w key y p, env.root len = some w ∧ key ∈ positions ∧ assoc folds key = some y ∧ Poly.new t.last_layer = some p ∧
        Poly.evaluate p (w ^ permute_index len key) ≠ y
  | .OodsMismatch => ∃ positions folds len ch' v, LayersOk env c eval_x t ch positions folds len ch' ∧ ch'.at_end = true ∧
      checkLast env t.last_layer positions folds len = .ok () ∧
      oods_value_from_trace_values c t.constraint_coefficients t.trace_map t.oods_point = some v ∧
      v ≠ oods_value_from_constraint_values t.constraint_values t.oods_point
  | .RootUnavailable => ∃ n, env.root n = none
  | .InvalidPoW | .HashMapFailure | .FriCalculationFailure => False
  | .Merkle _ | .Panic => True

theorem meaning_general {c : Constraints F} {eval_x : List F} {t : Transcript F} {ch : VerifierChannel} {e : VerifierError} (h : General e) :
    Meaning env c eval_x t ch e := by
  cases e <;> first | trivial | exact h.elim

theorem checkTranscript_error (hfound : Found env.search) {c : Constraints F} {eval_x : List F} {t : Transcript F} {ch : VerifierChannel}
    {e : VerifierError} (h : checkTranscript env c eval_x t ch = .error e) : Meaning env c eval_x t ch e := by
  unfold checkTranscript at h
  rcases bind_error_inv h with h | ⟨⟨trace, c1⟩, h1, h⟩
  · exact meaning_general env (readLeaves_error env _ _ _ _ h)
  rcases bind_error_inv h with h | ⟨c2, h2, h⟩
  · rcases checkLeaves_error env h with h' | ⟨rfl, h'⟩
    · exact meaning_general env h'
    · exact ⟨trace, c1, h1, h'⟩
  rcases bind_error_inv h with h | ⟨⟨constraints, c3⟩, h3, h⟩
  · exact meaning_general env (readLeaves_error env _ _ _ _ h)
  rcases bind_error_inv h with h | ⟨c4, h4, h⟩
  · rcases checkLeaves_error env h with h' | ⟨rfl, h'⟩
    · exact meaning_general env h'
    · exact ⟨trace, c1, c2, constraints, c3, h1, h2, h3, h'⟩
  have leaves : LeavesOk env c t ch trace constraints c4 := ⟨c1, c2, c3, h1, h2, h3, h4⟩
  split at h
  · cases h; trivial
  rcases bind_error_inv h with h | ⟨⟨⟨positions, folds, len⟩, c5⟩, h5, h⟩
  · refine friLayers_error env (S := Meaning env c eval_x t ch) hfound trivial (fun _ => trivial) eval_x _ t.layers ?_ ?_ _ _ ?_ _ _ _ _ e h
    · intro l hl
      exact (List.of_mem_zip hl).2
    · intro hr
      exact ⟨⟨trace, constraints, c4, leaves⟩, hr⟩
    · intro n z _ e he
      rcases knownFirst_error env c t eval_x _ _ n z e he with rfl | ⟨rfl, hr⟩
      · trivial
      · exact ⟨_, hr⟩
  have layers : LayersOk env c eval_x t ch positions folds len c5 := ⟨trace, constraints, c4, leaves, h5⟩
  split at h
  next hend => cases h; exact ⟨positions, folds, len, c5, layers, hend⟩
  next hend =>
    have hend : c5.at_end = true := by simpa using hend
    rcases bind_error_inv h with h | ⟨_, h6, h⟩
    · rcases checkLast_error env h with rfl | ⟨rfl, hr⟩ | ⟨rfl, hl⟩
      · trivial
      · exact ⟨_, hr⟩
      · exact ⟨positions, folds, len, c5, layers, hend, hl⟩
    rcases bind_error_inv h with h | ⟨v, h7, h⟩
    · exact meaning_general env (errIn_orPanic (S := General) _ trivial _ h)
    split at h
    next hne => cases h; exact ⟨positions, folds, len, c5, v, layers, hend, h6, verify_orPanic_inv h7, hne⟩
    · cases h

/-- C81: an error returned by the verifier, other than an error of the Merkle tree library or a panic, names a check that was made and has failed,
and the checks before it were passed; `HashMapFailure` and `FriCalculationFailure` are never returned. -/
theorem C81_errors (hfound : Found env.search) (c : Constraints F) (proof : Bytes) (e : VerifierError) (h : Stark.verify env c proof = .error e) :
    General e ∨ (e = .InvalidPoW ∧ WrongNonce env c) ∨
    ∃ w t ch, env.root (c.trace_nrows * c.blowup) = some w ∧
      readTranscript env c (VerifierChannel.init env.K proof c.channel_seed) = .ok (t, ch) ∧
      Meaning env c ((List.range (c.trace_nrows * c.blowup)).map fun i => w ^ i) t ch e := by
  unfold Stark.verify at h
  dsimp only at h
  rcases bind_error_inv h with h | ⟨w, hw, h⟩
  · exact Or.inl (errIn_orPanic (S := General) _ trivial _ h)
  rcases bind_error_inv h with h | ⟨⟨t, ch⟩, ht, h⟩
  · rcases readTranscript_error env h with h | h
    · exact Or.inl h
    · exact Or.inr (Or.inl h)
  · exact Or.inr (Or.inr ⟨w, t, ch, verify_orPanic_inv hw, ht, checkTranscript_error env hfound h⟩)

/-- Non-vacuous: a proof with one byte changed: in the root of the trace, in the root of the constraints, in a claimed value, in the root of the
FRI layer; `Found` holds for the search used there. -/
example : Found Small.env.search ∧ (match prove Small.env Small.o Small.c Small.tr with
    | .error _ => false
    | .ok p => [0, 32, 64, 160].map (fun i => match Stark.verify Small.env Small.c (p.set i 7) with
        | .ok _ => none
        | .error e => some e) == [some .InvalidLDECommitment, some .InvalidConstraintCommitment, some .OodsCalculationFailure, some .InvalidFriCommitment]) = true := by
  refine ⟨fun l n z hz => ?_, by decide +kernel⟩
  obtain ⟨h3, h4, -⟩ := List.findIdx?_eq_some_iff_getElem.1 hz
  rw [List.getElem?_eq_getElem h3]
  simpa using h4

end VerifierErrors
end Props
end OpenZKP
