import Verif.Stark.Verifier

/-!
# The verifier reads its proof from left to right

`Local f`: what `f` does depends only on the bytes it consumes, and it panics when these are cut short.
-/

namespace OpenZKP
namespace Stark
open FFT U256

/-- the channel with another proof string -/
def VerifierChannel.withProof (c : VerifierChannel) (p : Bytes) : VerifierChannel := ⟨c.coin, p, c.proof_index⟩

def Local {α : Type} (f : VerifierChannel → Except VerifierError (α × VerifierChannel)) : Prop :=
  ∀ c a c', c.proof_index ≤ c.proof.length → f c = .ok (a, c') →
    c'.proof = c.proof ∧ c.proof_index ≤ c'.proof_index ∧ c'.proof_index ≤ c.proof.length ∧
    (∀ q, f (c.withProof (c.proof ++ q)) = .ok (a, c'.withProof (c.proof ++ q))) ∧
    (∀ n, c'.proof_index ≤ n → f (c.withProof (c.proof.take n)) = .ok (a, c'.withProof (c.proof.take n))) ∧
    (∀ n, c.proof_index ≤ n → n < c'.proof_index → f (c.withProof (c.proof.take n)) = .error .Panic)

theorem Local.bind {α β : Type} {f : VerifierChannel → Except VerifierError (α × VerifierChannel)}
    {g : α → VerifierChannel → Except VerifierError (β × VerifierChannel)} (hf : Local f) (hg : ∀ a, Local (g a)) :
    Local fun c => (f c).bind fun r => g r.1 r.2 := by
  intro c b c'' hc h
  dsimp only at h
  cases hfc : f c with
  | error e => rw [hfc] at h; simp [Except.bind] at h
  | ok r =>
    obtain ⟨a, c'⟩ := r
    rw [hfc] at h
    replace h : g a c' = .ok (b, c'') := h
    obtain ⟨h1, h2, h3, h4, h5, h6⟩ := hf c a c' hc hfc
    obtain ⟨k1, k2, k3, k4, k5, k6⟩ := hg a c' b c'' (by rw [h1]; exact h3) h
    rw [h1] at k1 k3 k4 k5 k6
    refine ⟨k1, by omega, k3, fun q => ?_, fun n hn => ?_, fun n hn hn' => ?_⟩
    · dsimp only; rw [h4]; exact k4 q
    · dsimp only; rw [h5 n (by omega)]; exact k5 n hn
    · dsimp only
      by_cases hlt : n < c'.proof_index
      · rw [h6 n hn hlt]; rfl
      · rw [h5 n (by omega)]; exact k6 n (by omega) hn'

theorem Local.pure {α : Type} (a : α) : Local fun c => Except.ok (a, c) := by
  intro c b c' hc h
  cases h
  exact ⟨rfl, le_refl _, hc, fun _ => rfl, fun _ _ => rfl, fun n h h' => by omega⟩

theorem Local.const {α β : Type} (e : Except VerifierError α) {g : α → VerifierChannel → Except VerifierError (β × VerifierChannel)}
    (hg : ∀ a, e = .ok a → Local (g a)) : Local fun c => e.bind fun a => g a c := by
  cases e with
  | error e => intro c a c' _ h; simp [Except.bind] at h
  | ok a => exact hg a rfl

theorem Local.error {α : Type} (e : VerifierError) : Local (α := α) fun _ => Except.error e := by
  intro c a c' _ h; cases h

theorem Local.map {α β : Type} {f : VerifierChannel → Except VerifierError (α × VerifierChannel)} (hf : Local f) (g : α → β) :
    Local fun c => (f c).map fun r => (g r.1, r.2) := by
  have h : (fun c => (f c).map fun r => (g r.1, r.2)) = fun c => (f c).bind fun r => (fun a c => Except.ok (g a, c)) r.1 r.2 := by
    funext c; cases f c <;> rfl
  rw [h]
  exact hf.bind fun a => Local.pure (g a)

/-- the form of the rules that unifies with the code -/
theorem Local.bind' {α β : Type} {f : VerifierChannel → Except VerifierError (α × VerifierChannel)}
    {G : α × VerifierChannel → Except VerifierError (β × VerifierChannel)} (hf : Local f) (hg : ∀ a, Local fun c => G (a, c)) :
    Local fun c => (f c).bind G := Local.bind (g := fun a c => G (a, c)) hf hg

theorem Local.map' {α β : Type} {f : VerifierChannel → Except VerifierError (α × VerifierChannel)}
    {G : α × VerifierChannel → β × VerifierChannel} {g : α → β} (hf : Local f) (hg : ∀ a c, G (a, c) = (g a, c)) :
    Local fun c => (f c).map G := by
  have e : G = fun r => (g r.1, r.2) := funext fun r => hg r.1 r.2
  rw [e]; exact hf.map g

theorem Local.const' {α β : Type} {e : Except VerifierError α} {G : VerifierChannel → α → Except VerifierError (β × VerifierChannel)}
    (hg : ∀ a, e = .ok a → Local fun c => G c a) : Local fun c => e.bind (G c) := Local.const e (g := fun a c => G c a) hg

theorem Local.ite {α : Type} {p : Prop} {inst : VerifierChannel → Decidable p} {f g : VerifierChannel → Except VerifierError (α × VerifierChannel)} (hf : p → Local f)
    (hg : ¬p → Local g) : Local fun c => @ite _ p (inst c) (f c) (g c) := by
  by_cases h : p
  · simp only [if_pos h]; exact hf h
  · simp only [if_neg h]; exact hg h

macro "lbind" h:term : tactic => `(tactic| (refine Local.bind' $h fun _ => ?_; dsimp only))
macro "lconst" : tactic => `(tactic| refine Local.const' fun _ _ => ?_)
macro "lmap" h:term : tactic => `(tactic| exact Local.map' $h fun _ _ => rfl)

/-- drawing from the coin -/
theorem Local.draw {α : Type} (d : PublicCoin → Option (α × PublicCoin)) :
    Local fun c => orPanic ((d c.coin).map fun r => (r.1, { c with coin := r.2 })) := by
  intro c a c' hc h
  dsimp only at h
  cases hd : d c.coin with
  | none => rw [hd] at h; simp [orPanic] at h
  | some r =>
    rw [hd] at h
    simp only [Option.map_some, orPanic, Except.ok.injEq, Prod.mk.injEq] at h
    obtain ⟨rfl, rfl⟩ := h
    refine ⟨rfl, le_refl _, hc, fun q => ?_, fun n _ => ?_, fun n h h' => ?_⟩
    · simp [VerifierChannel.withProof, hd, orPanic]
    · simp [VerifierChannel.withProof, hd, orPanic]
    · simp only at h'; omega

/-- reading bytes -/
theorem Local.read (K : Keccak) (n : Nat) : Local fun c => orPanic (c.read K n) := by
  intro c a c' hc h
  dsimp only at h
  by_cases hn : c.proof_index + n ≤ c.proof.length
  · simp only [VerifierChannel.read, if_pos hn, orPanic, Except.ok.injEq, Prod.mk.injEq] at h
    obtain ⟨rfl, rfl⟩ := h
    refine ⟨rfl, Nat.le_add_right _ _, hn, fun q => ?_, fun m hm => ?_, fun m hm hm' => ?_⟩
    · have e : ((c.proof ++ q).drop c.proof_index).take n = (c.proof.drop c.proof_index).take n := by
        rw [List.drop_append_of_le_length hc, List.take_append_of_le_length (by rw [List.length_drop]; omega)]
      have hq : c.proof_index + n ≤ (c.proof ++ q).length := by rw [List.length_append]; omega
      simp only [VerifierChannel.read, VerifierChannel.withProof, if_pos hq, orPanic, e]
    · have hm : c.proof_index + n ≤ m := hm
      have e : ((c.proof.take m).drop c.proof_index).take n = (c.proof.drop c.proof_index).take n := by
        rw [List.drop_take, List.take_take, min_eq_left (by omega)]
      have hq : c.proof_index + n ≤ (c.proof.take m).length := by rw [List.length_take]; omega
      simp only [VerifierChannel.read, VerifierChannel.withProof, if_pos hq, orPanic, e]
    · have hm' : m < c.proof_index + n := hm'
      have hq : ¬c.proof_index + n ≤ (c.proof.take m).length := by rw [List.length_take]; omega
      show orPanic (if c.proof_index + n ≤ (c.proof.take m).length then _ else none) = _
      rw [if_neg hq]; rfl
  · rw [VerifierChannel.read, if_neg hn] at h; simp [orPanic] at h

/-- an optional function of what was read -/
theorem Local.optMap {α β : Type} {f : VerifierChannel → Option (α × VerifierChannel)} (hf : Local fun c => orPanic (f c)) (g : α → Option β) :
    Local fun c => orPanic ((f c).bind fun r => (g r.1).map fun x => (x, r.2)) := by
  have h : (fun c => orPanic ((f c).bind fun r => (g r.1).map fun x => (x, r.2))) =
      fun c => (orPanic (f c)).bind fun r => (orPanic (g r.1)).bind fun x => Except.ok (x, r.2) := by
    funext c
    cases f c with
    | none => rfl
    | some r => cases hg : g r.1 <;> simp [orPanic, Except.bind, hg]
  rw [h]
  lbind hf; lconst; exact Local.pure _

theorem Local.optMap' {α β : Type} {f : VerifierChannel → Option (α × VerifierChannel)} (hf : Local fun c => orPanic (f c)) (g : α → β) :
    Local fun c => orPanic ((f c).map fun r => (g r.1, r.2)) := by
  have h := hf.optMap fun a => some (g a)
  have e : (fun c => orPanic ((f c).map fun r => (g r.1, r.2))) = fun c => orPanic ((f c).bind fun r => ((fun a => some (g a)) r.1).map fun x => (x, r.2)) := by
    funext c; cases f c <;> rfl
  rw [e]; exact h

theorem Local.many {α : Type} {f : VerifierChannel → Option (α × VerifierChannel)} (hf : Local fun c => orPanic (f c)) :
    ∀ n, Local fun c => orPanic (VerifierChannel.replayMany f n c)
  | 0 => Local.pure []
  | n + 1 => by
    have h : (fun c => orPanic (VerifierChannel.replayMany f (n + 1) c)) =
        fun c => (orPanic (f c)).bind fun r => (orPanic (VerifierChannel.replayMany f n r.2)).map fun rs => (r.1 :: rs.1, rs.2) := by
      funext c
      rw [VerifierChannel.replayMany]
      cases f c with
      | none => rfl
      | some r => cases h : VerifierChannel.replayMany f n r.2 <;> simp [orPanic, Except.bind, Except.map, h]
    rw [h]
    lbind hf; lmap (Local.many hf n)

section
variable {F : Type} [Field F] [DecidableEq F] (env : Env F)

theorem local_getField : Local fun c => orPanic (c.getField env) := Local.draw (fun coin => (coin.randomField env.K).map fun r => (env.codec.val r.1, r.2)) |> fun h => by
  have e : (fun c : VerifierChannel => orPanic (c.getField env)) =
      fun c => orPanic (((fun coin : PublicCoin => (coin.randomField env.K).map fun r => (env.codec.val r.1, r.2)) c.coin).map fun r => (r.1, { c with coin := r.2 })) := by
    funext c; simp only [VerifierChannel.getField, Option.map_map]; rfl
  rw [e]; exact h

theorem local_getFields (n : Nat) : Local fun c => orPanic (c.getFields env n) := by
  have h := Local.draw (fun coin => (coin.randomFields env.K n).map fun r => (r.1.map env.codec.val, r.2))
  have e : (fun c : VerifierChannel => orPanic (c.getFields env n)) =
      fun c => orPanic (((fun coin : PublicCoin => (coin.randomFields env.K n).map fun r => (r.1.map env.codec.val, r.2)) c.coin).map fun r => (r.1, { c with coin := r.2 })) := by
    funext c; simp only [VerifierChannel.getFields, Option.map_map]; rfl
  rw [e]; exact h

theorem local_replayHash : Local fun c => orPanic (c.replayHash env.K) := Local.read env.K 32

theorem local_readField : Local fun c => orPanic (c.readField env) :=
  (((Local.read env.K 32).optMap from_bytes_be).optMap (VerifierChannel.fromMontgomery true)).optMap' env.codec.val

theorem local_readFields (n : Nat) : Local fun c => orPanic (c.readFields env n) := Local.many (local_readField env) n

theorem local_readLayer (n : Nat) : Local fun c => orPanic (c.readLayer env n) :=
  ((Local.read env.K (32 * n)).optMap fun b => (VerifierChannel.chunks32 n b).mapM fun b => (from_bytes_be b).bind (VerifierChannel.fromMontgomery true)).optMap' fun l => l.map env.codec.val

theorem local_readHashes (n : Nat) : Local fun c => orPanic (c.readHashes env n) := Local.many (local_replayHash env) n

theorem local_readLeaves (width : Nat) : ∀ is, Local (readLeaves env width is)
  | [] => Local.pure []
  | i :: is => by
    show Local fun c => (orPanic (c.readLayer env width)).bind fun r => (readLeaves env width is r.2).map fun rs => ((i, r.1) :: rs.1, rs.2)
    lbind (local_readLayer env width); lmap (local_readLeaves width is)

theorem local_checkLeaves (err : VerifierError) (commitment : Merkle.Commitment Bytes) (indices : List Nat) (values : List (Nat × List F)) :
    Local fun c => (checkLeaves env err commitment indices values c).map fun c => ((), c) := by
  have e : (fun c => (checkLeaves env err commitment indices values c).map fun c => ((), c)) = fun c : VerifierChannel =>
      (orMerkle (Merkle.proof_size commitment indices)).bind fun n =>
      (orPanic (c.readHashes env n)).bind fun h =>
      (orMerkle (Merkle.from_hashes commitment indices h.1)).bind fun proof =>
      (orElse err (Merkle.verify (nodeHash env.K) proof (values.map fun v => (v.1, elementsHash env v.2)))).bind fun _ => Except.ok ((), h.2) := by
    funext c
    unfold checkLeaves
    cases orMerkle (Merkle.proof_size commitment indices) with
    | error => rfl
    | ok n =>
      cases h : orPanic (c.readHashes env n) with
      | error => simp only [Except.bind, h]; rfl
      | ok r =>
        cases h2 : orMerkle (Merkle.from_hashes commitment indices r.1) with
        | error => simp only [Except.bind, h, h2]; rfl
        | ok p =>
          simp only [Except.bind, h, h2]
          cases orElse err (Merkle.verify (nodeHash env.K) p (values.map fun v => (v.1, elementsHash env v.2))) <;> rfl
  rw [e]
  lconst; lbind (local_readHashes env _); lconst; lconst; exact Local.pure ()

theorem local_readCommitments : ∀ layout size, Local (readCommitments env layout size)
  | [], size => Local.pure ([], size)
  | n :: layout, size => by
    by_cases h : 64 ≤ n
    · have e : readCommitments env (n :: layout) size = fun _ => .error .Panic := by funext c; rw [readCommitments, if_pos h]
      rw [e]; exact Local.error _
    · have e : readCommitments env (n :: layout) size = fun c =>
          (orPanic (c.replayHash env.K)).bind fun h =>
          (orMerkle (Merkle.from_size_hash (size / 2 ^ n) h.1)).bind fun commitment =>
          (orPanic (h.2.getField env)).bind fun p =>
          (readCommitments env layout (size / 2 ^ n) p.2).map fun r => (((commitment, p.1) :: r.1.1, r.1.2), r.2) := by
        funext c; rw [readCommitments, if_neg h]
      rw [e]
      lbind (local_replayHash env); lconst; lbind (local_getField env)
      exact Local.map' (g := fun r => ((_, _) :: r.1, r.2)) (local_readCommitments layout _) fun _ _ => rfl

theorem local_readCoset (known : Nat → Nat → Except VerifierError F) (previous : List Nat) : ∀ ns, Local (readCoset env known previous ns)
  | [] => Local.pure []
  | n :: ns => by
    cases h : env.search previous n with
    | some z =>
      have e : readCoset env known previous (n :: ns) = fun c => (known n z).bind fun v => (readCoset env known previous ns c).map fun r => (v :: r.1, r.2) := by
        funext c; rw [readCoset, h]
      rw [e]
      lconst; lmap (local_readCoset known previous ns)
    | none =>
      have e : readCoset env known previous (n :: ns) = fun c => (orPanic (c.readField env)).bind fun v => (readCoset env known previous ns v.2).map fun r => (v.1 :: r.1, r.2) := by
        funext c; rw [readCoset, h]
      rw [e]
      lbind (local_readField env); lmap (local_readCoset known previous ns)

theorem local_readCosets (known : Nat → Nat → Except VerifierError F) (previous : List Nat) (size : Nat) : ∀ is, Local (readCosets env known previous size is)
  | [] => Local.pure []
  | i :: is => by
    show Local fun c => (readCoset env known previous _ c).bind fun coset => (readCosets env known previous size is coset.2).map fun rs => ((i, coset.1) :: rs.1, rs.2)
    lbind (local_readCoset env known previous _); lmap (local_readCosets known previous size is)

theorem local_friLayers (eval_x : List F) : ∀ layers known previous folds step len, Local (friLayers env eval_x layers known previous folds step len)
  | [], _, previous, folds, _, len => Local.pure (previous, folds, len)
  | (num_folds, commitment, eval_point) :: layers, known, previous, folds, step, len => by
    have e : friLayers env eval_x ((num_folds, commitment, eval_point) :: layers) known previous folds step len = fun c =>
        (readCosets env known previous (2 ^ num_folds) (Merkle.dedupBy id (previous.map (· / 2 ^ num_folds))) c).bind fun values =>
        (orPanic (values.1.mapM fun v : Nat × List F => (fri_fold v.2 eval_point step (2 ^ num_folds / 2 * v.1) len eval_x).map fun x => (v.1, x))).bind fun folds =>
        ((checkLeaves env .InvalidFriCommitment commitment (Merkle.dedupBy id (previous.map (· / 2 ^ num_folds))) values.1 values.2).map fun c => ((), c)).bind fun u =>
        friLayers env eval_x layers (knownFold folds) (Merkle.dedupBy id (previous.map (· / 2 ^ num_folds))) folds (step * 2 ^ num_folds) (len / 2 ^ num_folds) u.2 := by
      funext c
      rw [friLayers]
      cases hr : readCosets env known previous (2 ^ num_folds) (Merkle.dedupBy id (previous.map (· / 2 ^ num_folds))) c with
      | error => rfl
      | ok r =>
        simp only [Except.bind]
        cases orPanic (r.1.mapM fun v : Nat × List F => (fri_fold v.2 eval_point step (2 ^ num_folds / 2 * v.1) len eval_x).map fun x => (v.1, x)) with
        | error => rfl
        | ok f =>
          dsimp only
          cases checkLeaves env .InvalidFriCommitment commitment (Merkle.dedupBy id (previous.map (· / 2 ^ num_folds))) r.1 r.2 <;> rfl
    rw [e]
    lbind (local_readCosets env known previous _ _); lconst; lbind (local_checkLeaves env _ _ _ _)
    exact local_friLayers eval_x layers _ _ _ _ _

theorem local_getIndices (num bits : Nat) : Local fun c => orPanic (c.get_indices env.K true num bits) := by
  have h := Local.draw (fun coin => (indexLoop env.K verifierFour true num bits num [] coin).map fun r => (sortTruncate num r.1, r.2))
  have e : (fun c : VerifierChannel => orPanic (c.get_indices env.K true num bits)) =
      fun c => orPanic (((fun coin : PublicCoin => (indexLoop env.K verifierFour true num bits num [] coin).map fun r => (sortTruncate num r.1, r.2)) c.coin).map
        fun r => (r.1, { c with coin := r.2 })) := by
    funext c; simp only [VerifierChannel.get_indices, Option.map_map]; rfl
  rw [e]; exact h

theorem local_readTranscript (c : Constraints F) : Local (readTranscript env c) := by
  unfold readTranscript
  dsimp only
  lbind (local_replayHash env); lconst; lbind (local_getFields env _); lbind (local_replayHash env); lconst; lbind (local_getField env)
  lconst; lconst; lbind (local_readFields env _); lconst; lbind (local_readFields env _); lbind (local_getFields env _)
  lbind (local_readCommitments env _ _)
  refine Local.ite (fun _ => Local.error _) fun _ => ?_
  lbind (local_readLayer env _)
  lbind (Local.draw PublicCoin.randomSeed)
  lconst
  lbind ((Local.read env.K 8).optMap' fun b => (u64_from_be_bytes b).toNat)
  apply Local.ite
  · exact fun _ => Local.error _
  · intro _
    lmap (local_getIndices env _ _)

/-- the part of `checkTranscript` that reads -/
def readDecommitments (c : Constraints F) (eval_x : List F) (t : Transcript F) (ch : VerifierChannel) :
    Except VerifierError ((List Nat × List (Nat × F) × Nat) × VerifierChannel) :=
  (readLeaves env c.trace_ncolumns t.queries ch).bind fun lde_values =>
  ((checkLeaves env .InvalidLDECommitment t.lde_commitment t.queries lde_values.1 lde_values.2).map fun c => ((), c)).bind fun ch =>
  (readLeaves env t.degree t.queries ch.2).bind fun constraint_values =>
  ((checkLeaves env .InvalidConstraintCommitment t.constraint_commitment t.queries constraint_values.1 constraint_values.2).map fun c => ((), c)).bind fun ch =>
  if c.fri_layout = [] ∧ t.queries ≠ [] then .error .Panic
  else
    friLayers env eval_x (c.fri_layout.zip t.layers) (knownFirst env c t eval_x lde_values.1 constraint_values.1) t.queries [] 1
      (c.trace_nrows * c.blowup) ch.2

theorem local_readDecommitments (c : Constraints F) (eval_x : List F) (t : Transcript F) : Local (readDecommitments env c eval_x t) := by
  unfold readDecommitments
  lbind (local_readLeaves env _ _); lbind (local_checkLeaves env _ _ _ _)
  lbind (local_readLeaves env _ _); lbind (local_checkLeaves env _ _ _ _)
  exact Local.ite (fun _ => Local.error _) fun _ => local_friLayers env _ _ _ _ _ _ _

/-- what remains of `checkTranscript` -/
def finish (c : Constraints F) (t : Transcript F) (r : List Nat × List (Nat × F) × Nat) : Except VerifierError Unit :=
  (checkLast env t.last_layer r.1 r.2.1 r.2.2).bind fun _ =>
  (orPanic (oods_value_from_trace_values c t.constraint_coefficients t.trace_map t.oods_point)).bind fun value =>
  if value ≠ oods_value_from_constraint_values t.constraint_values t.oods_point then .error .OodsMismatch else .ok ()

theorem checkTranscript_eq (c : Constraints F) (eval_x : List F) (t : Transcript F) (ch : VerifierChannel) :
    checkTranscript env c eval_x t ch = (readDecommitments env c eval_x t ch).bind fun r =>
      if r.2.at_end = false then .error .ProofTooLong else finish env c t r.1 := by
  unfold checkTranscript readDecommitments
  cases readLeaves env c.trace_ncolumns t.queries ch with
  | error => rfl
  | ok lde =>
    simp only [Except.bind]
    cases checkLeaves env .InvalidLDECommitment t.lde_commitment t.queries lde.1 lde.2 with
    | error => rfl
    | ok ch =>
      simp only [Except.map]
      cases readLeaves env t.degree t.queries ch with
      | error => rfl
      | ok con =>
        simp only
        cases checkLeaves env .InvalidConstraintCommitment t.constraint_commitment t.queries con.1 con.2 with
        | error => rfl
        | ok ch =>
          simp only
          split
          · rfl
          · rfl

end

end Stark
end OpenZKP
