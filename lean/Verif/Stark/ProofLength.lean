import Verif.Stark.CompleteMain

/-!
Lemmas: how many bytes the verifier reads.
-/

namespace OpenZKP
namespace Stark
open FFT U256 Merkle Props

/-- the channel has advanced by `n` bytes -/
def Adv (c : VerifierChannel) (n : Nat) (c' : VerifierChannel) : Prop := c'.proof = c.proof ∧ c'.proof_index = c.proof_index + n

theorem Adv.trans {a b c : VerifierChannel} {m n : Nat} (h : Adv a m b) (h' : Adv b n c) : Adv a (m + n) c :=
  ⟨h'.1.trans h.1, by rw [h'.2, h.2]; omega⟩

theorem adv_read {K : Keccak} {c c' : VerifierChannel} {n : Nat} {a : Bytes} (h : c.read K n = some (a, c')) : Adv c n c' := by
  unfold VerifierChannel.read at h
  split at h
  · cases h; exact ⟨rfl, rfl⟩
  · cases h

theorem adv_many {α : Type} {f : VerifierChannel → Option (α × VerifierChannel)} {m : Nat} (hf : ∀ c a c', f c = some (a, c') → Adv c m c') :
    ∀ n c l c', VerifierChannel.replayMany f n c = some (l, c') → Adv c (m * n) c' := by
  intro n
  induction n with
  | zero => intro c l c' h; cases h; exact ⟨rfl, rfl⟩
  | succ n ih =>
    intro c l c' h
    rw [VerifierChannel.replayMany] at h
    obtain ⟨r, h1, h⟩ := Option.bind_eq_some_iff.1 h
    obtain ⟨s, h2, h⟩ := Option.map_eq_some_iff.1 h
    cases h
    have := (hf _ _ _ h1).trans (ih _ _ _ h2)
    rwa [show m * (n + 1) = m + m * n by ring]

section
variable {F : Type} [Field F] [DecidableEq F] (env : Env F)

theorem verify_orPanic_inv {α : Type} {x : Option α} {a : α} (h : orPanic x = .ok a) : x = some a := by
  cases x with
  | none => cases h
  | some b => cases h; rfl

theorem verify_orMerkle_inv {α : Type} {x : Except Merkle.Error α} {a : α} (h : orMerkle x = .ok a) : x = .ok a := by
  cases x with
  | error e => cases e <;> cases h
  | ok b => cases h; rfl

omit [Field F] [DecidableEq F] in
theorem adv_getField {c c' : VerifierChannel} {a : F} (h : c.getField env = some (a, c')) : Adv c 0 c' := by
  unfold VerifierChannel.getField at h
  obtain ⟨r, h1, h⟩ := Option.map_eq_some_iff.1 h
  cases h; exact ⟨rfl, rfl⟩

omit [Field F] [DecidableEq F] in
theorem adv_getFields {c c' : VerifierChannel} {n : Nat} {a : List F} (h : c.getFields env n = some (a, c')) : Adv c 0 c' := by
  unfold VerifierChannel.getFields at h
  obtain ⟨r, h1, h⟩ := Option.map_eq_some_iff.1 h
  cases h; exact ⟨rfl, rfl⟩

theorem adv_getSeed {c c' : VerifierChannel} {a : Bytes} (h : c.getSeed = some (a, c')) : Adv c 0 c' := by
  unfold VerifierChannel.getSeed at h
  obtain ⟨r, h1, h⟩ := Option.map_eq_some_iff.1 h
  cases h; exact ⟨rfl, rfl⟩

theorem adv_response {K : Keccak} {c c' : VerifierChannel} {a : Nat} (h : c.replayResponse K = some (a, c')) : Adv c 8 c' ∧ c'.coin.counter = 0 := by
  unfold VerifierChannel.replayResponse at h
  obtain ⟨⟨x, c1⟩, h1, h⟩ := Option.map_eq_some_iff.1 h
  cases h
  refine ⟨adv_read h1, ?_⟩
  unfold VerifierChannel.read at h1
  split at h1
  · cases h1; rfl
  · cases h1

omit [Field F] [DecidableEq F] in
theorem adv_readField {c c' : VerifierChannel} {a : F} (h : c.readField env = some (a, c')) : Adv c 32 c' := by
  unfold VerifierChannel.readField VerifierChannel.replayField VerifierChannel.replayU256 at h
  obtain ⟨⟨x, c1⟩, h1, h⟩ := Option.map_eq_some_iff.1 h
  obtain ⟨⟨y, c2⟩, h2, h1⟩ := Option.bind_eq_some_iff.1 h1
  obtain ⟨⟨u, c3⟩, h3, h2⟩ := Option.bind_eq_some_iff.1 h2
  obtain ⟨_, _, h1⟩ := Option.map_eq_some_iff.1 h1
  obtain ⟨_, _, h2⟩ := Option.map_eq_some_iff.1 h2
  cases h1; cases h2; cases h
  exact adv_read h3

omit [Field F] [DecidableEq F] in
theorem adv_readFields {c c' : VerifierChannel} {n : Nat} {a : List F} (h : c.readFields env n = some (a, c')) : Adv c (32 * n) c' :=
  adv_many (fun _ _ _ h => adv_readField env h) n c a c' h

theorem adv_readHashes {c c' : VerifierChannel} {n : Nat} {a : List Bytes} (h : c.readHashes env n = some (a, c')) : Adv c (32 * n) c' :=
  adv_many (fun _ _ _ h => adv_read h) n c a c' h

omit [Field F] [DecidableEq F] in
theorem adv_readLayer {c c' : VerifierChannel} {n : Nat} {a : List F} (h : c.readLayer env n = some (a, c')) : Adv c (32 * n) c' := by
  unfold VerifierChannel.readLayer VerifierChannel.replayLayer at h
  obtain ⟨⟨x, c1⟩, h1, h⟩ := Option.map_eq_some_iff.1 h
  obtain ⟨⟨y, c2⟩, h2, h1⟩ := Option.bind_eq_some_iff.1 h1
  obtain ⟨_, _, h1⟩ := Option.map_eq_some_iff.1 h1
  cases h1; cases h
  exact adv_read h2

omit [Field F] [DecidableEq F] in
theorem adv_readLeaves (width : Nat) : ∀ (is : List Nat) (c c' : VerifierChannel) (l : List (Nat × List F)), readLeaves env width is c = .ok (l, c') →
    Adv c (32 * (is.length * width)) c' := by
  intro is
  induction is with
  | nil => intro c c' l h; cases h; exact ⟨rfl, by simp⟩
  | cons i is ih =>
    intro c c' l h
    rw [readLeaves] at h
    obtain ⟨r, h1, h⟩ := bind_ok_inv h
    obtain ⟨s, h2, h⟩ := map_ok_inv h
    cases h
    have := (adv_readLayer env (verify_orPanic_inv h1)).trans (ih _ _ _ h2)
    rw [List.length_cons, show 32 * ((is.length + 1) * width) = 32 * width + 32 * (is.length * width) by ring]
    exact this

theorem proofSizeLoop_le : ∀ (is : List Nat) (size n : Nat), Merkle.proofSizeLoop size is = .ok n → n ≤ size := by
  intro is
  induction is with
  | nil => intro size n h; cases h; exact le_refl _
  | cons a is ih =>
    intro size n h
    cases is with
    | nil => cases h; exact le_refl _
    | cons b is =>
      rw [Merkle.proofSizeLoop] at h
      split at h
      · have := ih _ _ h
        omega
      · cases h

theorem proof_size_le {α : Type} (c : Commitment α) (indices : List Nat) (n : Nat) (h : proof_size c indices = .ok n) :
    n ≤ trailing_zeros c.size * indices.length := by
  unfold proof_size at h
  obtain ⟨is, h1, h2⟩ := bind_ok_inv h
  refine (proofSizeLoop_le _ _ _ h2).trans (Nat.mul_le_mul_left _ ?_)
  unfold sort_indices at h1
  obtain ⟨js, h3, rfl⟩ := map_ok_inv h1
  refine (dedupBy_sublist id _).length_le.trans ?_
  rw [List.length_insertionSort]
  clear * - h3
  induction indices generalizing js with
  | nil => cases h3; exact le_refl _
  | cons a l ih =>
    rw [List.mapM_cons] at h3
    cases hx : Index.from_size_offset c.size a with
    | error e => rw [hx] at h3; cases h3
    | ok x =>
      rw [hx] at h3
      cases hy : l.mapM fun i => Index.from_size_offset c.size i with
      | error e => rw [hy] at h3; cases h3
      | ok y =>
        rw [hy] at h3
        cases h3
        have := ih y hy
        simp only [List.length_cons]
        omega

theorem adv_checkLeaves {err : VerifierError} {com : Merkle.Commitment Bytes} {indices : List Nat} {values : List (Nat × List F)} {c c' : VerifierChannel}
    (h : checkLeaves env err com indices values c = .ok c') : ∃ m ≤ trailing_zeros com.size * indices.length, Adv c (32 * m) c' := by
  unfold checkLeaves at h
  obtain ⟨n, h1, h⟩ := bind_ok_inv h
  obtain ⟨r, h2, h⟩ := bind_ok_inv h
  obtain ⟨_, _, h⟩ := bind_ok_inv h
  obtain ⟨_, _, h⟩ := map_ok_inv h
  cases h
  exact ⟨n, proof_size_le _ _ _ (verify_orMerkle_inv h1), adv_readHashes env (verify_orPanic_inv h2)⟩

/-- the sizes of the layers' trees -/
inductive LayerSizes : List Nat → Nat → List (Merkle.Commitment Bytes × F) → Nat → Prop
  | nil (size : Nat) : LayerSizes [] size [] size
  | cons (n size : Nat) (layout : List Nat) (com : Merkle.Commitment Bytes) (x : F) (coms : List (Merkle.Commitment Bytes × F)) (last : Nat)
      (h : com.size = size / 2 ^ n) (hr : LayerSizes layout (size / 2 ^ n) coms last) : LayerSizes (n :: layout) size ((com, x) :: coms) last

omit [Field F] [DecidableEq F] in
theorem LayerSizes.last {layout : List Nat} {size last : Nat} {coms : List (Merkle.Commitment Bytes × F)} (h : LayerSizes layout size coms last) :
    last = size / 2 ^ layout.sum := by
  induction h with
  | nil size => simp
  | cons n size layout com x coms last h hr ih => rw [ih, List.sum_cons, pow_add, Nat.div_div_eq_div_mul]

omit [Field F] [DecidableEq F] in
theorem adv_readCommitments : ∀ (layout : List Nat) (size : Nat) (c c' : VerifierChannel) (coms : List (Merkle.Commitment Bytes × F)) (last : Nat),
    readCommitments env layout size c = .ok ((coms, last), c') → LayerSizes layout size coms last ∧ Adv c (32 * layout.length) c' := by
  intro layout
  induction layout with
  | nil => intro size c c' coms last h; cases h; exact ⟨.nil _, rfl, by simp⟩
  | cons n layout ih =>
    intro size c c' coms last h
    rw [readCommitments] at h
    split at h
    · cases h
    obtain ⟨r, h1, h⟩ := bind_ok_inv h
    obtain ⟨com, h2, h⟩ := bind_ok_inv h
    obtain ⟨p, h3, h⟩ := bind_ok_inv h
    obtain ⟨s, h4, h⟩ := map_ok_inv h
    cases h
    obtain ⟨i1, i2⟩ := ih _ _ _ _ _ h4
    refine ⟨.cons _ _ _ _ _ _ _ ?_ i1, ?_⟩
    · have h2 := verify_orMerkle_inv h2
      unfold from_size_hash at h2
      split at h2
      · cases h2; rfl
      · cases h2
    · have := (adv_read (verify_orPanic_inv h1)).trans ((adv_getField env (verify_orPanic_inv h3)).trans i2)
      rw [List.length_cons, show 32 * (layout.length + 1) = 32 + (0 + 32 * layout.length) by ring]
      exact this

omit [Field F] [DecidableEq F] in
theorem adv_readCoset (known : Nat → Nat → Except VerifierError F) (previous : List Nat) : ∀ (ns : List Nat) (c c' : VerifierChannel) (l : List F),
    readCoset env known previous ns c = .ok (l, c') → ∃ m ≤ ns.length, Adv c (32 * m) c' := by
  intro ns
  induction ns with
  | nil => intro c c' l h; cases h; exact ⟨0, le_refl _, rfl, rfl⟩
  | cons n ns ih =>
    intro c c' l h
    rw [readCoset] at h
    split at h
    · obtain ⟨_, _, h⟩ := bind_ok_inv h
      obtain ⟨s, h2, h⟩ := map_ok_inv h
      cases h
      obtain ⟨m, h3, h4⟩ := ih _ _ _ h2
      exact ⟨m, by rw [List.length_cons]; omega, h4⟩
    · obtain ⟨r, h1, h⟩ := bind_ok_inv h
      obtain ⟨s, h2, h⟩ := map_ok_inv h
      cases h
      obtain ⟨m, h3, h4⟩ := ih _ _ _ h2
      refine ⟨m + 1, by rw [List.length_cons]; omega, ?_⟩
      rw [show 32 * (m + 1) = 32 + 32 * m by ring]
      exact (adv_readField env (verify_orPanic_inv h1)).trans h4

omit [Field F] [DecidableEq F] in
theorem adv_readCosets (known : Nat → Nat → Except VerifierError F) (previous : List Nat) (size : Nat) :
    ∀ (is : List Nat) (c c' : VerifierChannel) (l : List (Nat × List F)), readCosets env known previous size is c = .ok (l, c') →
    ∃ m ≤ is.length * size, Adv c (32 * m) c' := by
  intro is
  induction is with
  | nil => intro c c' l h; cases h; exact ⟨0, Nat.zero_le _, rfl, rfl⟩
  | cons i is ih =>
    intro c c' l h
    rw [readCosets] at h
    obtain ⟨r, h1, h⟩ := bind_ok_inv h
    obtain ⟨s, h2, h⟩ := map_ok_inv h
    cases h
    obtain ⟨m, h3, h4⟩ := ih _ _ _ h2
    obtain ⟨m', h5, h6⟩ := adv_readCoset env known previous _ _ _ _ h1
    simp only [List.length_map, List.length_range] at h5
    refine ⟨m' + m, ?_, ?_⟩
    · rw [List.length_cons, Nat.add_mul, Nat.one_mul]; omega
    · rw [Nat.mul_add]; exact h6.trans h4

/-- at most so many words open the layers of a domain of the given size at `q` places -/
def friWords (q : Nat) : List Nat → Nat → Nat
  | [], _ => 0
  | n :: layout, size => q * (2 ^ n + Merkle.trailing_zeros (size / 2 ^ n)) + friWords q layout (size / 2 ^ n)

theorem adv_friLayers (eval_x : List F) (q : Nat) {layout : List Nat} {size last : Nat} {coms : List (Merkle.Commitment Bytes × F)}
    (hs : LayerSizes layout size coms last) :
    ∀ (known : Nat → Nat → Except VerifierError F) (previous : List Nat) (folds : List (Nat × F)) (step len : Nat) (c c' : VerifierChannel)
      (r : List Nat × List (Nat × F) × Nat), previous.length ≤ q →
      friLayers env eval_x (layout.zip coms) known previous folds step len c = .ok (r, c') → ∃ m ≤ friWords q layout size, Adv c (32 * m) c' := by
  induction hs with
  | nil size => intro known previous folds step len c c' r _ h; cases h; exact ⟨0, le_refl _, rfl, rfl⟩
  | cons n size layout com x coms last hcom _ ih =>
    intro known previous folds step len c c' r hp h
    rw [List.zip_cons_cons, friLayers] at h
    obtain ⟨v, h1, h⟩ := bind_ok_inv h
    obtain ⟨_, _, h⟩ := bind_ok_inv h
    obtain ⟨c1, h2, h⟩ := bind_ok_inv h
    have hl : (dedupBy id (previous.map (· / 2 ^ n))).length ≤ q := by
      refine (dedupBy_sublist id _).length_le.trans ?_
      rw [List.length_map]
      exact hp
    obtain ⟨m1, a1, a2⟩ := adv_readCosets env known previous _ _ _ _ _ h1
    obtain ⟨m2, a3, a4⟩ := adv_checkLeaves env h2
    obtain ⟨m3, a5, a6⟩ := ih _ _ _ _ _ _ _ _ hl h
    refine ⟨m1 + m2 + m3, ?_, ?_⟩
    · rw [friWords, Nat.mul_add]
      have b1 := a1.trans (Nat.mul_le_mul_right _ hl)
      have b2 := a3.trans (Nat.mul_le_mul_left _ hl)
      rw [hcom, mul_comm] at b2
      omega
    · rw [Nat.mul_add, Nat.mul_add]
      exact (a2.trans a4).trans a6

end

end Stark
end OpenZKP
