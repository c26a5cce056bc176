import Verif.Stark.AcceptSpec
import Verif.Stark.ProofLength

/-!
Lemmas: what the verifier reads are the next bytes of the proof.
-/

namespace OpenZKP
namespace Stark
namespace Accept
open FFT U256 Props Merkle

/-- the channel has consumed the bytes -/
def Took (c : VerifierChannel) (bs : Bytes) (c' : VerifierChannel) : Prop :=
  c.proof.drop c.proof_index = bs ++ c'.proof.drop c'.proof_index ∧ c'.proof = c.proof

theorem Took.refl (c : VerifierChannel) : Took c [] c := ⟨rfl, rfl⟩

theorem Took.trans {a b c : VerifierChannel} {x y : Bytes} (h : Took a x b) (h' : Took b y c) : Took a (x ++ y) c :=
  ⟨by rw [h.1, h'.1, List.append_assoc], h'.2.trans h.2⟩

theorem took_read {K : Keccak} {c c' : VerifierChannel} {n : Nat} {a : Bytes} (h : c.read K n = some (a, c')) :
    Took c a c' ∧ a.length = n ∧ c'.coin = c.coin.write K a := by
  unfold VerifierChannel.read at h
  split at h
  · next hn =>
    cases h
    refine ⟨⟨?_, rfl⟩, ?_, rfl⟩
    · dsimp only
      rw [← List.drop_drop, List.take_append_drop]
    · rw [List.length_take, List.length_drop]; omega
  · cases h

section
variable {F : Type} [Field F] [DecidableEq F] (env : Env F)

theorem fromMontgomery_inv {x y : U256} (h : VerifierChannel.fromMontgomery true x = some y) : y = x ∧ x.toNat < PF.BASE.modulus.toNat := by
  unfold VerifierChannel.fromMontgomery at h
  split at h
  · cases h
  · next hx =>
    cases h
    refine ⟨rfl, ?_⟩
    simp only [Bool.true_and, Bool.not_eq_true', Bool.not_eq_false] at hx
    exact (lt_iff _ _).1 hx

theorem word_inv {b : Bytes} {u : U256} (hb : b.length = 32) (h : from_bytes_be b = some u) : to_bytes_be u = b := by
  obtain ⟨a, h1, _, h3⟩ := C06_roundtrip_bytes b hb
  rw [h] at h1
  cases h1
  exact h3

omit [Field F] [DecidableEq F] in
theorem took_field {c c' : VerifierChannel} {a : F} (h : c.readField env = some (a, c')) :
    ∃ u : U256, u.toNat < PF.BASE.modulus.toNat ∧ a = env.codec.val u ∧ Took c (to_bytes_be u) c' ∧ c'.coin = c.coin.write env.K (to_bytes_be u) := by
  unfold VerifierChannel.readField VerifierChannel.replayField VerifierChannel.replayU256 at h
  obtain ⟨⟨x, c1⟩, h1, h⟩ := Option.map_eq_some_iff.1 h
  obtain ⟨⟨y, c2⟩, h2, h1⟩ := Option.bind_eq_some_iff.1 h1
  obtain ⟨⟨u, c3⟩, h3, h2⟩ := Option.bind_eq_some_iff.1 h2
  obtain ⟨v, h4, h1⟩ := Option.map_eq_some_iff.1 h1
  obtain ⟨t, h5, h2⟩ := Option.map_eq_some_iff.1 h2
  cases h1; cases h2; cases h
  obtain ⟨r1, r2, r3⟩ := took_read h3
  obtain ⟨rfl, hlt⟩ := fromMontgomery_inv h4
  dsimp only at h5 hlt ⊢
  have e := word_inv r2 h5
  exact ⟨_, hlt, rfl, by rw [e]; exact r1, by rw [e]; exact r3⟩

theorem words_cons (u : U256) (us : List U256) : words (u :: us) = to_bytes_be u ++ words us := by
  unfold words; rw [List.flatMap_cons]

omit [Field F] [DecidableEq F] in
theorem took_fields : ∀ (n : Nat) (c c' : VerifierChannel) (a : List F), c.readFields env n = some (a, c') →
    ∃ us : List U256, us.length = n ∧ Reduced us ∧ a = us.map env.codec.val ∧ Took c (words us) c' ∧
      c'.coin = (us.map to_bytes_be).foldl (PublicCoin.write env.K) c.coin := by
  intro n
  induction n with
  | zero => intro c c' a h; cases h; exact ⟨[], rfl, by intro u hu; simp at hu, rfl, Took.refl _, rfl⟩
  | succ n ih =>
    intro c c' a h
    unfold VerifierChannel.readFields at h
    rw [VerifierChannel.replayMany] at h
    obtain ⟨r, h1, h⟩ := Option.bind_eq_some_iff.1 h
    obtain ⟨s, h2, h⟩ := Option.map_eq_some_iff.1 h
    cases h
    obtain ⟨u, u1, u2, u3, u4⟩ := took_field env h1
    obtain ⟨us, v1, v2, v3, v4, v5⟩ := ih _ _ _ h2
    refine ⟨u :: us, by rw [List.length_cons, v1], ?_, by rw [List.map_cons, u2, v3], ?_, ?_⟩
    · intro x hx
      rcases List.mem_cons.1 hx with rfl | hx
      · exact u1
      · exact v2 x hx
    · rw [words_cons]; exact u3.trans v4
    · rw [List.map_cons, List.foldl_cons, ← u4, v5]

theorem took_hashes : ∀ (n : Nat) (c c' : VerifierChannel) (a : List Bytes), c.readHashes env n = some (a, c') →
    a.length = n ∧ (∀ h ∈ a, h.length = 32) ∧ Took c a.flatten c' := by
  intro n
  induction n with
  | zero => intro c c' a h; cases h; exact ⟨rfl, by intro u hu; simp at hu, Took.refl _⟩
  | succ n ih =>
    intro c c' a h
    unfold VerifierChannel.readHashes at h
    rw [VerifierChannel.replayMany] at h
    obtain ⟨r, h1, h⟩ := Option.bind_eq_some_iff.1 h
    obtain ⟨s, h2, h⟩ := Option.map_eq_some_iff.1 h
    cases h
    obtain ⟨u1, u2, u3⟩ := took_read h1
    obtain ⟨v1, v2, v3⟩ := ih _ _ _ h2
    refine ⟨by rw [List.length_cons, v1], ?_, ?_⟩
    · intro x hx
      rcases List.mem_cons.1 hx with rfl | hx
      · exact u2
      · exact v2 x hx
    · rw [List.flatten_cons]; exact u1.trans v3

theorem chunks_inv : ∀ (n : Nat) (b : Bytes) (us : List U256), b.length = 32 * n →
    (VerifierChannel.chunks32 n b).mapM (fun b => (from_bytes_be b).bind (VerifierChannel.fromMontgomery true)) = some us →
    us.length = n ∧ Reduced us ∧ words us = b := by
  intro n
  induction n with
  | zero =>
    intro b us hb h
    cases h
    refine ⟨rfl, by intro u hu; simp at hu, ?_⟩
    cases b with
    | nil => rfl
    | cons x b => simp at hb
  | succ n ih =>
    intro b us hb h
    rw [VerifierChannel.chunks32, List.mapM_cons] at h
    obtain ⟨u, h1, h⟩ := Option.bind_eq_some_iff.1 h
    obtain ⟨vs, h2, h⟩ := Option.bind_eq_some_iff.1 h
    cases h
    obtain ⟨v, h3, h4⟩ := Option.bind_eq_some_iff.1 h1
    obtain ⟨rfl, hlt⟩ := fromMontgomery_inv h4
    have e := word_inv (by rw [List.length_take]; omega) h3
    obtain ⟨v1, v2, v3⟩ := ih _ _ (by rw [List.length_drop]; omega) h2
    refine ⟨by rw [List.length_cons, v1], ?_, by rw [words_cons, e, v3, List.take_append_drop]⟩
    intro x hx
    rcases List.mem_cons.1 hx with rfl | hx
    · exact hlt
    · exact v2 x hx

omit [Field F] [DecidableEq F] in
theorem took_layer {c c' : VerifierChannel} {n : Nat} {a : List F} (h : c.readLayer env n = some (a, c')) :
    ∃ us : List U256, us.length = n ∧ Reduced us ∧ a = us.map env.codec.val ∧ Took c (words us) c' ∧ c'.coin = c.coin.write env.K (words us) := by
  unfold VerifierChannel.readLayer VerifierChannel.replayLayer at h
  obtain ⟨⟨x, c1⟩, h1, h⟩ := Option.map_eq_some_iff.1 h
  obtain ⟨⟨y, c2⟩, h2, h1⟩ := Option.bind_eq_some_iff.1 h1
  obtain ⟨us, h3, h1⟩ := Option.map_eq_some_iff.1 h1
  cases h1; cases h
  obtain ⟨r1, r2, r3⟩ := took_read h2
  dsimp only at h3 ⊢
  obtain ⟨v1, v2, v3⟩ := chunks_inv _ _ _ r2 h3
  exact ⟨_, v1, v2, rfl, by rw [v3]; exact r1, by rw [v3]; exact r3⟩

omit [Field F] [DecidableEq F] in
theorem took_leaves (width : Nat) : ∀ (is : List Nat) (c c' : VerifierChannel) (l : List (Nat × List F)), readLeaves env width is c = .ok (l, c') →
    ∃ rows : List (List U256), rows.length = is.length ∧ (∀ r ∈ rows, r.length = width ∧ Reduced r) ∧ l = is.zip (rows.map (·.map env.codec.val)) ∧
      Took c (rows.flatMap words) c' := by
  intro is
  induction is with
  | nil => intro c c' l h; cases h; exact ⟨[], rfl, by intro u hu; simp at hu, rfl, Took.refl _⟩
  | cons i is ih =>
    intro c c' l h
    rw [readLeaves] at h
    obtain ⟨r, h1, h⟩ := bind_ok_inv h
    obtain ⟨s, h2, h⟩ := map_ok_inv h
    cases h
    obtain ⟨us, u1, u2, u3, u4, _⟩ := took_layer env (verify_orPanic_inv h1)
    obtain ⟨rows, v1, v2, v3, v4⟩ := ih _ _ _ h2
    refine ⟨us :: rows, by rw [List.length_cons, List.length_cons, v1], ?_, by rw [List.map_cons, List.zip_cons_cons, ← u3, ← v3], ?_⟩
    · intro x hx
      rcases List.mem_cons.1 hx with rfl | hx
      · exact ⟨u1, u2⟩
      · exact v2 x hx
    · rw [List.flatMap_cons]; exact u4.trans v4

theorem verify_orElse_inv {α : Type} {err : VerifierError} {x : Except Merkle.Error α} {a : α} (h : orElse err x = .ok a) : x = .ok a := by
  cases x with
  | error e => cases e <;> cases h
  | ok b => cases h; rfl

theorem took_checkLeaves {err : VerifierError} {com : Merkle.Commitment Bytes} {indices : List Nat} {values : List (Nat × List F)} {c c' : VerifierChannel}
    (h : checkLeaves env err com indices values c = .ok c') :
    ∃ hs : List Bytes, (∀ h ∈ hs, h.length = 32) ∧ Took c hs.flatten c' ∧
      Merkle.verify (nodeHash env.K) ⟨com, indices, hs⟩ (values.map fun v => (v.1, elementsHash env v.2)) = .ok () ∧
      Merkle.proof_size com indices = .ok hs.length := by
  unfold checkLeaves at h
  obtain ⟨n, h1, h⟩ := bind_ok_inv h
  obtain ⟨r, h2, h⟩ := bind_ok_inv h
  obtain ⟨proof, h3, h⟩ := bind_ok_inv h
  obtain ⟨_, h4, h⟩ := map_ok_inv h
  cases h
  obtain ⟨r1, r2, r3⟩ := took_hashes env _ _ _ _ (verify_orPanic_inv h2)
  have h3 := verify_orMerkle_inv h3
  unfold from_hashes at h3
  obtain ⟨_, _, h3⟩ := bind_ok_inv h3
  obtain ⟨m, h5, h3⟩ := bind_ok_inv h3
  split at h3
  · next hl =>
    cases h3
    exact ⟨r.1, r2, r3, verify_orElse_inv h4, by rw [h5, hl]⟩
  · cases h3

/-! ## The coin -/

theorem coin_append (K : Keccak) (seed : Bytes) (blocks : List Bytes) (b : Bytes) (c : PublicCoin) (h : c.digest = (coin K seed blocks).digest) :
    c.write K b = coin K seed (blocks ++ [b]) := by
  unfold PublicCoin.write coin
  rw [List.foldl_append, h]
  rfl

theorem coin_writes (K : Keccak) (seed : Bytes) : ∀ (l blocks : List Bytes) (c : PublicCoin), c.digest = (coin K seed blocks).digest →
    (l.foldl (PublicCoin.write K) c).digest = (coin K seed (blocks ++ l)).digest ∧
    (l ≠ [] → l.foldl (PublicCoin.write K) c = coin K seed (blocks ++ l)) := by
  intro l
  induction l with
  | nil => intro blocks c h; rw [List.append_nil]; exact ⟨h, fun h => absurd rfl h⟩
  | cons b l ih =>
    intro blocks c h
    have e := coin_append K seed blocks b c h
    obtain ⟨i1, i2⟩ := ih (blocks ++ [b]) (c.write K b) (by rw [e])
    rw [List.append_assoc] at i1 i2
    refine ⟨i1, fun _ => ?_⟩
    cases l with
    | nil => exact e
    | cons a l => exact i2 (by simp)

theorem coin_field {K : Keccak} {c c' : PublicCoin} {u : U256} (h : c.randomField K = some (u, c')) : c'.digest = c.digest :=
  let ⟨_, _, h, _⟩ := C35_first_candidate K c c' u h
  h

theorem coin_fields {K : Keccak} : ∀ (n : Nat) {c c' : PublicCoin} {us : List U256}, c.randomFields K n = some (us, c') → c'.digest = c.digest := by
  intro n
  induction n with
  | zero => intro c c' us h; cases h; rfl
  | succ n ih =>
    intro c c' us h
    rw [PublicCoin.randomFields] at h
    obtain ⟨r, h1, h⟩ := Option.bind_eq_some_iff.1 h
    obtain ⟨s, h2, h⟩ := Option.map_eq_some_iff.1 h
    cases h
    rw [ih h2, coin_field h1]

omit [Field F] [DecidableEq F] in
theorem took_getField {c c' : VerifierChannel} {a : F} (h : c.getField env = some (a, c')) :
    Took c [] c' ∧ Draws env c.coin 1 [a] ∧ c'.coin.digest = c.coin.digest := by
  unfold VerifierChannel.getField at h
  obtain ⟨r, h1, h⟩ := Option.map_eq_some_iff.1 h
  cases h
  refine ⟨⟨rfl, rfl⟩, ⟨[r.1], r.2, ?_, rfl⟩, coin_field h1⟩
  rw [PublicCoin.randomFields, h1]
  rfl

omit [Field F] [DecidableEq F] in
theorem took_getFields {c c' : VerifierChannel} {n : Nat} {a : List F} (h : c.getFields env n = some (a, c')) :
    Took c [] c' ∧ Draws env c.coin n a ∧ c'.coin.digest = c.coin.digest := by
  unfold VerifierChannel.getFields at h
  obtain ⟨r, h1, h⟩ := Option.map_eq_some_iff.1 h
  cases h
  exact ⟨⟨rfl, rfl⟩, ⟨r.1, r.2, h1, rfl⟩, coin_fields n h1⟩

theorem took_getSeed {c c' : VerifierChannel} {a : Bytes} (h : c.getSeed = some (a, c')) :
    Took c [] c' ∧ a = c.coin.digest ∧ c'.coin.digest = c.coin.digest := by
  unfold VerifierChannel.getSeed PublicCoin.randomSeed PublicCoin.bump at h
  obtain ⟨r, h1, h⟩ := Option.map_eq_some_iff.1 h
  obtain ⟨s, h2, h1⟩ := Option.map_eq_some_iff.1 h1
  split at h2
  · cases h2; cases h1; cases h
    exact ⟨⟨rfl, rfl⟩, rfl, rfl⟩
  · cases h2

theorem be8_inv (b : Bytes) (hb : b.length = 8) : to_be_bytes 8 (u64_from_be_bytes b).toNat = b := by
  refine beValue_inj (by rw [to_be_bytes_length, hb]) ?_
  rw [to_be_bytes_value, u64_from_be_bytes_eq b hb, Nat.mod_eq_of_lt]
  rw [← u64_from_be_bytes_eq b hb]
  exact (u64_from_be_bytes b).toNat_lt

theorem took_response {K : Keccak} {c c' : VerifierChannel} {a : Nat} (h : c.replayResponse K = some (a, c')) :
    Took c (to_be_bytes 8 a) c' ∧ a < 2 ^ 64 ∧ c'.coin = c.coin.write K (to_be_bytes 8 a) := by
  unfold VerifierChannel.replayResponse at h
  obtain ⟨⟨x, c1⟩, h1, h⟩ := Option.map_eq_some_iff.1 h
  cases h
  obtain ⟨r1, r2, r3⟩ := took_read h1
  dsimp only
  rw [be8_inv x r2]
  exact ⟨r1, (u64_from_be_bytes x).toNat_lt, r3⟩

omit [Field F] [DecidableEq F] in
theorem took_commitments (seed : Bytes) : ∀ (layout : List Nat) (size : Nat) (blocks : List Bytes) (c c' : VerifierChannel) (coms : List (Merkle.Commitment Bytes × F)) (last : Nat),
    c.coin.digest = (coin env.K seed blocks).digest →
    readCommitments env layout size c = .ok ((coms, last), c') →
    coms.length = layout.length ∧ (∀ x ∈ coms, x.1.hash.length = 32) ∧ Took c (coms.flatMap (·.1.hash)) c' ∧
      c'.coin.digest = (coin env.K seed (blocks ++ coms.map (·.1.hash))).digest ∧
      ∀ i < coms.length, Draws env (coin env.K seed (blocks ++ (coms.take (i + 1)).map (·.1.hash))) 1 ((coms[i]?).map (·.2)).toList := by
  intro layout
  induction layout with
  | nil =>
    intro size blocks c c' coms last hc h
    cases h
    exact ⟨rfl, by intro x hx; simp at hx, Took.refl _, by simpa using hc, by intro i hi; simp at hi⟩
  | cons n layout ih =>
    intro size blocks c c' coms last hc h
    rw [readCommitments] at h
    split at h
    · cases h
    obtain ⟨r, h1, h⟩ := bind_ok_inv h
    obtain ⟨com, h2, h⟩ := bind_ok_inv h
    obtain ⟨p, h3, h⟩ := bind_ok_inv h
    obtain ⟨s, h4, h⟩ := map_ok_inv h
    cases h
    obtain ⟨r1, r2, r3⟩ := took_read (verify_orPanic_inv h1)
    obtain ⟨p1, p2, p3⟩ := took_getField env (verify_orPanic_inv h3)
    have hcom : com.hash = r.1 := by
      have h2 := verify_orMerkle_inv h2
      unfold from_size_hash at h2
      split at h2
      · cases h2; rfl
      · cases h2
    have e := coin_append env.K seed blocks r.1 c.coin hc
    rw [r3, e] at p2 p3
    obtain ⟨i1, i2, i3, i4, i5⟩ := ih _ (blocks ++ [r.1]) _ _ _ _ p3 h4
    refine ⟨by rw [List.length_cons, List.length_cons, i1], ?_, ?_, ?_, ?_⟩
    · intro x hx
      rcases List.mem_cons.1 hx with rfl | hx
      · dsimp only; rw [hcom]; exact r2
      · exact i2 x hx
    · rw [List.flatMap_cons]; dsimp only; rw [hcom]; exact r1.trans ((List.nil_append (s.1.1.flatMap (·.1.hash))) ▸ p1.trans i3)
    · rw [List.map_cons]; dsimp only; rw [hcom, i4, List.append_assoc]; rfl
    · intro i hi
      cases i with
      | zero => simpa [hcom] using p2
      | succ i =>
        have := i5 i (by simpa using hi)
        rw [List.append_assoc] at this
        rw [List.take_succ_cons, List.map_cons, List.getElem?_cons_succ]
        dsimp only
        rw [hcom]
        exact this

end
end Accept
end Stark
end OpenZKP
