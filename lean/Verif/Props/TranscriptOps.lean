import Verif.Props.Channel

/-!
# C66 for whole interactions: the transcript binds the challenges to what was said before

The challenges are hashes of a digest, and the digest is meant to stand for the whole history: the seed and all messages.
The hash function is arbitrary, so "stands for" means: two different histories with the same digest yield two different
inputs with the same hash (`Collision`).  The interactions are those of C34 (`Op`, `proverRun`).
-/

namespace OpenZKP
namespace Props
namespace Transcript
open U256 Stark

/-- Two different inputs with the same hash -/
def Collision (K : Keccak) : Prop := ∃ x y : Bytes, x ≠ y ∧ K.hash x = K.hash y

/-- The messages of an interaction, each a byte string: `hashes` and `u256s` send one message for each element -/
def messages : Op → List Bytes
  | .hash h => [h]
  | .hashes hs => hs
  | .u256 x => [to_bytes_be x]
  | .u256s xs => xs.map to_bytes_be
  | .field x => [to_bytes_be x]
  | .layer xs => [xs.flatMap to_bytes_be]
  | .response n => [to_be_bytes 8 n]
  | _ => []

variable (K : Keccak)

/-- The digest after a seed and messages -/
def chain (d : Bytes) (ms : List Bytes) : Bytes := ms.foldl (fun d m => K.hash (d ++ m)) d

theorem chain_len (d : Bytes) (ms : List Bytes) (h : d.length = 32) : (chain K d ms).length = 32 := by
  induction ms generalizing d with
  | nil => exact h
  | cons m ms ih => exact ih _ (K.len _)

theorem chain_concat (d : Bytes) (ms : List Bytes) (m : Bytes) : chain K d (ms ++ [m]) = K.hash (chain K d ms ++ m) := by
  simp [chain]

theorem hash_inj (hc : ¬ Collision K) {x y : Bytes} (h : K.hash x = K.hash y) : x = y := by
  by_contra hne
  exact hc ⟨x, y, hne, h⟩

theorem bump_digest {c c' : PublicCoin} (h : c.bump = some c') : c'.digest = c.digest := by
  unfold PublicCoin.bump at h
  split_ifs at h
  cases h
  rfl

theorem randomBytes_digest {c : PublicCoin} {r : Bytes × PublicCoin} (h : PublicCoin.randomBytes K c = some r) :
    r.2.digest = c.digest := by
  unfold PublicCoin.randomBytes at h
  obtain ⟨c', e, rfl⟩ := Option.map_eq_some_iff.1 h
  exact bump_digest e

theorem randomU256_digest {c : PublicCoin} {r : U256 × PublicCoin} (h : PublicCoin.randomU256 K c = some r) :
    r.2.digest = c.digest := by
  unfold PublicCoin.randomU256 at h
  obtain ⟨q, e, h⟩ := Option.bind_eq_some_iff.1 h
  obtain ⟨x, -, rfl⟩ := Option.map_eq_some_iff.1 h
  exact randomBytes_digest K e

theorem randomFieldLoop_digest (fuel : Nat) {c : PublicCoin} {r : U256 × PublicCoin}
    (h : PublicCoin.randomFieldLoop K fuel c = some r) : r.2.digest = c.digest := by
  induction fuel generalizing c with
  | zero => cases h
  | succ fuel ih =>
    rw [PublicCoin.randomFieldLoop] at h
    obtain ⟨q, e, h⟩ := Option.bind_eq_some_iff.1 h
    dsimp only at h
    split_ifs at h
    · cases h
      exact randomU256_digest K (r := q) e
    · rw [ih h, randomU256_digest K e]

theorem randomFields_digest (n : Nat) {c : PublicCoin} {r : List U256 × PublicCoin}
    (h : PublicCoin.randomFields K n c = some r) : r.2.digest = c.digest := by
  induction n generalizing c r with
  | zero => cases h; rfl
  | succ n ih =>
    rw [PublicCoin.randomFields] at h
    obtain ⟨q, e, h⟩ := Option.bind_eq_some_iff.1 h
    obtain ⟨rs, e2, rfl⟩ := Option.map_eq_some_iff.1 h
    rw [ih e2]
    exact randomFieldLoop_digest K _ e

theorem foldl_digest {α : Type} (w : ProverChannel → α → ProverChannel) (enc : α → Bytes)
    (h : ∀ c x, (w c x).coin.digest = K.hash (c.coin.digest ++ enc x)) (l : List α) (c : ProverChannel) :
    (l.foldl w c).coin.digest = chain K c.coin.digest (l.map enc) := by
  induction l generalizing c with
  | nil => rfl
  | cons x l ih => rw [List.foldl_cons, ih, h]; rfl

theorem op_digest (o : Op) {c c' : ProverChannel} {v : Value} (h : o.prover K c = some (v, c')) :
    c'.coin.digest = chain K c.coin.digest (messages o) := by
  have hd : ∀ {β : Type} (x : Option (β × PublicCoin)) (f : β → Value), (∀ r, x = some r → r.2.digest = c.coin.digest) →
      (x.map fun r => (f r.1, ({ c with coin := r.2 } : ProverChannel))) = some (v, c') → c'.coin.digest = c.coin.digest := by
    intro β x f hx e
    obtain ⟨r, e1, e2⟩ := Option.map_eq_some_iff.1 e
    simp only [Prod.mk.injEq] at e2
    rw [← e2.2]
    exact hx r e1
  cases o with
  | drawBytes => exact hd _ _ (fun r e => randomBytes_digest K e) h
  | drawU256 => exact hd _ _ (fun r e => randomU256_digest K e) h
  | drawField => exact hd _ _ (fun r e => randomFieldLoop_digest K _ e) h
  | drawFields n => exact hd _ _ (fun r e => randomFields_digest K n e) h
  | drawSeed =>
    refine hd _ _ (fun r e => ?_) h
    unfold PublicCoin.randomSeed at e
    obtain ⟨c1, e', rfl⟩ := Option.map_eq_some_iff.1 e
    exact bump_digest e'
  | hashes hs =>
    cases h
    have := foldl_digest K (ProverChannel.writeHash K) id (fun _ _ => rfl) hs c
    rwa [List.map_id] at this
  | u256s xs =>
    cases h
    exact foldl_digest K (ProverChannel.writeU256 K) to_bytes_be (fun _ _ => rfl) xs c
  | _ => cases h; rfl

theorem run_digest (ops : List Op) {c c' : ProverChannel} {vs : List Value} (h : proverRun K ops c = some (vs, c')) :
    c'.coin.digest = chain K c.coin.digest (ops.flatMap messages) := by
  induction ops generalizing c vs with
  | nil => cases h; rfl
  | cons o ops ih =>
    rw [proverRun] at h
    obtain ⟨⟨v, c1⟩, h1, h⟩ := Option.bind_eq_some_iff.1 h
    obtain ⟨⟨vs2, c2⟩, h2, h⟩ := Option.map_eq_some_iff.1 h
    simp only [Prod.mk.injEq] at h
    obtain ⟨-, rfl⟩ := h
    rw [ih h2, op_digest K o h1, List.flatMap_cons]
    unfold chain
    rw [List.foldl_append]

/-- Equal digests of two histories: either one continues the other's messages before its seed, or they are the same -/
theorem chain_inj (hc : ¬ Collision K) (s1 s2 : Bytes) (m1 m2 : List Bytes) (h : chain K (K.hash s1) m1 = chain K (K.hash s2) m2)
    (hn : m1.length = m2.length ∨ ∀ m ∈ m1 ++ m2, s1.length ≠ 32 + m.length ∧ s2.length ≠ 32 + m.length) :
    s1 = s2 ∧ m1 = m2 := by
  have split : ∀ {d d' m m' : Bytes}, d.length = 32 → d'.length = 32 → d ++ m = d' ++ m' → d = d' ∧ m = m' :=
    fun h1 h2 e => List.append_inj e (by rw [h1, h2])
  have len := fun s m => chain_len K (K.hash s) m (K.len s)
  induction m1 using List.reverseRecOn generalizing m2 with
  | nil =>
    cases m2 using List.reverseRecOn with
    | nil => exact ⟨hash_inj K hc h, rfl⟩
    | append_singleton m2 m _ =>
      rw [chain_concat] at h
      have e := congrArg List.length (hash_inj K hc h)
      rw [List.length_append, len] at e
      rcases hn with hn | hn
      · simp at hn
      · exact absurd e (hn m (by simp)).1
  | append_singleton m1 m ih =>
    cases m2 using List.reverseRecOn with
    | nil =>
      rw [chain_concat] at h
      have e := congrArg List.length (hash_inj K hc h)
      rw [List.length_append, len] at e
      rcases hn with hn | hn
      · simp at hn
      · exact absurd e.symm (hn m (by simp)).2
    | append_singleton m2 m' _ =>
      rw [chain_concat, chain_concat] at h
      obtain ⟨e1, e2⟩ := split (len _ _) (len _ _) (hash_inj K hc h)
      obtain ⟨e3, e4⟩ := ih m2 e1 (by
        rcases hn with hn | hn
        · exact Or.inl (by simpa using hn)
        · exact Or.inr fun x hx => hn x (by simp only [List.mem_append] at hx ⊢; tauto))
      rw [e4, e2]
      exact ⟨e3, rfl⟩

/-- C66: if two parties, after any interactions each, draw a challenge - the seed of the proof of work, or random
bytes - and get the same, then they had the same seed and have sent the same messages in the same order, unless the
hash function has a collision.  The numbers of messages are the same, or the seeds do not have the length of a
digest followed by a message; without one of these see `C66_lengths_matter`. -/
theorem C66_interactions (s1 s2 : Bytes) (ops1 ops2 : List Op) (v1 v2 : List Value) (c1 c2 c1' c2' : ProverChannel) (b : Bytes)
    (h1 : proverRun K ops1 (ProverChannel.init K s1) = some (v1, c1))
    (h2 : proverRun K ops2 (ProverChannel.init K s2) = some (v2, c2))
    (hn : (ops1.flatMap messages).length = (ops2.flatMap messages).length ∨
      ∀ m ∈ ops1.flatMap messages ++ ops2.flatMap messages, s1.length ≠ 32 + m.length ∧ s2.length ≠ 32 + m.length)
    (hb : (Op.drawBytes.prover K c1 = some (.bytes b, c1') ∧ Op.drawBytes.prover K c2 = some (.bytes b, c2')) ∨
      (Op.drawSeed.prover K c1 = some (.bytes b, c1') ∧ Op.drawSeed.prover K c2 = some (.bytes b, c2'))) :
    Collision K ∨ (s1 = s2 ∧ ops1.flatMap messages = ops2.flatMap messages) := by
  by_cases hc : Collision K
  · exact Or.inl hc
  refine Or.inr (chain_inj K hc s1 s2 _ _ ?_ hn)
  have e1 := run_digest K ops1 h1
  have e2 := run_digest K ops2 h2
  have l1 := chain_len K _ (ops1.flatMap messages) (K.len s1)
  have l2 := chain_len K _ (ops2.flatMap messages) (K.len s2)
  change c1.coin.digest = chain K (K.hash s1) _ at e1
  change c2.coin.digest = chain K (K.hash s2) _ at e2
  rw [← e1] at l1 ⊢
  rw [← e2] at l2 ⊢
  rcases hb with ⟨g1, g2⟩ | ⟨g1, g2⟩
  · obtain ⟨r1, g1, k1⟩ := Option.map_eq_some_iff.1 g1
    obtain ⟨r2, g2, k2⟩ := Option.map_eq_some_iff.1 g2
    unfold PublicCoin.randomBytes at g1 g2
    obtain ⟨q1, -, rfl⟩ := Option.map_eq_some_iff.1 g1
    obtain ⟨q2, -, rfl⟩ := Option.map_eq_some_iff.1 g2
    simp only [Prod.mk.injEq, Value.bytes.injEq] at k1 k2
    have := hash_inj K hc (k1.1.trans k2.1.symm)
    rw [List.append_assoc, List.append_assoc] at this
    exact (List.append_inj this (by rw [l1, l2])).1
  · obtain ⟨r1, g1, k1⟩ := Option.map_eq_some_iff.1 g1
    obtain ⟨r2, g2, k2⟩ := Option.map_eq_some_iff.1 g2
    unfold PublicCoin.randomSeed at g1 g2
    obtain ⟨q1, -, rfl⟩ := Option.map_eq_some_iff.1 g1
    obtain ⟨q2, -, rfl⟩ := Option.map_eq_some_iff.1 g2
    simp only [Prod.mk.injEq, Value.bytes.injEq] at k1 k2
    exact k1.1.trans k2.1.symm

theorem to_bytes_inj {x y : U256} (h : to_bytes_be x = to_bytes_be y) : x = y := by
  have e := from_to_bytes x
  rw [h, from_to_bytes y] at e
  exact (Option.some.inj e).symm

theorem flatMap_inj {xs ys : List U256} (hl : xs.length = ys.length) (h : xs.flatMap to_bytes_be = ys.flatMap to_bytes_be) : xs = ys := by
  induction xs generalizing ys with
  | nil => exact (List.length_eq_zero_iff.1 hl.symm).symm
  | cons x xs ih =>
    cases ys with
    | nil => simp at hl
    | cons y ys =>
      rw [List.flatMap_cons, List.flatMap_cons] at h
      obtain ⟨e1, e2⟩ := List.append_inj h (by rw [to_bytes_be_length, to_bytes_be_length])
      rw [to_bytes_inj e1, ih (by simpa using hl) e2]

theorem messages_length {o1 o2 : Op} (h : o1.request = o2.request) : (messages o1).length = (messages o2).length := by
  cases o1 <;> cases o2 <;> simp only [Op.request, reduceCtorEq, Request.hashes.injEq, Request.u256s.injEq] at h <;>
    simp only [messages, List.length_map, List.length_cons, List.length_nil] <;> first | exact h | skip

theorem messages_inj {o1 o2 : Op} (h : o1.request = o2.request) (w1 : o1.WellTyped) (w2 : o2.WellTyped) (e : messages o1 = messages o2) :
    o1 = o2 := by
  cases o1 <;> cases o2 <;> simp only [Op.request, reduceCtorEq] at h <;>
    simp only [messages, List.cons.injEq, and_true] at e
  case hash.hash => rw [e]
  case hashes.hashes => rw [e]
  case u256.u256 => rw [to_bytes_inj e]
  case u256s.u256s a b =>
    rw [show a = b from List.map_injective_iff.2 (fun x y h => to_bytes_inj h) e]
  case field.field => rw [to_bytes_inj e]
  case layer.layer a b =>
    simp only [Request.layer.injEq] at h
    rw [flatMap_inj h e]
  case response.response a b =>
    have g1 := u64_roundtrip a w1
    rw [e, u64_roundtrip b w2] at g1
    rw [g1]
  case drawFields.drawFields => simpa using h
  all_goals rfl

/-- C66: two parties that follow the same protocol - the same kinds and numbers of messages and draws in the same order,
as the verifier requests them - and get the same challenge have done exactly the same, or the hash function has a
collision. -/
theorem C66_protocol (s1 s2 : Bytes) (ops1 ops2 : List Op) (v1 v2 : List Value) (c1 c2 c1' c2' : ProverChannel) (b : Bytes)
    (w1 : ∀ o ∈ ops1, o.WellTyped) (w2 : ∀ o ∈ ops2, o.WellTyped)
    (hr : ops1.map Op.request = ops2.map Op.request)
    (h1 : proverRun K ops1 (ProverChannel.init K s1) = some (v1, c1))
    (h2 : proverRun K ops2 (ProverChannel.init K s2) = some (v2, c2))
    (hb : (Op.drawBytes.prover K c1 = some (.bytes b, c1') ∧ Op.drawBytes.prover K c2 = some (.bytes b, c2')) ∨
      (Op.drawSeed.prover K c1 = some (.bytes b, c1') ∧ Op.drawSeed.prover K c2 = some (.bytes b, c2'))) :
    Collision K ∨ (s1 = s2 ∧ ops1 = ops2) := by
  have len : ∀ (a b : List Op), a.map Op.request = b.map Op.request → (a.flatMap messages).length = (b.flatMap messages).length := by
    intro a
    induction a with
    | nil => intro b h; cases b with | nil => rfl | cons => simp at h
    | cons o a ih =>
      intro b h
      cases b with
      | nil => simp at h
      | cons o' b =>
        simp only [List.map_cons, List.cons.injEq] at h
        rw [List.flatMap_cons, List.flatMap_cons, List.length_append, List.length_append, ih b h.2, messages_length h.1]
  rcases C66_interactions K s1 s2 ops1 ops2 v1 v2 c1 c2 c1' c2' b h1 h2 (Or.inl (len _ _ hr)) hb with h | ⟨e1, e2⟩
  · exact Or.inl h
  refine Or.inr ⟨e1, ?_⟩
  clear h1 h2
  induction ops1 generalizing ops2 with
  | nil => cases ops2 with | nil => rfl | cons => simp at hr
  | cons o a ih =>
    cases ops2 with
    | nil => simp at hr
    | cons o' b =>
      simp only [List.map_cons, List.cons.injEq] at hr
      rw [List.flatMap_cons, List.flatMap_cons] at e2
      obtain ⟨g1, g2⟩ := List.append_inj e2 (messages_length hr.1)
      rw [messages_inj hr.1 (w1 o (by simp)) (w2 o' (by simp)) g1,
        ih b (fun o h => w1 o (by simp [h])) (fun o h => w2 o (by simp [h])) hr.2 g2]

theorem bump_counter {c c' : PublicCoin} (h : c.bump = some c') : c'.counter = c.counter + 1 ∧ c.counter + 1 < 2 ^ 64 := by
  unfold PublicCoin.bump at h
  split_ifs at h with hlt
  cases h
  exact ⟨rfl, hlt⟩

theorem randomBytes_counter {c : PublicCoin} {r : Bytes × PublicCoin} (h : PublicCoin.randomBytes K c = some r) :
    r.2.counter = c.counter + 1 ∧ c.counter + 1 < 2 ^ 64 ∧
      r.1 = K.hash (c.digest ++ List.replicate 24 0 ++ to_be_bytes 8 c.counter) := by
  unfold PublicCoin.randomBytes at h
  obtain ⟨c', e, rfl⟩ := Option.map_eq_some_iff.1 h
  exact ⟨(bump_counter e).1, (bump_counter e).2, rfl⟩

theorem randomU256_counter {c : PublicCoin} {r : U256 × PublicCoin} (h : PublicCoin.randomU256 K c = some r) :
    c.counter ≤ r.2.counter := by
  unfold PublicCoin.randomU256 at h
  obtain ⟨q, e, h⟩ := Option.bind_eq_some_iff.1 h
  obtain ⟨x, -, rfl⟩ := Option.map_eq_some_iff.1 h
  exact Nat.le_of_lt (by rw [(randomBytes_counter K e).1]; exact Nat.lt_succ_self _)

theorem randomFieldLoop_counter (fuel : Nat) {c : PublicCoin} {r : U256 × PublicCoin}
    (h : PublicCoin.randomFieldLoop K fuel c = some r) : c.counter ≤ r.2.counter := by
  induction fuel generalizing c with
  | zero => cases h
  | succ fuel ih =>
    rw [PublicCoin.randomFieldLoop] at h
    obtain ⟨q, e, h⟩ := Option.bind_eq_some_iff.1 h
    dsimp only at h
    split_ifs at h
    · cases h
      exact randomU256_counter K (r := q) e
    · exact le_trans (randomU256_counter K e) (ih h)

theorem randomFields_counter (n : Nat) {c : PublicCoin} {r : List U256 × PublicCoin}
    (h : PublicCoin.randomFields K n c = some r) : c.counter ≤ r.2.counter := by
  induction n generalizing c r with
  | zero => cases h; exact le_refl _
  | succ n ih =>
    rw [PublicCoin.randomFields] at h
    obtain ⟨q, e, h⟩ := Option.bind_eq_some_iff.1 h
    obtain ⟨rs, e2, rfl⟩ := Option.map_eq_some_iff.1 h
    exact le_trans (randomFieldLoop_counter K _ e) (ih (r := rs) e2)

theorem op_counter (o : Op) {c c' : ProverChannel} {v : Value} (h : o.prover K c = some (v, c')) (hm : messages o = []) :
    c.coin.counter ≤ c'.coin.counter := by
  have hd : ∀ {β : Type} (x : Option (β × PublicCoin)) (f : β → Value), (∀ r, x = some r → c.coin.counter ≤ r.2.counter) →
      (x.map fun r => (f r.1, ({ c with coin := r.2 } : ProverChannel))) = some (v, c') → c.coin.counter ≤ c'.coin.counter := by
    intro β x f hx e
    obtain ⟨r, e1, e2⟩ := Option.map_eq_some_iff.1 e
    simp only [Prod.mk.injEq] at e2
    rw [← e2.2]
    exact hx r e1
  cases o with
  | drawBytes => exact hd _ _ (fun r e => by rw [(randomBytes_counter K e).1]; exact Nat.le_succ _) h
  | drawU256 => exact hd _ _ (fun r e => randomU256_counter K e) h
  | drawField => exact hd _ _ (fun r e => randomFieldLoop_counter K _ e) h
  | drawFields n => exact hd _ _ (fun r e => randomFields_counter K n e) h
  | drawSeed =>
    refine hd _ _ (fun r e => ?_) h
    unfold PublicCoin.randomSeed at e
    obtain ⟨c1, e', rfl⟩ := Option.map_eq_some_iff.1 e
    exact Nat.le_of_lt (by rw [(bump_counter e').1]; exact Nat.lt_succ_self _)
  | hashes hs =>
    cases hs with
    | nil => cases h; exact le_refl _
    | cons => cases hm
  | u256s xs =>
    cases xs with
    | nil => cases h; exact le_refl _
    | cons => cases hm
  | _ => cases hm

theorem run_counter (ops : List Op) {c c' : ProverChannel} {vs : List Value} (h : proverRun K ops c = some (vs, c'))
    (hm : ∀ o ∈ ops, messages o = []) : c.coin.counter ≤ c'.coin.counter := by
  induction ops generalizing c vs with
  | nil => cases h; exact le_refl _
  | cons o ops ih =>
    rw [proverRun] at h
    obtain ⟨⟨v, c1⟩, h1, h⟩ := Option.bind_eq_some_iff.1 h
    obtain ⟨⟨vs2, c2⟩, h2, h⟩ := Option.map_eq_some_iff.1 h
    simp only [Prod.mk.injEq] at h
    obtain ⟨-, rfl⟩ := h
    exact le_trans (op_counter K o h1 (hm o (by simp))) (ih h2 fun o h => hm o (by simp [h]))

/-- C66: consecutive draws hash different inputs: if random bytes are drawn twice with only draws in between, and the
same, the hash function has a collision. -/
theorem C66_fresh (ops : List Op) (vs : List Value) (b : Bytes) (c c1 c2 c3 : ProverChannel) (hd : ∀ o ∈ ops, messages o = [])
    (h1 : Op.drawBytes.prover K c = some (.bytes b, c1)) (h2 : proverRun K ops c1 = some (vs, c2))
    (h3 : Op.drawBytes.prover K c2 = some (.bytes b, c3)) : Collision K := by
  obtain ⟨r1, g1, k1⟩ := Option.map_eq_some_iff.1 h1
  obtain ⟨r2, g2, k2⟩ := Option.map_eq_some_iff.1 h3
  simp only [Prod.mk.injEq, Value.bytes.injEq] at k1 k2
  obtain ⟨n1, l1, e1⟩ := randomBytes_counter K g1
  obtain ⟨n2, l2, e2⟩ := randomBytes_counter K g2
  have d := run_digest K ops h2
  rw [List.flatMap_eq_nil_iff.2 hd] at d
  have n := run_counter K ops h2 hd
  have q1 : c1.coin = r1.2 := by rw [← k1.2]
  rw [q1, n1] at n
  have d1 : c2.coin.digest = c.coin.digest := by rw [d, q1]; exact randomBytes_digest K g1
  refine ⟨_, _, ?_, (e1.symm.trans (k1.1.trans k2.1.symm)).trans e2⟩
  rw [d1]
  intro e
  have e := List.append_cancel_left e
  have v1 := to_be_bytes_value 8 c.coin.counter
  have v2 := to_be_bytes_value 8 c2.coin.counter
  rw [e, v2, Nat.mod_eq_of_lt (by norm_num; omega), Nat.mod_eq_of_lt (by norm_num; omega)] at v1
  omega

/-- Non-vacuous: two parties with the same requests and different messages; two draws of bytes with others in between. -/
example : ∃ v1 v2 c1 c2, proverRun toyKeccak [.hash (List.replicate 32 7), .drawU256, .u256s [⟨1, 2, 3, 4⟩, ⟨5, 6, 7, 8⟩]]
      (ProverChannel.init toyKeccak [1, 2]) = some (v1, c1) ∧
    proverRun toyKeccak [.hash (List.replicate 32 8), .drawU256, .u256s [⟨1, 2, 3, 4⟩, ⟨5, 6, 7, 8⟩]]
      (ProverChannel.init toyKeccak [1, 2]) = some (v2, c2) ∧
    ((Op.drawSeed.prover toyKeccak c1).map Prod.fst = (Op.drawSeed.prover toyKeccak c2).map Prod.fst) := by
  refine ⟨_, _, _, _, rfl, rfl, ?_⟩
  decide +kernel

end Transcript
end Props
end OpenZKP
