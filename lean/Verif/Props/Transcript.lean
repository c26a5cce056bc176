import Verif.Props.Channel

/-!
# Property C66: the challenges are bound to the history

The public coin is seeded, absorbs messages (`write`) and returns random blocks (`draw`).  A drawn block
determines the seed and every message absorbed before it, unless two explicitly listed hash inputs collide.
-/

namespace OpenZKP.Props
open OpenZKP Stark

variable (K : Keccak)

/-- What happens to a public coin after seeding. -/
inductive CoinEvent
  | write (data : Bytes)
  | draw

/-- The messages of a history, in order. -/
def CoinEvent.messages : List CoinEvent → List Bytes
  | [] => []
  | .write d :: es => d :: messages es
  | .draw :: es => messages es

/-- The number of draws since the last message (`n` before the history). -/
def CoinEvent.pending (n : Nat) : List CoinEvent → Nat
  | [] => n
  | .write _ :: es => pending 0 es
  | .draw :: es => pending (n + 1) es

/-- The coin after a history, and the random blocks drawn, in order. -/
def playCoin : List CoinEvent → PublicCoin → Option (List Bytes × PublicCoin)
  | [], c => some ([], c)
  | .write d :: es, c => playCoin es (c.write K d)
  | .draw :: es, c => (PublicCoin.randomBytes K c).bind fun r =>
      (playCoin es r.2).map fun q => (r.1 :: q.1, q.2)

/-- Absorb messages, drawing nothing. -/
def absorb (s : Bytes) (ms : List Bytes) : PublicCoin :=
  ms.foldl (PublicCoin.write K) (PublicCoin.seed K PublicCoin.default s)

/-- The strings hashed while absorbing: the seed, and for every message the state before it followed by it. -/
def absorbed (s : Bytes) (ms : List Bytes) : List Bytes :=
  s :: (List.range ms.length).map fun i => (absorb K s (ms.take i)).digest ++ ms.getD i []

/-- Two different strings, one from each list, with equal hashes. -/
def CollisionIn (xs ys : List Bytes) : Prop := ∃ x ∈ xs, ∃ y ∈ ys, x ≠ y ∧ K.hash x = K.hash y

theorem absorb_snoc (s : Bytes) (ms : List Bytes) (d : Bytes) :
    absorb K s (ms ++ [d]) = (absorb K s ms).write K d := by
  unfold absorb
  rw [List.foldl_append]
  rfl

theorem absorb_len (s : Bytes) (ms : List Bytes) : (absorb K s ms).digest.length = 32 := by
  induction ms using List.reverseRecOn with
  | nil => exact K.len _
  | append_singleton ms d _ => rw [absorb_snoc]; exact K.len _

theorem absorbed_snoc (s : Bytes) (ms : List Bytes) (d : Bytes) :
    absorbed K s (ms ++ [d]) = absorbed K s ms ++ [(absorb K s ms).digest ++ d] := by
  unfold absorbed
  rw [List.length_append, List.length_singleton, List.range_succ, List.map_append, List.cons_append]
  congr 2
  · refine List.map_congr_left fun i hi => ?_
    rw [List.mem_range] at hi
    rw [List.take_append_of_le_length hi.le, List.getD_eq_getElem?_getD, List.getD_eq_getElem?_getD, List.getElem?_append_left hi]
  · simp

/-- C66: the state of the coin determines the seed and the messages (for a known number of messages). -/
theorem C66_binding (s t : Bytes) (ms ns : List Bytes) (hl : ms.length = ns.length)
    (h : (absorb K s ms).digest = (absorb K t ns).digest) :
    (s = t ∧ ms = ns) ∨ CollisionIn K (absorbed K s ms) (absorbed K t ns) := by
  induction ms using List.reverseRecOn generalizing ns with
  | nil =>
    obtain rfl := List.length_eq_zero_iff.1 hl.symm
    by_cases e : s = t
    · exact Or.inl ⟨e, rfl⟩
    · exact Or.inr ⟨s, by simp [absorbed], t, by simp [absorbed], e, h⟩
  | append_singleton ms d ih =>
    rcases List.eq_nil_or_concat ns with rfl | ⟨ns, e, rfl⟩
    · simp at hl
    rw [List.concat_eq_append] at *
    have hl' : ms.length = ns.length := by simpa using hl
    rw [absorb_snoc, absorb_snoc] at h
    rw [absorbed_snoc, absorbed_snoc]
    by_cases g : (absorb K s ms).digest ++ d = (absorb K t ns).digest ++ e
    · obtain ⟨g1, g2⟩ := List.append_inj g (by rw [absorb_len, absorb_len])
      rcases ih ns hl' g1 with ⟨e1, e2⟩ | ⟨x, hx, y, hy, hn, hh⟩
      · exact Or.inl ⟨e1, by rw [e2, g2]⟩
      · exact Or.inr ⟨x, List.mem_append_left _ hx, y, List.mem_append_left _ hy, hn, hh⟩
    · exact Or.inr ⟨_, List.mem_append_right _ (List.mem_singleton_self _), _,
        List.mem_append_right _ (List.mem_singleton_self _), g, h⟩

/-- C66: drawing does not influence what comes after the next message: the state depends on the messages, and on
the number of draws since the last message. -/
theorem C66_state (s : Bytes) (es : List CoinEvent) (rs : List Bytes) (c : PublicCoin)
    (h : playCoin K es (PublicCoin.seed K PublicCoin.default s) = some (rs, c)) :
    c.digest = (absorb K s (CoinEvent.messages es)).digest ∧ c.counter = CoinEvent.pending 0 es := by
  have gen : ∀ (es : List CoinEvent) (c0 : PublicCoin) (rs : List Bytes),
      playCoin K es c0 = some (rs, c) →
      c.digest = ((CoinEvent.messages es).foldl (PublicCoin.write K) c0).digest ∧
      c.counter = CoinEvent.pending c0.counter es := by
    intro es
    induction es with
    | nil => intro c0 rs h; cases h; exact ⟨rfl, rfl⟩
    | cons e es ih =>
      intro c0 rs h
      cases e with
      | write d => exact ih _ _ h
      | draw =>
        obtain ⟨r, hr, h⟩ := Option.bind_eq_some_iff.1 h
        obtain ⟨q, hq, h⟩ := Option.map_eq_some_iff.1 h
        obtain ⟨rs', c'⟩ := q
        obtain rfl : c' = c := congrArg Prod.snd h
        obtain ⟨c1, hc1, e1⟩ := Option.map_eq_some_iff.1 hr
        unfold PublicCoin.bump at hc1
        split at hc1
        · cases hc1
          subst e1
          obtain ⟨g1, g2⟩ := ih _ _ hq
          refine ⟨?_, g2⟩
          rw [g1]
          cases hm : CoinEvent.messages es with
          | nil => simp [CoinEvent.messages, hm]
          | cons d ds => simp [CoinEvent.messages, hm, PublicCoin.write]
        · cases hc1
  exact gen es _ _ h

/-- The string hashed for the next random block. -/
def drawn (c : PublicCoin) : Bytes := c.digest ++ List.replicate 24 0 ++ to_be_bytes 8 c.counter

/-- C66: equal random blocks are drawn after equal histories: same seed, same messages, same number of draws since the
last message; or two of the listed hash inputs collide. -/
theorem C66_challenge (s t : Bytes) (es fs : List CoinEvent) (rs qs : List Bytes) (c d c' d' : PublicCoin) (r : Bytes)
    (hs : playCoin K es (PublicCoin.seed K PublicCoin.default s) = some (rs, c))
    (ht : playCoin K fs (PublicCoin.seed K PublicCoin.default t) = some (qs, d))
    (hl : (CoinEvent.messages es).length = (CoinEvent.messages fs).length)
    (h1 : PublicCoin.randomBytes K c = some (r, c')) (h2 : PublicCoin.randomBytes K d = some (r, d')) :
    (s = t ∧ CoinEvent.messages es = CoinEvent.messages fs ∧ CoinEvent.pending 0 es = CoinEvent.pending 0 fs) ∨
    CollisionIn K (drawn c :: absorbed K s (CoinEvent.messages es)) (drawn d :: absorbed K t (CoinEvent.messages fs)) := by
  obtain ⟨a1, a2⟩ := C66_state K s es rs c hs
  obtain ⟨b1, b2⟩ := C66_state K t fs qs d ht
  have bound : ∀ {c c' : PublicCoin}, PublicCoin.randomBytes K c = some (r, c') → c.counter < 2 ^ 64 ∧ K.hash (drawn c) = r := by
    intro c c' h
    obtain ⟨c1, hc1, e1⟩ := Option.map_eq_some_iff.1 h
    unfold PublicCoin.bump at hc1
    split at hc1
    · exact ⟨by omega, congrArg Prod.fst e1⟩
    · cases hc1
  obtain ⟨bc, rc⟩ := bound h1
  obtain ⟨bd, rd⟩ := bound h2
  by_cases e : drawn c = drawn d
  · unfold drawn at e
    rw [List.append_assoc, List.append_assoc] at e
    obtain ⟨e1, e2⟩ := List.append_inj e (by rw [a1, b1, absorb_len, absorb_len])
    have e3 := List.append_cancel_left e2
    have e4 : c.counter = d.counter := by
      have := congrArg beValue e3
      rw [to_be_bytes_value, to_be_bytes_value] at this
      omega
    rcases C66_binding K s t _ _ hl (by rw [← a1, ← b1, e1]) with ⟨g1, g2⟩ | ⟨x, hx, y, hy, hn, hh⟩
    · exact Or.inl ⟨g1, g2, by rw [← a2, ← b2, e4]⟩
    · exact Or.inr ⟨x, List.mem_cons_of_mem _ hx, y, List.mem_cons_of_mem _ hy, hn, hh⟩
  · exact Or.inr ⟨_, List.mem_cons_self, _, List.mem_cons_self, e, by rw [rc, rd]⟩

/-- The number of messages must be known: a seed of the right form imitates a seed followed by a message. -/
theorem C66_lengths_matter (s d : Bytes) :
    absorb K ((absorb K s []).digest ++ d) [] = absorb K s [d] := rfl

/-- Messages and draws are not separated: absorbing 24 zero bytes and the counter leads to the state that equals
the random block drawn instead. -/
theorem C66_no_separation (c c' : PublicCoin) (r : Bytes) (h : PublicCoin.randomBytes K c = some (r, c')) :
    (c.write K (List.replicate 24 0 ++ to_be_bytes 8 c.counter)).digest = r := by
  obtain ⟨c1, -, e1⟩ := Option.map_eq_some_iff.1 h
  have e2 : K.hash (c.digest ++ List.replicate 24 0 ++ to_be_bytes 8 c.counter) = r := congrArg Prod.fst e1
  rw [← e2, List.append_assoc]
  rfl

/-- Non-vacuous: a history with draws and messages, with a stand-in hash function. -/
example : ∃ (K : Keccak) (rs : List Bytes) (c : PublicCoin),
    playCoin K [.draw, .write [1, 2], .draw, .draw, .write [3], .draw] (PublicCoin.seed K PublicCoin.default [9]) =
      some (rs, c) ∧ rs.length = 4 ∧ c.counter = 1 ∧ (PublicCoin.randomBytes K c).isSome = true := by
  let K : Keccak := ⟨fun x => (x ++ List.replicate 32 0).take 32, fun x => by simp⟩
  refine ⟨K, _, _, rfl, rfl, rfl, rfl⟩

end OpenZKP.Props
