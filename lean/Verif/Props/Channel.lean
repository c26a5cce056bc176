import Verif.Stark.ChannelLemmas
import Verif.Stark.PoW
import Verif.Props.U256
import Mathlib.Data.Set.Card
import Mathlib.Algebra.BigOperators.Fin
import Mathlib.Algebra.Order.BigOperators.Group.Finset

/-!
# Transcripts and proof of work: C34 – C36
-/

namespace OpenZKP
namespace Props
open U256 Stark

/-! ## C34: the two sides of the channel agree -/

/-- An interaction on the prover side: a message written, or a random value drawn -/
inductive Op where
  | hash (h : Bytes) | hashes (hs : List Bytes) | u256 (x : U256) | u256s (xs : List U256)
  | field (x : U256) | layer (xs : List U256) | response (nonce : Nat)
  | drawBytes | drawU256 | drawField | drawFields (n : Nat) | drawSeed

/-- The corresponding interaction on the verifier side: it knows the type and number of values only -/
inductive Request where
  | hash | hashes (n : Nat) | u256 | u256s (n : Nat) | field | layer (n : Nat) | response
  | drawBytes | drawU256 | drawField | drawFields (n : Nat) | drawSeed

/-- The values written, replayed or drawn -/
inductive Value where
  | bytes (b : Bytes) | bytesList (bs : List Bytes) | u256 (x : U256) | u256s (xs : List U256) | nat (n : Nat)
  deriving DecidableEq

def Op.request : Op → Request
  | .hash _ => .hash | .hashes hs => .hashes hs.length | .u256 _ => .u256 | .u256s xs => .u256s xs.length
  | .field _ => .field | .layer xs => .layer xs.length | .response _ => .response
  | .drawBytes => .drawBytes | .drawU256 => .drawU256 | .drawField => .drawField | .drawFields n => .drawFields n
  | .drawSeed => .drawSeed

/-- What the Rust types guarantee: a hash has 32 bytes, a nonce is a `u64`, a field element is reduced -/
def Op.WellTyped : Op → Prop
  | .hash h => h.length = 32
  | .hashes hs => ∀ h ∈ hs, h.length = 32
  | .field x => x.toNat < PF.BASE.modulus.toNat
  | .layer xs => ∀ x ∈ xs, x.toNat < PF.BASE.modulus.toNat
  | .response n => n < 2 ^ 64
  | _ => True

section
variable (K : Keccak)

/-- The prover performs an interaction; the result is the value written or drawn -/
def Op.prover (c : ProverChannel) : Op → Option (Value × ProverChannel)
  | .hash h => some (.bytes h, c.writeHash K h)
  | .hashes hs => some (.bytesList hs, c.writeHashes K hs)
  | .u256 x => some (.u256 x, c.writeU256 K x)
  | .u256s xs => some (.u256s xs, c.writeU256s K xs)
  | .field x => some (.u256 x, c.writeU256 K x)
  | .layer xs => some (.u256s xs, c.writeLayer K xs)
  | .response n => some (.nat n, c.writeResponse K n)
  | .drawBytes => (c.coin.randomBytes K).map fun r => (.bytes r.1, { c with coin := r.2 })
  | .drawU256 => (c.coin.randomU256 K).map fun r => (.u256 r.1, { c with coin := r.2 })
  | .drawField => (c.coin.randomField K).map fun r => (.u256 r.1, { c with coin := r.2 })
  | .drawFields n => (PublicCoin.randomFields K n c.coin).map fun r => (.u256s r.1, { c with coin := r.2 })
  | .drawSeed => c.coin.randomSeed.map fun r => (.bytes r.1, { c with coin := r.2 })

/-- The verifier performs an interaction; the result is the value replayed or drawn -/
def Request.verifier (dbg : Bool) (c : VerifierChannel) : Request → Option (Value × VerifierChannel)
  | .hash => (c.replayHash K).map fun r => (.bytes r.1, r.2)
  | .hashes n => (VerifierChannel.replayMany (·.replayHash K) n c).map fun r => (.bytesList r.1, r.2)
  | .u256 => (c.replayU256 K).map fun r => (.u256 r.1, r.2)
  | .u256s n => (VerifierChannel.replayMany (·.replayU256 K) n c).map fun r => (.u256s r.1, r.2)
  | .field => (c.replayField K dbg).map fun r => (.u256 r.1, r.2)
  | .layer n => (c.replayLayer K dbg n).map fun r => (.u256s r.1, r.2)
  | .response => (c.replayResponse K).map fun r => (.nat r.1, r.2)
  | .drawBytes => (c.coin.randomBytes K).map fun r => (.bytes r.1, { c with coin := r.2 })
  | .drawU256 => (c.coin.randomU256 K).map fun r => (.u256 r.1, { c with coin := r.2 })
  | .drawField => (c.coin.randomField K).map fun r => (.u256 r.1, { c with coin := r.2 })
  | .drawFields n => (PublicCoin.randomFields K n c.coin).map fun r => (.u256s r.1, { c with coin := r.2 })
  | .drawSeed => c.coin.randomSeed.map fun r => (.bytes r.1, { c with coin := r.2 })

/-- A sequence of interactions -/
def proverRun : List Op → ProverChannel → Option (List Value × ProverChannel)
  | [], c => some ([], c)
  | o :: os, c => (o.prover K c).bind fun r => (proverRun os r.2).map fun rs => (r.1 :: rs.1, rs.2)
def verifierRun (dbg : Bool) : List Request → VerifierChannel → Option (List Value × VerifierChannel)
  | [], c => some ([], c)
  | o :: os, c => (o.verifier K dbg c).bind fun r => (verifierRun dbg os r.2).map fun rs => (r.1 :: rs.1, rs.2)

/-- the bytes an interaction adds to the proof -/
def Op.encode : Op → Bytes
  | .hash h => h
  | .hashes hs => hs.flatMap id
  | .u256 x => to_bytes_be x
  | .u256s xs => xs.flatMap to_bytes_be
  | .field x => to_bytes_be x
  | .layer xs => xs.flatMap to_bytes_be
  | .response n => to_be_bytes 8 n
  | _ => []

theorem foldl_proof {α : Type} (w : ProverChannel → α → ProverChannel) (enc : α → Bytes)
    (h : ∀ c x, (w c x).proof = c.proof ++ enc x) (l : List α) (c : ProverChannel) :
    (l.foldl w c).proof = c.proof ++ l.flatMap enc := by
  induction l generalizing c with
  | nil => simp
  | cons x l ih => rw [List.foldl_cons, ih, h, List.flatMap_cons, List.append_assoc]

theorem prover_proof (o : Op) (c c' : ProverChannel) (v : Value) (h : o.prover K c = some (v, c')) :
    c'.proof = c.proof ++ o.encode := by
  have hd : ∀ {β : Type} (x : Option (β × PublicCoin)) (f : β → Value),
      (x.map fun r => (f r.1, ({ c with coin := r.2 } : ProverChannel))) = some (v, c') → c'.proof = c.proof ++ [] := by
    intro β x f e
    cases x with
    | none => cases e
    | some r => simp only [Option.map_some, Option.some.injEq, Prod.mk.injEq] at e; rw [← e.2]; simp
  cases o with
  | drawBytes => exact hd _ _ h
  | drawU256 => exact hd _ _ h
  | drawField => exact hd _ _ h
  | drawFields n => exact hd _ _ h
  | drawSeed => exact hd _ _ h
  | hashes hs =>
    cases h
    exact foldl_proof _ id (fun _ _ => rfl) hs c
  | u256s hs =>
    cases h
    exact foldl_proof _ _ (fun _ _ => rfl) hs c
  | _ => cases h; rfl

theorem op_sim (dbg : Bool) (o : Op) (ho : o.WellTyped) (pc pc' : ProverChannel) (v : Value) (vc : VerifierChannel) (rest : Bytes)
    (h : o.prover K pc = some (v, pc')) (hs : Sim pc vc (o.encode ++ rest)) :
    ∃ vc', o.request.verifier K dbg vc = some (v, vc') ∧ Sim pc' vc' rest := by
  have hd : ∀ {β : Type} (x : PublicCoin → Option (β × PublicCoin)) (f : β → Value),
      ((x pc.coin).map fun r => (f r.1, ({ pc with coin := r.2 } : ProverChannel))) = some (v, pc') → Sim pc vc rest →
      ∃ vc', ((x vc.coin).map fun r => (f r.1, ({ vc with coin := r.2 } : VerifierChannel))) = some (v, vc') ∧ Sim pc' vc' rest := by
    intro β x f e hs
    rw [hs.coin]
    cases hx : x pc.coin with
    | none => rw [hx] at e; cases e
    | some r =>
      rw [hx] at e
      simp only [Option.map_some, Option.some.injEq, Prod.mk.injEq] at e
      obtain ⟨e1, e2⟩ := e
      refine ⟨{ vc with coin := r.2 }, by simp [e1], ?_⟩
      rw [← e2]
      exact ⟨rfl, hs.index, hs.proof⟩
  cases o with
  | drawBytes => exact hd _ _ h hs
  | drawU256 => exact hd _ _ h hs
  | drawField => exact hd _ _ h hs
  | drawFields n => exact hd _ _ h hs
  | drawSeed => exact hd PublicCoin.randomSeed _ h hs
  | hash x =>
    cases h
    obtain ⟨vc', e, s⟩ := read_sim K hs
    rw [show (Op.hash x).encode.length = 32 from ho] at e
    exact ⟨vc', by simp [Op.request, Request.verifier, VerifierChannel.replayHash, e]; rfl, s⟩
  | hashes xs =>
    cases h
    obtain ⟨vc', e, s⟩ := many_sim (·.replayHash K) (ProverChannel.writeHash K) id id xs pc vc rest (by
      intro x hx pc vc rest h
      obtain ⟨vc', e, s⟩ := read_sim K h
      rw [show (id x).length = 32 from ho x hx] at e
      exact ⟨vc', e, s⟩) hs
    rw [List.map_id] at e
    exact ⟨vc', by simp [Op.request, Request.verifier, e], s⟩
  | u256 x =>
    cases h
    obtain ⟨vc', e, s⟩ := replayU256_sim K hs
    exact ⟨vc', by simp [Op.request, Request.verifier, e], s⟩
  | u256s xs =>
    cases h
    obtain ⟨vc', e, s⟩ := many_sim (·.replayU256 K) (ProverChannel.writeU256 K) to_bytes_be id xs pc vc rest
      (fun x _ _ _ _ h => replayU256_sim K h) hs
    rw [List.map_id] at e
    exact ⟨vc', by simp [Op.request, Request.verifier, e], s⟩
  | field x =>
    cases h
    obtain ⟨vc', e, s⟩ := replayField_sim K dbg ho hs
    exact ⟨vc', by simp [Op.request, Request.verifier, e], s⟩
  | layer xs =>
    cases h
    obtain ⟨vc', e, s⟩ := replayLayer_sim K dbg ho hs
    exact ⟨vc', by simp [Op.request, Request.verifier, e], s⟩
  | response n =>
    cases h
    obtain ⟨vc', e, s⟩ := read_sim K hs
    rw [show (Op.response n).encode.length = 8 from to_be_bytes_length 8 n] at e
    refine ⟨vc', ?_, s⟩
    simp only [Op.request, Request.verifier, VerifierChannel.replayResponse, e, Option.map_some]
    rw [show (Op.response n).encode = to_be_bytes 8 n from rfl, u64_roundtrip n ho]

theorem run_sim (dbg : Bool) (ops : List Op) (ho : ∀ o ∈ ops, o.WellTyped) (pc pc' : ProverChannel) (vs : List Value)
    (h : proverRun K ops pc = some (vs, pc')) :
    ∃ d, pc'.proof = pc.proof ++ d ∧ ∀ vc rest, Sim pc vc (d ++ rest) →
      ∃ vc', verifierRun K dbg (ops.map Op.request) vc = some (vs, vc') ∧ Sim pc' vc' rest := by
  induction ops generalizing pc vs with
  | nil =>
    cases h
    exact ⟨[], by simp, fun vc rest hs => ⟨vc, rfl, hs⟩⟩
  | cons o ops ih =>
    rw [proverRun] at h
    cases h1 : o.prover K pc with
    | none => rw [h1] at h; cases h
    | some r =>
      obtain ⟨v, pc1⟩ := r
      rw [h1, Option.bind_some] at h
      cases h2 : proverRun K ops pc1 with
      | none => rw [h2] at h; cases h
      | some r2 =>
        obtain ⟨vs', pc2⟩ := r2
        rw [h2] at h
        simp only [Option.map_some, Option.some.injEq, Prod.mk.injEq] at h
        obtain ⟨rfl, rfl⟩ := h
        obtain ⟨d, hd, hsim⟩ := ih (fun o h => ho o (by simp [h])) pc1 vs' h2
        refine ⟨o.encode ++ d, by rw [hd, prover_proof K o pc pc1 v h1, List.append_assoc], ?_⟩
        intro vc rest hs
        rw [List.append_assoc] at hs
        obtain ⟨vc1, e1, s1⟩ := op_sim K dbg o (ho o (by simp)) pc pc1 v vc _ h1 hs
        obtain ⟨vc2, e2, s2⟩ := hsim vc1 rest s1
        refine ⟨vc2, ?_, s2⟩
        rw [List.map_cons, verifierRun, e1, Option.bind_some, e2]
        rfl

/-- C34: For every sequence of interactions on a freshly seeded prover channel, the verifier channel, seeded alike and
given the proof bytes, replays and draws exactly the values the prover wrote and drew, and ends with the same public
coin and at the end of the proof (in both build profiles). -/
theorem C34_agreement (dbg : Bool) (seed : Bytes) (ops : List Op) (ho : ∀ o ∈ ops, o.WellTyped)
    (values : List Value) (pc : ProverChannel) (h : proverRun K ops (ProverChannel.init K seed) = some (values, pc)) :
    ∃ vc, verifierRun K dbg (ops.map Op.request) (VerifierChannel.init K pc.proof seed) = some (values, vc) ∧
      vc.coin = pc.coin ∧ vc.at_end = true := by
  obtain ⟨d, hd, hs⟩ := run_sim K dbg ops ho _ _ _ h
  rw [show (ProverChannel.init K seed).proof = [] from rfl, List.nil_append] at hd
  obtain ⟨vc, e, s⟩ := hs (VerifierChannel.init K pc.proof seed) [] ⟨rfl, rfl, by rw [hd]; simp [VerifierChannel.init, ProverChannel.init]⟩
  refine ⟨vc, e, s.coin, ?_⟩
  unfold VerifierChannel.at_end
  rw [s.index, s.proof, List.append_nil, beq_self_eq_true]

/-- C34: the proof is the concatenation of the encodings of the messages, in order. -/
theorem C34_proof_bytes (seed : Bytes) (ops : List Op) (values : List Value) (pc : ProverChannel)
    (h : proverRun K ops (ProverChannel.init K seed) = some (values, pc)) : pc.proof = ops.flatMap Op.encode := by
  have gen : ∀ (ops : List Op) (c : ProverChannel) (vs : List Value), proverRun K ops c = some (vs, pc) →
      pc.proof = c.proof ++ ops.flatMap Op.encode := by
    intro ops
    induction ops with
    | nil => intro c vs h; cases h; simp
    | cons o ops ih =>
      intro c vs h
      rw [proverRun] at h
      cases h1 : o.prover K c with
      | none => rw [h1] at h; cases h
      | some r =>
        obtain ⟨v, pc1⟩ := r
        rw [h1, Option.bind_some] at h
        cases h2 : proverRun K ops pc1 with
        | none => rw [h2] at h; cases h
        | some r2 =>
          obtain ⟨vs', pc2⟩ := r2
          rw [h2] at h
          simp only [Option.map_some, Option.some.injEq, Prod.mk.injEq] at h
          obtain ⟨rfl, rfl⟩ := h
          rw [ih pc1 vs' h2, prover_proof K o c pc1 v h1, List.flatMap_cons, List.append_assoc]
  have := gen ops _ values h
  simpa [ProverChannel.init] using this

end

/-- a hash function for examples -/
def toyKeccak : Keccak := ⟨fun b => List.replicate 31 0 ++ [UInt8.ofNat b.length], fun b => by simp⟩

-- a run with writes and draws in between
example : ∃ vs pc, proverRun toyKeccak [.hash (List.replicate 32 7), .drawU256, .u256s [⟨1, 2, 3, 4⟩, ⟨5, 6, 7, 8⟩], .drawSeed,
    .layer [⟨9, 0, 0, 0⟩], .response 77] (ProverChannel.init toyKeccak [1, 2]) = some (vs, pc) ∧ pc.proof.length = 136 := by
  refine ⟨_, _, rfl, ?_⟩
  decide +kernel

/-! ## C35: random field elements -/

section
variable (K : Keccak)

/-- the number in the `n`-th block of random bytes of a coin state -/
def block (c : PublicCoin) (n : Nat) : Nat :=
  beValue (K.hash (c.digest ++ List.replicate 24 0 ++ to_be_bytes 8 n))

theorem mask_value (x : U256) : (U256.and x PublicCoin.MASK).toNat = x.toNat % 2 ^ 252 := by
  apply Nat.eq_of_testBit_eq
  intro i
  rw [Nat.testBit_mod_two_pow]
  have hm : PublicCoin.MASK.toNat = 2 ^ 252 - 1 := by decide +kernel
  rw [(C05_bitwise x PublicCoin.MASK i).1, hm, Nat.testBit_two_pow_sub_one, Bool.and_comm]

theorem randomU256_eq (c : PublicCoin) (h : c.counter + 1 < 2 ^ 64) :
    ∃ x, PublicCoin.randomU256 K c = some (x, ⟨c.digest, c.counter + 1⟩) ∧ x.toNat = block K c c.counter := by
  obtain ⟨x, e1, e2⟩ := from_bytes_be_eq _ (K.len (c.digest ++ List.replicate 24 0 ++ to_be_bytes 8 c.counter))
  refine ⟨x, ?_, e2⟩
  unfold PublicCoin.randomU256 PublicCoin.randomBytes PublicCoin.bump
  rw [if_pos h]
  simp only [Option.map_some, Option.bind_some, e1]

theorem randomFieldLoop_spec (fuel : Nat) (c : PublicCoin) (n : Nat) (hn : n < fuel) (hc : c.counter + n + 1 < 2 ^ 64)
    (hrej : ∀ j < n, PF.BASE.modulus.toNat ≤ block K c (c.counter + j) % 2 ^ 252)
    (hacc : block K c (c.counter + n) % 2 ^ 252 < PF.BASE.modulus.toNat) :
    ∃ x, PublicCoin.randomFieldLoop K fuel c = some (x, ⟨c.digest, c.counter + n + 1⟩) ∧
      x.toNat = block K c (c.counter + n) % 2 ^ 252 := by
  induction n generalizing c fuel with
  | zero =>
    obtain ⟨f, rfl⟩ : ∃ f, fuel = f + 1 := ⟨fuel - 1, by omega⟩
    obtain ⟨x, e, hx⟩ := randomU256_eq K c (by omega)
    refine ⟨U256.and x PublicCoin.MASK, ?_, by rw [mask_value, hx]; rfl⟩
    rw [PublicCoin.randomFieldLoop, e, Option.bind_some]
    dsimp only
    rw [if_pos]
    rw [lt_iff, mask_value, hx]
    exact hacc
  | succ n ih =>
    obtain ⟨f, rfl⟩ : ∃ f, fuel = f + 1 := ⟨fuel - 1, by omega⟩
    obtain ⟨x, e, hx⟩ := randomU256_eq K c (by omega)
    obtain ⟨y, e2, hy⟩ := ih f ⟨c.digest, c.counter + 1⟩ (by omega) (by show c.counter + 1 + n + 1 < _; omega) (by
        intro j hj
        have := hrej (j + 1) (by omega)
        rwa [show c.counter + (j + 1) = c.counter + 1 + j by ring] at this) (by
        show block K c (c.counter + 1 + n) % _ < _
        rwa [show c.counter + 1 + n = c.counter + (n + 1) by ring])
    refine ⟨y, ?_, ?_⟩
    · rw [PublicCoin.randomFieldLoop, e, Option.bind_some]
      dsimp only
      rw [if_neg, e2]
      · simp only [Option.some.injEq, Prod.mk.injEq, PublicCoin.mk.injEq, true_and]; omega
      · rw [lt_iff, mask_value, hx]
        have := hrej 0 (by omega)
        rw [add_zero] at this
        omega
    · rw [hy]
      show block K c (c.counter + 1 + n) % _ = _
      rw [show c.counter + 1 + n = c.counter + (n + 1) by ring]

theorem randomFieldLoop_inv (fuel : Nat) (c c' : PublicCoin) (x : U256)
    (h : PublicCoin.randomFieldLoop K fuel c = some (x, c')) :
    ∃ n, n < fuel ∧ c'.counter = c.counter + n + 1 ∧ c'.counter < 2 ^ 64 ∧ c'.digest = c.digest ∧
      (∀ j < n, PF.BASE.modulus.toNat ≤ block K c (c.counter + j) % 2 ^ 252) ∧
      x.toNat = block K c (c.counter + n) % 2 ^ 252 ∧ x.toNat < PF.BASE.modulus.toNat := by
  induction fuel generalizing c with
  | zero => cases h
  | succ fuel ih =>
    rw [PublicCoin.randomFieldLoop] at h
    by_cases hc : c.counter + 1 < 2 ^ 64
    · obtain ⟨y, e, hy⟩ := randomU256_eq K c hc
      rw [e, Option.bind_some] at h
      dsimp only at h
      split at h
      · next hlt =>
        cases h
        rw [lt_iff] at hlt
        exact ⟨0, by omega, rfl, hc, rfl, by simp, by rw [mask_value, hy]; rfl, hlt⟩
      · next hlt =>
        obtain ⟨n, h1, h2, h3, h4, h5, h6, h7⟩ := ih _ h
        refine ⟨n + 1, by omega, by rw [h2]; show c.counter + 1 + n + 1 = _; ring, h3, h4, ?_, ?_, h7⟩
        · intro j hj
          cases j with
          | zero => rw [lt_iff, mask_value, hy] at hlt; rw [add_zero]; omega
          | succ j =>
            have := h5 j (by omega)
            rw [show c.counter + (j + 1) = c.counter + 1 + j by ring]
            exact this
        · rw [h6]
          show block K c (c.counter + 1 + n) % _ = _
          rw [show c.counter + 1 + n = c.counter + (n + 1) by ring]
    · unfold PublicCoin.randomU256 PublicCoin.randomBytes PublicCoin.bump at h
      rw [if_neg hc] at h
      cases h

/-- C35: The element returned is the first among the blocks from the current counter on whose low 252 bits are below the
modulus, it is canonical, and the counter moves just past that block. -/
theorem C35_first_candidate (c c' : PublicCoin) (x : U256) (h : PublicCoin.randomField K c = some (x, c')) :
    ∃ n, c'.counter = c.counter + n + 1 ∧ c'.digest = c.digest ∧
      (∀ j < n, PF.BASE.modulus.toNat ≤ block K c (c.counter + j) % 2 ^ 252) ∧
      x.toNat = block K c (c.counter + n) % 2 ^ 252 ∧ x.toNat < PF.BASE.modulus.toNat := by
  obtain ⟨n, _, h2, _, h4, h5, h6, h7⟩ := randomFieldLoop_inv K _ _ _ _ h
  exact ⟨n, h2, h4, h5, h6, h7⟩

/-- C35: It returns whenever some block is acceptable before the 64-bit counter overflows. -/
theorem C35_returns (c : PublicCoin) (n : Nat) (hc : c.counter + n + 1 < 2 ^ 64)
    (hacc : block K c (c.counter + n) % 2 ^ 252 < PF.BASE.modulus.toNat) : (PublicCoin.randomField K c).isSome = true := by
  classical
  have hex : ∃ m, block K c (c.counter + m) % 2 ^ 252 < PF.BASE.modulus.toNat := ⟨n, hacc⟩
  have hle : Nat.find hex ≤ n := Nat.find_min' hex hacc
  obtain ⟨x, e, _⟩ := randomFieldLoop_spec K (2 ^ 64) c (Nat.find hex) (by omega) (by omega)
    (fun j hj => Nat.le_of_not_lt (Nat.find_min hex hj)) (Nat.find_spec hex)
  unfold PublicCoin.randomField
  rw [e]; rfl

end

/-- C35 (uniformity): every canonical value is the image of exactly 16 of the 2^256 possible blocks, so a uniformly random
accepted block gives a uniformly random field element. -/
theorem C35_uniform (v : Nat) (hv : v < PF.BASE.modulus.toNat) (b : Nat) (hb : b < 2 ^ 256) :
    b % 2 ^ 252 = v ↔ ∃ k, k < 16 ∧ b = k * 2 ^ 252 + v := by
  have hm : PF.BASE.modulus.toNat < 2 ^ 252 := by decide +kernel
  constructor
  · intro h; exact ⟨b / 2 ^ 252, by omega, by omega⟩
  · rintro ⟨k, hk, rfl⟩; omega

/-- C35 (uniformity): the count. -/
theorem C35_uniform_count (v : Nat) (hv : v < PF.BASE.modulus.toNat) :
    Set.ncard {b : Nat | b < 2 ^ 256 ∧ b % 2 ^ 252 = v} = 16 := by
  have e : {b : Nat | b < 2 ^ 256 ∧ b % 2 ^ 252 = v} = ↑((Finset.range 16).image fun k => k * 2 ^ 252 + v) := by
    ext b
    simp only [Set.mem_setOf_eq, Finset.coe_image, Set.mem_image, Finset.coe_range, Set.mem_Iio]
    have hm : PF.BASE.modulus.toNat < 2 ^ 252 := by decide +kernel
    constructor
    · rintro ⟨h1, h2⟩
      obtain ⟨k, hk, rfl⟩ := (C35_uniform v hv b h1).1 h2
      exact ⟨k, hk, rfl⟩
    · rintro ⟨k, hk, rfl⟩
      have : k * 2 ^ 252 + v < 2 ^ 256 := by omega
      exact ⟨this, (C35_uniform v hv _ this).2 ⟨k, hk, rfl⟩⟩
  rw [e, Set.ncard_coe_finset, Finset.card_image_of_injective _ (fun a b h => by simpa using h), Finset.card_range]

-- the toy hash: block value 64, accepted at once
example : PublicCoin.randomFieldLoop toyKeccak 1 ⟨List.replicate 32 0, 5⟩ = some (⟨64, 0, 0, 0⟩, ⟨List.replicate 32 0, 6⟩) := by
  decide +kernel

/-! ## C36: proof of work -/

section
variable (K : Keccak)

/-- C36: `verify` accepts a nonce exactly if the hash of seed and nonce, read as a number, is below `2^(256 - difficulty)`. -/
theorem C36_verify (c : Challenge) (hd : c.difficulty ≤ 256) (nonce : Nat) :
    c.verify K nonce = true ↔ beValue (K.hash (c.seed ++ to_be_bytes 8 nonce)) < 2 ^ (256 - c.difficulty) := by
  obtain ⟨x, e1, e2⟩ := from_bytes_be_eq _ (K.len (c.seed ++ to_be_bytes 8 nonce))
  unfold Challenge.verify
  rw [e1, ← e2]
  dsimp only
  rw [decide_eq_true_iff]
  obtain ⟨h0, h1⟩ := C05_leading_zeros x
  by_cases hx : x.toNat = 0
  · rw [h0 hx, hx]
    exact ⟨fun _ => by positivity, fun _ => hd⟩
  · obtain ⟨h2, h3, h4⟩ := h1 (by omega)
    constructor
    · intro h
      exact lt_of_lt_of_le h4 (Nat.pow_le_pow_right (by norm_num) (by omega))
    · intro h
      by_contra hlt
      push Not at hlt
      have : 2 ^ (256 - c.difficulty) ≤ 2 ^ (255 - leading_zeros x) := Nat.pow_le_pow_right (by norm_num) (by omega)
      omega

/-- the invariant of the search for the least valid nonce `m` -/
structure Inv (valid : Nat → Bool) (m : Nat) {N : Nat} (s : PState N) : Prop where
  ne : s.hist ≠ []
  values : ∀ v ∈ s.hist, v = U64MAX ∨ valid v = true
  sorted : s.hist.Pairwise (· < ·)
  threads : ∀ i, match s.pc i with
    | .check n => n ≤ U64MAX | .minLoad n => valid n = true ∧ n ≤ U64MAX | .minLoop n p => valid n = true ∧ n ≤ U64MAX ∧ p ∈ s.hist
    | .test n => n ≤ U64MAX | .done => True | .panicked => True
  seeker : ∀ i : Fin N, i.val = m % N → m ∈ s.hist ∨ (match s.pc i with
    | .check n => n ≤ m ∧ n % N = i | .minLoad n => n = m | .minLoop n _ => n = m | .test n => n < m ∧ n % N = i
    | .done => False | .panicked => False)

theorem Inv.lower {valid : Nat → Bool} {m N : Nat} {s : PState N} (h : Inv valid m s) (hm : m ≤ U64MAX)
    (hmin : ∀ j < m, valid j = false) : ∀ v ∈ s.hist, m ≤ v := by
  intro v hv
  rcases h.values v hv with e | e
  · omega
  · by_contra hlt
    rw [hmin v (by omega)] at e
    cases e

theorem inv_step (dbg : Bool) (valid : Nat → Bool) {N : Nat} (hN : 0 < N) (m : Nat) (hm : m ≤ U64MAX) (hv : valid m = true)
    (hmin : ∀ j < m, valid j = false) (s t : PState N) (h : Inv valid m s) (hst : Step dbg valid s t) : Inv valid m t := by
  have hlow := h.lower hm hmin
  -- threads other than the one that moves
  have upd : ∀ (hist : List Nat) (i : Fin N) (p : PC), (∀ v, v ∈ s.hist → v ∈ hist) →
      (match p with
        | .check n => n ≤ U64MAX | .minLoad n => valid n = true ∧ n ≤ U64MAX | .minLoop n v => valid n = true ∧ n ≤ U64MAX ∧ v ∈ hist
        | .test n => n ≤ U64MAX | .done => True | .panicked => True) →
      (i.val = m % N → m ∈ hist ∨ (match p with
        | .check n => n ≤ m ∧ n % N = i | .minLoad n => n = m | .minLoop n _ => n = m | .test n => n < m ∧ n % N = i
        | .done => False | .panicked => False)) →
      hist ≠ [] → (∀ v ∈ hist, v = U64MAX ∨ valid v = true) → hist.Pairwise (· < ·) →
      Inv valid m ⟨hist, Function.update s.pc i p⟩ := by
    intro hist i p hsub hp hs h1 h2 h3
    refine ⟨h1, h2, h3, ?_, ?_⟩
    · intro j
      by_cases e : j = i
      · subst e; simp only [Function.update_self]; exact hp
      · simp only [Function.update_of_ne e]
        have := h.threads j
        revert this
        cases s.pc j with
        | minLoop n p => exact fun this => ⟨this.1, this.2.1, hsub _ this.2.2⟩
        | _ => exact id
    · intro j hj
      by_cases e : j = i
      · subst e; simp only [Function.update_self]; exact hs hj
      · simp only [Function.update_of_ne e]
        rcases h.seeker j hj with hh | hh
        · exact Or.inl (hsub m hh)
        · exact Or.inr hh
  cases hst with
  | check_valid i n hp hvn =>
    have ht := h.threads i
    rw [hp] at ht
    refine upd _ i _ (fun _ hv => hv) ⟨hvn, ht⟩ ?_ h.ne h.values h.sorted
    intro hi
    have hs := h.seeker i hi
    rw [hp] at hs
    refine hs.imp id (fun hs => ?_)
    by_contra hne
    simp only at hs hne
    rw [hmin n (by omega)] at hvn
    cases hvn
  | check_invalid i n hp hvn =>
    have ht := h.threads i
    rw [hp] at ht
    refine upd _ i _ (fun _ hv => hv) ht ?_ h.ne h.values h.sorted
    intro hi
    have hs := h.seeker i hi
    rw [hp] at hs
    refine hs.imp id (fun hs => ?_)
    simp only at hs ⊢
    have : n ≠ m := by rintro rfl; rw [hv] at hvn; cases hvn
    exact ⟨by omega, hs.2⟩
  | load i n v hp hvm =>
    have ht := h.threads i
    rw [hp] at ht
    refine upd _ i _ (fun _ hv => hv) ⟨ht.1, ht.2, hvm⟩ ?_ h.ne h.values h.sorted
    intro hi
    have hs := h.seeker i hi
    rw [hp] at hs
    exact hs
  | min_exit i n prev hp hle =>
    have ht := h.threads i
    rw [hp] at ht
    refine upd _ i _ (fun _ hv => hv) ht.2.1 ?_ h.ne h.values h.sorted
    intro hi
    have hs := h.seeker i hi
    rw [hp] at hs
    left
    rcases hs with hs | hs
    · exact hs
    · simp only at hs
      have h1 := hlow prev ht.2.2
      have h2 : prev = m := by omega
      exact h2 ▸ ht.2.2
  | cas_success i n prev hp hgt hhead =>
    have ht := h.threads i
    rw [hp] at ht
    have hs' : ∀ v ∈ s.hist, prev ≤ v := by
      intro v hvm
      cases hh : s.hist with
      | nil => exact absurd hh h.ne
      | cons a l =>
        rw [hh] at hhead hvm
        simp only [List.head?_cons, Option.some.injEq] at hhead
        subst hhead
        have := h.sorted
        rw [hh, List.pairwise_cons] at this
        rcases List.mem_cons.1 hvm with rfl | hvm
        · exact le_rfl
        · exact (this.1 v hvm).le
    refine upd _ i _ (fun v hv => by simp [hv]) ht.2.1 ?_ (by simp) ?_ ?_
    · intro hi
      have hs := h.seeker i hi
      rw [hp] at hs
      left
      rcases hs with hs | hs
      · simp [hs]
      · simp only at hs; simp [hs]
    · intro v hvm
      rcases List.mem_cons.1 hvm with rfl | hvm
      · exact Or.inr ht.1
      · exact h.values v hvm
    · rw [List.pairwise_cons]
      exact ⟨fun v hv => lt_of_lt_of_le hgt (hs' v hv), h.sorted⟩
  | cas_failure i n prev v hp hgt hvm =>
    have ht := h.threads i
    rw [hp] at ht
    refine upd _ i _ (fun _ hv => hv) ⟨ht.1, ht.2.1, hvm⟩ ?_ h.ne h.values h.sorted
    intro hi
    have hs := h.seeker i hi
    rw [hp] at hs
    exact hs
  | test_break i n v hp hvm hge =>
    refine upd _ i _ (fun _ hv => hv) trivial ?_ h.ne h.values h.sorted
    intro hi
    have hs := h.seeker i hi
    rw [hp] at hs
    rcases hs with hs | hs
    · exact Or.inl hs
    · simp only at hs
      have := hlow v hvm
      omega
  | test_next i n v hp hvm hlt =>
    have ht := h.threads i
    rw [hp] at ht
    simp only at ht
    by_cases hw : n + N < 2 ^ 64
    · rw [if_pos hw]
      refine upd _ i _ (fun _ hv => hv) (by simp only [U64MAX]; omega) ?_ h.ne h.values h.sorted
      intro hi
      have hs := h.seeker i hi
      rw [hp] at hs
      refine hs.imp id (fun hs => ?_)
      simp only at hs ⊢
      rw [Nat.add_mod_right]
      refine ⟨?_, hs.2⟩
      have hmod : n ≡ m [MOD N] := hs.2.trans hi
      have := (Nat.modEq_iff_dvd' hs.1.le).1 hmod
      have := Nat.le_of_dvd (by omega) this
      omega
    · have no : i.val = m % N → m ∈ s.hist := by
        intro hi
        have hs := h.seeker i hi
        rw [hp] at hs
        rcases hs with hs | hs
        · exact hs
        · simp only at hs
          have hmod : n ≡ m [MOD N] := hs.2.trans hi
          have := (Nat.modEq_iff_dvd' hs.1.le).1 hmod
          have := Nat.le_of_dvd (by omega) this
          unfold U64MAX at hm
          omega
      rw [if_neg hw]
      cases dbg
      · refine upd _ i _ (fun _ hv => hv) ?_ (fun hi => Or.inl (no hi)) h.ne h.values h.sorted
        have := Nat.mod_lt (n + N) (show 0 < 2 ^ 64 by norm_num)
        simp only [U64MAX]
        simp only [Bool.false_eq_true, if_false]
        omega
      · exact upd _ i _ (fun _ hv => hv) trivial (fun hi => Or.inl (no hi)) h.ne h.values h.sorted

theorem inv_reachable (dbg : Bool) (valid : Nat → Bool) {N : Nat} (hN : 0 < N) (hN' : N ≤ 2 ^ 64) (m : Nat) (hm : m ≤ U64MAX) (hv : valid m = true)
    (hmin : ∀ j < m, valid j = false) (s : PState N) (h : Reachable dbg valid s) : Inv valid m s := by
  induction h with
  | init =>
    refine ⟨by simp [PState.init], by simp [PState.init], by simp [PState.init], ?_, ?_⟩
    · intro i
      show i.val ≤ U64MAX
      have := i.isLt
      unfold U64MAX
      omega
    · intro i hi
      right
      show i.val ≤ m ∧ i.val % N = i
      exact ⟨by rw [hi]; exact Nat.mod_le _ _, Nat.mod_eq_of_lt i.isLt⟩
  | step _ hs ih => exact inv_step dbg valid hN m hm hv hmin _ _ ih hs

/-- C36: With any number of threads, in every interleaving — including stale relaxed reads, spurious failures of the
compare-exchange and the wrap-around of a nonce past `u64::MAX` — once all threads have finished, the nonce returned is
the least one that `verify` accepts. -/
theorem C36_parallel (dbg : Bool) (c : Challenge) {N : Nat} (hN : 0 < N) (hN' : N ≤ 2 ^ 64)
    (hex : ∃ n, n < 2 ^ 64 ∧ c.verify K n = true) (s : PState N) (h : Reachable dbg (c.verify K) s)
    (hdone : ∀ i, s.pc i = .done) :
    ∃ m, s.result = some m ∧ m < 2 ^ 64 ∧ c.verify K m = true ∧ ∀ j < m, c.verify K j = false := by
  classical
  have hex' : ∃ n, c.verify K n = true := ⟨_, hex.choose_spec.2⟩
  have hm : Nat.find hex' ≤ U64MAX := by
    have := Nat.find_min' hex' hex.choose_spec.2
    have := hex.choose_spec.1
    unfold U64MAX; omega
  have hmin : ∀ j < Nat.find hex', c.verify K j = false := fun j hj => by
    have := Nat.find_min hex' hj
    simpa using this
  have hv := Nat.find_spec hex'
  generalize Nat.find hex' = m at *
  have I := inv_reachable dbg (c.verify K) hN hN' m hm hv hmin s h
  have hmem : m ∈ s.hist := by
    have := I.seeker ⟨m % N, Nat.mod_lt _ hN⟩ rfl
    rw [hdone] at this
    simpa using this
  refine ⟨m, ?_, by unfold U64MAX at hm; omega, hv, hmin⟩
  unfold PState.result
  cases hh : s.hist with
  | nil => exact absurd hh I.ne
  | cons a l =>
    have hs := I.sorted
    rw [hh, List.pairwise_cons] at hs
    have hl := I.lower hm hmin a (by rw [hh]; simp)
    rw [hh] at hmem
    rcases List.mem_cons.1 hmem with e | e
    · rw [e]; rfl
    · have := hs.1 m e
      omega

/-- C36: the sequential solver also returns the least nonce that `verify` accepts. -/
theorem C36_sequential (c : Challenge) (hex : ∃ n, n < 2 ^ 64 ∧ c.verify K n = true) :
    ∃ m, solveSequential (c.verify K) = some m ∧ m < 2 ^ 64 ∧ c.verify K m = true ∧ ∀ j < m, c.verify K j = false := by
  obtain ⟨n, hn, hv⟩ := hex
  have gen : ∀ (fuel start : Nat), start ≤ n → n < start + fuel →
      ∃ m, solveFrom (c.verify K) fuel start = some m ∧ m ≤ n ∧ c.verify K m = true ∧ ∀ j, start ≤ j → j < m → c.verify K j = false := by
    intro fuel
    induction fuel with
    | zero => intro start h1 h2; omega
    | succ fuel ih =>
      intro start h1 h2
      rw [solveFrom]
      by_cases hs : c.verify K start = true
      · rw [if_pos hs]
        exact ⟨start, rfl, h1, hs, fun j a b => by omega⟩
      · rw [if_neg hs]
        have : start ≠ n := by rintro rfl; exact hs hv
        obtain ⟨m, e1, e2, e3, e4⟩ := ih (start + 1) (by omega) (by omega)
        refine ⟨m, e1, e2, e3, fun j a b => ?_⟩
        by_cases hj : j = start
        · rw [hj]; simpa using hs
        · exact e4 j (by omega) b
  obtain ⟨m, e1, e2, e3, e4⟩ := gen (2 ^ 64) 0 (by omega) (by omega)
  exact ⟨m, e1, by omega, e3, fun j hj => e4 j (by omega) hj⟩

/-- C36: no thread that has neither finished nor panicked is ever blocked, and a thread makes a step. -/
theorem C36_no_deadlock (dbg : Bool) (valid : Nat → Bool) {N : Nat} (s : PState N) (h : Reachable dbg valid s) (i : Fin N)
    (hi : s.pc i ≠ .done) (hp : s.pc i ≠ .panicked) : ∃ t, Step dbg valid s t ∧ t.pc i ≠ s.pc i := by
  have hne : s.hist ≠ [] := by
    clear hi hp
    induction h with
    | init => simp [PState.init]
    | step _ hs ih => cases hs <;> simp_all
  obtain ⟨a, l, hh⟩ := List.exists_cons_of_ne_nil hne
  have ha : a ∈ s.hist := by rw [hh]; simp
  cases e : s.pc i with
  | done => exact absurd e hi
  | panicked => exact absurd e hp
  | check n =>
    cases hv : valid n with
    | true => exact ⟨_, .check_valid s i n e hv, by simp⟩
    | false => exact ⟨_, .check_invalid s i n e hv, by simp⟩
  | minLoad n => exact ⟨_, .load s i n a e ha, by simp⟩
  | minLoop n p =>
    by_cases hp : p > n
    · by_cases h2 : a = p
      · subst h2
        exact ⟨_, .cas_success s i n a e hp (by rw [hh]; rfl), by simp⟩
      · exact ⟨_, .cas_failure s i n p a e hp ha, by simpa using h2⟩
    · exact ⟨_, .min_exit s i n p e hp, by simp⟩
  | test n =>
    by_cases hp : n ≥ a
    · exact ⟨_, .test_break s i n a e ha hp, by simp⟩
    · refine ⟨_, .test_next s i n a e ha hp, ?_⟩
      simp only [Function.update_self]
      split
      · simp
      · split <;> simp

/-- the work left to a thread -/
def _root_.OpenZKP.Stark.PC.work : PC → Nat
  | .check n => 4 * (2 ^ 64 - n) + 3
  | .minLoad n => 4 * (2 ^ 64 - n) + 2
  | .minLoop n _ => 4 * (2 ^ 64 - n) + 1
  | .test n => 4 * (2 ^ 64 - n)
  | .done => 0
  | .panicked => 0

/-- the work left -/
def work {N : Nat} (s : PState N) : Nat := ∑ i, (s.pc i).work

theorem work_update {N : Nat} (pc : Fin N → PC) (i : Fin N) (p : PC) (h : p.work < (pc i).work) (h1 h2 : List Nat) :
    work ⟨h1, Function.update pc i p⟩ < work ⟨h2, pc⟩ := by
  unfold work
  apply Finset.sum_lt_sum
  · intro j _
    by_cases e : j = i
    · subst e; simp only [Function.update_self]; exact h.le
    · simp only [Function.update_of_ne e]; exact le_rfl
  · exact ⟨i, Finset.mem_univ i, by simp only [Function.update_self]; exact h⟩

/-- C36 (termination): in a build with overflow checks, every step other than a failing compare-exchange decreases a
natural number, and a failing one does not increase it. So an execution that never ends fails a compare-exchange
infinitely often. -/
theorem C36_progress (valid : Nat → Bool) {N : Nat} (hN : 0 < N) (hN' : N ≤ 2 ^ 64) (s t : PState N)
    (hs : Reachable true valid s) (h : Step true valid s t) :
    work t < work s ∨ (work t = work s ∧ t.hist = s.hist ∧ ∃ i n p v, s.pc i = .minLoop n p ∧ t.pc = Function.update s.pc i (.minLoop n v)) := by
  have bound : ∀ i, match s.pc i with
      | .check n => n < 2 ^ 64 | .minLoad n => n < 2 ^ 64 | .minLoop n _ => n < 2 ^ 64 | .test n => n < 2 ^ 64
      | .done => True | .panicked => True := by
    clear h t
    induction hs with
    | init =>
      intro i
      show i.val < 2 ^ 64
      exact lt_of_lt_of_le i.isLt hN'
    | step _ h ih =>
      intro j
      cases h with
      | test_next i n v hp _ _ =>
        by_cases e : j = i
        · subst e
          simp only [Function.update_self]
          by_cases hw : n + N < 2 ^ 64
          · rw [if_pos hw]; exact hw
          · rw [if_neg hw]; simp
        · simp only [Function.update_of_ne e]; exact ih j
      | _ i =>
        have := ih i
        by_cases e : j = i
        · subst e
          simp_all
        · simp only [Function.update_of_ne e]; exact ih j
  cases h with
  | check_valid i n hp _ => exact Or.inl (work_update _ i _ (by rw [hp]; simp [PC.work]) _ _)
  | check_invalid i n hp _ => exact Or.inl (work_update _ i _ (by rw [hp]; simp [PC.work]) _ _)
  | load i n v hp _ => exact Or.inl (work_update _ i _ (by rw [hp]; simp [PC.work]) _ _)
  | min_exit i n p hp _ => exact Or.inl (work_update _ i _ (by rw [hp]; simp [PC.work]) _ _)
  | cas_success i n p hp _ _ => exact Or.inl (work_update _ i _ (by rw [hp]; simp [PC.work]) _ _)
  | test_break i n v hp _ _ =>
    have := bound i
    rw [hp] at this
    exact Or.inl (work_update _ i _ (by rw [hp]; simp only [PC.work] at *; omega) _ _)
  | test_next i n v hp _ _ =>
    have := bound i
    rw [hp] at this
    refine Or.inl (work_update _ i _ ?_ _ _)
    rw [hp]
    split
    · simp only [PC.work] at *; omega
    · rw [if_pos rfl]; simp only [PC.work] at *; omega
  | cas_failure i n p v hp _ _ =>
    refine Or.inr ⟨?_, rfl, i, n, p, v, hp, rfl⟩
    unfold work
    apply Finset.sum_congr rfl
    intro j _
    by_cases e : j = i
    · subst e; simp only [Function.update_self, hp, PC.work]
    · simp only [Function.update_of_ne e]

end

/-- two threads, the nonces 3 and 6 valid: a run in which thread 0 starts from a stale read and is overtaken -/
example : ∃ s : PState 2, Reachable true (fun n => n == 3 || n == 6) s ∧ (∀ i, s.pc i = .done) ∧ s.hist = [3, 6, U64MAX] := by
  have r0 := Reachable.init (dbg := true) (valid := fun n => n == 3 || n == 6) (N := 2)
  have r1 := r0.step (.check_invalid _ 0 0 rfl rfl)
  have r2 := r1.step (.test_next _ 0 0 U64MAX rfl (by simp [PState.init]) (by decide))
  have r3 := r2.step (.check_invalid _ 0 2 rfl rfl)
  have r4 := r3.step (.test_next _ 0 2 U64MAX rfl (by simp [PState.init]) (by decide))
  have r5 := r4.step (.check_invalid _ 0 4 rfl rfl)
  have r6 := r5.step (.test_next _ 0 4 U64MAX rfl (by simp [PState.init]) (by decide))
  have r7 := r6.step (.check_valid _ 0 6 rfl rfl)
  have r8 := r7.step (.load _ 0 6 U64MAX rfl (by simp [PState.init]))
  have r9 := r8.step (.cas_failure _ 0 6 U64MAX U64MAX rfl (by decide) (by simp [PState.init]))
  have r10 := r9.step (.cas_success _ 0 6 U64MAX rfl (by decide) rfl)
  have r11 := r10.step (.test_break _ 0 6 6 rfl (by simp) (by decide))
  have r12 := r11.step (.check_invalid _ 1 1 rfl rfl)
  have r13 := r12.step (.test_next _ 1 1 6 rfl (by simp) (by decide))
  have r14 := r13.step (.check_valid _ 1 3 rfl rfl)
  have r15 := r14.step (.load _ 1 3 6 rfl (by simp))
  have r16 := r15.step (.cas_success _ 1 3 6 rfl (by decide) rfl)
  have r17 := r16.step (.test_break _ 1 3 3 rfl (by simp) (by decide))
  refine ⟨_, r17, ?_, rfl⟩
  intro i
  match i with
  | 0 => rfl
  | 1 => rfl

-- a challenge with a solution below the hash bound
example : (Challenge.mk (List.replicate 32 0) 250).verify toyKeccak 5 = true := by decide +kernel

end Props
end OpenZKP
