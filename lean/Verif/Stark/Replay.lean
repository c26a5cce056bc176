import Verif.Stark.Prover
import Verif.Stark.ChannelLemmas

/-!
Lemmas: the verifier reads back what the prover wrote.  `pc` ranges over the states of the prover's channel, `full` is the finished proof.
-/

namespace OpenZKP
namespace Stark
open FFT U256

/-- a verifier that has read the prefix `pre` of the proof `full` -/
def vch (coin : PublicCoin) (full pre : Bytes) : VerifierChannel := ⟨coin, full, pre.length⟩

/-- the verifier in step with the prover -/
def vat (pc : ProverChannel) (full : Bytes) : VerifierChannel := vch pc.coin full pc.proof

theorem read_pre (K : Keccak) {coin : PublicCoin} {pre data full : Bytes} (h : pre ++ data <+: full) :
    (vch coin full pre).read K data.length = some (data, vch (coin.write K data) full (pre ++ data)) := by
  obtain ⟨rest, rfl⟩ := h
  have hd : ((pre ++ data ++ rest).drop pre.length).take data.length = data := by
    rw [List.append_assoc, List.drop_left, List.take_left]
  unfold VerifierChannel.read vch
  rw [if_pos (by simp only [List.length_append]; omega)]
  simp only [hd, List.length_append]

theorem replayHash_pre (K : Keccak) {coin : PublicCoin} {pre data full : Bytes} (hl : data.length = 32) (h : pre ++ data <+: full) :
    (vch coin full pre).replayHash K = some (data, vch (coin.write K data) full (pre ++ data)) := by
  unfold VerifierChannel.replayHash
  rw [← hl]
  exact read_pre K h

theorem replayResponse_pre (K : Keccak) {coin : PublicCoin} {pre full : Bytes} {n : Nat} (hn : n < 2 ^ 64) (h : pre ++ to_be_bytes 8 n <+: full) :
    (vch coin full pre).replayResponse K = some (n, vch (coin.write K (to_be_bytes 8 n)) full (pre ++ to_be_bytes 8 n)) := by
  unfold VerifierChannel.replayResponse
  have := read_pre K (coin := coin) h
  rw [to_be_bytes_length] at this
  rw [this, Option.map_some, u64_roundtrip n hn]

section
variable {F : Type} [Field F] [DecidableEq F] (env : Env F)

/-- the bytes of a field element -/
def fieldBytes (x : F) : Bytes := to_bytes_be (env.codec.rep x)

/-- the bytes of field elements -/
def fieldsBytes (xs : List F) : Bytes := (xs.map env.codec.rep).flatMap to_bytes_be

omit [DecidableEq F] [Field F] in
theorem fieldBytes_length (x : F) : (fieldBytes env x).length = 32 := to_bytes_be_length _

omit [DecidableEq F] [Field F] in
theorem fieldsBytes_length (xs : List F) : (fieldsBytes env xs).length = 32 * xs.length := by
  unfold fieldsBytes; rw [flatMap_length, List.length_map]

omit [DecidableEq F] [Field F] in
theorem readField_pre {coin : PublicCoin} {pre full : Bytes} {x : F} (h : pre ++ fieldBytes env x <+: full) :
    (vch coin full pre).readField env = some (x, vch (coin.write env.K (fieldBytes env x)) full (pre ++ fieldBytes env x)) := by
  have h1 := read_pre env.K (coin := coin) h
  rw [fieldBytes_length] at h1
  unfold VerifierChannel.readField VerifierChannel.replayField VerifierChannel.replayU256
  rw [h1, Option.bind_some]
  show Option.map _ (Option.bind (Option.map _ (from_bytes_be (to_bytes_be (env.codec.rep x)))) _) = _
  rw [from_to_bytes, Option.map_some, Option.bind_some, fromMontgomery_canon true (env.codec.rep_lt x)]
  simp only [Option.map_some, env.codec.val_rep]

omit [DecidableEq F] [Field F] in
theorem readLayer_pre {coin : PublicCoin} {pre full : Bytes} {xs : List F} (h : pre ++ fieldsBytes env xs <+: full) :
    (vch coin full pre).readLayer env xs.length = some (xs, vch (coin.write env.K (fieldsBytes env xs)) full (pre ++ fieldsBytes env xs)) := by
  have h1 := read_pre env.K (coin := coin) h
  rw [fieldsBytes_length] at h1
  unfold VerifierChannel.readLayer VerifierChannel.replayLayer
  rw [h1, Option.bind_some]
  show Option.map _ (Option.map _ (List.mapM _ (VerifierChannel.chunks32 xs.length (fieldsBytes env xs)))) = _
  have e : VerifierChannel.chunks32 xs.length (fieldsBytes env xs) = (xs.map env.codec.rep).map to_bytes_be := by
    have := chunks_flatMap (xs.map env.codec.rep)
    rw [List.length_map] at this
    exact this
  rw [e, List.mapM_map, option_mapM_some _ id _ (fun x hx => by
    obtain ⟨y, _, rfl⟩ := List.mem_map.1 hx
    simp only [Function.comp_apply, id]
    rw [from_to_bytes, Option.bind_some, fromMontgomery_canon true (env.codec.rep_lt y)]), List.map_id]
  simp only [Option.map_some, List.map_map]
  congr 2
  conv_rhs => rw [← List.map_id xs]
  exact List.map_congr_left fun x _ => env.codec.val_rep x

/-! ## In step -/

omit [DecidableEq F] [Field F] in
theorem getField_at {pc pc' : ProverChannel} {x : F} (full : Bytes) (h : pc.getField env = some (x, pc')) :
    (vat pc full).getField env = some (x, vat pc' full) ∧ pc'.proof = pc.proof := by
  unfold ProverChannel.getField at h
  obtain ⟨r, h1, h2⟩ := Option.map_eq_some_iff.1 h
  cases h2
  refine ⟨?_, rfl⟩
  unfold VerifierChannel.getField
  show Option.map _ (pc.coin.randomField env.K) = _
  rw [h1]
  rfl

omit [DecidableEq F] [Field F] in
theorem getFields_at {pc pc' : ProverChannel} {n : Nat} {x : List F} (full : Bytes) (h : pc.getFields env n = some (x, pc')) :
    (vat pc full).getFields env n = some (x, vat pc' full) ∧ pc'.proof = pc.proof := by
  unfold ProverChannel.getFields at h
  obtain ⟨r, h1, h2⟩ := Option.map_eq_some_iff.1 h
  cases h2
  refine ⟨?_, rfl⟩
  unfold VerifierChannel.getFields
  show Option.map _ (pc.coin.randomFields env.K n) = _
  rw [h1]
  rfl

theorem randomFields_add (K : Keccak) (m n : Nat) (c : PublicCoin) :
    PublicCoin.randomFields K (m + n) c =
      (PublicCoin.randomFields K m c).bind fun r => (PublicCoin.randomFields K n r.2).map fun s => (r.1 ++ s.1, s.2) := by
  induction m generalizing c with
  | zero =>
    rw [Nat.zero_add]
    show _ = Option.bind (some ([], c)) _
    rw [Option.bind_some]
    cases PublicCoin.randomFields K n c <;> rfl
  | succ m ih =>
    rw [Nat.succ_add, PublicCoin.randomFields, PublicCoin.randomFields]
    cases PublicCoin.randomField K c with
    | none => rfl
    | some r =>
      rw [Option.bind_some, Option.bind_some, ih]
      cases PublicCoin.randomFields K m r.2 with
      | none => rfl
      | some s =>
        rw [Option.bind_some, Option.map_some, Option.bind_some]
        cases PublicCoin.randomFields K n s.2 <;> rfl

omit [DecidableEq F] [Field F] in
/-- two batches of coefficients are one batch -/
theorem getFields_two {pc pc1 pc2 : ProverChannel} {m n : Nat} {x y : List F} (h1 : pc.getFields env m = some (x, pc1))
    (h2 : pc1.getFields env n = some (y, pc2)) : pc.getFields env (m + n) = some (x ++ y, pc2) := by
  unfold ProverChannel.getFields at h1 h2 ⊢
  obtain ⟨r, e1, e2⟩ := Option.map_eq_some_iff.1 h1
  cases e2
  obtain ⟨s, e3, e4⟩ := Option.map_eq_some_iff.1 h2
  cases e4
  rw [randomFields_add, e1, Option.bind_some]
  dsimp only at e3
  rw [e3]
  simp

theorem getSeed_at {pc pc' : ProverChannel} {x : Bytes} (full : Bytes) (h : pc.getSeed = some (x, pc')) :
    (vat pc full).getSeed = some (x, vat pc' full) ∧ pc'.proof = pc.proof := by
  unfold ProverChannel.getSeed at h
  obtain ⟨r, h1, h2⟩ := Option.map_eq_some_iff.1 h
  cases h2
  refine ⟨?_, rfl⟩
  unfold VerifierChannel.getSeed
  show Option.map _ pc.coin.randomSeed = _
  rw [h1]
  rfl

omit [DecidableEq F] [Field F] in
theorem writeField_proof (pc : ProverChannel) (x : F) : (pc.writeField env x).proof = pc.proof ++ fieldBytes env x := rfl

omit [DecidableEq F] [Field F] in
theorem writeField_at {pc : ProverChannel} {x : F} {full : Bytes} (h : (pc.writeField env x).proof <+: full) :
    (vat pc full).readField env = some (x, vat (pc.writeField env x) full) := readField_pre env h

omit [DecidableEq F] [Field F] in
/-- what a run of single elements adds to the proof -/
theorem writeFields_proof {α : Type} (f : α → F) (l : List α) (pc : ProverChannel) :
    (l.foldl (fun ch a => ch.writeField env (f a)) pc).proof = pc.proof ++ l.flatMap fun a => fieldBytes env (f a) := by
  induction l generalizing pc with
  | nil => simp
  | cons a l ih => rw [List.foldl_cons, ih, writeField_proof, List.flatMap_cons, List.append_assoc]

omit [DecidableEq F] [Field F] in
theorem readFields_at {α : Type} (f : α → F) (l : List α) (pc : ProverChannel) (full : Bytes)
    (h : (l.foldl (fun ch a => ch.writeField env (f a)) pc).proof <+: full) :
    (vat pc full).readFields env l.length = some (l.map f, vat (l.foldl (fun ch a => ch.writeField env (f a)) pc) full) := by
  unfold VerifierChannel.readFields
  induction l generalizing pc with
  | nil => rfl
  | cons a l ih =>
    have h0 : (pc.writeField env (f a)).proof <+: full := by
      rw [List.foldl_cons, writeFields_proof] at h
      exact (List.prefix_append _ _).trans h
    rw [List.length_cons, VerifierChannel.replayMany, writeField_at env h0, Option.bind_some, ih _ h]
    rfl

/-! ## After the queries are drawn the coins differ -/

omit [DecidableEq F] [Field F] in
theorem writeLeaf_proof (pc : ProverChannel) (xs : List F) : (pc.writeLeaf env xs).proof = pc.proof ++ fieldsBytes env xs := by
  unfold ProverChannel.writeLeaf ProverChannel.writeU256s fieldsBytes
  generalize xs.map env.codec.rep = l
  induction l generalizing pc with
  | nil => simp
  | cons a l ih =>
    rw [List.foldl_cons, ih, List.flatMap_cons, ← List.append_assoc]
    rfl

omit [DecidableEq F] [Field F] in
theorem writeLeaves_proof (l : List (List F)) (pc : ProverChannel) :
    (l.foldl (fun ch v => ch.writeLeaf env v) pc).proof = pc.proof ++ l.flatMap (fieldsBytes env) := by
  induction l generalizing pc with
  | nil => simp
  | cons a l ih => rw [List.foldl_cons, ih, writeLeaf_proof, List.flatMap_cons, List.append_assoc]

theorem writeHashes_proof (K : Keccak) (l : List Bytes) (pc : ProverChannel) : (pc.writeHashes K l).proof = pc.proof ++ l.flatten := by
  unfold ProverChannel.writeHashes
  induction l generalizing pc with
  | nil => simp
  | cons a l ih =>
    rw [List.foldl_cons, ih, List.flatten_cons, ← List.append_assoc]
    rfl

omit [DecidableEq F] [Field F] in
theorem readHashes_pre (l : List Bytes) (hl : ∀ h ∈ l, h.length = 32) (coin : PublicCoin) (pre full : Bytes) (h : pre ++ l.flatten <+: full) :
    ∃ coin', (vch coin full pre).readHashes env l.length = some (l, vch coin' full (pre ++ l.flatten)) := by
  unfold VerifierChannel.readHashes
  induction l generalizing coin pre with
  | nil => exact ⟨coin, by simp [VerifierChannel.replayMany]⟩
  | cons a l ih =>
    rw [List.flatten_cons, ← List.append_assoc] at h
    obtain ⟨coin', e⟩ := ih (fun x hx => hl x (by simp [hx])) (coin.write env.K a) (pre ++ a) h
    refine ⟨coin', ?_⟩
    rw [List.length_cons, VerifierChannel.replayMany, replayHash_pre env.K (hl a (by simp)) ((List.prefix_append _ _).trans h),
      Option.bind_some, e]
    simp

omit [DecidableEq F] [Field F] in
theorem readLeaves_pre (width : Nat) (get : Nat → List F) (is : List Nat) (hw : ∀ i ∈ is, (get i).length = width) (coin : PublicCoin)
    (pre full : Bytes) (h : pre ++ (is.map get).flatMap (fieldsBytes env) <+: full) :
    ∃ coin', readLeaves env width is (vch coin full pre) =
      .ok (is.map fun i => (i, get i), vch coin' full (pre ++ (is.map get).flatMap (fieldsBytes env))) := by
  induction is generalizing coin pre with
  | nil => exact ⟨coin, by simp [readLeaves]⟩
  | cons i is ih =>
    rw [List.map_cons, List.flatMap_cons, ← List.append_assoc] at h
    obtain ⟨coin', e⟩ := ih (fun x hx => hw x (by simp [hx])) (coin.write env.K (fieldsBytes env (get i))) (pre ++ fieldsBytes env (get i)) h
    refine ⟨coin', ?_⟩
    have e1 := readLayer_pre env (coin := coin) ((List.prefix_append _ _).trans h)
    rw [hw i (by simp)] at e1
    rw [readLeaves, e1]
    simp only [orPanic, Except.bind, e]
    simp [Except.map]

end

end Stark
end OpenZKP
