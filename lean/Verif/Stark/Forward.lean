import Verif.Stark.AcceptMain
import Verif.Stark.CompleteMain

/-!
Lemmas: on the bytes of a proof's parts, the verifier's channel reads the parts.
-/

namespace OpenZKP
namespace Stark
namespace Accept
open FFT U256 Props Merkle

theorem words_length (us : List U256) : (words us).length = 32 * us.length := by
  unfold words; exact flatMap_length us

section
variable {F : Type} [Field F] [DecidableEq F] (env : Env F)

omit [Field F] [DecidableEq F] in
theorem fwd_field {coin : PublicCoin} {pre full : Bytes} {u : U256} (hu : u.toNat < PF.BASE.modulus.toNat) (h : pre ++ to_bytes_be u <+: full) :
    (vch coin full pre).readField env = some (env.codec.val u, vch (coin.write env.K (to_bytes_be u)) full (pre ++ to_bytes_be u)) := by
  have h1 := read_pre env.K (coin := coin) h
  rw [to_bytes_be_length] at h1
  unfold VerifierChannel.readField VerifierChannel.replayField VerifierChannel.replayU256
  rw [h1, Option.bind_some]
  dsimp only
  rw [from_to_bytes, Option.map_some, Option.bind_some, fromMontgomery_canon true hu]
  rfl

omit [Field F] [DecidableEq F] in
theorem fwd_fields : ∀ (us : List U256) (_ : Reduced us) (coin : PublicCoin) (pre full : Bytes), pre ++ words us <+: full →
    (vch coin full pre).readFields env us.length =
      some (us.map env.codec.val, vch ((us.map to_bytes_be).foldl (PublicCoin.write env.K) coin) full (pre ++ words us)) := by
  intro us
  induction us with
  | nil => intro _ coin pre full _; simp [VerifierChannel.readFields, VerifierChannel.replayMany, words]
  | cons u us ih =>
    intro hr coin pre full h
    rw [words_cons, ← List.append_assoc] at h ⊢
    have e := ih (fun x hx => hr x (by simp [hx])) (coin.write env.K (to_bytes_be u)) (pre ++ to_bytes_be u) full h
    unfold VerifierChannel.readFields at e ⊢
    rw [List.length_cons, VerifierChannel.replayMany, fwd_field env (hr u (by simp)) ((List.prefix_append _ _).trans h), Option.bind_some]
    dsimp only
    rw [e]
    rfl

omit [Field F] [DecidableEq F] in
theorem fwd_layer {coin : PublicCoin} {pre full : Bytes} {us : List U256} (hr : Reduced us) (h : pre ++ words us <+: full) :
    (vch coin full pre).readLayer env us.length = some (us.map env.codec.val, vch (coin.write env.K (words us)) full (pre ++ words us)) := by
  have h1 := read_pre env.K (coin := coin) h
  rw [words_length] at h1
  unfold VerifierChannel.readLayer VerifierChannel.replayLayer
  rw [h1, Option.bind_some]
  dsimp only
  have e : VerifierChannel.chunks32 us.length (words us) = us.map to_bytes_be := chunks_flatMap us
  rw [e, List.mapM_map, option_mapM_some _ id _ (fun x hx => by
    simp only [Function.comp_apply, id]
    rw [from_to_bytes, Option.bind_some, fromMontgomery_canon true (hr x hx)]), List.map_id]
  rfl

omit [Field F] [DecidableEq F] in
theorem fwd_leaves (width : Nat) : ∀ (is : List Nat) (rows : List (List U256)), rows.length = is.length → (∀ r ∈ rows, r.length = width ∧ Reduced r) →
    ∀ (coin : PublicCoin) (pre full : Bytes), pre ++ rows.flatMap words <+: full →
    ∃ coin', readLeaves env width is (vch coin full pre) = .ok (is.zip (rows.map (·.map env.codec.val)), vch coin' full (pre ++ rows.flatMap words)) := by
  intro is
  induction is with
  | nil =>
    intro rows hl _ coin pre full _
    cases List.length_eq_zero_iff.1 hl
    exact ⟨coin, by simp [readLeaves]⟩
  | cons i is ih =>
    intro rows hl hr coin pre full h
    cases rows with
    | nil => simp at hl
    | cons r rows =>
      rw [List.flatMap_cons, ← List.append_assoc] at h ⊢
      obtain ⟨coin', e⟩ := ih rows (by simpa using hl) (fun x hx => hr x (by simp [hx])) (coin.write env.K (words r)) (pre ++ words r) full h
      refine ⟨coin', ?_⟩
      obtain ⟨r1, r2⟩ := hr r (by simp)
      have e1 := fwd_layer env (coin := coin) r2 ((List.prefix_append _ _).trans h)
      rw [r1] at e1
      rw [readLeaves, e1, orPanic_some, ok_bind, e]
      rfl

omit [Field F] [DecidableEq F] in
theorem fwd_draws {coin : PublicCoin} {n : Nat} {xs : List F} (h : Draws env coin n xs) (full pre : Bytes) :
    ∃ coin', (vch coin full pre).getFields env n = some (xs, vch coin' full pre) ∧ coin'.digest = coin.digest := by
  obtain ⟨us, c', h1, rfl⟩ := h
  refine ⟨c', ?_, coin_fields n h1⟩
  unfold VerifierChannel.getFields
  show Option.map _ (coin.randomFields env.K n) = _
  rw [h1]
  rfl

omit [Field F] [DecidableEq F] in
theorem fwd_draw {coin : PublicCoin} {x : F} (h : Draws env coin 1 [x]) (full pre : Bytes) :
    ∃ coin', (vch coin full pre).getField env = some (x, vch coin' full pre) ∧ coin'.digest = coin.digest := by
  obtain ⟨us, c', h1, h2⟩ := h
  rw [PublicCoin.randomFields] at h1
  obtain ⟨r, h3, h1⟩ := Option.bind_eq_some_iff.1 h1
  cases h1
  rw [List.map_cons, List.map_nil, List.cons.injEq] at h2
  refine ⟨r.2, ?_, coin_field h3⟩
  unfold VerifierChannel.getField
  show Option.map _ (coin.randomField env.K) = _
  rw [h3, Option.map_some, ← h2.1]
  rfl

/-- the commitments to the layers, with the challenges -/
def comsOf : List Nat → List Layer → List F → Nat → List (Merkle.Commitment Bytes × F)
  | n :: ns, l :: ls, a :: as, m => (⟨2 ^ (m - n), l.root⟩, a) :: comsOf ns ls as (m - n)
  | _, _, _, _ => []

theorem from_size_hash_two_pow (m : Nat) (h : Bytes) : from_size_hash (2 ^ m) h = .ok ⟨2 ^ m, h⟩ := by
  unfold from_size_hash
  rw [if_pos (Or.inr (by unfold isPow2; simp [Nat.log2_two_pow]))]

omit [DecidableEq F] in
theorem fwd_commitments (seed : Bytes) : ∀ (layout : List Nat) (ls : List Layer) (as : List F) (m : Nat) (blocks : List Bytes) (coin0 : PublicCoin) (pre full : Bytes),
    ls.length = layout.length → as.length = ls.length → layout.sum ≤ m → m < 64 → (∀ l ∈ ls, l.root.length = 32) →
    coin0.digest = (coin env.K seed blocks).digest →
    (∀ i < ls.length, Draws env (coin env.K seed (blocks ++ (ls.take (i + 1)).map (·.root))) 1 [as.getD i 0]) →
    pre ++ ls.flatMap (·.root) <+: full →
    ∃ coin', readCommitments env layout (2 ^ m) (vch coin0 full pre) =
        .ok ((comsOf layout ls as m, 2 ^ m / 2 ^ layout.sum), vch coin' full (pre ++ ls.flatMap (·.root))) ∧
      coin'.digest = (coin env.K seed (blocks ++ ls.map (·.root))).digest := by
  intro layout
  induction layout with
  | nil =>
    intro ls as m blocks coin0 pre full hl ha _ _ _ hc _ _
    cases List.length_eq_zero_iff.1 hl
    exact ⟨coin0, by simp [readCommitments, comsOf], by simpa using hc⟩
  | cons n layout ih =>
    intro ls as m blocks coin0 pre full hl ha hsum hm hroot hc hd h
    cases ls with
    | nil => simp at hl
    | cons l ls =>
      cases as with
      | nil => simp at ha
      | cons a as =>
        rw [List.sum_cons] at hsum
        rw [List.flatMap_cons, ← List.append_assoc] at h ⊢
        have r1 := replayHash_pre env.K (coin := coin0) (hroot l (by simp)) ((List.prefix_append _ _).trans h)
        rw [coin_append env.K seed blocks l.root coin0 hc] at r1
        have d0 := hd 0 (by simp)
        simp only [List.take_succ_cons, List.take_zero, List.map_cons, List.map_nil, List.getD_cons_zero] at d0
        obtain ⟨coin1, r2, r3⟩ := fwd_draw env d0 full (pre ++ l.root)
        obtain ⟨coin2, r4, r5⟩ := ih ls as (m - n) (blocks ++ [l.root]) coin1 (pre ++ l.root) full (by simpa using hl) (by simpa using ha) (by omega) (by omega)
          (fun x hx => hroot x (by simp [hx])) r3 (by
            intro i hi
            have := hd (i + 1) (by simpa using hi)
            simp only [List.take_succ_cons, List.map_cons, List.getD_cons_succ] at this
            rw [List.append_assoc]
            exact this) h
        refine ⟨coin2, ?_, by rw [r5, List.append_assoc]; rfl⟩
        have e : 2 ^ m / 2 ^ n = 2 ^ (m - n) := Nat.pow_div (by omega) (by norm_num)
        rw [readCommitments, if_neg (by omega), e, r1, orPanic_some, ok_bind]
        dsimp only
        rw [from_size_hash_two_pow, orMerkle_ok, ok_bind, r2, orPanic_some, ok_bind]
        dsimp only
        rw [r4, List.sum_cons, pow_add, ← Nat.div_div_eq_div_mul, e]
        rfl

end
end Accept
end Stark
end OpenZKP
