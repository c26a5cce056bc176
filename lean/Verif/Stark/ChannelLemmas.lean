import Verif.Stark.Channel
import Verif.Props.U256

namespace OpenZKP
namespace Stark
open U256

theorem to_be_bytes_length (k n : Nat) : (to_be_bytes k n).length = k := by
  induction k generalizing n with
  | zero => rfl
  | succ k ih => rw [to_be_bytes, List.length_append, ih]; rfl

theorem to_be_bytes_value (k n : Nat) : beValue (to_be_bytes k n) = n % 256 ^ k := by
  induction k generalizing n with
  | zero => simp [to_be_bytes, beValue, Nat.mod_one]
  | succ k ih =>
    rw [to_be_bytes, beValue_append, ih]
    have e : beValue [UInt8.ofNat n] = n % 256 := by simp [beValue]
    rw [e, List.length_singleton, pow_one, pow_succ, mul_comm (256 ^ k) 256, Nat.mod_mul]
    ring

theorem u64_roundtrip (n : Nat) (h : n < 2 ^ 64) : (u64_from_be_bytes (to_be_bytes 8 n)).toNat = n := by
  rw [u64_from_be_bytes_eq _ (to_be_bytes_length 8 n), to_be_bytes_value]
  exact Nat.mod_eq_of_lt (by norm_num; omega)

theorem from_to_bytes (x : U256) : from_bytes_be (to_bytes_be x) = some x := Props.C06_roundtrip_value x

variable (K : Keccak)

/-- the verifier has replayed exactly what the prover has written, `rest` is still to come -/
structure Sim (pc : ProverChannel) (vc : VerifierChannel) (rest : Bytes) : Prop where
  coin : vc.coin = pc.coin
  index : vc.proof_index = pc.proof.length
  proof : vc.proof = pc.proof ++ rest

theorem read_sim {pc : ProverChannel} {vc : VerifierChannel} {d rest : Bytes} (h : Sim pc vc (d ++ rest)) :
    ∃ vc', vc.read K d.length = some (d, vc') ∧ Sim (pc.write K d) vc' rest := by
  obtain ⟨h1, h2, h3⟩ := h
  have hd : (vc.proof.drop vc.proof_index).take d.length = d := by
    rw [h2, h3, List.drop_left, List.take_left]
  refine ⟨⟨vc.coin.write K d, vc.proof, vc.proof_index + d.length⟩, ?_, ?_⟩
  · unfold VerifierChannel.read
    rw [if_pos (by rw [h2, h3]; simp only [List.length_append]; omega)]
    simp only [hd]
  · refine ⟨by simp [ProverChannel.write, h1], ?_, ?_⟩
    · simp [ProverChannel.write, h2]
    · simp [ProverChannel.write, h3]

theorem replayU256_sim {pc : ProverChannel} {vc : VerifierChannel} {x : U256} {rest : Bytes}
    (h : Sim pc vc (to_bytes_be x ++ rest)) :
    ∃ vc', vc.replayU256 K = some (x, vc') ∧ Sim (pc.writeU256 K x) vc' rest := by
  obtain ⟨vc', e, s⟩ := read_sim K h
  rw [to_bytes_be_length] at e
  refine ⟨vc', ?_, s⟩
  unfold VerifierChannel.replayU256
  rw [e, Option.bind_some, from_to_bytes]
  rfl

theorem fromMontgomery_canon (dbg : Bool) {x : U256} (h : x.toNat < PF.BASE.modulus.toNat) :
    VerifierChannel.fromMontgomery dbg x = some x := by
  unfold VerifierChannel.fromMontgomery
  rw [(lt_iff _ _).2 h]
  simp

theorem replayField_sim (dbg : Bool) {pc : ProverChannel} {vc : VerifierChannel} {x : U256} {rest : Bytes}
    (hx : x.toNat < PF.BASE.modulus.toNat) (h : Sim pc vc (to_bytes_be x ++ rest)) :
    ∃ vc', vc.replayField K dbg = some (x, vc') ∧ Sim (pc.writeU256 K x) vc' rest := by
  obtain ⟨vc', e, s⟩ := replayU256_sim K h
  refine ⟨vc', ?_, s⟩
  unfold VerifierChannel.replayField
  rw [e, Option.bind_some, fromMontgomery_canon dbg hx]
  rfl

theorem many_sim {α β : Type} (f : VerifierChannel → Option (β × VerifierChannel)) (w : ProverChannel → α → ProverChannel)
    (enc : α → Bytes) (val : α → β) (l : List α) (pc : ProverChannel) (vc : VerifierChannel) (rest : Bytes)
    (step : ∀ x ∈ l, ∀ pc vc rest, Sim pc vc (enc x ++ rest) → ∃ vc', f vc = some (val x, vc') ∧ Sim (w pc x) vc' rest)
    (h : Sim pc vc (l.flatMap enc ++ rest)) :
    ∃ vc', VerifierChannel.replayMany f l.length vc = some (l.map val, vc') ∧ Sim (l.foldl w pc) vc' rest := by
  induction l generalizing pc vc with
  | nil => exact ⟨vc, rfl, by simpa using h⟩
  | cons x l ih =>
    rw [List.flatMap_cons, List.append_assoc] at h
    obtain ⟨vc1, e1, s1⟩ := step x (by simp) _ _ _ h
    obtain ⟨vc2, e2, s2⟩ := ih (w pc x) vc1 (fun y hy => step y (by simp [hy])) s1
    refine ⟨vc2, ?_, s2⟩
    rw [List.length_cons, VerifierChannel.replayMany, e1, Option.bind_some, e2]
    rfl

theorem chunks_flatMap (l : List U256) : VerifierChannel.chunks32 l.length (l.flatMap to_bytes_be) = l.map to_bytes_be := by
  induction l with
  | nil => rfl
  | cons x l ih =>
    have hl : 32 = (to_bytes_be x).length := (to_bytes_be_length x).symm
    rw [List.length_cons, VerifierChannel.chunks32, List.flatMap_cons, List.map_cons]
    conv_lhs => rw [hl]
    rw [List.take_left, List.drop_left, ih]

theorem flatMap_length (l : List U256) : (l.flatMap to_bytes_be).length = 32 * l.length := by
  induction l with
  | nil => rfl
  | cons x l ih => rw [List.flatMap_cons, List.length_append, ih, to_bytes_be_length, List.length_cons]; ring

theorem option_mapM_some {α β : Type} (f : α → Option β) (g : α → β) (l : List α) (h : ∀ x ∈ l, f x = some (g x)) :
    l.mapM f = some (l.map g) := by
  induction l with
  | nil => rfl
  | cons x l ih =>
    rw [List.mapM_cons, h x (by simp), ih (fun y hy => h y (by simp [hy]))]
    rfl

theorem replayLayer_sim (dbg : Bool) {pc : ProverChannel} {vc : VerifierChannel} {xs : List U256} {rest : Bytes}
    (hx : ∀ x ∈ xs, x.toNat < PF.BASE.modulus.toNat) (h : Sim pc vc (xs.flatMap to_bytes_be ++ rest)) :
    ∃ vc', vc.replayLayer K dbg xs.length = some (xs, vc') ∧ Sim (pc.writeLayer K xs) vc' rest := by
  obtain ⟨vc', e, s⟩ := read_sim K h
  rw [flatMap_length] at e
  refine ⟨vc', ?_, s⟩
  unfold VerifierChannel.replayLayer
  rw [e, Option.bind_some, chunks_flatMap, List.mapM_map,
    option_mapM_some _ id xs (fun x hxm => by
      simp only [Function.comp_apply, id]
      rw [from_to_bytes, Option.bind_some, fromMontgomery_canon dbg (hx x hxm)]), List.map_id]
  rfl

end Stark
end OpenZKP
