import Verif.Stark.VerifierLocal

/-!
# C51 — what the verifier does on arbitrary byte strings
-/

namespace OpenZKP
namespace Props
open Stark FFT U256

variable {F : Type} [Field F] [DecidableEq F] (env : Env F)

/-- C51, the half that holds: an accepted proof is consumed to its last byte.  Every longer string that begins with it is rejected as too long,
and (the half that fails) every string cut short makes the verifier panic: no proof is a proper prefix of another one. -/
theorem C51_whole_partial (c : Constraints F) (p : Bytes) (h : verify env c p = .ok ()) :
    (∀ q, q ≠ [] → verify env c (p ++ q) = .error .ProofTooLong) ∧
    (∀ n, n < p.length → verify env c (p.take n) = .error .Panic) := by
  unfold verify at h ⊢
  dsimp only at h ⊢
  cases hw : env.root (c.trace_nrows * c.blowup) with
  | none => rw [hw] at h; simp [orPanic, Except.bind] at h
  | some w =>
    rw [hw] at h
    simp only [orPanic, Except.bind] at h ⊢
    cases ht : readTranscript env c (VerifierChannel.init env.K p c.channel_seed) with
    | error e => rw [ht] at h; simp at h
    | ok r =>
      obtain ⟨t, c1⟩ := r
      rw [ht] at h
      dsimp only at h
      rw [checkTranscript_eq] at h
      cases hd : readDecommitments env c ((List.range (c.trace_nrows * c.blowup)).map fun i => w ^ i) t c1 with
      | error e => rw [hd] at h; simp [Except.bind] at h
      | ok r =>
        obtain ⟨r, c2⟩ := r
        rw [hd] at h
        simp only [Except.bind] at h
        obtain ⟨h1, h2, h3, h4, h5, h6⟩ := local_readTranscript env c _ _ _ (Nat.zero_le _) ht
        obtain ⟨k1, k2, k3, k4, k5, k6⟩ := local_readDecommitments env c _ t _ _ _ (by rw [h1]; exact h3) hd
        have hp : c1.proof = p := h1
        rw [hp] at k1 k3 k4 k5 k6
        have hend : c2.proof_index = p.length := by
          by_cases hb : c2.at_end = false
          · rw [if_pos hb] at h; simp at h
          · simpa [VerifierChannel.at_end, k1] using hb
        refine ⟨fun q hq => ?_, fun n hn => ?_⟩
        · have e := h4 q
          change readTranscript env c (VerifierChannel.init env.K (p ++ q) c.channel_seed) = .ok (t, c1.withProof (p ++ q)) at e
          rw [e]
          dsimp only
          rw [checkTranscript_eq, k4 q]
          have : (c2.withProof (p ++ q)).at_end = false := by
            have : q.length ≠ 0 := by simpa using hq
            simp [VerifierChannel.at_end, VerifierChannel.withProof, hend, hq]
          simp only [Except.bind]
          rw [if_pos this]
        · by_cases hlt : n < c1.proof_index
          · have e := h6 n (Nat.zero_le _) hlt
            change readTranscript env c (VerifierChannel.init env.K (p.take n) c.channel_seed) = .error .Panic at e
            rw [e]
          · have e := h5 n (by omega)
            change readTranscript env c (VerifierChannel.init env.K (p.take n) c.channel_seed) = .ok (t, c1.withProof (p.take n)) at e
            rw [e]
            dsimp only
            rw [checkTranscript_eq, k6 n (by omega) (by omega)]
            rfl

/-- C51 fails for every constraint system: every string of less than 32 bytes makes the verifier panic -/
theorem C51_violated (c : Constraints F) (p : Bytes) (hp : p.length < 32) : verify env c p = .error .Panic := by
  unfold verify
  dsimp only
  cases hw : env.root (c.trace_nrows * c.blowup) with
  | none => rfl
  | some w =>
    have : (VerifierChannel.init env.K p c.channel_seed).replayHash env.K = none := by
      unfold VerifierChannel.replayHash VerifierChannel.read
      rw [if_neg (by simp [VerifierChannel.init]; omega)]
    have e : readTranscript env c (VerifierChannel.init env.K p c.channel_seed) = .error .Panic := by
      unfold readTranscript
      dsimp only
      rw [this]
      rfl
    simp only [orPanic, Except.bind, e]

end Props
end OpenZKP
