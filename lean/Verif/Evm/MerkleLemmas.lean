import Verif.Evm.Merkle
import Verif.Evm.CoinLemmas
import Verif.Merkle.Main
import Verif.Stark.Verifier
import Mathlib.Data.List.Rotate

/-!
# The Merkle trees of the contracts: the ring buffer is the queue of the verifier in Rust
-/

namespace OpenZKP
namespace Evm
namespace MerkleVerifier
open Stark Merkle

theorem rotate_set {α : Type} (l : List α) (w : Nat) (x : α) (hw : w < l.length) :
    (l.set w x).rotate ((w + 1) % l.length) = (l.rotate w).tail ++ [x] := by
  have e1 : l.rotate w = l.drop w ++ l.take w := List.rotate_eq_drop_append_take hw.le
  have e2 : l.set w x = l.take w ++ x :: l.drop (w + 1) := List.set_eq_take_append_cons_drop.trans (if_pos hw)
  have e3 : l.drop w = l[w] :: l.drop (w + 1) := List.drop_eq_getElem_cons hw
  rw [e1, e3, List.cons_append, List.tail_cons]
  by_cases h : w + 1 = l.length
  · rw [h, Nat.mod_self, List.rotate_zero, e2, ← h, show l.drop (w + 1) = [] from List.drop_eq_nil_of_le (by omega)]
    rfl
  · rw [Nat.mod_eq_of_lt (by omega), List.rotate_eq_drop_append_take (by rw [List.length_set]; omega), e2,
      show l.take w ++ x :: l.drop (w + 1) = (l.take w ++ [x]) ++ l.drop (w + 1) by simp]
    have hl : (l.take w ++ [x]).length = w + 1 := by simp; omega
    rw [List.drop_left' hl, List.take_left' hl, List.append_assoc]

theorem rotate_get {α : Type} (l : List α) (w j : Nat) (hj : j < l.length) : l[(w + j) % l.length]? = (l.rotate w)[j]? := by
  rw [List.getElem?_rotate hj, Nat.add_comm]

/-- the state of the ring: the next position to be written is the oldest; `S` are the old nodes, `Q` the queue -/
structure Ring (ring : List (Nat × Bytes)) (read write : Nat) (S Q : List (Nat × Bytes)) : Prop where
  rot : ring.rotate write = S ++ Q
  wlt : write < ring.length
  rd : read = (write + S.length) % ring.length
  ne : Q ≠ []
  pw : (Q.map Prod.fst).Pairwise QRel
  pos : ∀ x ∈ Q, 1 ≤ x.1
  old : ∀ s ∈ S, ∀ q ∈ Q, Nat.log 2 q.1 < Nat.log 2 s.1 ∨ (Nat.log 2 s.1 = Nat.log 2 q.1 ∧ s.1 < q.1)

theorem Ring.length {ring : List (Nat × Bytes)} {read write : Nat} {S Q : List (Nat × Bytes)} (h : Ring ring read write S Q) : ring.length = S.length + Q.length := by
  have := congrArg List.length h.rot
  rwa [List.length_rotate, List.length_append] at this

theorem Ring.front {ring : List (Nat × Bytes)} {read write : Nat} {S Q : List (Nat × Bytes)} {x : Nat × Bytes} (h : Ring ring read write S (x :: Q)) : ring[read]? = some x := by
  have hl := h.length
  rw [List.length_cons] at hl
  rw [h.rd, rotate_get _ _ _ (by omega), h.rot, List.getElem?_append_right (le_refl _), Nat.sub_self]
  rfl

/-- the node after the front: the second of the queue, or the oldest of all -/
theorem Ring.next {ring : List (Nat × Bytes)} {read write : Nat} {S Q : List (Nat × Bytes)} {x : Nat × Bytes} (h : Ring ring read write S (x :: Q)) :
    ring[(read + 1) % ring.length]? = (Q ++ S ++ [x]).head? := by
  have hl := h.length
  rw [List.length_cons] at hl
  rw [h.rd, Nat.mod_add_mod]
  cases Q with
  | cons y Q =>
    rw [List.length_cons] at hl
    rw [Nat.add_assoc, rotate_get _ _ _ (by omega), h.rot, List.getElem?_append_right (by omega), Nat.add_sub_cancel_left]
    rfl
  | nil =>
    rw [List.length_nil] at hl
    rw [show write + S.length + 1 = write + ring.length by omega, Nat.add_mod_right]
    have := rotate_get ring write 0 (by omega)
    rw [Nat.add_zero] at this
    rw [this, h.rot]
    cases S with
    | nil => rfl
    | cons s S => rfl

theorem or_one (i : Nat) : i ||| 1 = if i % 2 = 0 then i + 1 else i := by
  split
  · next h =>
    have := Nat.two_pow_add_eq_or_of_lt (i := 1) (b := 1) (by norm_num) (i / 2)
    rw [pow_one, show 2 * (i / 2) = i by omega] at this
    exact this.symm
  · next h =>
    have := Nat.two_pow_add_eq_or_of_lt (i := 1) (b := 1) (by norm_num) (i / 2)
    rw [pow_one] at this
    have e : 2 * (i / 2) + 1 = i := by omega
    rw [e] at this
    rw [this, Nat.or_assoc, Nat.or_self]

theorem tail_append_of {α : Type} (S Q : List α) (x : α) (h : S ++ Q ≠ []) : (S ++ Q).tail ++ [x] = (S ++ Q ++ [x]).tail := by
  cases hs : S ++ Q with
  | nil => exact absurd hs h
  | cons a l => rfl

theorem old_of_qrel {a b : Nat} (h : QRel a b) : Nat.log 2 b < Nat.log 2 a ∨ (Nat.log 2 a = Nat.log 2 b ∧ a < b) := by
  rcases h with h | h
  · exact Or.inr h
  · exact Or.inl (by omega)

/-- popping the front and pushing its parent -/
theorem Ring.step_one {ring : List (Nat × Bytes)} {read write : Nat} {S Q : List (Nat × Bytes)} {i : Nat} {h : Bytes} (hi : 2 ≤ i)
    (hinv : Ring ring read write S ((i, h) :: Q)) (hs : i % 2 = 0 → ∀ y ∈ Q, y.1 ≠ i + 1) (p : Bytes) :
    Ring (ring.set write (i / 2, p)) ((read + 1) % ring.length) ((write + 1) % ring.length) ((S ++ [(i, h)]).tail) (Q ++ [(i / 2, p)]) := by
  have hl := hinv.length
  rw [List.length_cons] at hl
  have hlog : Nat.log 2 (i / 2) < Nat.log 2 i := by
    have := log_pos' hi
    rw [log_half]
    omega
  have hpw := List.pairwise_cons.1 (by simpa using hinv.pw : (i :: Q.map Prod.fst).Pairwise QRel)
  refine ⟨?_, by rw [List.length_set]; exact Nat.mod_lt _ (by omega), ?_, by simp, ?_, ?_, ?_⟩
  · rw [rotate_set _ _ _ hinv.wlt, hinv.rot, tail_append_of _ _ _ (by simp)]
    cases S with
    | nil => simp
    | cons s S => simp
  · rw [List.length_set, hinv.rd, List.length_tail, List.length_append, List.length_singleton, Nat.mod_add_mod, Nat.mod_add_mod]
    congr 1
    omega
  · rw [List.map_append, List.pairwise_append]
    refine ⟨hpw.2, by simp, ?_⟩
    intro a ha b hb
    simp only [List.map_cons, List.map_nil, List.mem_singleton] at hb
    subst hb
    obtain ⟨y, hy, rfl⟩ := List.mem_map.1 ha
    exact push_parent hi (hpw.1 _ ha) (fun he => hs he y hy)
  · intro x hx
    rcases List.mem_append.1 hx with hx | hx
    · exact hinv.pos x (List.mem_cons_of_mem _ hx)
    · rw [List.mem_singleton] at hx
      subst hx
      show 1 ≤ i / 2
      omega
  · intro s hsm q hq
    have hs' : s ∈ S ∨ s = (i, h) := by
      have := List.mem_of_mem_tail hsm
      simpa using this
    rcases List.mem_append.1 hq with hq | hq
    · rcases hs' with h1 | rfl
      · exact hinv.old s h1 q (List.mem_cons_of_mem _ hq)
      · exact old_of_qrel (hpw.1 _ (List.mem_map_of_mem hq))
    · rw [List.mem_singleton] at hq
      subst hq
      left
      show Nat.log 2 (i / 2) < _
      rcases hs' with h1 | rfl
      · rcases hinv.old s h1 (i, h) (by simp) with h2 | h2
        · dsimp only at h2; omega
        · dsimp only at h2; omega
      · exact hlog

/-- popping two siblings and pushing their parent -/
theorem Ring.step_two {ring : List (Nat × Bytes)} {read write : Nat} {S Q : List (Nat × Bytes)} {i : Nat} {h h' : Bytes} (hi : 2 ≤ i)
    (hinv : Ring ring read write S ((i, h) :: (i + 1, h') :: Q)) (he : i % 2 = 0) (p : Bytes) :
    Ring (ring.set write (i / 2, p)) (((read + 1) % ring.length + 1) % ring.length) ((write + 1) % ring.length) ((S ++ [(i, h), (i + 1, h')]).tail) (Q ++ [(i / 2, p)]) := by
  have hl := hinv.length
  rw [List.length_cons, List.length_cons] at hl
  have hlog : Nat.log 2 (i / 2) < Nat.log 2 i := by
    have := log_pos' hi
    rw [log_half]
    omega
  have hpw := List.pairwise_cons.1 (by simpa using hinv.pw : (i :: (i + 1) :: Q.map Prod.fst).Pairwise QRel)
  have hpw2 := List.pairwise_cons.1 hpw.2
  have hlog' : Nat.log 2 (i + 1) = Nat.log 2 i := by
    have := sibling_log hi
    rwa [xor_one, if_pos he] at this
  refine ⟨?_, by rw [List.length_set]; exact Nat.mod_lt _ (by omega), ?_, by simp, ?_, ?_, ?_⟩
  · rw [rotate_set _ _ _ hinv.wlt, hinv.rot, tail_append_of _ _ _ (by simp)]
    cases S with
    | nil => simp
    | cons s S => simp
  · rw [List.length_set, hinv.rd, List.length_tail, List.length_append, Nat.mod_add_mod, Nat.mod_add_mod, Nat.add_assoc, Nat.mod_add_mod]
    congr 1
    simp only [List.length_cons, List.length_nil]
    omega
  · rw [List.map_append, List.pairwise_append]
    refine ⟨hpw2.2, by simp, ?_⟩
    intro a ha b hb
    simp only [List.map_cons, List.map_nil, List.mem_singleton] at hb
    subst hb
    have h1 := hpw2.1 a ha
    have := push_parent (by omega : 2 ≤ i + 1) h1 (fun he' => by omega)
    rwa [show (i + 1) / 2 = i / 2 by omega] at this
  · intro x hx
    rcases List.mem_append.1 hx with hx | hx
    · exact hinv.pos x (List.mem_cons_of_mem _ (List.mem_cons_of_mem _ hx))
    · rw [List.mem_singleton] at hx
      subst hx
      show 1 ≤ i / 2
      omega
  · intro s hsm q hq
    have hs' : s ∈ S ∨ s = (i, h) ∨ s = (i + 1, h') := by
      have := List.mem_of_mem_tail hsm
      simpa using this
    rcases List.mem_append.1 hq with hq | hq
    · rcases hs' with h1 | rfl | rfl
      · exact hinv.old s h1 q (List.mem_cons_of_mem _ (List.mem_cons_of_mem _ hq))
      · exact old_of_qrel (hpw.1 _ (List.mem_cons_of_mem _ (List.mem_map_of_mem hq)))
      · exact old_of_qrel (hpw2.1 _ (List.mem_map_of_mem hq))
    · rw [List.mem_singleton] at hq
      subst hq
      left
      show Nat.log 2 (i / 2) < _
      rcases hs' with h1 | rfl | rfl
      · rcases hinv.old s h1 (i, h) (by simp) with h2 | h2
        · dsimp only at h2; omega
        · dsimp only at h2; omega
      · exact hlog
      · show _ < Nat.log 2 (i + 1)
        omega

/-- at the root the queue has no other node -/
theorem Ring.root {ring : List (Nat × Bytes)} {read write : Nat} {S Q : List (Nat × Bytes)} {h : Bytes} (hinv : Ring ring read write S ((1, h) :: Q)) : Q = [] := by
  have hpw := List.pairwise_cons.1 (by simpa using hinv.pw : (1 :: Q.map Prod.fst).Pairwise QRel)
  cases Q with
  | nil => rfl
  | cons y Q =>
    exfalso
    have h1 := hpw.1 y.1 (by simp)
    have h2 := hinv.pos y (by simp)
    have h0 : Nat.log 2 1 = 0 := by norm_num
    rcases h1 with ⟨h3, h4⟩ | ⟨h3, _⟩
    · rw [h0] at h3
      have := log_pos' (show 2 ≤ y.1 by omega)
      omega
    · omega

/-- the test of the loop: the node after the front is the right sibling exactly if the verifier in Rust merges (or there is a single slot with a right node) -/
theorem Ring.test {ring : List (Nat × Bytes)} {read write : Nat} {S Q : List (Nat × Bytes)} {i : Nat} {h : Bytes} (hi : 2 ≤ i)
    (hinv : Ring ring read write S ((i, h) :: Q)) :
    ∃ next nl, ring[(read + 1) % ring.length]? = some (next, nl) ∧
      ((i ||| 1 = next ∧ i % 2 = 0 ∧ next = i + 1 ∧ ∃ Q', Q = (i + 1, nl) :: Q') ∨
       (i ||| 1 = next ∧ i % 2 = 1 ∧ S = [] ∧ Q = [] ∧ nl = h) ∨
       (i ||| 1 ≠ next ∧ (i % 2 = 0 → ∀ y ∈ Q, y.1 ≠ i + 1))) := by
  have hpw := List.pairwise_cons.1 (by simpa using hinv.pw : (i :: Q.map Prod.fst).Pairwise QRel)
  rw [hinv.next]
  cases Q with
  | cons y Q =>
    obtain ⟨y, hy⟩ := y
    refine ⟨y, hy, rfl, ?_⟩
    have hr := hpw.1 y (by simp)
    by_cases he : i % 2 = 0
    · rw [or_one, if_pos he]
      by_cases hyi : y = i + 1
      · left
        exact ⟨hyi.symm, he, hyi, Q, by rw [hyi]⟩
      · right; right
        refine ⟨fun e => hyi e.symm, fun _ z hz => ?_⟩
        have := sibling_not_mem hi he (by simpa using hinv.pw : (i :: y :: Q.map Prod.fst).Pairwise QRel) (by simpa using hyi)
        rcases List.mem_cons.1 hz with rfl | hz
        · exact hyi
        · exact this z.1 (List.mem_cons_of_mem _ (List.mem_map_of_mem hz))
    · rw [or_one, if_neg he]
      right; right
      refine ⟨?_, fun h => absurd h he⟩
      rintro rfl
      rcases hr with ⟨_, h2⟩ | ⟨h1, _⟩
      · omega
      · omega
  | nil =>
    cases S with
    | nil =>
      refine ⟨i, h, rfl, ?_⟩
      by_cases he : i % 2 = 0
      · right; right
        rw [or_one, if_pos he]
        exact ⟨by omega, by simp⟩
      · right; left
        rw [or_one, if_neg he]
        exact ⟨rfl, by omega, rfl, rfl, rfl⟩
    | cons s S =>
      obtain ⟨s, sh⟩ := s
      refine ⟨s, sh, rfl, ?_⟩
      right; right
      refine ⟨?_, by simp⟩
      intro e
      have hlog : Nat.log 2 (i ||| 1) = Nat.log 2 i := by
        rw [or_one]
        split
        · next he =>
          have := sibling_log hi
          rwa [xor_one, if_pos he] at this
        · rfl
      have hge : i ≤ i ||| 1 := Nat.left_le_or
      rcases hinv.old (s, sh) (by simp) (i, h) (by simp) with h1 | h1
      · dsimp only at h1
        rw [← e, hlog] at h1
        omega
      · dsimp only at h1
        rw [← e] at h1
        omega

section
variable (K : Keccak)

theorem verify_merge (root : Bytes) (fuel i : Nat) (hi : 2 ≤ i) (he : i % 2 = 0) (h h' : Bytes) (Q : List (Nat × Bytes)) (hs : List Bytes) :
    verifyLoop (nodeHash K) root (fuel + 1) ((i, h) :: (i + 1, h') :: Q) hs =
      (verifyLoop (nodeHash K) root fuel (Q ++ [(i / 2, nodeHash K h h')]) hs).map ((h, h') :: ·) := by
  rw [verifyLoop]
  simp only [parent_eq hi]
  rw [if_pos (by simpa [Index.is_left] using he)]
  rw [if_pos (by rw [sibling_eq hi, xor_one, if_pos he])]

theorem verify_left (root : Bytes) (fuel i : Nat) (hi : 2 ≤ i) (he : i % 2 = 0) (h a : Bytes) (Q : List (Nat × Bytes)) (hs : List Bytes)
    (hne : ∀ y ∈ Q, y.1 ≠ i + 1) :
    verifyLoop (nodeHash K) root (fuel + 1) ((i, h) :: Q) (a :: hs) =
      (verifyLoop (nodeHash K) root fuel (Q ++ [(i / 2, nodeHash K h a)]) hs).map ((h, a) :: ·) := by
  rw [verifyLoop]
  simp only [parent_eq hi]
  rw [if_pos (by simpa [Index.is_left] using he)]
  cases Q with
  | nil => rfl
  | cons y Q =>
    simp only
    rw [if_neg (by rw [sibling_eq hi, xor_one, if_pos he]; intro h; exact hne y (by simp) (Option.some.inj h).symm)]

theorem verify_right (root : Bytes) (fuel i : Nat) (hi : 2 ≤ i) (he : i % 2 = 1) (h a : Bytes) (Q : List (Nat × Bytes)) (hs : List Bytes) :
    verifyLoop (nodeHash K) root (fuel + 1) ((i, h) :: Q) (a :: hs) =
      (verifyLoop (nodeHash K) root fuel (Q ++ [(i / 2, nodeHash K a h)]) hs).map ((a, h) :: ·) := by
  rw [verifyLoop]
  simp only [parent_eq hi]
  rw [if_neg (by simp [Index.is_left, he])]

theorem verify_root (root : Bytes) (fuel : Nat) (hs : List Bytes) : verifyLoop (nodeHash K) root (fuel + 2) [(1, root)] hs = .ok [] := by
  rw [verifyLoop]
  rw [show Index.parent 1 = none from rfl]
  simp only
  rw [if_pos trivial]
  rfl

theorem work_step {i : Nat} (hi : 2 ≤ i) : Nat.log 2 (i / 2) + 1 = Nat.log 2 i := by
  have := log_pos' hi
  rw [log_half]
  omega

/-- the hashes used are the next of the decommitment, except with a single slot, where old scratch space may be used -/
theorem sim_sound (root : Bytes) (dec : Nat → Bytes) (hdec : ∀ i, (dec i).length = 32) : ∀ (gas : Nat) (ring : List (Nat × Bytes)) (read write d : Nat) (s0 s1 : Bytes) (S Q : List (Nat × Bytes)),
    Ring ring read write S Q → s0.length = 32 → (∀ x ∈ Q, x.2.length = 32) → merkleLoop K root dec gas ring read write d s0 s1 = some true →
    ∃ hs, (∀ x ∈ hs, x.length = 32) ∧ (2 ≤ ring.length → ∃ c, hs = (List.range c).map fun t => dec (d + t)) ∧
      ∀ fuel, work (Q.map Prod.fst) < fuel → ∃ tr, verifyLoop (nodeHash K) root fuel Q hs = .ok tr := by
  intro gas
  induction gas with
  | zero => intro ring read write d s0 s1 S Q _ _ _ h; cases h
  | succ gas ih =>
    intro ring read write d s0 s1 S Q hinv hs0 hQ h
    cases Q with
    | nil => exact absurd rfl hinv.ne
    | cons x Q =>
      obtain ⟨i, lf⟩ := x
      have hpos := hinv.pos (i, lf) (by simp)
      have hlf : lf.length = 32 := hQ (i, lf) (by simp)
      dsimp only at hpos
      rw [merkleLoop, hinv.front] at h
      simp only at h
      by_cases h1 : i = 1
      · subst h1
        rw [if_pos rfl, if_neg (by norm_num), Option.some.injEq, decide_eq_true_iff] at h
        have hq := hinv.root
        subst hq
        subst h
        refine ⟨[], by simp, fun _ => ⟨0, rfl⟩, fun fuel hf => ?_⟩
        obtain ⟨f, rfl⟩ : ∃ f, fuel = f + 2 := ⟨fuel - 2, by simp [work] at hf; omega⟩
        exact ⟨[], verify_root K lf f []⟩
      · rw [if_neg h1] at h
        have hi : 2 ≤ i := by omega
        obtain ⟨next, nl, e1, e2⟩ := hinv.test hi
        rw [e1] at h
        simp only at h
        rcases e2 with ⟨f1, f2, f3, Q', rfl⟩ | ⟨f1, f2, rfl, rfl, rfl⟩ | ⟨f1, f2⟩
        · rw [if_pos f1, if_pos f2] at h
          obtain ⟨hs, g1, g2, g3⟩ := ih _ _ _ _ _ _ _ _ (hinv.step_two hi f2 _) hlf (by
            intro x hx
            rcases List.mem_append.1 hx with hx | hx
            · exact hQ x (by simp [hx])
            · rw [List.mem_singleton] at hx
              subst hx
              simp [mask, K.len]) h
          rw [List.length_set] at g2
          refine ⟨hs, g1, g2, fun fuel hf => ?_⟩
          obtain ⟨f, rfl⟩ : ∃ f, fuel = f + 1 := ⟨fuel - 1, by omega⟩
          have hwk := work_step hi
          simp only [List.map_cons, work_cons] at hf
          obtain ⟨tr, htr⟩ := g3 f (by
            rw [List.map_append, work_append]
            simp only [List.map_cons, List.map_nil, work_cons]
            simp only [work, List.map_nil, List.sum_nil]
            unfold work at hf
            omega)
          rw [verify_merge K root f i hi f2]
          exact ⟨(lf, nl) :: tr, by rw [show nodeHash K lf nl = mask (K.hash (lf ++ nl)) from rfl, htr]; rfl⟩
        · rw [if_pos f1, if_neg (by omega)] at h
          have hstep := hinv.step_one hi (fun e => absurd e (by omega)) (mask (K.hash (s0 ++ nl)))
          have hlen := hinv.length
          simp only [List.length_nil, List.length_cons] at hlen
          have hrd : ((read + 1) % ring.length + 1) % ring.length = (read + 1) % ring.length := by
            rw [hlen]
            omega
          rw [hrd] at h
          obtain ⟨hs, g1, -, g3⟩ := ih _ _ _ _ _ _ _ _ hstep hs0 (by
            intro x hx
            simp only [List.nil_append, List.mem_singleton] at hx
            subst hx
            simp [mask, K.len]) h
          refine ⟨s0 :: hs, ?_, fun h2 => by omega, fun fuel hf => ?_⟩
          · intro x hx
            rcases List.mem_cons.1 hx with rfl | hx
            · exact hs0
            · exact g1 x hx
          · obtain ⟨f, rfl⟩ : ∃ f, fuel = f + 1 := ⟨fuel - 1, by omega⟩
            have hwk := work_step hi
            simp only [List.map_cons, work_cons] at hf
            obtain ⟨tr, htr⟩ := g3 f (by
              simp only [List.nil_append, List.map_cons, List.map_nil, work_cons]
              simp only [work, List.map_nil, List.sum_nil] at hf ⊢
              omega)
            rw [verify_right K root f i hi f2]
            exact ⟨(s0, nl) :: tr, by rw [show nodeHash K s0 nl = mask (K.hash (s0 ++ nl)) from rfl, htr]; rfl⟩
        · rw [if_neg f1] at h
          obtain ⟨hs, g1, g2, g3⟩ := ih _ _ _ _ _ _ _ _ (hinv.step_one hi f2 _) (by
              by_cases he : i % 2 = 0
              · rw [if_pos he, if_pos he]; exact hlf
              · rw [if_neg he]; exact hdec d) (by
            intro x hx
            rcases List.mem_append.1 hx with hx | hx
            · exact hQ x (by simp [hx])
            · rw [List.mem_singleton] at hx
              subst hx
              simp [mask, K.len]) h
          rw [List.length_set] at g2
          refine ⟨dec d :: hs, ?_, ?_, fun fuel hf => ?_⟩
          · intro x hx
            rcases List.mem_cons.1 hx with rfl | hx
            · exact hdec d
            · exact g1 x hx
          · intro h2
            obtain ⟨c, hc⟩ := g2 h2
            refine ⟨c + 1, ?_⟩
            rw [List.range_succ_eq_map, List.map_cons, List.map_map, hc]
            congr 1
            refine List.map_congr_left fun t _ => ?_
            show dec (d + 1 + t) = dec (d + (t + 1))
            congr 1
            omega
          · obtain ⟨f, rfl⟩ : ∃ f, fuel = f + 1 := ⟨fuel - 1, by omega⟩
            have hwk := work_step hi
            simp only [List.map_cons, work_cons] at hf
            obtain ⟨tr, htr⟩ := g3 f (by
              rw [List.map_append, work_append]
              simp only [List.map_cons, List.map_nil, work_cons]
              simp only [work, List.map_nil, List.sum_nil]
              unfold work at hf
              omega)
            by_cases he : i % 2 = 0
            · rw [verify_left K root f i hi he _ _ _ _ (f2 he)]
              rw [if_pos he, if_pos he, if_pos he] at htr
              exact ⟨(lf, dec d) :: tr, by rw [show nodeHash K lf (dec d) = mask (K.hash (lf ++ dec d)) from rfl, htr]; rfl⟩
            · rw [verify_right K root f i hi (by omega)]
              rw [if_neg he, if_neg he, if_neg he] at htr
              exact ⟨(dec d, lf) :: tr, by rw [show nodeHash K (dec d) lf = mask (K.hash (dec d ++ lf)) from rfl, htr]; rfl⟩

/-- more gas does not change an answer -/
theorem gas_mono (root : Bytes) (dec : Nat → Bytes) (b : Bool) : ∀ (gas gas' : Nat) (ring : List (Nat × Bytes)) (read write d : Nat) (s0 s1 : Bytes), gas ≤ gas' →
    merkleLoop K root dec gas ring read write d s0 s1 = some b → merkleLoop K root dec gas' ring read write d s0 s1 = some b := by
  intro gas
  induction gas with
  | zero => intro gas' ring read write d s0 s1 _ h; cases h
  | succ gas ih =>
    intro gas' ring read write d s0 s1 hle h
    obtain ⟨g, rfl⟩ : ∃ g, gas' = g + 1 := ⟨gas' - 1, by omega⟩
    rw [merkleLoop] at h ⊢
    cases h1 : ring[read]? with
    | none => rw [h1] at h; cases h
    | some x =>
      rw [h1] at h
      simp only at h ⊢
      by_cases h2 : x.1 = 1
      · rw [if_pos h2] at h ⊢
        exact h
      · rw [if_neg h2] at h ⊢
        cases h3 : ring[(read + 1) % ring.length]? with
        | none => rw [h3] at h; cases h
        | some y =>
          rw [h3] at h
          simp only at h ⊢
          by_cases h4 : x.1 ||| 1 = y.1
          · rw [if_pos h4] at h ⊢
            exact ih _ _ _ _ _ _ _ (by omega) h
          · rw [if_neg h4] at h ⊢
            exact ih _ _ _ _ _ _ _ (by omega) h

/-- a proof rejected with some gas is not accepted with any -/
theorem rejected (gas : Nat) (beyond : Nat → Bytes) (s0 s1 root : Bytes) (leaves : List Bytes) (indices : List Nat) (decommitment : List Bytes)
    (h : verify_merkle_proof K gas beyond s0 s1 root leaves indices decommitment = some false) (gas' : Nat) :
    verify_merkle_proof K gas' beyond s0 s1 root leaves indices decommitment ≠ some true := by
  intro h'
  unfold verify_merkle_proof at h h'
  split at h
  · cases h
  next h1 =>
  rw [if_neg h1] at h'
  split at h
  · cases h
  next h2 =>
  rw [if_neg h2] at h'
  have a := gas_mono K _ _ _ _ (max gas gas') _ _ _ _ _ _ (le_max_left _ _) h
  have b := gas_mono K _ _ _ _ (max gas gas') _ _ _ _ _ _ (le_max_right _ _) h'
  rw [a] at b
  cases b

theorem map_ok {ε β γ : Type} {x : Except ε β} {f : β → γ} {y : γ} (h : x.map f = .ok y) : ∃ z, x = .ok z := by
  cases x with
  | error e => cases h
  | ok z => exact ⟨z, rfl⟩

/-- with at least two slots the loop accepts what the verifier in Rust accepts -/
theorem sim_complete (root : Bytes) (dec : Nat → Bytes) : ∀ (fuel gas : Nat) (ring : List (Nat × Bytes)) (read write d : Nat) (s0 s1 : Bytes) (S Q : List (Nat × Bytes)) (hs : List Bytes) (tr : List (Bytes × Bytes)),
    Ring ring read write S Q → 2 ≤ ring.length → (∀ t, ∀ x, hs[t]? = some x → dec (d + t) = x) → verifyLoop (nodeHash K) root fuel Q hs = .ok tr →
    work (Q.map Prod.fst) ≤ gas → merkleLoop K root dec gas ring read write d s0 s1 = some true := by
  intro fuel
  induction fuel with
  | zero => intro gas ring read write d s0 s1 S Q hs tr _ _ _ h; cases h
  | succ fuel ih =>
    intro gas ring read write d s0 s1 S Q hs tr hinv hlen hdec h hg
    cases Q with
    | nil => exact absurd rfl hinv.ne
    | cons x Q =>
      obtain ⟨i, lf⟩ := x
      have hpos := hinv.pos (i, lf) (by simp)
      dsimp only at hpos
      simp only [List.map_cons, work_cons] at hg
      obtain ⟨g, rfl⟩ : ∃ g, gas = g + 1 := ⟨gas - 1, by omega⟩
      rw [merkleLoop, hinv.front]
      simp only
      by_cases h1 : i = 1
      · subst h1
        rw [if_pos rfl, if_neg (by norm_num), Option.some.injEq, decide_eq_true_iff]
        rw [verifyLoop] at h
        rw [show Index.parent 1 = none from rfl] at h
        simp only at h
        split at h
        · assumption
        · cases h
      · rw [if_neg h1]
        have hi : 2 ≤ i := by omega
        have hwk := work_step hi
        obtain ⟨next, nl, e1, e2⟩ := hinv.test hi
        rw [e1]
        simp only
        rcases e2 with ⟨f1, f2, f3, Q', rfl⟩ | ⟨f1, f2, rfl, rfl, rfl⟩ | ⟨f1, f2⟩
        · rw [if_pos f1, if_pos f2]
          rw [verify_merge K root fuel i hi f2] at h
          obtain ⟨tr', h⟩ := map_ok h
          refine ih _ _ _ _ _ _ _ _ _ _ _ (hinv.step_two hi f2 _) (by rw [List.length_set]; exact hlen) hdec h ?_
          rw [List.map_append, work_append]
          simp only [List.map_cons, List.map_nil, work_cons] at hg ⊢
          simp only [work, List.map_nil, List.sum_nil] at hg ⊢
          omega
        · have hl := hinv.length
          simp only [List.length_nil, List.length_cons] at hl
          omega
        · rw [if_neg f1]
          have hw' : work ((Q ++ [(i / 2, ([] : Bytes))]).map Prod.fst) ≤ g := by
            rw [List.map_append, work_append]
            simp only [List.map_cons, List.map_nil, work_cons]
            simp only [work, List.map_nil, List.sum_nil] at hg ⊢
            omega
          cases hs with
          | nil =>
            exfalso
            rw [verifyLoop] at h
            simp only [parent_eq hi] at h
            split at h
            · next hl =>
              have he : i % 2 = 0 := by simpa [Index.is_left] using hl
              cases Q with
              | nil => cases h
              | cons y Q =>
                simp only at h
                rw [if_neg (by rw [sibling_eq hi, xor_one, if_pos he]; intro h; exact f2 he y (by simp) (Option.some.inj h).symm)] at h
                cases h
            · cases h
          | cons a hs =>
            have ha : dec d = a := hdec 0 a rfl
            have hd' : ∀ t x, hs[t]? = some x → dec (d + 1 + t) = x := fun t x hx => by
              have := hdec (t + 1) x (by simpa using hx)
              rwa [show d + 1 + t = d + (t + 1) by ring]
            by_cases he : i % 2 = 0
            · rw [verify_left K root fuel i hi he _ _ _ _ (f2 he)] at h
              obtain ⟨tr', h⟩ := map_ok h
              rw [if_pos he, if_pos he, if_pos he, ha]
              refine ih _ _ _ _ _ _ _ _ _ _ _ (hinv.step_one hi f2 _) (by rw [List.length_set]; exact hlen) hd' h ?_
              simpa using hw'
            · rw [verify_right K root fuel i hi (by omega)] at h
              obtain ⟨tr', h⟩ := map_ok h
              rw [if_neg he, if_neg he, if_neg he, ha]
              refine ih _ _ _ _ _ _ _ _ _ _ _ (hinv.step_one hi f2 _) (by rw [List.length_set]; exact hlen) hd' h ?_
              simpa using hw'

end

end MerkleVerifier
end Evm
end OpenZKP
