import Verif.Stark.Serialize
import Verif.Stark.Json
import Verif.Stark.Converse

/-!
Lemmas: what `serialize` writes for a proof that meets the specification.
-/

namespace OpenZKP
namespace Stark
namespace Accept
open FFT U256 Props Merkle

section
variable {F : Type} [Field F] [DecidableEq F] (env : Env F)

omit [Field F] [DecidableEq F] in
theorem fwd_new (hsearch : SearchOk env.search) (Q : List Nat) (hQ : Q.Pairwise (· ≤ ·)) (V : Nat → F) (full : Bytes) :
    ∀ (ns : List Nat) (us : List U256), Reduced us → us.map env.codec.val = (ns.filter (· ∉ Q)).map V →
    ∀ (coin : PublicCoin) (pre : Bytes), pre ++ words us <+: full →
    ∃ coin', newValues env Q ns (vch coin full pre) = .ok (us.map env.codec.val, vch coin' full (pre ++ words us)) := by
  intro ns
  induction ns with
  | nil =>
    intro us _ he coin pre _
    have : us = [] := by simpa using he
    subst this
    exact ⟨coin, by simp [newValues, words]⟩
  | cons n ns ih =>
    intro us hr he coin pre h
    obtain ⟨s1, s2⟩ := hsearch Q n hQ
    rw [newValues]
    cases hs : env.search Q n with
    | some z =>
      have hm : n ∈ Q := List.mem_of_getElem? (s1 z hs)
      rw [List.filter_cons, if_neg (by simpa using hm)] at he
      exact ih us hr he coin pre h
    | none =>
      have hm : n ∉ Q := s2 hs
      rw [List.filter_cons, if_pos (by simpa using hm), List.map_cons] at he
      cases us with
      | nil => simp at he
      | cons u us =>
        rw [List.map_cons, List.cons.injEq] at he
        rw [words_cons, ← List.append_assoc] at h ⊢
        obtain ⟨coin', e⟩ := ih us (fun x hx => hr x (by simp [hx])) he.2 (coin.write env.K (to_bytes_be u)) (pre ++ to_bytes_be u) h
        refine ⟨coin', ?_⟩
        dsimp only
        rw [fwd_field env (hr u (by simp)) ((List.prefix_append _ _).trans h), orPanic_some, ok_bind]
        dsimp only
        rw [e]
        rfl

theorem coms_fst : ∀ (layout : List Nat) (ls : List Layer) (as : List F) (m : Nat), ls.length = layout.length → as.length = ls.length →
    (comsOf layout ls as m).map (fun l => l.1.hash) = ls.map (·.root)
  | [], [], _, _, _, _ => rfl
  | n :: layout, l :: ls, a :: as, m, h1, h2 => by
    rw [comsOf, List.map_cons, List.map_cons, coms_fst layout ls as (m - n) (by simpa using h1) (by simpa using h2)]
  | [], _ :: _, _, _, h1, _ => by simp at h1
  | _ :: _, [], _, _, h1, _ => by simp at h1
  | _ :: _, _ :: _, [], _, _, h2 => by simp at h2

theorem serializeLayers_fwd (hsearch : SearchOk env.search) (last : List F) (full : Bytes) :
    ∀ (layout : List Nat) (ls : List Layer) (as : List F) (w : F) (m : Nat) (f : Nat → F) (Q : List Nat), Q.Pairwise (· ≤ ·) →
      (∀ l ∈ ls, Reduced l.values ∧ ∀ h ∈ l.hashes, h.length = 32) →
      FriOk env last layout ls as w m f Q → FriCounted layout ls m Q → ∀ (coin : PublicCoin) (pre : Bytes),
      pre ++ (ls.flatMap fun l => words l.values ++ l.hashes.flatten) <+: full →
      ∃ coin', serializeLayers env (layout.zip ((comsOf layout ls as m).map Prod.fst)) Q (vch coin full pre) =
        .ok ((ls.map fun l => l.values.map env.codec.val, ls.map (·.hashes)), vch coin' full (pre ++ ls.flatMap fun l => words l.values ++ l.hashes.flatten)) := by
  intro layout
  induction layout with
  | nil =>
    intro ls as w m f Q hQ hls hok hcount coin pre h
    cases ls with
    | cons l ls => simp [FriCounted] at hcount
    | nil => exact ⟨coin, by simp [serializeLayers, comsOf]⟩
  | cons n layout ih =>
    intro ls as w m f Q hQ hls hok hcount coin pre h
    cases ls with
    | nil => simp [FriCounted] at hcount
    | cons l ls =>
    cases as with
    | nil => simp [FriOk] at hok
    | cons a as =>
    rw [FriOk] at hok
    rw [FriCounted] at hcount
    obtain ⟨V, J, j1, j2, j3, j4, j5, j6⟩ := hok
    obtain ⟨J', j1', j2', j7, j8⟩ := hcount
    have hJ := cosets_eq Q hQ n J j1 j2
    have hJ' := cosets_eq Q hQ n J' j1' j2'
    rw [hJ] at hJ'
    subst hJ'
    obtain ⟨l1, l2⟩ := hls l (by simp)
    rw [List.flatMap_cons, ← List.append_assoc, ← List.append_assoc] at h ⊢
    obtain ⟨coin1, e1⟩ := fwd_new env hsearch Q hQ V full _ l.values l1 j4 coin pre ((List.prefix_append _ _).trans ((List.prefix_append _ _).trans h))
    obtain ⟨coin2, e2⟩ := readHashes_pre env l.hashes l2 coin1 (pre ++ words l.values) full ((List.prefix_append _ _).trans h)
    obtain ⟨coin3, e3⟩ := ih ls as _ _ _ J (j1.imp fun h => Nat.le_of_lt h) (fun x hx => hls x (by simp [hx])) j6 j8 coin2 _ h
    refine ⟨coin3, ?_⟩
    have e4 : proof_size (⟨2 ^ (m - n), l.root⟩ : Commitment Bytes) J = .ok l.hashes.length := j7
    rw [comsOf, List.map_cons, List.zip_cons_cons, serializeLayers]
    dsimp only
    rw [hJ, e1, ok_bind, e4, orMerkle_ok, ok_bind, e2, orPanic_some, ok_bind]
    dsimp only
    rw [e3]
    rfl

/-- what is written -/
def text (P : Contents) : List Char :=
  let f := fun u => solField env (env.codec.val u)
  solMember "trace_commitment" (solHex P.trace_root) ", \n" ++ (solMember "constraint_commitment" (solHex P.constraint_root) ", \n" ++
  (solMember "trace_oods_values" (solVec (P.trace_values.map f)) ", \n" ++
  (solMember "constraint_oods_values" (solVec (P.constraint_values.map f)) ", \n" ++
  (solMember "fri_commitments" (solVec (P.fri.map fun l => solHex l.root)) ", \n" ++
  (solMember "last_layer_coefficients" (solVec (P.last_layer.map f)) ", \n" ++
  (solMember "pow_nonce" (solHex (to_be_bytes 8 P.nonce)) "," ++
  (solMember "trace_values" (solVec (P.trace_rows.flatten.map f)) ", \n" ++
  (solMember "trace_decommitment" (solVec (P.trace_hashes.map solHex)) ", \n" ++
  (solMember "constraint_values" (solVec (P.constraint_rows.flatten.map f)) ", \n" ++
  (solMember "constraint_decommitment" (solVec (P.constraint_hashes.map solHex)) ", \n" ++
  (solMember "fri_values" (solVec (P.fri.map fun l => solVec (l.values.map f))) ", \n" ++
  solMember "fri_decommitments" (solVec (P.fri.map fun l => solVec (l.hashes.map solHex))) " \n")))))))))))

theorem map_ok {ε α β : Type} (f : α → β) (a : α) : Except.map f (.ok a : Except ε α) = .ok (f a) := rfl

theorem serialize_fwd (hsearch : SearchOk env.search) (c : Constraints F) (k b : Nat) (hkb : k + b < 64) (hk : c.trace_nrows = 2 ^ k) (hb : c.blowup = 2 ^ b)
    (hlayout : c.fri_layout.sum ≤ k + b) (hq : c.num_queries < 2 ^ 64) (hlay : c.fri_layout ≠ [] ∨ c.num_queries = 0) (W g : F) (p : Bytes) (args : List (Nat × Int))
    (P : Contents) (x : Challenges F) (h : Accepts env c k b W g p args P x) (hcount : P.Counted c.fri_layout (k + b) x.queries) (result : List Char) :
    serialize env c p result = .ok (result ++ text env P) := by
  have hN : c.trace_nrows * c.blowup = 2 ^ (k + b) := by rw [hk, hb, pow_add]
  obtain ⟨d, hd, hs⟩ := h.sized
  obtain ⟨c', a1, a2⟩ := arguments_fwd c args h.args_sorted h.args_all (out_of_domain_fit env h.out_of_domain)
  have hfull : P.front <+: p := by rw [h.bytes]; exact front_prefix P
  unfold Contents.front at hfull
  have p7 := hfull
  have p6 := (List.prefix_append _ _).trans p7
  have p5 := (List.prefix_append _ _).trans p6
  have p4 := (List.prefix_append _ _).trans p5
  have p3 := (List.prefix_append _ _).trans p4
  have p2 := (List.prefix_append _ _).trans p3
  have p1 := (List.prefix_append _ _).trans p2
  have r1 := replayHash_pre env.K (coin := coin env.K c.channel_seed []) (pre := []) hs.trace_root p1
  rw [coin_append env.K c.channel_seed [] P.trace_root _ rfl, List.nil_append, List.nil_append] at r1
  obtain ⟨coin1, r2, e2⟩ := fwd_draws env h.drawn.coefficients p P.trace_root
  have r3 := replayHash_pre env.K (coin := coin1) hs.constraint_root p2
  rw [coin_append env.K c.channel_seed [P.trace_root] P.constraint_root _ e2] at r3
  obtain ⟨coin2, r4, e4⟩ := fwd_draw env h.drawn.point p (P.trace_root ++ P.constraint_root)
  have r5 := fwd_fields env P.trace_values hs.trace_values.2 coin2 _ _ p3
  have e5 := (coin_writes env.K c.channel_seed (P.trace_values.map to_bytes_be) [P.trace_root, P.constraint_root] coin2 e4).1
  generalize hc3 : (P.trace_values.map to_bytes_be).foldl (PublicCoin.write env.K) coin2 = coin3 at r5 e5
  have r6 := fwd_fields env P.constraint_values hs.constraint_values.2 coin3 _ _ p4
  have hcvne : P.constraint_values.map to_bytes_be ≠ [] := by
    intro h0
    have := congrArg List.length h0
    rw [List.length_map, hs.constraint_values.1, List.length_nil] at this
    unfold next_power_of_two at this
    split at this
    · omega
    · exact absurd this (Nat.two_pow_pos _).ne'
  have e6 := (coin_writes env.K c.channel_seed (P.constraint_values.map to_bytes_be) _ coin3 e5).2 hcvne
  rw [e6] at r6
  obtain ⟨coin4, r7, e7⟩ := fwd_draws env h.drawn.oods p (P.trace_root ++ P.constraint_root ++ words P.trace_values ++ words P.constraint_values)
  obtain ⟨coin5, r8, e8⟩ := fwd_commitments env c.channel_seed c.fri_layout P.fri x.folds (k + b) P.head coin4 _ p hs.fri.1 h.drawn.folds.1 hlayout hkb
    (fun l hl => (hs.fri.2 l hl).1) e7 h.drawn.folds.2 p5
  have r9 := fwd_layer env (coin := coin5) hs.last_layer.2 p6
  rw [coin_append env.K c.channel_seed _ _ coin5 e8, hs.last_layer.1] at r9
  have hbody : P.head ++ P.fri.map (·.root) ++ [words P.last_layer] = P.body := rfl
  rw [hbody] at r9
  generalize hpre : P.trace_root ++ P.constraint_root ++ words P.trace_values ++ words P.constraint_values ++ P.fri.flatMap (·.root) ++ words P.last_layer = pre at r9 p7
  have r11 := replayResponse_pre env.K (coin := coin env.K c.channel_seed P.body) hs.nonce p7
  rw [coin_append env.K c.channel_seed P.body _ (coin env.K c.channel_seed P.body) rfl] at r11
  obtain ⟨l, coin6, _, q2, q3, q4, _, q6, _⟩ := C40_indices env.K true c.num_queries (k + b) hkb ⟨coin env.K c.channel_seed (P.body ++ [to_be_bytes 8 P.nonce]), []⟩
    (vch (coin env.K c.channel_seed (P.body ++ [to_be_bytes 8 P.nonce])) p (pre ++ to_be_bytes 8 P.nonce)) rfl (by show 0 + _ < _; omega)
  have hql : l = x.queries := (q6.trans h.drawn.queries.2.symm).eq_of_pairwise (fun a b _ _ h1 h2 => Nat.le_antisymm h1 h2) q4 h.drawn.queries.1
  subst hql
  have hql : x.queries.length = c.num_queries := by rw [h.drawn.queries.2.length_eq, List.length_map, List.length_range]
  have hfront : pre ++ to_be_bytes 8 P.nonce = P.front := by rw [← hpre]; rfl
  rw [hfront] at q2 r11
  have q2 : (vch (coin env.K c.channel_seed (P.body ++ [to_be_bytes 8 P.nonce])) p P.front).get_indices env.K true c.num_queries (k + b) =
      some (x.queries, vch coin6 p P.front) := q2
  have cf : (comsOf c.fri_layout P.fri x.folds (k + b)).map (fun l => solHex l.1.hash) = P.fri.map fun l => solHex l.root := by
    have := congrArg (List.map solHex) (coms_fst c.fri_layout P.fri x.folds (k + b) hs.fri.1 h.drawn.folds.1)
    rw [List.map_map, List.map_map] at this
    exact this
  have hp : p = P.front ++ P.trace_rows.flatMap words ++ P.trace_hashes.flatten ++ P.constraint_rows.flatMap words ++ P.constraint_hashes.flatten ++
      P.fri.flatMap fun l => words l.values ++ l.hashes.flatten := by
    rw [h.bytes]; unfold Contents.bytes Contents.front; simp only [List.append_assoc]
  have t5 : P.front ++ P.trace_rows.flatMap words ++ P.trace_hashes.flatten ++ P.constraint_rows.flatMap words ++ P.constraint_hashes.flatten ++
      (P.fri.flatMap fun l => words l.values ++ l.hashes.flatten) <+: p := by rw [← hp]
  have t4 := (List.prefix_append _ _).trans t5
  have t3 := (List.prefix_append _ _).trans t4
  have t2 := (List.prefix_append _ _).trans t3
  have t1 := (List.prefix_append _ _).trans t2
  obtain ⟨coin7, s1⟩ := fwd_leaves env c.trace_ncolumns x.queries P.trace_rows (hs.trace_rows.1.trans hql.symm) hs.trace_rows.2 coin6 P.front p t1
  obtain ⟨coin8, s2⟩ := readHashes_pre env P.trace_hashes hs.trace_hashes coin7 _ p t2
  obtain ⟨coin9, s3⟩ := fwd_leaves env P.constraint_values.length x.queries P.constraint_rows (hs.constraint_rows.1.trans hql.symm)
    (fun r hr => by rw [hs.constraint_values.1]; exact hs.constraint_rows.2 r hr) coin8 _ p t3
  obtain ⟨coin10, s4⟩ := readHashes_pre env P.constraint_hashes hs.constraint_hashes coin9 _ p t4
  obtain ⟨f, _, hf2⟩ := h.fri
  obtain ⟨coin11, s5⟩ := serializeLayers_fwd env hsearch _ p c.fri_layout P.fri x.folds _ (k + b) f x.queries h.drawn.queries.1
    (fun l hl => (hs.fri.2 l hl).2) hf2 hcount.fri coin10 _ t5
  have z1 : proof_size (⟨2 ^ (k + b), P.trace_root⟩ : Commitment Bytes) x.queries = .ok P.trace_hashes.length := hcount.trace
  have z2 : proof_size (⟨2 ^ (k + b), P.constraint_root⟩ : Commitment Bytes) x.queries = .ok P.constraint_hashes.length := hcount.constraint
  have hinit : VerifierChannel.init env.K p c.channel_seed = vch (coin env.K c.channel_seed []) p [] := rfl
  unfold serialize
  dsimp only
  rw [hN, hinit, r1, orPanic_some, ok_bind, from_size_hash_two_pow, orMerkle_ok, ok_bind, r2, orPanic_some, ok_bind, r3, orPanic_some, ok_bind,
    from_size_hash_two_pow, orMerkle_ok, ok_bind]
  dsimp only [List.cons_append, List.nil_append]
  rw [r4, orPanic_some, ok_bind, a1, orPanic_some, ok_bind, a2, orPanic_some, ok_bind]
  dsimp only
  rw [← hs.trace_values.1, r5, orPanic_some, ok_bind, hd, orPanic_some, ok_bind, ← hs.constraint_values.1, r6, orPanic_some, ok_bind]
  dsimp only
  rw [← hs.trace_values.1] at r7
  have r7' : VerifierChannel.getFields env (P.trace_values.length + P.constraint_values.length)
      (vch (coin env.K c.channel_seed ([P.trace_root, P.constraint_root] ++ P.trace_values.map to_bytes_be ++ P.constraint_values.map to_bytes_be)) p
        (P.trace_root ++ P.constraint_root ++ words P.trace_values ++ words P.constraint_values)) = some (x.oods, vch coin4 p
        (P.trace_root ++ P.constraint_root ++ words P.trace_values ++ words P.constraint_values)) := r7
  dsimp only [List.cons_append, List.nil_append] at r7' ⊢
  rw [r7', orPanic_some, ok_bind]
  dsimp only
  rw [r8, ok_bind, if_neg (by rw [hb]; exact (Nat.two_pow_pos b).ne')]
  dsimp only
  rw [hb, r9, orPanic_some, ok_bind]
  dsimp only
  rw [r11, orPanic_some, ok_bind, trailing_zeros_two_pow _ hkb]
  dsimp only
  rw [q2, orPanic_some, ok_bind]
  dsimp only
  rw [s1, ok_bind]
  dsimp only
  rw [z1, orMerkle_ok, ok_bind, s2, orPanic_some, ok_bind, s3, ok_bind]
  dsimp only
  rw [z2, orMerkle_ok, ok_bind, s4, orPanic_some, ok_bind, if_neg (by
    rintro ⟨h0, h1⟩
    rcases hlay with h2 | h2
    · exact h2 h0
    · rw [h2] at hql; exact h1 (List.length_eq_zero_iff.1 hql)), s5]
  rw [map_ok]
  dsimp only
  have flat : ∀ rows : List (List U256), rows.length = x.queries.length →
      (x.queries.zip (rows.map (·.map env.codec.val))).flatMap Prod.snd = rows.flatten.map env.codec.val := by
    intro rows hl
    rw [List.flatMap_def, List.map_snd_zip (by rw [List.length_map, hl]), List.map_flatten]
  rw [flat _ (hs.trace_rows.1.trans hql.symm), flat _ (hs.constraint_rows.1.trans hql.symm), cf]
  unfold text
  simp only [List.map_map, Function.comp_def]

end
end Accept
end Stark
end OpenZKP
