import Verif.Stark.Forward

/-!
Lemmas: on a proof that meets the specification, the verifier's first part reads the transcript of the specification.
-/

namespace OpenZKP
namespace Stark
namespace Accept
open FFT U256 Props Merkle Polynomial

section
variable {F : Type} [Field F] [DecidableEq F] (env : Env F)

omit [DecidableEq F] in
theorem claims_fit (polys : List (List F)) (x : F) (tr : Nat → Int → Option F) [DecidableEq F] (e : Expr F) (v : F)
    (h : claimValue (fun i => (polys[i]?).map toPoly) x tr e = some v) : ClaimsFit polys e := by
  induction e generalizing v with
  | X => trivial
  | Constant c => trivial
  | Trace i j => trivial
  | Polynomial p a ih =>
    rw [claimValue] at h
    obtain ⟨w, h1, _⟩ := Option.map_eq_some_iff.1 h
    exact ih w h1
  | ClaimPolynomial i n a name ih =>
    rw [claimValue] at h
    split at h
    · next P w h1 h2 =>
      split at h
      · next hn =>
        obtain ⟨p, h3, rfl⟩ := Option.map_eq_some_iff.1 h1
        exact ⟨⟨p, h3, hn⟩, ih w h2⟩
      · cases h
    · cases h
  | Add a b iha ihb =>
    rw [claimValue] at h
    split at h
    · next u w h1 h2 => exact ⟨iha u h1, ihb w h2⟩
    · cases h
  | Neg a ih =>
    rw [claimValue] at h
    obtain ⟨w, h1, _⟩ := Option.map_eq_some_iff.1 h
    exact ih w h1
  | Mul a b iha ihb =>
    rw [claimValue] at h
    split at h
    · next u w h1 h2 => exact ⟨iha u h1, ihb w h2⟩
    · cases h
  | Inv a ih =>
    rw [claimValue] at h
    split at h
    · next u h1 => exact ih u h1
    · cases h
  | Exp a k ih =>
    rw [claimValue] at h
    obtain ⟨w, h1, _⟩ := Option.map_eq_some_iff.1 h
    exact ih w h1

theorem noClaim_of_fit (e : Expr F) (h : ClaimsFit [] e) : NoClaim e := by
  induction e with
  | X => trivial
  | Constant c => trivial
  | Trace i j => trivial
  | Polynomial p a ih => exact ih h
  | ClaimPolynomial i n a name ih => obtain ⟨⟨p, h1, _⟩, _⟩ := h; simp at h1
  | Add a b iha ihb => exact ⟨iha h.1, ihb h.2⟩
  | Neg a ih => exact ih h
  | Mul a b iha ihb => exact ⟨iha h.1, ihb h.2⟩
  | Inv a ih => exact ih h
  | Exp a k ih => exact ih h

theorem substitute_noClaim (polys : List (List F)) (e e' : Expr F) (h : e.substitute_claim polys = some e') : NoClaim e' := by
  unfold Expr.substitute_claim at h
  induction e generalizing e' with
  | X => cases h; trivial
  | Constant c => cases h; trivial
  | Trace i j => cases h; trivial
  | Polynomial p a ih => obtain ⟨a', h1, h2⟩ := Option.bind_eq_some_iff.1 h; cases h2; exact ih a' h1
  | ClaimPolynomial i n a name ih =>
    obtain ⟨a', h1, h2⟩ := Option.bind_eq_some_iff.1 h
    unfold Expr.substituteNode at h2
    obtain ⟨p, _, h2⟩ := Option.bind_eq_some_iff.1 h2
    split at h2
    · cases h2; exact ih a' h1
    · cases h2
  | Add a b iha ihb =>
    obtain ⟨a', h1, h2⟩ := Option.bind_eq_some_iff.1 h
    obtain ⟨b', h3, h4⟩ := Option.bind_eq_some_iff.1 h2
    cases h4; exact ⟨iha a' h1, ihb b' h3⟩
  | Neg a ih => obtain ⟨a', h1, h2⟩ := Option.bind_eq_some_iff.1 h; cases h2; exact ih a' h1
  | Mul a b iha ihb =>
    obtain ⟨a', h1, h2⟩ := Option.bind_eq_some_iff.1 h
    obtain ⟨b', h3, h4⟩ := Option.bind_eq_some_iff.1 h2
    cases h4; exact ⟨iha a' h1, ihb b' h3⟩
  | Inv a ih => obtain ⟨a', h1, h2⟩ := Option.bind_eq_some_iff.1 h; cases h2; exact ih a' h1
  | Exp a k ih => obtain ⟨a', h1, h2⟩ := Option.bind_eq_some_iff.1 h; cases h2; exact ih a' h1

theorem mapM_isSome {α β : Type} (f : α → Option β) : ∀ (l : List α), (∀ a ∈ l, ∃ b, f a = some b) → ∃ l', l.mapM f = some l' := by
  intro l
  induction l with
  | nil => intro _; exact ⟨[], rfl⟩
  | cons a l ih =>
    intro h
    obtain ⟨b, hb⟩ := h a (by simp)
    obtain ⟨l', hl⟩ := ih fun x hx => h x (by simp [hx])
    exact ⟨b :: l', by rw [List.mapM_cons, hb]; simp [hl]⟩

theorem argLt_irrefl (a : Nat × Int) : argLt a a ≠ true := by
  unfold argLt; simp

theorem sorted_unique (s t : List (Nat × Int)) (hs : s.Pairwise (fun a b => argLt a b = true)) (ht : t.Pairwise (fun a b => argLt a b = true))
    (h : ∀ a, a ∈ s ↔ a ∈ t) : s = t := by
  have n1 : s.Nodup := hs.imp (S := fun a b => a ≠ b) fun {a b} hab e => argLt_irrefl b (by rw [e] at hab; exact hab)
  have n2 : t.Nodup := ht.imp (S := fun a b => a ≠ b) fun {a b} hab e => argLt_irrefl b (by rw [e] at hab; exact hab)
  refine ((List.perm_ext_iff_of_nodup n1 n2).2 h).eq_of_pairwise (fun a b _ _ h1 h2 => absurd (argLt_trans h1 h2) (argLt_irrefl a)) hs ht

/-- the arguments the verifier collects are those of the specification -/
theorem arguments_fwd (c : Constraints F) (args : List (Nat × Int)) (hs : args.Pairwise (fun a b => argLt a b = true))
    (ha : ∀ a, a ∈ args ↔ ∃ e ∈ c.expressions, Occurs a e) (hfit : ∀ e ∈ c.expressions, ClaimsFit c.claim_polynomials e) :
    ∃ c', c.substitute = some c' ∧ c'.trace_arguments = some args := by
  have key : ∀ es : List (Expr F), (∀ e ∈ es, NoClaim e) → ∃ l, es.mapM Expr.trace_arguments = some l := by
    intro es h
    refine mapM_isSome _ _ fun e he => ?_
    obtain ⟨t, h1, _⟩ := C42_arguments e (h e he)
    exact ⟨t, h1⟩
  have hsub : ∃ c', c.substitute = some c' ∧ ∀ e ∈ c'.expressions, NoClaim e := by
    unfold Constraints.substitute
    split
    · next h =>
      refine ⟨c, rfl, fun e he => noClaim_of_fit e ?_⟩
      have := hfit e he
      rwa [List.isEmpty_iff.1 h] at this
    · obtain ⟨es, h1⟩ := mapM_isSome (Expr.substitute_claim c.claim_polynomials) c.expressions fun e he =>
        Option.isSome_iff_exists.1 ((C42_substitute_defined _ e).2 (hfit e he))
      rw [h1]
      refine ⟨_, rfl, fun e he => ?_⟩
      have hf := mapM_some_inv _ _ _ h1
      obtain ⟨i, hi, rfl⟩ := List.getElem_of_mem he
      have := (List.forall₂_iff_get.1 hf).2 i (by rw [hf.length_eq]; exact hi) hi
      exact substitute_noClaim _ _ _ this
  obtain ⟨c', h1, h2⟩ := hsub
  obtain ⟨l, h3⟩ := key _ h2
  refine ⟨c', h1, ?_⟩
  obtain ⟨_, _, _, _, h4⟩ := substitute_spec c c' h1
  have h5 : c'.trace_arguments = some (l.foldl Constraints.argUnion []) := by unfold Constraints.trace_arguments; rw [h3]; rfl
  rw [h5, sorted_unique _ args (unions_sorted _ _ List.Pairwise.nil) hs fun a => by rw [h4 _ h5 a, ha]]

theorem out_of_domain_fit {c : Constraints F} {args : List (Nat × Int)} {P : Contents} {x : Challenges F} (h : OutOfDomainOk env c args P x) :
    ∀ e ∈ c.expressions, ClaimsFit c.claim_polynomials e := by
  obtain ⟨d, vs, _, _, h1, _⟩ := h
  intro e he
  obtain ⟨i, hi, rfl⟩ := List.getElem_of_mem he
  have := (List.forall₂_iff_get.1 h1).2 i hi (by rw [← h1.length_eq]; exact hi)
  exact claims_fit _ _ _ _ _ this

/-- the bytes up to the nonce -/
def Contents.front (P : Contents) : Bytes :=
  P.trace_root ++ P.constraint_root ++ words P.trace_values ++ words P.constraint_values ++ P.fri.flatMap (·.root) ++ words P.last_layer ++ to_be_bytes 8 P.nonce

theorem front_prefix (P : Contents) : P.front <+: P.bytes := by
  unfold Contents.front Contents.bytes
  simp only [List.append_assoc]
  simp only [List.prefix_append_right_inj]
  exact List.prefix_append _ _

/-- the transcript of the specification -/
def transcriptOf (c : Constraints F) (M : Nat) (args : List (Nat × Int)) (P : Contents) (x : Challenges F) : Transcript F :=
  ⟨⟨2 ^ M, P.trace_root⟩, x.coefficients, ⟨2 ^ M, P.constraint_root⟩, x.point, args.zip (P.trace_values.map env.codec.val), P.constraint_values.length,
    P.constraint_values.map env.codec.val, x.oods, comsOf c.fri_layout P.fri x.folds M, P.last_layer.map env.codec.val, x.queries⟩

theorem transcript_fwd (c : Constraints F) (k b : Nat) (hkb : k + b < 64) (hk : c.trace_nrows = 2 ^ k) (hb : c.blowup = 2 ^ b)
    (hlayout : c.fri_layout.sum ≤ k + b) (hq : c.num_queries < 2 ^ 64) (hpow : c.pow_bits < 256) (W g : F) (p : Bytes) (args : List (Nat × Int))
    (P : Contents) (x : Challenges F) (h : Accepts env c k b W g p args P x) :
    ∃ coin', readTranscript env c (VerifierChannel.init env.K p c.channel_seed) = .ok (transcriptOf env c (k + b) args P x, vch coin' p P.front) := by
  have hN : c.trace_nrows * c.blowup = 2 ^ (k + b) := by rw [hk, hb, pow_add]
  obtain ⟨d, hd, hs⟩ := h.sized
  obtain ⟨c', a1, a2⟩ := arguments_fwd c args h.args_sorted h.args_all (out_of_domain_fit env h.out_of_domain)
  have hfull : P.front <+: p := by rw [h.bytes]; exact front_prefix P
  unfold Contents.front at hfull
  have p7 := hfull
  have p6 := (List.prefix_append _ _).trans p7
  have p5 := (List.prefix_append _ _).trans p6
  have p4 := (List.prefix_append _ _).trans p5
  have p3 := (List.prefix_append _ _).trans p4
  have p2 := (List.prefix_append _ _).trans p3
  have p1 := (List.prefix_append _ _).trans p2
  have r1 := replayHash_pre env.K (coin := coin env.K c.channel_seed []) (pre := []) hs.trace_root p1
  rw [coin_append env.K c.channel_seed [] P.trace_root _ rfl, List.nil_append, List.nil_append] at r1
  obtain ⟨coin1, r2, e2⟩ := fwd_draws env h.drawn.coefficients p P.trace_root
  have r3 := replayHash_pre env.K (coin := coin1) hs.constraint_root p2
  rw [coin_append env.K c.channel_seed [P.trace_root] P.constraint_root _ e2] at r3
  obtain ⟨coin2, r4, e4⟩ := fwd_draw env h.drawn.point p (P.trace_root ++ P.constraint_root)
  have r5 := fwd_fields env P.trace_values hs.trace_values.2 coin2 _ _ p3
  have e5 := (coin_writes env.K c.channel_seed (P.trace_values.map to_bytes_be) [P.trace_root, P.constraint_root] coin2 e4).1
  generalize hc3 : (P.trace_values.map to_bytes_be).foldl (PublicCoin.write env.K) coin2 = coin3 at r5 e5
  have r6 := fwd_fields env P.constraint_values hs.constraint_values.2 coin3 _ _ p4
  have hcvne : P.constraint_values.map to_bytes_be ≠ [] := by
    intro h0
    have := congrArg List.length h0
    rw [List.length_map, hs.constraint_values.1, List.length_nil] at this
    unfold next_power_of_two at this
    split at this
    · omega
    · exact absurd this (Nat.two_pow_pos _).ne'
  have e6 := (coin_writes env.K c.channel_seed (P.constraint_values.map to_bytes_be) _ coin3 e5).2 hcvne
  rw [e6] at r6
  obtain ⟨coin4, r7, e7⟩ := fwd_draws env h.drawn.oods p (P.trace_root ++ P.constraint_root ++ words P.trace_values ++ words P.constraint_values)
  obtain ⟨coin5, r8, e8⟩ := fwd_commitments env c.channel_seed c.fri_layout P.fri x.folds (k + b) P.head coin4 _ p hs.fri.1 h.drawn.folds.1 hlayout hkb
    (fun l hl => (hs.fri.2 l hl).1) e7 h.drawn.folds.2 p5
  have r9 := fwd_layer env (coin := coin5) hs.last_layer.2 p6
  rw [coin_append env.K c.channel_seed _ _ coin5 e8, hs.last_layer.1] at r9
  have hbody : P.head ++ P.fri.map (·.root) ++ [words P.last_layer] = P.body := rfl
  rw [hbody] at r9
  generalize hpre : P.trace_root ++ P.constraint_root ++ words P.trace_values ++ words P.constraint_values ++ P.fri.flatMap (·.root) ++ words P.last_layer = pre at r9 p7
  have r10 : (vch (coin env.K c.channel_seed P.body) p pre).getSeed =
      some ((coin env.K c.channel_seed P.body).digest, vch ⟨(coin env.K c.channel_seed P.body).digest, 1⟩ p pre) := rfl
  have r11 := replayResponse_pre env.K (coin := ⟨(coin env.K c.channel_seed P.body).digest, 1⟩) hs.nonce p7
  rw [coin_append env.K c.channel_seed P.body _ ⟨(coin env.K c.channel_seed P.body).digest, 1⟩ rfl] at r11
  obtain ⟨l, coin6, _, q2, q3, q4, _, q6, _⟩ := C40_indices env.K true c.num_queries (k + b) hkb ⟨coin env.K c.channel_seed (P.body ++ [to_be_bytes 8 P.nonce]), []⟩
    (vch (coin env.K c.channel_seed (P.body ++ [to_be_bytes 8 P.nonce])) p (pre ++ to_be_bytes 8 P.nonce)) rfl (by show 0 + _ < _; omega)
  have hql : l = x.queries := (q6.trans h.drawn.queries.2.symm).eq_of_pairwise (fun a b _ _ h1 h2 => Nat.le_antisymm h1 h2) q4 h.drawn.queries.1
  subst hql
  refine ⟨coin6, ?_⟩
  have hinit : VerifierChannel.init env.K p c.channel_seed = vch (coin env.K c.channel_seed []) p [] := rfl
  unfold readTranscript
  dsimp only
  rw [hN, hinit, r1, orPanic_some, ok_bind, from_size_hash_two_pow, orMerkle_ok, ok_bind, r2, orPanic_some, ok_bind, r3, orPanic_some, ok_bind,
    from_size_hash_two_pow, orMerkle_ok, ok_bind]
  dsimp only [List.cons_append, List.nil_append]
  rw [r4, orPanic_some, ok_bind, a1, orPanic_some, ok_bind, a2, orPanic_some, ok_bind]
  dsimp only
  rw [← hs.trace_values.1, r5, orPanic_some, ok_bind, hd, orPanic_some, ok_bind, ← hs.constraint_values.1, r6, orPanic_some, ok_bind]
  dsimp only
  rw [← hs.trace_values.1] at r7
  have r7' : VerifierChannel.getFields env (P.trace_values.length + P.constraint_values.length)
      (vch (coin env.K c.channel_seed ([P.trace_root, P.constraint_root] ++ P.trace_values.map to_bytes_be ++ P.constraint_values.map to_bytes_be)) p
        (P.trace_root ++ P.constraint_root ++ words P.trace_values ++ words P.constraint_values)) = some (x.oods, vch coin4 p
        (P.trace_root ++ P.constraint_root ++ words P.trace_values ++ words P.constraint_values)) := r7
  dsimp only [List.cons_append, List.nil_append] at r7' ⊢
  rw [r7', orPanic_some, ok_bind]
  dsimp only
  rw [r8, ok_bind, if_neg (by rw [hb]; exact (Nat.two_pow_pos b).ne')]
  dsimp only
  rw [hb, r9, orPanic_some, ok_bind]
  dsimp only
  rw [r10, orPanic_some, ok_bind]
  unfold with_difficulty
  rw [if_pos hpow, orPanic_some, ok_bind, r11, orPanic_some, ok_bind]
  dsimp only
  have hver := (C36_verify env.K ⟨env.K.hash ([0x01, 0x23, 0x45, 0x67, 0x89, 0xab, 0xcd, 0xed] ++ (coin env.K c.channel_seed P.body).digest ++
    [UInt8.ofNat c.pow_bits]), c.pow_bits⟩ (by dsimp only; omega) P.nonce).2 h.worked
  rw [hver, if_neg (by simp), trailing_zeros_two_pow _ hkb, q2]
  unfold transcriptOf Contents.front
  rw [hpre]
  rfl

end
end Accept
end Stark
end OpenZKP
