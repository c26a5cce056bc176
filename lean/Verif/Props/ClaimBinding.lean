import Verif.Stark.SameShape
import Verif.Props.PedersenMerkle

/-!
# C85: for which claims a proof of a component is accepted
-/

namespace OpenZKP
namespace Props
namespace ClaimBinding
open Stark Stark.Accept Merkle Examples Examples.Pedersen PedersenMerkle EC Polynomial
variable {F : Type} [Field F] [DecidableEq F]

/-- C85: For two constraint systems that have the same parameters and differ only in the constants of their expressions, a proof accepted for the one is accepted
for the other exactly when the out-of-domain equation holds for the other too: the challenges and every other check are the same. -/
theorem C85_systems (env : Env F) (hroot : RootFn env.root) (hcompat : RootCompat env.root) (hsearch : SearchOk env.search) (c : Constraints F) (k b : Nat)
    (hkb : k + b < 64) (hk : c.trace_nrows = 2 ^ k) (hb : c.blowup = 2 ^ b) (hlayout : c.fri_layout.sum ≤ k + b) (hq : c.num_queries < 2 ^ 64) (p : Bytes)
    (h : Stark.verify env c p = .ok ()) :
    ∃ w g args P x, Accepts env c k b w g p args P x ∧
      ∀ c', Alike c c' → (Stark.verify env c' p = .ok () ↔ OutOfDomainOk env c' args P x) := by
  obtain ⟨w, g, args, P, x, hw, hg, hacc, -, t, ch, h1, h2, h3, h4, h5⟩ := accepts_read env hroot hcompat hsearch c k b hkb hk hb hlayout hq p h
  refine ⟨w, g, args, P, x, hacc, fun c' hA => ?_⟩
  have hN : c.trace_nrows * c.blowup = 2 ^ (k + b) := by rw [hk, hb, pow_add]
  unfold Stark.verify at h ⊢
  rw [hA.rows, hA.blowup, hA.seed]
  dsimp only at h ⊢
  rw [hN, hw] at h
  rw [hN, hw]
  have e1 : ∀ f : F → Except VerifierError Unit, (orPanic (some w)).bind f = f w := fun f => rfl
  rw [e1, h1] at h
  rw [e1, hA.readTranscript, h1]
  have hok : Stark.checkTranscript env c ((List.range (2 ^ (k + b))).map fun i => w ^ i) t ch = .ok () := h
  refine (show _ ↔ _ from hA.checkTranscript env _ t ch hok).trans ?_
  rw [h2, h3, h4, h5]
  have hdeg : c'.degree ≠ some 0 := by
    rw [hA.degree]
    intro e
    obtain ⟨w', h6⟩ : ∃ v, oods_value_from_trace_values c t.constraint_coefficients t.trace_map t.oods_point = some v := by
      unfold Stark.checkTranscript at hok
      obtain ⟨lv, -, hok⟩ := Merkle.bind_ok_inv hok
      obtain ⟨ch1, -, hok⟩ := Merkle.bind_ok_inv hok
      obtain ⟨cvv, -, hok⟩ := Merkle.bind_ok_inv hok
      obtain ⟨ch2, -, hok⟩ := Merkle.bind_ok_inv hok
      split at hok
      · cases hok
      obtain ⟨r, -, hok⟩ := Merkle.bind_ok_inv hok
      split at hok
      · cases hok
      obtain ⟨u, -, hok⟩ := Merkle.bind_ok_inv hok
      obtain ⟨v, h9, -⟩ := Merkle.bind_ok_inv hok
      exact ⟨v, verify_orPanic_inv h9⟩
    unfold oods_value_from_trace_values at h6
    obtain ⟨E, h7, -⟩ := Option.bind_eq_some_iff.1 h6
    obtain ⟨d, target, h8, h9, -⟩ := C43_evaluate c _ E h7
    rw [e] at h8
    cases h8
    omega
  constructor
  · intro hv
    exact oods_inv env c' args P x _ hv rfl
  · intro ho
    refine oods_fwd env c' hdeg (by rw [hA.rows, hk]; exact Nat.two_pow_pos k) args P x ?_ ho
    rw [hA.length]
    exact draws_length env _ _ _ hacc.drawn.coefficients

/-- the value of an expression at the out-of-domain point, from the values claimed by the proof -/
noncomputable def valueAt (env : Env F) (args : List (Nat × Int)) (P : Contents) (z : F) (e : Expr F) : Option F :=
  claimValue (fun _ => none) z (claimedCell env args P) e

theorem adjustment_shape (n target : Nat) (e e' : Expr F) (h : e'.shape = e.shape) : adjustment n target e' = adjustment n target e := by
  unfold adjustment Expr.degree
  rw [← degree_shape 1 (n - 1) e, ← degree_shape 1 (n - 1) e', h]

/-- the out-of-domain equation when two expressions are replaced -/
theorem out_of_domain_two (env : Env F) (c c' : Constraints F) (hA : Alike c c') (args : List (Nat × Int)) (P : Contents) (x : Challenges F) (a : Nat) (e1 e2 e1' e2' : Expr F)
    (he1 : c.expressions[a]? = some e1) (he2 : c.expressions[a + 1]? = some e2) (hc' : c'.expressions = (c.expressions.set a e1').set (a + 1) e2')
    (d : Nat) (hd : c.degree = some d) (h : OutOfDomainOk env c args P x) (v1 v2 v1' v2' : F)
    (hv1 : valueAt env args P x.point e1 = some v1) (hv2 : valueAt env args P x.point e2 = some v2)
    (hv1' : valueAt env args P x.point e1' = some v1') (hv2' : valueAt env args P x.point e2' = some v2') :
    OutOfDomainOk env c' args P x ↔
      (x.coefficients.getD (2 * a) 0 + x.coefficients.getD (2 * a + 1) 0 * x.point ^ adjustment c.trace_nrows (d * c.trace_nrows - 1) e1) * (v1' - v1) +
      (x.coefficients.getD (2 * (a + 1)) 0 + x.coefficients.getD (2 * (a + 1) + 1) 0 * x.point ^ adjustment c.trace_nrows (d * c.trace_nrows - 1) e2) * (v2' - v2) = 0 := by
  obtain ⟨d0, vs, h1, h2, h3, h4⟩ := h
  rw [hd] at h1
  cases h1
  obtain ⟨ha1, ea1⟩ := List.getElem?_eq_some_iff.1 he1
  obtain ⟨ha2, ea2⟩ := List.getElem?_eq_some_iff.1 he2
  have hnone : ∀ l : List (List F), l = [] → (fun i => (l[i]?).map toPoly) = (fun _ : Nat => (none : Option F[X])) := by
    rintro l rfl
    rfl
  rw [hnone _ hA.no_claims.1] at h3
  have hvs : vs.length = c.expressions.length := h3.length_eq.symm
  have hget : ∀ i (hi : i < c.expressions.length) v, valueAt env args P x.point c.expressions[i] = some v → vs[i]? = some v := by
    intro i hi v hv
    have := (List.forall₂_iff_get.1 h3).2 i hi (by omega)
    simp only [List.get_eq_getElem] at this
    unfold valueAt at hv
    rw [hv] at this
    rw [List.getElem?_eq_getElem (by omega), Option.some.inj this]
  have g1 := hget a ha1 v1 (by rw [ea1]; exact hv1)
  have g2 := hget (a + 1) ha2 v2 (by rw [ea2]; exact hv2)
  have hshape : ∀ i, (c'.expressions.getD i .X).shape = (c.expressions.getD i .X).shape := by
    intro i
    have := congrArg (fun l : List (Expr F) => l[i]?) hA.shapes
    simp only [List.getElem?_map] at this
    unfold List.getD
    cases hx : c.expressions[i]? with
    | none => rw [hx] at this; simp only [Option.map_none, Option.map_eq_none_iff] at this; rw [this]
    | some e =>
      rw [hx] at this
      obtain ⟨e', h5, h6⟩ := Option.map_eq_some_iff.1 this
      rw [h5]
      exact h6
  have hadj : ∀ i, adjustment c'.trace_nrows (d * c'.trace_nrows - 1) (c'.expressions.getD i .X) = adjustment c.trace_nrows (d * c.trace_nrows - 1) (c.expressions.getD i .X) := by
    intro i
    rw [hA.rows]
    exact adjustment_shape _ _ _ _ (hshape i)
  -- the values for the other system
  have key : ∀ ws : List F, List.Forall₂ (fun e v => claimValue (fun i => (c'.claim_polynomials[i]?).map toPoly) x.point (claimedCell env args P) e = some v) c'.expressions ws ↔
      ws = (vs.set a v1').set (a + 1) v2' := by
    intro ws
    rw [hnone _ hA.no_claims.2, hc', List.forall₂_iff_get]
    have hval : ∀ i (hi : i < c.expressions.length), claimValue (fun _ => none) x.point (claimedCell env args P) (((c.expressions.set a e1').set (a + 1) e2')[i]'(by simpa using hi)) =
        some (((vs.set a v1').set (a + 1) v2')[i]'(by simp only [List.length_set]; omega)) := by
      intro i hi
      by_cases i1 : a + 1 = i
      · subst i1
        rw [List.getElem_set_self, List.getElem_set_self]
        exact hv2'
      rw [List.getElem_set_ne i1, List.getElem_set_ne i1]
      by_cases i2 : a = i
      · subst i2
        rw [List.getElem_set_self, List.getElem_set_self]
        exact hv1'
      rw [List.getElem_set_ne i2, List.getElem_set_ne i2]
      have := (List.forall₂_iff_get.1 h3).2 i hi (by omega)
      simpa only [List.get_eq_getElem] using this
    constructor
    · rintro ⟨l1, l2⟩
      simp only [List.length_set] at l1
      refine List.ext_getElem (by simp only [List.length_set]; omega) fun i i1 i2 => ?_
      have i3 : i < c.expressions.length := by omega
      have := l2 i (by simpa using i3) i1
      simp only [List.get_eq_getElem] at this
      rw [hval i i3] at this
      exact (Option.some.inj this).symm
    · rintro rfl
      refine ⟨by simp only [List.length_set]; omega, fun i i1 i2 => ?_⟩
      simp only [List.length_set] at i1
      exact hval i i1
  -- the difference of the two sums
  have hsum : ∑ i ∈ Finset.range c'.expressions.length, (x.coefficients.getD (2 * i) 0 + x.coefficients.getD (2 * i + 1) 0 *
      x.point ^ adjustment c'.trace_nrows (d * c'.trace_nrows - 1) (c'.expressions.getD i .X)) * ((vs.set a v1').set (a + 1) v2').getD i 0 -
      ∑ i ∈ Finset.range c.expressions.length, (x.coefficients.getD (2 * i) 0 + x.coefficients.getD (2 * i + 1) 0 *
      x.point ^ adjustment c.trace_nrows (d * c.trace_nrows - 1) (c.expressions.getD i .X)) * vs.getD i 0 =
      (x.coefficients.getD (2 * a) 0 + x.coefficients.getD (2 * a + 1) 0 * x.point ^ adjustment c.trace_nrows (d * c.trace_nrows - 1) e1) * (v1' - v1) +
      (x.coefficients.getD (2 * (a + 1)) 0 + x.coefficients.getD (2 * (a + 1) + 1) 0 * x.point ^ adjustment c.trace_nrows (d * c.trace_nrows - 1) e2) * (v2' - v2) := by
    rw [hA.length, ← Finset.sum_sub_distrib]
    have t1 : ∀ i, (x.coefficients.getD (2 * i) 0 + x.coefficients.getD (2 * i + 1) 0 *
        x.point ^ adjustment c'.trace_nrows (d * c'.trace_nrows - 1) (c'.expressions.getD i .X)) * ((vs.set a v1').set (a + 1) v2').getD i 0 -
        (x.coefficients.getD (2 * i) 0 + x.coefficients.getD (2 * i + 1) 0 * x.point ^ adjustment c.trace_nrows (d * c.trace_nrows - 1) (c.expressions.getD i .X)) * vs.getD i 0 =
        (x.coefficients.getD (2 * i) 0 + x.coefficients.getD (2 * i + 1) 0 * x.point ^ adjustment c.trace_nrows (d * c.trace_nrows - 1) (c.expressions.getD i .X)) *
          (((vs.set a v1').set (a + 1) v2').getD i 0 - vs.getD i 0) := by
      intro i
      rw [hadj, mul_sub]
    rw [Finset.sum_congr rfl fun i _ => t1 i]
    have n1 : ((vs.set a v1').set (a + 1) v2').getD a 0 = v1' := by
      rw [List.getD, List.getElem?_set_ne (by omega), List.getElem?_set_self (by omega)]; rfl
    have n2 : ((vs.set a v1').set (a + 1) v2').getD (a + 1) 0 = v2' := by
      rw [List.getD, List.getElem?_set_self (by rw [List.length_set]; omega)]; rfl
    rw [Finset.sum_eq_add a (a + 1) (by omega)]
    · rw [n1, n2, List.getD, List.getD, List.getD, List.getD, List.getD, List.getD, List.getD, List.getD, g1, g2, he1, he2]
      rfl
    · rintro i - ⟨i1, i2⟩
      rw [show ((vs.set a v1').set (a + 1) v2').getD i 0 = vs.getD i 0 by
        rw [List.getD, List.getElem?_set_ne (Ne.symm i2), List.getElem?_set_ne (Ne.symm i1), List.getD], sub_self, mul_zero]
    · intro hn; exact absurd (Finset.mem_range.2 ha1) hn
    · intro hn; exact absurd (Finset.mem_range.2 ha2) hn
  have hdeg' : ∀ e ∈ c'.expressions, (e.degree (c'.trace_nrows - 1)).1 ≤ d * c'.trace_nrows - 1 + (e.degree (c'.trace_nrows - 1)).2 := by
    intro e he
    have : e.shape ∈ c'.expressions.map Expr.shape := List.mem_map_of_mem he
    rw [hA.shapes] at this
    obtain ⟨e0, h5, h6⟩ := List.mem_map.1 this
    have := h2 e0 h5
    unfold Expr.degree at this ⊢
    rw [← degree_shape _ _ e, ← h6, degree_shape, hA.rows]
    exact this
  constructor
  · rintro ⟨d', ws, k1, -, k3, k4⟩
    rw [hA.degree, hd] at k1
    cases k1
    rw [(key ws).1 k3] at k4
    rw [← hsum, k4, h4, sub_self]
  · intro h0
    rw [← hsum, sub_eq_zero] at h0
    exact ⟨d, _, by rw [hA.degree, hd], hdeg', (key _).2 rfl, h0.trans h4⟩

/-! ## The Merkle tree of `pedersen_merkle` -/

/-- the constraint on the leaf -/
def leafConstraint (leaf : F) : Expr F :=
  Expr.div (Expr.mul (Expr.sub (.Constant leaf) (.Trace 0 0)) (Expr.sub (.Constant leaf) (.Trace 4 0))) (Expr.sub .X (.Constant 1))

/-- the constraint on the root -/
def rootConstraint (last : F) (root : F) : Expr F := Expr.div (Expr.sub (.Constant root) (.Trace 6 0)) (Expr.sub .X (.Constant last))

theorem tree_systems (root : Nat → Option F) (dbg : Bool) (uint : F → U256) (element : U256 → F) (T : Tables F) (h : Nat) (comp : Component F (Claim F) (Witness F))
    (hcomp : MerkleTree dbg root uint element T (2 ^ h) = some comp) (claim : Claim F) (c : Constraints F) (hc : comp.system root claim = some c) :
    ∃ g rest, root (2 ^ (h + 8)) = some g ∧ ∀ claim' : Claim F, comp.system root claim' = some ⟨[], 2 ^ (h + 8), 8, (List.range 8).map (fun i => Expr.Trace i 0) ++
      leafConstraint claim'.leaf :: rootConstraint (g ^ (2 ^ (h + 8) - 1)) claim'.root :: rest, 16, 0, 45, default_fri_layout (2 ^ (h + 8)), []⟩ := by
  have hn : 256 * 2 ^ h = 2 ^ (h + 8) := by rw [pow_add, mul_comm]; norm_num
  have hpos := Nat.two_pow_pos h
  unfold MerkleTree Component.Vertical.new at hcomp
  rw [if_pos (by rw [Nat.log2_two_pow]), Option.map_some] at hcomp
  have hcomp := Option.some.inj hcomp
  subst hcomp
  have hsz : (Component.Vertical dbg (MerkleTreeLayer root uint element T) (2 ^ h)).polynomial_size = some (2 ^ (h + 8)) := by
    rw [← hn]
    rfl
  unfold Component.system at hc ⊢
  dsimp only at hc ⊢
  rw [hsz] at hc ⊢
  rw [Option.bind_some] at hc
  obtain ⟨es, hes, hc⟩ := Option.bind_eq_some_iff.1 hc
  obtain ⟨ls, hls, hes⟩ := Option.bind_eq_some_iff.1 hes
  rw [Option.bind_some] at hes
  obtain ⟨g, hg, hes⟩ := Option.bind_eq_some_iff.1 hes
  refine ⟨g, Expr.div (Expr.mul (Expr.mul (Expr.sub (.Trace 6 0) (.Trace 0 1)) (Expr.sub (.Trace 6 0) (.Trace 4 1))) (Expr.sub .X (.Constant (g ^ (256 * 2 ^ h - 1)))))
    (Expr.sub (Expr.pow .X (2 ^ h)) (.Constant (g ^ (256 * 2 ^ h - 2 ^ h)))) :: ls, hg, fun claim' => ?_⟩
  rw [Option.bind_some, hls, Option.bind_some, Option.bind_some, hg, Option.bind_some]
  unfold treeConstraints csub
  dsimp only
  rw [if_pos (show 1 ≤ 256 * 2 ^ h by omega), Option.bind_some, if_pos (show 2 ^ h ≤ 256 * 2 ^ h by omega), Option.bind_some, if_pos (show 1 ≤ 2 ^ h by omega), Option.map_some,
    insert_columns, Option.bind_some]
  unfold Constraints.from_expressions
  rw [hg]
  simp only [List.insertIdx_zero, List.insertIdx_succ_cons]
  rw [show 255 + (2 ^ h - 1) * 256 = 2 ^ (h + 8) - 1 by omega, pow_zero]
  rfl

theorem leaf_value (z : F) (tr : Nat → Int → Option F) (leaf v : F) : claimValue (fun _ => none) z tr (leafConstraint leaf) = some v ↔
    ∃ u0 u4, tr 0 0 = some u0 ∧ tr 4 0 = some u4 ∧ z ≠ 1 ∧ v = (leaf - u0) * (leaf - u4) / (z - 1) := by
  unfold leafConstraint Expr.div Expr.mul Expr.sub Expr.add Expr.neg Expr.inv
  simp only [claimValue]
  cases h0 : tr 0 0 with
  | none => simp
  | some u0 =>
    cases h4 : tr 4 0 with
    | none => simp
    | some u4 =>
      simp only [Option.map_some]
      by_cases hz : z = 1
      · rw [if_pos (by rw [hz]; ring)]
        simp [hz]
      · rw [if_neg (fun e => hz (by linear_combination e))]
        simp only [Option.some.injEq]
        constructor
        · rintro rfl
          exact ⟨u0, u4, rfl, rfl, hz, by rw [div_eq_mul_inv]; ring⟩
        · rintro ⟨_, _, rfl, rfl, -, rfl⟩
          rw [div_eq_mul_inv]; ring

theorem root_value (z : F) (tr : Nat → Int → Option F) (last root v : F) : claimValue (fun _ => none) z tr (rootConstraint last root) = some v ↔
    ∃ u6, tr 6 0 = some u6 ∧ z ≠ last ∧ v = (root - u6) / (z - last) := by
  unfold rootConstraint Expr.div Expr.mul Expr.sub Expr.add Expr.neg Expr.inv
  simp only [claimValue]
  cases h0 : tr 6 0 with
  | none => simp
  | some u6 =>
    simp only [Option.map_some]
    by_cases hz : z = last
    · rw [if_pos (by rw [hz]; ring)]
      simp [hz]
    · rw [if_neg (fun e => hz (by linear_combination e))]
      simp only [Option.some.injEq]
      constructor
      · rintro rfl
        exact ⟨u6, rfl, hz, by rw [div_eq_mul_inv]; ring⟩
      · rintro ⟨_, rfl, -, rfl⟩
        rw [div_eq_mul_inv]; ring

/-- C85 (partial: a proof is accepted for other claims than the one it was made for - `C85_violated`): the claims for which a proof of the Merkle tree example is accepted, given
one of them.  The proof begins with two roots, `rt` and `rc`; the challenges `coefs` and `z` depend only on these, not on the claim.  `s` is the sum of the two values that the
proof gives for the columns of the leaf. -/
theorem C85_claims_partial (env : Env F) (hroot : RootFn env.root) (hcompat : RootCompat env.root) (hsearch : SearchOk env.search) (dbg : Bool) (uint : F → U256) (element : U256 → F)
    (T : Tables F) (h : Nat) (hh : h + 12 < 64) (comp : Component F (Claim F) (Witness F)) (hcomp : MerkleTree dbg env.root uint element T (2 ^ h) = some comp) (claim : Claim F)
    (p : Bytes) (hp : comp.verify env claim p = .ok ()) :
    ∃ (g : F) (rt rc rest : Bytes) (coefs : List F) (z s : F), env.root (2 ^ (h + 8)) = some g ∧ p = rt ++ (rc ++ rest) ∧ rt.length = 32 ∧ rc.length = 32 ∧
      Draws env (coin env.K [] [rt]) 58 coefs ∧ Draws env (coin env.K [] [rt, rc]) 1 [z] ∧ z ≠ 1 ∧ z ≠ g ^ (2 ^ (h + 8) - 1) ∧
      ∀ claim' : Claim F, comp.verify env claim' p = .ok () ↔
        (coefs.getD 16 0 + coefs.getD 17 0 * z ^ 2) * ((claim'.leaf - claim.leaf) * (claim'.leaf + claim.leaf - s) / (z - 1)) +
        (coefs.getD 18 0 + coefs.getD 19 0 * z ^ (2 ^ (h + 8) + 1)) * ((claim'.root - claim.root) / (z - g ^ (2 ^ (h + 8) - 1))) = 0 := by
  unfold Component.verify at hp ⊢
  cases hc : comp.system env.root claim with
  | none => rw [hc] at hp; cases hp
  | some c =>
    rw [hc] at hp
    have hp : Stark.verify env c p = .ok () := hp
    obtain ⟨g, rest, hg, hsys⟩ := tree_systems env.root dbg uint element T h comp hcomp claim c hc
    obtain ⟨_, _, _, his⟩ := tree_is env.root hroot hcompat dbg uint element T h (by omega) comp hcomp claim c hc g hg
    have hlen : c.expressions.length = 29 := by
      rw [(show List.Forall₂ _ _ _ from his.quotients).length_eq]
      simp [treeQuotients, columnQuotients, claimQuotients, layerQuotients]
    have hc' := Option.some.inj (hc.symm.trans (hsys claim))
    have hA : ∀ claim' : Claim F, Alike c ⟨[], 2 ^ (h + 8), 8, (List.range 8).map (fun i => Expr.Trace i 0) ++
      leafConstraint claim'.leaf :: rootConstraint (g ^ (2 ^ (h + 8) - 1)) claim'.root :: rest, 16, 0, 45, default_fri_layout (2 ^ (h + 8)), []⟩ := by
      intro claim'
      rw [hc']
      refine ⟨rfl, rfl, rfl, rfl, rfl, rfl, rfl, ⟨rfl, rfl⟩, ?_⟩
      rw [List.map_append, List.map_append, List.map_cons, List.map_cons, List.map_cons, List.map_cons]
      rfl
    have hrows : c.trace_nrows = 2 ^ (h + 8) := by rw [hc']
    have hex : c.expressions = (List.range 8).map (fun i => Expr.Trace i 0) ++
      leafConstraint claim.leaf :: rootConstraint (g ^ (2 ^ (h + 8) - 1)) claim.root :: rest := by rw [hc']
    have hseed : c.channel_seed = [] := by rw [hc']
    have hkb : h + 8 + 4 < 64 := by omega
    have hl := layout_le (h + 8) (by omega)
    obtain ⟨w, g', args, P, x, hacc, hiff⟩ := C85_systems env hroot hcompat hsearch c (h + 8) 4 hkb hrows (by rw [hc']; rfl) (by rw [hc']; exact hl.trans (by omega))
      (by rw [hc']; norm_num) p hp
    obtain ⟨d, vs, k1, k2, k3, k4⟩ := hacc.out_of_domain
    rw [his.degree.1] at k1
    cases k1
    have hno : (fun i => (c.claim_polynomials[i]?).map toPoly) = (fun _ : Nat => (none : Option F[X])) := by
      rw [hc']
      rfl
    rw [hno] at k3
    have hsome : ∀ (i : Nat) (e : Expr F), c.expressions[i]? = some e → ∃ v, claimValue (fun _ => none) x.point (claimedCell env args P) e = some v := by
      intro i e he
      obtain ⟨hi, rfl⟩ := List.getElem?_eq_some_iff.1 he
      have := (List.forall₂_iff_get.1 k3).2 i hi (by rw [← k3.length_eq]; exact hi)
      exact ⟨_, this⟩
    have he1 : c.expressions[8]? = some (leafConstraint claim.leaf) := by rw [hex]; rfl
    have he2 : c.expressions[9]? = some (rootConstraint (g ^ (2 ^ (h + 8) - 1)) claim.root) := by rw [hex]; rfl
    obtain ⟨v1, hv1⟩ := hsome 8 _ he1
    obtain ⟨v2, hv2⟩ := hsome 9 _ he2
    obtain ⟨u0, u4, m0, m4, hz1, e1⟩ := (leaf_value _ _ _ _).1 hv1
    obtain ⟨u6, m6, hz2, e2⟩ := (root_value _ _ _ _ _).1 hv2
    refine ⟨g, P.trace_root, P.constraint_root, _, x.coefficients, x.point, u0 + u4, hg, hacc.bytes, ?_, ?_, ?_, ?_, hz1, hz2, fun claim' => ?_⟩
    · obtain ⟨_, -, hsz⟩ := hacc.sized
      exact hsz.trace_root
    · obtain ⟨_, -, hsz⟩ := hacc.sized
      exact hsz.constraint_root
    · have := hacc.drawn.coefficients
      rwa [hseed, hlen] at this
    · have := hacc.drawn.point
      rwa [hseed] at this
    rw [hsys claim']
    refine (show _ ↔ _ from hiff _ (hA claim')).trans ?_
    have hmain := out_of_domain_two env c _ (hA claim') args P x 8 _ _ (leafConstraint claim'.leaf) (rootConstraint (g ^ (2 ^ (h + 8) - 1)) claim'.root) he1 he2
      (by rw [hex]; rfl) 2 his.degree.1 hacc.out_of_domain v1 v2 _ _ hv1 hv2 ((leaf_value _ _ _ _).2 ⟨u0, u4, m0, m4, hz1, rfl⟩) ((root_value _ _ _ _ _).2 ⟨u6, m6, hz2, rfl⟩)
    have a1 : adjustment c.trace_nrows (2 * c.trace_nrows - 1) (leafConstraint claim.leaf) = 2 := by
      rw [hrows]
      generalize hn : 2 ^ (h + 8) = n
      have hn0 : 0 < n := hn ▸ Nat.two_pow_pos _
      simp only [adjustment, leafConstraint, Expr.degree, Expr.degree_impl, Expr.div, Expr.mul, Expr.sub, Expr.add, Expr.neg, Expr.inv]
      omega
    have a2 : adjustment c.trace_nrows (2 * c.trace_nrows - 1) (rootConstraint (g ^ (2 ^ (h + 8) - 1)) claim.root) = 2 ^ (h + 8) + 1 := by
      rw [hrows]
      generalize hn : 2 ^ (h + 8) = n
      have hn0 : 0 < n := hn ▸ Nat.two_pow_pos _
      simp only [adjustment, rootConstraint, Expr.degree, Expr.degree_impl, Expr.div, Expr.mul, Expr.sub, Expr.add, Expr.neg, Expr.inv]
      omega
    rw [hmain, a1, a2, e1, e2]
    have hz1' := sub_ne_zero.2 hz1
    have hz2' := sub_ne_zero.2 hz2
    have f1 : (claim'.leaf - u0) * (claim'.leaf - u4) / (x.point - 1) - (claim.leaf - u0) * (claim.leaf - u4) / (x.point - 1) =
        (claim'.leaf - claim.leaf) * (claim'.leaf + claim.leaf - (u0 + u4)) / (x.point - 1) := by
      rw [← sub_div]; congr 1; ring
    have f2 : (claim'.root - u6) / (x.point - g ^ (2 ^ (h + 8) - 1)) - (claim.root - u6) / (x.point - g ^ (2 ^ (h + 8) - 1)) =
        (claim'.root - claim.root) / (x.point - g ^ (2 ^ (h + 8) - 1)) := by
      rw [← sub_div]; congr 1; ring
    rw [f1, f2]

end ClaimBinding
end Props
end OpenZKP
