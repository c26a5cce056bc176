import Verif.Props.ClaimBinding
import Verif.Props.PedersenRun

/-!
# C85: proofs that are accepted for other claims
-/

namespace OpenZKP
namespace Props
namespace ClaimBinding
open Stark Stark.Accept Merkle Examples Examples.Pedersen PedersenMerkle EC
open OpenZKP.Props.Small (Z K)
open OpenZKP.Props.Size (randomField_eq)

section
variable {F : Type} [Field F] [DecidableEq F]

/-- C85 is violated by every proof: a proof accepted for a leaf is accepted for a second leaf too, the one that the columns of the leaf give together with the first, under
the same root; and for every path length. -/
theorem C85_second_leaf_violated (env : Env F) (hroot : RootFn env.root) (hcompat : RootCompat env.root) (hsearch : SearchOk env.search) (dbg : Bool) (uint : F → U256)
    (element : U256 → F) (T : Tables F) (h : Nat) (hh : h + 12 < 64) (comp : Component F (Claim F) (Witness F))
    (hcomp : MerkleTree dbg env.root uint element T (2 ^ h) = some comp) (claim : Claim F) (p : Bytes) (hp : comp.verify env claim p = .ok ()) :
    ∃ s, ∀ path_length : Nat, comp.verify env ⟨path_length, claim.leaf, claim.root⟩ p = .ok () ∧ comp.verify env ⟨path_length, s - claim.leaf, claim.root⟩ p = .ok () := by
  obtain ⟨g, rt, rc, rest, coefs, z, s, -, -, -, -, -, -, -, -, h1⟩ := C85_claims_partial env hroot hcompat hsearch dbg uint element T h hh comp hcomp claim p hp
  refine ⟨s, fun n => ⟨(h1 _).2 ?_, (h1 _).2 ?_⟩⟩ <;> dsimp only <;> ring

/-- C85 is violated for every leaf: unless the challenges satisfy an equation, a proof accepted for some claim is accepted for every leaf, under some other root. -/
theorem C85_every_leaf_violated (env : Env F) (hroot : RootFn env.root) (hcompat : RootCompat env.root) (hsearch : SearchOk env.search) (dbg : Bool) (uint : F → U256)
    (element : U256 → F) (T : Tables F) (h : Nat) (hh : h + 12 < 64) (comp : Component F (Claim F) (Witness F))
    (hcomp : MerkleTree dbg env.root uint element T (2 ^ h) = some comp) (claim : Claim F) (p : Bytes) (hp : comp.verify env claim p = .ok ()) :
    ∃ (rt rc rest : Bytes) (coefs : List F) (z : F), p = rt ++ (rc ++ rest) ∧ rt.length = 32 ∧ rc.length = 32 ∧ Draws env (coin env.K [] [rt]) 58 coefs ∧
      Draws env (coin env.K [] [rt, rc]) 1 [z] ∧
      (coefs.getD 18 0 + coefs.getD 19 0 * z ^ (2 ^ (h + 8) + 1) ≠ 0 → ∀ (path_length : Nat) (leaf : F), ∃ root, comp.verify env ⟨path_length, leaf, root⟩ p = .ok ()) := by
  obtain ⟨g, rt, rc, rest, coefs, z, s, -, e1, e2, e3, e4, e5, e6, e7, h1⟩ := C85_claims_partial env hroot hcompat hsearch dbg uint element T h hh comp hcomp claim p hp
  refine ⟨rt, rc, rest, coefs, z, e1, e2, e3, e4, e5, fun hne n leaf => ?_⟩
  generalize coefs.getD 18 0 + coefs.getD 19 0 * z ^ (2 ^ (h + 8) + 1) = B at hne h1
  generalize (coefs.getD 16 0 + coefs.getD 17 0 * z ^ 2) = A at h1
  have e7' := sub_ne_zero.2 e7
  generalize g ^ (2 ^ (h + 8) - 1) = last at h1 e7'
  refine ⟨claim.root - (A * ((leaf - claim.leaf) * (leaf + claim.leaf - s) / (z - 1))) / B * (z - last), (h1 _).2 ?_⟩
  dsimp only
  field_simp
  ring

/-- C85: the claims with the same root for which a proof is accepted: two leaves at most, unless the challenges satisfy an equation. -/
theorem C85_leaves_partial (env : Env F) (hroot : RootFn env.root) (hcompat : RootCompat env.root) (hsearch : SearchOk env.search) (dbg : Bool) (uint : F → U256)
    (element : U256 → F) (T : Tables F) (h : Nat) (hh : h + 12 < 64) (comp : Component F (Claim F) (Witness F))
    (hcomp : MerkleTree dbg env.root uint element T (2 ^ h) = some comp) (root : F) (p : Bytes) (hp : ∃ claim : Claim F, claim.root = root ∧ comp.verify env claim p = .ok ()) :
    ∃ (rt rc rest : Bytes) (coefs : List F) (z : F), p = rt ++ (rc ++ rest) ∧ rt.length = 32 ∧ rc.length = 32 ∧ Draws env (coin env.K [] [rt]) 58 coefs ∧
      Draws env (coin env.K [] [rt, rc]) 1 [z] ∧
      (coefs.getD 16 0 + coefs.getD 17 0 * z ^ 2 = 0 ∨ ∃ leaf1 leaf2 : F, ∀ claim : Claim F, claim.root = root →
        (comp.verify env claim p = .ok () ↔ claim.leaf = leaf1 ∨ claim.leaf = leaf2)) := by
  obtain ⟨claim, rfl, hp⟩ := hp
  obtain ⟨g, rt, rc, rest, coefs, z, s, -, e1, e2, e3, e4, e5, e6, e7, h1⟩ := C85_claims_partial env hroot hcompat hsearch dbg uint element T h hh comp hcomp claim p hp
  refine ⟨rt, rc, rest, coefs, z, e1, e2, e3, e4, e5, or_iff_not_imp_left.2 fun hne => ⟨claim.leaf, s - claim.leaf, fun claim' hr => ?_⟩⟩
  have e6' := sub_ne_zero.2 e6
  rw [h1, hr, sub_self, zero_div, mul_zero, add_zero, mul_eq_zero, or_iff_right hne, div_eq_zero_iff, or_iff_left e6', mul_eq_zero, sub_eq_zero]
  refine or_congr_right ?_
  constructor
  · intro e; linear_combination e
  · intro e; linear_combination e

end

theorem run_draws (c : PublicCoin) (n : Nat) (l : List Z) (h : Draws Run.env c n l) : l = List.replicate n 28784 := by
  obtain ⟨us, c', h, rfl⟩ := h
  obtain ⟨v, hv, hall⟩ := randomField_eq
  have key : ∀ n c' l c'', PublicCoin.randomFields K n c' = some (l, c'') → l = List.replicate n v := by
    intro n
    induction n with
    | zero => intro c' l c'' h; cases h; rfl
    | succ n ih =>
      intro c' l c'' h
      unfold PublicCoin.randomFields at h
      simp only [hall, Option.bind_eq_some_iff, Option.map_eq_some_iff] at h
      obtain ⟨a, ⟨_, _, rfl⟩, b, hb, hl⟩ := h
      cases hl
      rw [ih _ _ _ hb, List.replicate_succ]
  have : Run.env.codec.val v = 28784 := by
    show (v.toNat : Z) = 28784
    rw [← ZMod.natCast_mod, hv]
    rfl
  rw [key _ _ _ _ h, List.map_replicate, this]

/-- C85 is violated: a proof made for a leaf is accepted for every other leaf, under some root. -/
theorem C85_violated : ∃ comp p, TreeRun.comp0 = some comp ∧ comp.prove Run.env Run.o ⟨[(false, 0), (false, 0)], 1, 4⟩ = .ok p ∧
    ∀ (path_length : Nat) (leaf : Z), ∃ root, comp.verify Run.env ⟨path_length, leaf, root⟩ p = .ok () := by
  obtain ⟨comp, p, h1, h2, h3⟩ := TreeRun.proved
  refine ⟨comp, p, h1, h2, ?_⟩
  obtain ⟨rt, rc, rest, coefs, z, -, -, -, e4, e5, h4⟩ := C85_every_leaf_violated Run.env Run.root_ok Run.root_compat Run.search_ok false Run.rep _ TreeRun.T 1 (by norm_num) comp h1
    TreeRun.claim p h3
  have hz : z = 28784 := by simpa using run_draws _ _ _ e5
  have hc := run_draws _ _ _ e4
  refine h4 ?_
  rw [hz, hc]
  have g1 : (List.replicate 58 (28784 : Z)).getD 18 0 = 28784 := by decide +kernel
  have g2 : (List.replicate 58 (28784 : Z)).getD 19 0 = 28784 := by decide +kernel
  rw [g1, g2]
  decide +kernel

-- a proof that meets the hypotheses, and the second leaf
example : ∃ comp p, TreeRun.comp0 = some comp ∧ comp.verify Run.env TreeRun.claim p = .ok () ∧ ∃ s, comp.verify Run.env ⟨7, s - 1, 4⟩ p = .ok () := by
  obtain ⟨comp, p, h1, h2, h3⟩ := TreeRun.proved
  obtain ⟨s, h4⟩ := C85_second_leaf_violated Run.env Run.root_ok Run.root_compat Run.search_ok false Run.rep _ TreeRun.T 1 (by norm_num) comp h1 TreeRun.claim p h3
  exact ⟨comp, p, h1, h3, s, (h4 7).2⟩

-- the claims with root 4 for which that proof is accepted
example : ∃ comp p leaf1 leaf2, TreeRun.comp0 = some comp ∧ ∀ claim : Claim Z, claim.root = 4 → (comp.verify Run.env claim p = .ok () ↔ claim.leaf = leaf1 ∨ claim.leaf = leaf2) := by
  obtain ⟨comp, p, h1, h2, h3⟩ := TreeRun.proved
  obtain ⟨rt, rc, rest, coefs, z, -, -, -, e4, e5, h4⟩ := C85_leaves_partial Run.env Run.root_ok Run.root_compat Run.search_ok false Run.rep _ TreeRun.T 1 (by norm_num) comp h1 4 p
    ⟨TreeRun.claim, rfl, h3⟩
  have hz : z = 28784 := by simpa using run_draws _ _ _ e5
  have hc := run_draws _ _ _ e4
  rcases h4 with h4 | ⟨l1, l2, h4⟩
  · rw [hz, hc] at h4
    exact absurd h4 (by decide +kernel)
  · exact ⟨comp, p, l1, l2, h1, h4⟩

open OpenZKP.Props.Small in
-- systems that differ in constants, one with an accepted proof
example : ∃ p c', Stark.verify env c p = .ok () ∧ Alike c c' ∧ c' ≠ c ∧ ∃ args P x, (Stark.verify env c' p = .ok () ↔ OutOfDomainOk env c' args P x) := by
  obtain ⟨p, _, h⟩ := proved
  obtain ⟨w, g, args, P, x, -, h1⟩ := C85_systems env root_ok root_compat search_ok c 1 1 (by norm_num) rfl rfl (by decide) (by decide) p h
  have hA : Alike c { c with expressions := c.expressions.map Expr.shape } := ⟨rfl, rfl, rfl, rfl, rfl, rfl, rfl, ⟨rfl, rfl⟩, by decide +kernel⟩
  exact ⟨p, _, h, hA, by decide +kernel, args, P, x, h1 _ hA⟩

end ClaimBinding
end Props
end OpenZKP
