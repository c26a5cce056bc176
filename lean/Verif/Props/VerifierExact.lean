import Verif.Stark.Unique
import Verif.Props.Soundness

/-!
# C82: the verifier accepts exactly the proofs of the specification
-/

namespace OpenZKP
namespace Props
open FFT U256 Stark Stark.Accept

section
variable {F : Type} [Field F] [DecidableEq F]

/-- C82: An accepted proof meets the specification (as in C63), and moreover none of its Merkle openings has a hash that is not needed. -/
theorem C82_accepts (env : Env F) (hroot : RootFn env.root) (hcompat : RootCompat env.root) (hsearch : SearchOk env.search) (c : Constraints F) (k b : Nat)
    (hkb : k + b < 64) (hk : c.trace_nrows = 2 ^ k) (hb : c.blowup = 2 ^ b) (hlayout : c.fri_layout.sum ≤ k + b) (hq : c.num_queries < 2 ^ 64) (p : Bytes)
    (h : Stark.verify env c p = .ok ()) :
    ∃ w g args P x, env.root (2 ^ (k + b)) = some w ∧ env.root (2 ^ k) = some g ∧ Accepts env c k b w g p args P x ∧
      P.Counted c.fri_layout (k + b) x.queries :=
  accepts_counted env hroot hcompat hsearch c k b hkb hk hb hlayout hq p h

/-- C82: Conversely, `verify` accepts every proof that meets the specification and whose openings have the right numbers of hashes, whoever made it,
unless two of its rows are a collision of the hash function.  (Such rows can matter only where one position is queried twice.) -/
theorem C82_converse (env : Env F) (hroot : RootFn env.root) (hcompat : RootCompat env.root) (hsearch : SearchOk env.search) (c : Constraints F) (k b : Nat)
    (hkb : k + b < 64) (hk : c.trace_nrows = 2 ^ k) (hb : c.blowup = 2 ^ b) (hlayout : c.fri_layout.sum ≤ k) (hq : c.num_queries < 2 ^ 64) (hpow : c.pow_bits < 256)
    (hlay : c.fri_layout ≠ [] ∨ c.num_queries = 0) (hdeg : c.degree ≠ some 0)
    (w g : F) (hw : env.root (2 ^ (k + b)) = some w) (hg : env.root (2 ^ k) = some g) (p : Bytes) (args : List (Nat × Int)) (P : Contents) (x : Challenges F)
    (h : Accepts env c k b w g p args P x) (hcount : P.Counted c.fri_layout (k + b) x.queries) :
    Stark.verify env c p = .ok () ∨
    RowsCollide env (P.trace_rows.map (·.map env.codec.val)) ∨ RowsCollide env (P.constraint_rows.map (·.map env.codec.val)) := by
  rcases same_rows env c k b w g p args P x h with h1 | h1 | h1
  · exact Or.inr (Or.inl h1)
  · exact Or.inr (Or.inr h1)
  · exact Or.inl (converse env hroot hcompat hsearch c k b hkb hk hb hlayout hq hpow hlay hdeg w g hw hg p args P x h hcount h1)

/-- C82: When no position is queried twice, acceptance is exactly the specification. -/
theorem C82_distinct (env : Env F) (hroot : RootFn env.root) (hcompat : RootCompat env.root) (hsearch : SearchOk env.search) (c : Constraints F) (k b : Nat)
    (hkb : k + b < 64) (hk : c.trace_nrows = 2 ^ k) (hb : c.blowup = 2 ^ b) (hlayout : c.fri_layout.sum ≤ k) (hq : c.num_queries < 2 ^ 64) (hpow : c.pow_bits < 256)
    (hlay : c.fri_layout ≠ [] ∨ c.num_queries = 0) (hdeg : c.degree ≠ some 0)
    (w g : F) (hw : env.root (2 ^ (k + b)) = some w) (hg : env.root (2 ^ k) = some g) (p : Bytes) (args : List (Nat × Int)) (P : Contents) (x : Challenges F)
    (h : Accepts env c k b w g p args P x) (hcount : P.Counted c.fri_layout (k + b) x.queries) (hnodup : x.queries.Nodup) :
    Stark.verify env c p = .ok () := by
  refine converse env hroot hcompat hsearch c k b hkb hk hb hlayout hq hpow hlay hdeg w g hw hg p args P x h hcount fun y z q hy hz => ?_
  have : y = z := by
    obtain ⟨h1, e1⟩ := List.getElem?_eq_some_iff.1 hy
    obtain ⟨h2, e2⟩ := List.getElem?_eq_some_iff.1 hz
    exact (List.Nodup.getElem_inj_iff hnodup).1 (e1.trans e2.symm)
  rw [this]
  exact ⟨rfl, rfl⟩

/-- C82: The bytes of a proof determine its parts and its challenges: they can be read in one way only. -/
theorem C82_unique (env : Env F) (c : Constraints F) (k b : Nat) (w g : F) (p : Bytes) (args args' : List (Nat × Int)) (P P' : Contents) (x x' : Challenges F)
    (h : Accepts env c k b w g p args P x) (h' : Accepts env c k b w g p args' P' x') (hcount : P.Counted c.fri_layout (k + b) x.queries)
    (hcount' : P'.Counted c.fri_layout (k + b) x'.queries) : args = args' ∧ P = P' ∧ x = x' :=
  unique env c k b w g p args args' P P' x x' h h' hcount hcount'

end

namespace Small
open OpenZKP.Props.Small

-- the proof of the system in Props/Prover.lean meets the hypotheses of the converse
example : ∃ p w g args P x, Accepts env c 1 1 w g p args P x ∧ P.Counted c.fri_layout (1 + 1) x.queries ∧ env.root (2 ^ (1 + 1)) = some w ∧ env.root (2 ^ 1) = some g ∧
    c.fri_layout.sum ≤ 1 ∧ c.pow_bits < 256 ∧ c.fri_layout ≠ [] ∧ c.degree ≠ some 0 := by
  obtain ⟨p, _, h⟩ := proved
  obtain ⟨w, g, args, P, x, h1, h2, h3, h4⟩ := C82_accepts env root_ok root_compat search_ok c 1 1 (by norm_num) rfl rfl (by decide) (by decide) p h
  exact ⟨p, w, g, args, P, x, h3, h4, h1, h2, by decide, by decide, by decide, by decide +kernel⟩

end Small
end Props
end OpenZKP
