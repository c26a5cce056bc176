import Verif.Stark.Verifier
import Verif.Props.Fri
import Verif.Props.Expr
import Verif.Props.Constraints

/-!
# Specification: what an accepted proof consists of

Independent of the verifier's control flow: a proof is a concatenation of parts (`Contents`), the challenges are functions of the parts before
them (`Drawn`), and the parts satisfy equations (`Worked`, `OutOfDomainOk`, `Opened`, `FriOk`).
-/

namespace OpenZKP
namespace Stark
namespace Accept
open FFT U256 Props

/-- what a proof has for one layer of FRI -/
structure Layer where
  root : Bytes
  values : List U256
  hashes : List Bytes

/-- the parts of a proof -/
structure Contents where
  trace_root : Bytes
  constraint_root : Bytes
  trace_values : List U256
  constraint_values : List U256
  fri : List Layer
  last_layer : List U256
  nonce : Nat
  trace_rows : List (List U256)
  trace_hashes : List Bytes
  constraint_rows : List (List U256)
  constraint_hashes : List Bytes

/-- words of 32 bytes, big endian -/
def words (l : List U256) : Bytes := l.flatMap to_bytes_be

/-- the proof: the parts one after the other -/
def Contents.bytes (P : Contents) : Bytes :=
  P.trace_root ++ (P.constraint_root ++ (words P.trace_values ++ (words P.constraint_values ++ (P.fri.flatMap (·.root) ++ (words P.last_layer ++
  (to_be_bytes 8 P.nonce ++ (P.trace_rows.flatMap words ++ (P.trace_hashes.flatten ++ (P.constraint_rows.flatMap words ++
  (P.constraint_hashes.flatten ++ P.fri.flatMap fun l => words l.values ++ l.hashes.flatten))))))))))

/-- reduced words: the representation of a field element is unique -/
def Reduced (l : List U256) : Prop := ∀ u ∈ l, u.toNat < PF.BASE.modulus.toNat

/-- the sizes of the parts, for `nargs` trace cells in the constraints, `width` constraint columns and a domain of `2^m` points -/
structure Contents.Sized (P : Contents) (ncolumns nargs width nlayers nqueries lastSize : Nat) : Prop where
  trace_root : P.trace_root.length = 32
  constraint_root : P.constraint_root.length = 32
  trace_values : P.trace_values.length = nargs ∧ Reduced P.trace_values
  constraint_values : P.constraint_values.length = width ∧ Reduced P.constraint_values
  fri : P.fri.length = nlayers ∧ ∀ l ∈ P.fri, l.root.length = 32 ∧ Reduced l.values ∧ ∀ h ∈ l.hashes, h.length = 32
  last_layer : P.last_layer.length = lastSize ∧ Reduced P.last_layer
  nonce : P.nonce < 2 ^ 64
  trace_rows : P.trace_rows.length = nqueries ∧ ∀ r ∈ P.trace_rows, r.length = ncolumns ∧ Reduced r
  trace_hashes : ∀ h ∈ P.trace_hashes, h.length = 32
  constraint_rows : P.constraint_rows.length = nqueries ∧ ∀ r ∈ P.constraint_rows, r.length = width ∧ Reduced r
  constraint_hashes : ∀ h ∈ P.constraint_hashes, h.length = 32

/-- the random values of the protocol -/
structure Challenges (F : Type) where
  coefficients : List F
  point : F
  oods : List F
  folds : List F
  queries : List Nat

/-- the state of the coin: the hash of the seed, with each block hashed onto it -/
def coin (K : Keccak) (seed : Bytes) (blocks : List Bytes) : PublicCoin :=
  ⟨blocks.foldl (fun digest block => K.hash (digest ++ block)) (K.hash seed), 0⟩

/-- the blocks hashed before the FRI layers -/
def Contents.head (P : Contents) : List Bytes :=
  [P.trace_root, P.constraint_root] ++ P.trace_values.map to_bytes_be ++ P.constraint_values.map to_bytes_be

/-- the blocks hashed before the proof of work -/
def Contents.body (P : Contents) : List Bytes := P.head ++ P.fri.map (·.root) ++ [words P.last_layer]

/-- the opening has as many hashes as it needs (see C31): none is left over -/
def Enough (size : Nat) (root : Bytes) (hashes : List Bytes) (indices : List Nat) : Prop :=
  Merkle.proof_size (⟨size, root⟩ : Merkle.Commitment Bytes) indices = .ok hashes.length

/-- this, for each layer: its cosets `J` are those of the positions `Q` -/
def FriCounted : List Nat → List Layer → Nat → List Nat → Prop
  | [], [], _, _ => True
  | n :: ns, l :: ls, m, Q => ∃ J : List Nat, J.Pairwise (· < ·) ∧ (∀ j, j ∈ J ↔ ∃ q ∈ Q, j = q / 2 ^ n) ∧
      Enough (2 ^ (m - n)) l.root l.hashes J ∧ FriCounted ns ls (m - n) J
  | _, _, _, _ => False

/-- every opening of a proof has as many hashes as it needs -/
structure Contents.Counted (P : Contents) (layout : List Nat) (m : Nat) (queries : List Nat) : Prop where
  trace : Enough (2 ^ m) P.trace_root P.trace_hashes queries
  constraint : Enough (2 ^ m) P.constraint_root P.constraint_hashes queries
  fri : FriCounted layout P.fri m queries

section
variable {F : Type} [Field F] [DecidableEq F] (env : Env F)

/-- `xs` are the next `n` field elements of a coin (see C35 for what these are) -/
def Draws (c : PublicCoin) (n : Nat) (xs : List F) : Prop := ∃ us c', PublicCoin.randomFields env.K n c = some (us, c') ∧ xs = us.map env.codec.val

/-- every challenge is drawn from a coin that has absorbed everything sent before it -/
structure Drawn (c : Constraints F) (m nargs width : Nat) (P : Contents) (x : Challenges F) : Prop where
  coefficients : Draws env (coin env.K c.channel_seed [P.trace_root]) (2 * c.expressions.length) x.coefficients
  point : Draws env (coin env.K c.channel_seed [P.trace_root, P.constraint_root]) 1 [x.point]
  oods : Draws env (coin env.K c.channel_seed P.head) (nargs + width) x.oods
  folds : x.folds.length = P.fri.length ∧
    ∀ i < P.fri.length, Draws env (coin env.K c.channel_seed (P.head ++ (P.fri.take (i + 1)).map (·.root))) 1 [x.folds.getD i 0]
  queries : x.queries.Pairwise (· ≤ ·) ∧
    x.queries.Perm ((List.range c.num_queries).map (queryWord env.K (coin env.K c.channel_seed (P.body ++ [to_be_bytes 8 P.nonce])) m))

/-- the proof of work: a hash with leading zeros -/
def Worked (c : Constraints F) (P : Contents) : Prop :=
  beValue (env.K.hash (env.K.hash ([0x01, 0x23, 0x45, 0x67, 0x89, 0xab, 0xcd, 0xed] ++ (coin env.K c.channel_seed P.body).digest ++
    [UInt8.ofNat c.pow_bits]) ++ to_be_bytes 8 P.nonce)) < 2 ^ (256 - c.pow_bits)

/-- the claimed value of a trace cell at the out-of-domain point -/
def claimedCell (args : List (Nat × Int)) (P : Contents) (i : Nat) (j : Int) : Option F :=
  assoc (args.zip (P.trace_values.map env.codec.val)) (i, j)

/-- the out-of-domain equation: the combination of the constraints' values at the point, computed from the claimed trace values, is the value at
the point of the polynomial whose parts were claimed -/
def OutOfDomainOk (c : Constraints F) (args : List (Nat × Int)) (P : Contents) (x : Challenges F) : Prop :=
  ∃ d vs, c.degree = some d ∧ (∀ e ∈ c.expressions, (e.degree (c.trace_nrows - 1)).1 ≤ d * c.trace_nrows - 1 + (e.degree (c.trace_nrows - 1)).2) ∧
    List.Forall₂ (fun e v => claimValue (fun i => (c.claim_polynomials[i]?).map toPoly) x.point (claimedCell env args P) e = some v) c.expressions vs ∧
    ∑ i ∈ Finset.range c.expressions.length, (x.coefficients.getD (2 * i) 0 + x.coefficients.getD (2 * i + 1) 0 *
      x.point ^ adjustment c.trace_nrows (d * c.trace_nrows - 1) (c.expressions.getD i .X)) * vs.getD i 0 =
    ∑ j ∈ Finset.range P.constraint_values.length, env.codec.val (P.constraint_values.getD j ⟨0, 0, 0, 0⟩) * x.point ^ j

/-- the opening of leaves of a tree of `size` leaves verifies (see C30 and C32 for what this means) -/
def Opened (size : Nat) (root : Bytes) (hashes : List Bytes) (indices : List Nat) (leaves : List (List F)) : Prop :=
  Merkle.verify (nodeHash env.K) ⟨⟨size, root⟩, indices, hashes⟩ (indices.zip (leaves.map (elementsHash env))) = .ok ()

/-- the combination of the quotients `(f(x) - claimed) / (x - point)` -/
def deep (g : F) (args : List (Nat × Int)) (P : Contents) (x : Challenges F) (row crow : List F) (y : F) : F :=
  (∑ k ∈ Finset.range args.length, x.oods.getD k 0 *
    ((row.getD (args.getD k (0, 0)).1 0 - env.codec.val (P.trace_values.getD k ⟨0, 0, 0, 0⟩)) / (y - g ^ (args.getD k (0, 0)).2 * x.point))) +
  ∑ j ∈ Finset.range P.constraint_values.length, x.oods.getD (args.length + j) 0 *
    ((crow.getD j 0 - env.codec.val (P.constraint_values.getD j ⟨0, 0, 0, 0⟩)) / (y - x.point ^ P.constraint_values.length))

omit [DecidableEq F] in
/-- one fold of a function on the `2^m` points `w^(rev m i)`: positions `2j` and `2j+1` belong to opposite points -/
def foldOnce (w : F) (m : Nat) (a : F) (V : Nat → F) (j : Nat) : F :=
  V (2 * j) + V (2 * j + 1) + a * (w ^ rev m (2 * j))⁻¹ * (V (2 * j) - V (2 * j + 1))

omit [DecidableEq F] in
/-- `n` folds, squaring the points and the coefficient -/
def foldMany : Nat → F → Nat → F → (Nat → F) → Nat → F
  | 0, _, _, _, V => V
  | n + 1, w, m, a, V => foldMany n (w ^ 2) (m - 1) (a ^ 2) (foldOnce w m a V)

/-- The layers from one with `2^m` points on: `f` is what the layer must be at the positions `Q`.  `V` is the layer as opened, in cosets `J`. -/
def FriOk (last : List F) : List Nat → List Layer → List F → F → Nat → (Nat → F) → List Nat → Prop
  | [], [], [], w, m, f, Q => ∀ q ∈ Q, f q = ∑ i ∈ Finset.range last.length, last.getD i 0 * (w ^ rev m q) ^ i
  | n :: ns, l :: ls, a :: as, w, m, f, Q => ∃ (V : Nat → F) (J : List Nat),
      J.Pairwise (· < ·) ∧ (∀ j, j ∈ J ↔ ∃ q ∈ Q, j = q / 2 ^ n) ∧
      (∀ q ∈ Q, V q = f q) ∧
      l.values.map env.codec.val = ((J.flatMap fun j => (List.range (2 ^ n)).map (j * 2 ^ n + ·)).filter (· ∉ Q)).map V ∧
      Opened env (2 ^ (m - n)) l.root l.hashes J (J.map fun j => (List.range (2 ^ n)).map fun i => V (j * 2 ^ n + i)) ∧
      FriOk last ns ls as (w ^ 2 ^ n) (m - n) (foldMany n w m a V) J
  | _, _, _, _, _, _, _ => False

/-- the proof `p` is one the protocol accepts, with the parts `P` and the challenges `x` -/
structure Accepts (c : Constraints F) (k b : Nat) (w g : F) (p : Bytes) (args : List (Nat × Int)) (P : Contents) (x : Challenges F) : Prop where
  bytes : p = P.bytes
  sized : ∃ d, c.degree = some d ∧ P.Sized c.trace_ncolumns args.length (Merkle.next_power_of_two d) c.fri_layout.length c.num_queries
    (2 ^ (k + b) / 2 ^ c.fri_layout.sum / 2 ^ b)
  args_sorted : args.Pairwise (fun a b => argLt a b = true)
  args_all : ∀ a, a ∈ args ↔ ∃ e ∈ c.expressions, Occurs a e
  drawn : Drawn env c (k + b) args.length P.constraint_values.length P x
  worked : Worked env c P
  out_of_domain : OutOfDomainOk env c args P x
  trace : Opened env (2 ^ (k + b)) P.trace_root P.trace_hashes x.queries (P.trace_rows.map (·.map env.codec.val))
  constraint : Opened env (2 ^ (k + b)) P.constraint_root P.constraint_hashes x.queries (P.constraint_rows.map (·.map env.codec.val))
  fri : ∃ f : Nat → F,
    (∀ q ∈ x.queries, ∃ z : Nat, ∃ row crow, x.queries[z]? = some q ∧ P.trace_rows[z]? = some row ∧ P.constraint_rows[z]? = some crow ∧
      (∀ a ∈ args, a.1 < row.length ∧ env.generator * w ^ rev (k + b) q ≠ g ^ a.2 * x.point) ∧
      env.generator * w ^ rev (k + b) q ≠ x.point ^ P.constraint_values.length ∧
      f q = deep env g args P x (row.map env.codec.val) (crow.map env.codec.val) (env.generator * w ^ rev (k + b) q)) ∧
    FriOk env (P.last_layer.map env.codec.val) c.fri_layout P.fri x.folds w (k + b) f x.queries

end

end Accept
end Stark
end OpenZKP
