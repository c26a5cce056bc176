import Verif.Examples.PedersenTrace

/-!
# The example pedersen_merkle: C84
-/

namespace OpenZKP
namespace Props
namespace PedersenMerkle
open Stark FFT Polynomial Examples Examples.Pedersen EC Stark.Accept

section
variable {F : Type} [Field F] [DecidableEq F] {β : F}

/-! ## Specification -/

/-- The layers of the table - block `b` has its inputs in row `256 b` of the columns 0 and 4 and its output in row `256 b + 255` of column 6 - lead from the leaf to the root: every
output is related to the inputs; the leaf is an input of the first layer, every output is an input of the next layer, and the last output is the root. -/
structure Leads (rel : F → F → F → Prop) (n : Nat) (leaf merkle_root : F) (t : Nat → Nat → F) : Prop where
  first : t 0 0 = leaf ∨ t 0 4 = leaf
  related : ∀ b < n, rel (t (256 * b) 0) (t (256 * b) 4) (t (256 * b + 255) 6)
  connected : ∀ b, b + 1 < n → t (256 * b + 255) 6 = t (256 * (b + 1)) 0 ∨ t (256 * b + 255) 6 = t (256 * (b + 1)) 4
  last : t (256 * (n - 1) + 255) 6 = merkle_root

/-- `z` is the Pedersen hash of integers below `2^252` with residues `x` and `y`, unless in computing it a point is added to itself. -/
def LooseHash (B : Bases β) (x y z : F) : Prop :=
  ∃ a b : Nat, a < 2 ^ 252 ∧ b < 2 ^ 252 ∧ (a : F) = x ∧ (b : F) = y ∧ (Doubles B a b ∨ ∃ w, ofPoint (pedersen B a b) = .Point z w)

/-- The siblings are inputs of the layers of the table, and hashing up from the leaf with them gives the root. -/
def HasPath (hash : F → F → Option F) (n : Nat) (leaf merkle_root : F) (t : Nat → Nat → F) : Prop :=
  ∃ path : List (Bool × F), path.length = n ∧ (∀ b node, path[b]? = some node → node.2 = t (256 * b) (if node.1 then 0 else 4)) ∧ path.foldlM (stepUp hash) leaf = some merkle_root

/-- Column `j` of layer `b` holds the halves of the integer `a`, which has the residue in the first row. -/
def Encodes (t : Nat → Nat → F) (b j a : Nat) : Prop :=
  a < 2 ^ 252 ∧ (a : F) = t (256 * b) j ∧ ∀ i < 252, t (256 * b + i) j - t (256 * b + (i + 1)) j * 2 = if a.testBit i then 1 else 0

/-- Some layer has as an input an integer that is not the least one with its residue. -/
def NonCanonical (uint : F → U256) (n : Nat) (t : Nat → Nat → F) : Prop :=
  ∃ b < n, ∃ j a, (j = 0 ∨ j = 4) ∧ Encodes t b j a ∧ a ≠ (uint (t (256 * b) j)).toNat

/-- In computing the hash of some layer, in one order or the other, a point is added to itself or to its opposite. -/
def Degenerate (B : Bases β) (uint : F → U256) (n : Nat) (t : Nat → Nat → F) : Prop :=
  ∃ b < n, Doubles B (uint (t (256 * b) 0)).toNat (uint (t (256 * b) 4)).toNat ∨ HashClash B (uint (t (256 * b) 0)).toNat (uint (t (256 * b) 4)).toNat

/-! ## Lemmas -/

/-- what the system says of a table -/
theorem rows_iff_layers (root : Nat → Option F) (hroot : RootFn root) (hcompat : RootCompat root) (dbg : Bool) (uint : F → U256) (element : U256 → F) (T : Tables F)
    (h : Nat) (hh : h + 8 < 64) (comp : Component F (Claim F) (Witness F)) (hcomp : MerkleTree dbg root uint element T (2 ^ h) = some comp) (claim : Claim F)
    (c : Constraints F) (hc : comp.system root claim = some c) (g : F) (hg : root (2 ^ (h + 8)) = some g) :
    ∃ sx sy qs, T.shift = .Point sx sy ∧ SystemIs root c (h + 8) 8 g qs 2 ∧ ∀ t : Nat → Nat → F, (Examples.Hold g (2 ^ (h + 8)) t qs ↔
      (∀ b < 2 ^ h, LayerRows sx sy (fun i => Poly.evaluate T.left_x ((g ^ 2 ^ h) ^ i)) (fun i => Poly.evaluate T.left_y ((g ^ 2 ^ h) ^ i))
        (fun i => Poly.evaluate T.right_x ((g ^ 2 ^ h) ^ i)) (fun i => Poly.evaluate T.right_y ((g ^ 2 ^ h) ^ i)) fun i j => t (256 * b + i) j) ∧
      (t 0 0 = claim.leaf ∨ t 0 4 = claim.leaf) ∧ t (256 * (2 ^ h - 1) + 255) 6 = claim.root ∧
      ∀ b, b + 1 < 2 ^ h → t (256 * b + 255) 6 = t (256 * (b + 1)) 0 ∨ t (256 * b + 255) 6 = t (256 * (b + 1)) 4) := by
  have hn : 2 ^ h * 256 = 2 ^ (h + 8) := by rw [pow_add]; norm_num
  have hpos := Nat.two_pow_pos h
  obtain ⟨sx, sy, h1, h2⟩ := tree_is root hroot hcompat dbg uint element T h hh comp hcomp claim c hc g hg
  refine ⟨sx, sy, _, h1, h2, fun t => ?_⟩
  have hord : orderOf g = 2 ^ h * 256 := by rw [h2.order, hn]
  unfold treeQuotients
  rw [hold_append, hold_append, ← hn, claim_hold g _ hpos hord, layers_hold g _ hpos hord sx sy _ _ _ _ _ _ _ _ (fun b i tr _ => column_value g _ hord _ b i tr)
    (fun b i tr _ => column_value g _ hord _ b i tr) (fun b i tr _ => column_value g _ hord _ b i tr) (fun b i tr _ => column_value g _ hord _ b i tr)]
  constructor
  · rintro ⟨-, h3, h4⟩
    exact ⟨h4, h3⟩
  · rintro ⟨h4, h3⟩
    exact ⟨columns_hold g _ t, h3, h4⟩

/-- hashes that are functions of the inputs make a path -/
theorem path_of (hash : F → F → Option F) (n : Nat) (hn : 0 < n) (leaf merkle_root : F) (t : Nat → Nat → F) (h : Leads (fun x y z => hash x y = some z) n leaf merkle_root t) :
    HasPath hash n leaf merkle_root t := by
  -- the first m layers lead to the output of layer m
  have key : ∀ m, m < n → ∃ path : List (Bool × F), path.length = m + 1 ∧ (∀ b node, path[b]? = some node → node.2 = t (256 * b) (if node.1 then 0 else 4)) ∧
      path.foldlM (stepUp hash) leaf = some (t (256 * m + 255) 6) := by
    have step : ∀ m v, m < n → (t (256 * m) 0 = v ∨ t (256 * m) 4 = v) → ∃ node : Bool × F, node.2 = t (256 * m) (if node.1 then 0 else 4) ∧
        stepUp hash v node = some (t (256 * m + 255) 6) := by
      intro m v hm hv
      rcases hv with hv | hv
      · refine ⟨(false, t (256 * m) 4), by simp, ?_⟩
        unfold stepUp
        rw [if_neg (by simp), ← hv]
        exact h.related m hm
      · refine ⟨(true, t (256 * m) 0), by simp, ?_⟩
        unfold stepUp
        rw [if_pos rfl, ← hv]
        exact h.related m hm
    intro m
    induction m with
    | zero =>
      intro hm
      obtain ⟨node, h1, h2⟩ := step 0 leaf hm h.first
      refine ⟨[node], rfl, ?_, ?_⟩
      · intro b node' hb
        cases b with
        | zero => cases hb; exact h1
        | succ b => simp at hb
      · rw [List.foldlM_cons, h2]
        rfl
    | succ m ih =>
      intro hm
      obtain ⟨path, h1, h2, h3⟩ := ih (by omega)
      obtain ⟨node, h4, h5⟩ := step (m + 1) (t (256 * m + 255) 6) hm ((h.connected m hm).imp Eq.symm Eq.symm)
      refine ⟨path ++ [node], by simp [h1], ?_, ?_⟩
      · intro b node' hb
        by_cases hlt : b < path.length
        · rw [List.getElem?_append_left hlt] at hb
          exact h2 b node' hb
        · rw [List.getElem?_append_right (by omega)] at hb
          have : b = m + 1 := by
            by_contra hne
            rw [List.getElem?_eq_none (by simp; omega)] at hb
            cases hb
          subst this
          rw [h1, Nat.sub_self] at hb
          cases hb
          exact h4
      · rw [List.foldlM_append, h3]
        show stepUp hash _ node >>= _ = _
        rw [h5]
        rfl
  obtain ⟨path, h1, h2, h3⟩ := key (n - 1) (by omega)
  exact ⟨path, by omega, h2, by rw [h3, h.last]⟩

/-! ## C84 -/

/-- C84: in a table that satisfies the system of a claim, the layers lead from the leaf to the root, where the output of a layer is the Pedersen hash of integers below `2^252` that
have the inputs as residues, unless in computing it a point is added to itself. -/
theorem C84_system (root : Nat → Option F) (hroot : RootFn root) (hcompat : RootCompat root) (dbg : Bool) (uint : F → U256) (element : U256 → F) (T : Tables F) (omega : F)
    (ho : root 256 = some omega) (B : Bases β) (hT : TablesHold T omega B) (hchar : ∀ k : Nat, 0 < k → k < 8 → (k : F) ≠ 0)
    (h : Nat) (hh : h + 8 < 64) (comp : Component F (Claim F) (Witness F)) (hcomp : MerkleTree dbg root uint element T (2 ^ h) = some comp) (claim : Claim F)
    (c : Constraints F) (hc : comp.system root claim = some c) (g : F) (hg : root (2 ^ (h + 8)) = some g) (t : Nat → Nat → F) (ht : RowsSatisfy c g (2 ^ (h + 8)) t) :
    Leads (LooseHash B) (2 ^ h) claim.leaf claim.root t := by
  obtain ⟨sx, sy, qs, h1, h2, h3⟩ := rows_iff_layers root hroot hcompat dbg uint element T h hh comp hcomp claim c hc g hg
  have hom : g ^ 2 ^ h = omega := by
    have := hcompat 8 h g (by omega) (by rw [add_comm]; exact hg)
    rw [show 2 ^ 8 = 256 from rfl, ho] at this
    exact (Option.some.inj this).symm
  rw [h2.rows, h3, hom] at ht
  obtain ⟨h4, h5, h6, h7⟩ := ht
  refine ⟨h5, fun b hb => ?_, h7, h6⟩
  obtain ⟨x, y, a1, a2, a3, a4, -, -, a5⟩ := layer_sound B sx sy _ _ _ _ (hT.shift.symm.trans h1) hT.left_column hT.right_column hchar _ (h4 b hb)
  exact ⟨x, y, a1, a2, a3, a4, a5⟩

/-- the cases of a table that satisfies the system -/
theorem rows_cases (root : Nat → Option F) (hroot : RootFn root) (hcompat : RootCompat root) (dbg : Bool) (uint : F → U256) (element : U256 → F) (hconv : Conversions uint element)
    (T : Tables F) (omega : F) (ho : root 256 = some omega) (B : Bases β) (hT : TablesHold T omega B) (hchar : ∀ k : Nat, 0 < k → k < 8 → (k : F) ≠ 0)
    (h : Nat) (hh : h + 8 < 64) (comp : Component F (Claim F) (Witness F)) (hcomp : MerkleTree dbg root uint element T (2 ^ h) = some comp) (claim : Claim F)
    (c : Constraints F) (hc : comp.system root claim = some c) (g : F) (hg : root (2 ^ (h + 8)) = some g) (t : Nat → Nat → F) (ht : RowsSatisfy c g (2 ^ (h + 8)) t) :
    HasPath (merkle_hash uint T) (2 ^ h) claim.leaf claim.root t ∨ NonCanonical uint (2 ^ h) t ∨ Degenerate B uint (2 ^ h) t := by
  obtain ⟨sx, sy, qs, h1, h2, h3⟩ := rows_iff_layers root hroot hcompat dbg uint element T h hh comp hcomp claim c hc g hg
  have hom : g ^ 2 ^ h = omega := by
    have := hcompat 8 h g (by omega) (by rw [add_comm]; exact hg)
    rw [show 2 ^ 8 = 256 from rfl, ho] at this
    exact (Option.some.inj this).symm
  rw [h2.rows, h3, hom] at ht
  obtain ⟨h4, h5, h6, h7⟩ := ht
  by_cases hnc : NonCanonical uint (2 ^ h) t
  · exact Or.inr (Or.inl hnc)
  by_cases hdeg : Degenerate B uint (2 ^ h) t
  · exact Or.inr (Or.inr hdeg)
  left
  refine path_of _ _ (Nat.two_pow_pos _) _ _ _ ⟨h5, fun b hb => ?_, h7, h6⟩
  obtain ⟨x, y, a1, a2, a3, a4, a5, a6, a7⟩ := layer_sound B sx sy _ _ _ _ (hT.shift.symm.trans h1) hT.left_column hT.right_column hchar _ (h4 b hb)
  have ex : x = (uint (t (256 * b) 0)).toNat := by
    by_contra hne
    exact hnc ⟨b, hb, 0, x, Or.inl rfl, ⟨a1, a3, a5⟩, hne⟩
  have ey : y = (uint (t (256 * b) 4)).toNat := by
    by_contra hne
    exact hnc ⟨b, hb, 4, y, Or.inr rfl, ⟨a2, a4, a6⟩, hne⟩
  rw [ex, ey] at a7
  rcases a7 with a7 | ⟨w, a7⟩
  · exact absurd ⟨b, hb, Or.inl a7⟩ hdeg
  · have h2' : (2 : F) ≠ 0 := by simpa using hchar 2 (by norm_num) (by norm_num)
    exact merkle_hash_eq h2' uint element hconv T omega B hT _ _ (fun hcl => hdeg ⟨b, hb, Or.inr hcl⟩) _ _ a7

/-- C84 (partial: the integers may be others than the least with their residues - `C84_violated` -, and the hash may be degenerate): an accepted proof shows that the table committed
to has an authentication path from the leaf to the root, or that a layer hashes another integer than its input, or that a hash is degenerate. -/
theorem C84_accepted_partial (env : Env F) (hroot : RootFn env.root) (hcompat : RootCompat env.root) (hsearch : SearchOk env.search) (hgen : env.generator ≠ 0) (dbg : Bool)
    (uint : F → U256) (element : U256 → F) (hconv : Conversions uint element) (T : Tables F) (omega : F) (ho : env.root 256 = some omega) (B : Bases β)
    (hT : TablesHold T omega B) (hchar : ∀ k : Nat, 0 < k → k < 8 → (k : F) ≠ 0) (h : Nat) (hh : h + 12 < 64) (comp : Component F (Claim F) (Witness F))
    (hcomp : MerkleTree dbg env.root uint element T (2 ^ h) = some comp) (claim : Claim F) (p : Bytes) (hp : comp.verify env claim p = .ok ()) :
    ∃ c, comp.system env.root claim = some c ∧ Shows env c (h + 8) 2 p fun t =>
      HasPath (merkle_hash uint T) (2 ^ h) claim.leaf claim.root t ∨ NonCanonical uint (2 ^ h) t ∨ Degenerate B uint (2 ^ h) t := by
  unfold Component.verify at hp
  cases hc : comp.system env.root claim with
  | none => rw [hc] at hp; cases hp
  | some c =>
    rw [hc] at hp
    have hp : Stark.verify env c p = .ok () := hp
    have hg : ∃ g, env.root (2 ^ (h + 8)) = some g := by
      unfold MerkleTree Component.Vertical.new at hcomp
      rw [if_pos (by rw [Nat.log2_two_pow]), Option.map_some] at hcomp
      have hcomp := Option.some.inj hcomp
      subst hcomp
      unfold Component.system at hc
      obtain ⟨size, hsize, hc⟩ := Option.bind_eq_some_iff.1 hc
      obtain ⟨es, hes, hc⟩ := Option.bind_eq_some_iff.1 hc
      dsimp only at hes
      obtain ⟨ls, hls, hes⟩ := Option.bind_eq_some_iff.1 hes
      obtain ⟨size, hsize, hes⟩ := Option.bind_eq_some_iff.1 hes
      obtain ⟨g, hg, -⟩ := Option.bind_eq_some_iff.1 hes
      have hsize : size = 2 ^ (h + 8) := by
        have : some (256 * 2 ^ h) = some size := hsize
        rw [← Option.some.inj this, pow_add, mul_comm]
        norm_num
      exact ⟨g, hsize ▸ hg⟩
    obtain ⟨g, hg⟩ := hg
    obtain ⟨sx, sy, qs, h1, h2, -⟩ := rows_iff_layers env.root hroot hcompat dbg uint element T h (by omega) comp hcomp claim c hc g hg
    exact ⟨c, rfl, system_shows env hroot hcompat hsearch hgen c (h + 8) 8 g _ 2 h2 (by omega) p hp _ fun t ht =>
      rows_cases env.root hroot hcompat dbg uint element hconv T omega ho B hT hchar h (by omega) comp hcomp claim c hc g hg t ht⟩

theorem table_six (B : Bases β) (a b i : Nat) : layerTable B a b i 6 = coordX (ofPoint (partialSum B a b i)) := rfl

theorem partialSum_stop (B : Bases β) (a b : Nat) (ha : a < 2 ^ 252) (hb : b < 2 ^ 252) (n : Nat) (hn : 252 ≤ n) : partialSum B a b n = pedersen B a b := by
  unfold pedersen partialSum
  rw [Finset.sum_add_distrib, Finset.sum_add_distrib, sum_stop _ _ ha n hn, sum_stop _ _ hb n hn]

/-- the layers of hashes of given integers, one above the other -/
noncomputable def stack (B : Bases β) (x y : Nat → Nat) (r j : Nat) : F := layerTable B (x (r / 256)) (y (r / 256)) (r % 256) j

theorem stack_cell (B : Bases β) (x y : Nat → Nat) (b i j : Nat) (hi : i < 256) : stack B x y (256 * b + i) j = layerTable B (x b) (y b) i j := by
  unfold stack
  rw [show (256 * b + i) / 256 = b by omega, show (256 * b + i) % 256 = i by omega]

/-- the layers of hashes of given integers satisfy the equations -/
theorem layers_of (T : Tables F) (omega : F) (B : Bases β) (hT : TablesHold T omega B) (sx sy : F) (hs : T.shift = .Point sx sy) (n : Nat) (hn : 0 < n) (leaf merkle_root : F)
    (x y : Nat → Nat) (hx : ∀ b < n, x b < 2 ^ 252) (hy : ∀ b < n, y b < 2 ^ 252) (hd : ∀ b < n, ¬ Doubles B (x b) (y b)) (hcan : ∀ b < n, ¬ Cancels B (x b) (y b))
    (z : Nat → F) (hz : ∀ b < n, z (b + 1) = coordX (ofPoint (pedersen B (x b) (y b)))) (hfirst : z 0 = leaf) (hlast : z n = merkle_root)
    (hin : ∀ b < n, (x b : F) = z b ∨ (y b : F) = z b) (t : Nat → Nat → F) (hcell : ∀ b < n, ∀ i < 256, ∀ j < 8, t (256 * b + i) j = layerTable B (x b) (y b) i j) :
    (∀ b < n, LayerRows sx sy (fun i => Poly.evaluate T.left_x (omega ^ i)) (fun i => Poly.evaluate T.left_y (omega ^ i))
        (fun i => Poly.evaluate T.right_x (omega ^ i)) (fun i => Poly.evaluate T.right_y (omega ^ i)) fun i j => t (256 * b + i) j) ∧
      (t 0 0 = leaf ∨ t 0 4 = leaf) ∧ t (256 * (n - 1) + 255) 6 = merkle_root ∧
      ∀ b, b + 1 < n → t (256 * b + 255) 6 = t (256 * (b + 1)) 0 ∨ t (256 * b + 255) 6 = t (256 * (b + 1)) 4 := by
  have h0 : ∀ b < n, t (256 * b) 0 = x b ∧ t (256 * b) 4 = y b := by
    intro b hb
    have e1 := hcell b hb 0 (by norm_num) 0 (by norm_num)
    have e2 := hcell b hb 0 (by norm_num) 4 (by norm_num)
    rw [add_zero] at e1 e2
    rw [e1, e2]
    simp [layerTable]
  have hout : ∀ b < n, t (256 * b + 255) 6 = z (b + 1) := by
    intro b hb
    rw [hcell b hb 255 (by norm_num) 6 (by norm_num), hz b hb, table_six, partialSum_stop B _ _ (hx b hb) (hy b hb) 255 (by norm_num)]
  refine ⟨fun b hb => ?_, ?_, ?_, fun b hb => ?_⟩
  · have := layer_complete B sx sy _ _ _ _ (hT.shift.symm.trans hs) hT.left_column hT.right_column (x b) (y b) (hx b hb) (hy b hb) (hd b hb) (hcan b hb)
    obtain ⟨b1, b2, b3, b4, b5, b6, b7, b8⟩ := this
    have hc := hcell b hb
    refine ⟨?_, ?_, ?_, ?_, ?_, ?_, fun i hi => ?_, fun i hi => ?_⟩
    · rw [hc 0 (by norm_num) _ (by norm_num)]; exact b1
    · rw [hc 0 (by norm_num) _ (by norm_num)]; exact b2
    · rw [hc 252 (by norm_num) _ (by norm_num)]; exact b3
    · rw [hc 255 (by norm_num) _ (by norm_num)]; exact b4
    · rw [hc 252 (by norm_num) _ (by norm_num)]; exact b5
    · rw [hc 255 (by norm_num) _ (by norm_num)]; exact b6
    · rw [hc i (by omega) 0 (by norm_num), hc (i + 1) (by omega) 0 (by norm_num), hc (i + 1) (by omega) 1 (by norm_num), hc (i + 1) (by omega) 2 (by norm_num),
        hc (i + 1) (by omega) 3 (by norm_num), hc i (by omega) 6 (by norm_num), hc i (by omega) 7 (by norm_num)]
      exact b7 i hi
    · rw [hc i (by omega) 4 (by norm_num), hc (i + 1) (by omega) 4 (by norm_num), hc (i + 1) (by omega) 5 (by norm_num), hc (i + 1) (by omega) 2 (by norm_num),
        hc (i + 1) (by omega) 3 (by norm_num), hc (i + 1) (by omega) 6 (by norm_num), hc (i + 1) (by omega) 7 (by norm_num)]
      exact b8 i hi
  · have := h0 0 hn
    rw [mul_zero] at this
    rw [this.1, this.2, ← hfirst]
    exact hin 0 hn
  · rw [hout _ (by omega), show n - 1 + 1 = n by omega, hlast]
  · rw [hout b (by omega), (h0 (b + 1) hb).1, (h0 (b + 1) hb).2]
    exact (hin (b + 1) hb).imp Eq.symm Eq.symm

/-- a table with given cells -/
theorem table_with (rows cols : Nat) (f : Nat → Nat → F) :
    ∃ t : TraceTable F, t.trace_length = rows ∧ t.num_columns = cols ∧ TableOk t ∧ ∀ i < rows, ∀ j < cols, t.get i j = some (f i j) := by
  obtain ⟨t, -, h1, h2, h3, h4⟩ := tableOf_spec rows cols ((List.range rows).flatMap fun i => (List.range cols).map fun j => (i, j, f i j)) f
    (by
      intro i j v h
      simp only [List.mem_flatMap, List.mem_map, List.mem_range, Prod.mk.injEq] at h
      obtain ⟨i', hi, j', hj, rfl, rfl, rfl⟩ := h
      exact ⟨hi, hj, rfl⟩)
    (by
      intro i hi j hj
      simp only [List.mem_flatMap, List.mem_map, List.mem_range, Prod.mk.injEq]
      exact ⟨i, hi, j, hj, rfl, rfl, rfl⟩)
  exact ⟨t, h1, h2, h3, h4⟩

/-- C84: whoever knows integers below `2^252` whose hashes lead from the leaf to the root, without exceptional additions, has a trace that the library checks and proves; its inputs are the
residues of these integers. -/
theorem C84_table (env : Env F) (hroot : RootFn env.root) (hcompat : RootCompat env.root) (hgen : env.generator ≠ 0)
    (hsearch : ∀ l n z, env.search l n = some z → l[z]? = some n) (o : Oracles F) (dbg : Bool) (uint : F → U256) (element : U256 → F) (T : Tables F) (omega : F)
    (ho : env.root 256 = some omega) (B : Bases β) (hT : TablesHold T omega B)
    (h : Nat) (hh : h + 12 < 64) (comp : Component F (Claim F) (Witness F)) (hcomp : MerkleTree dbg env.root uint element T (2 ^ h) = some comp) (claim : Claim F)
    (c : Constraints F) (hc : comp.system env.root claim = some c) (g : F) (hg : env.root (2 ^ (h + 8)) = some g)
    (x y : Nat → Nat) (hx : ∀ b < 2 ^ h, x b < 2 ^ 252) (hy : ∀ b < 2 ^ h, y b < 2 ^ 252) (hd : ∀ b < 2 ^ h, ¬ Doubles B (x b) (y b)) (hcan : ∀ b < 2 ^ h, ¬ Cancels B (x b) (y b))
    (z : Nat → F) (hz : ∀ b < 2 ^ h, ∃ w, ofPoint (pedersen B (x b) (y b)) = .Point (z (b + 1)) w) (hfirst : z 0 = claim.leaf) (hlast : z (2 ^ h) = claim.root)
    (hin : ∀ b < 2 ^ h, (x b : F) = z b ∨ (y b : F) = z b) :
    ∃ t : TraceTable F, TraceTable.check_constraints env.root c t = some (.ok ()) ∧ Provable env o c (h + 8) g t ∧ RowsSatisfy c g (2 ^ (h + 8)) (fun r i => (t.get r i).getD 0) ∧
      ∀ b < 2 ^ h, Encodes (fun r i => (t.get r i).getD 0) b 0 (x b) ∧ Encodes (fun r i => (t.get r i).getD 0) b 4 (y b) := by
  obtain ⟨sx, sy, qs, h1, h2, h3⟩ := rows_iff_layers env.root hroot hcompat dbg uint element T h (by omega) comp hcomp claim c hc g hg
  have hom : g ^ 2 ^ h = omega := by
    have := hcompat 8 h g (by omega) (by rw [add_comm]; exact hg)
    rw [show 2 ^ 8 = 256 from rfl, ho] at this
    exact (Option.some.inj this).symm
  have hn : 256 * 2 ^ h = 2 ^ (h + 8) := by rw [pow_add, mul_comm]; norm_num
  obtain ⟨t, t1, t2, t3, t4⟩ := table_with (2 ^ (h + 8)) 8 (stack B x y)
  have hcell : ∀ b < 2 ^ h, ∀ i < 256, ∀ j < 8, (t.get (256 * b + i) j).getD 0 = layerTable B (x b) (y b) i j := by
    intro b hb i hi j hj
    rw [t4 _ (by omega) j hj, stack_cell B x y b i j hi]
    rfl
  have hcell0 : ∀ b < 2 ^ h, ∀ j < 8, (t.get (256 * b) j).getD 0 = layerTable B (x b) (y b) 0 j := fun b hb j hj => hcell b hb 0 (by norm_num) j hj
  have hhold : Examples.Hold g (2 ^ (h + 8)) (fun r i => (t.get r i).getD 0) qs := by
    rw [h3, hom]
    refine layers_of T omega B hT sx sy h1 (2 ^ h) (Nat.two_pow_pos h) claim.leaf claim.root x y hx hy hd hcan z (fun b hb => ?_) hfirst hlast hin (fun r i => (t.get r i).getD 0) hcell
    obtain ⟨w, hw⟩ := hz b hb
    rw [hw]
    rfl
  refine ⟨t, (h2.check t t3 t1 t2).2 hhold, system_provable env hroot hcompat hgen hsearch o c (h + 8) 8 g _ 2 h2 (by omega) (by omega) t t3 t1 t2 hhold, (h2.rows _).2 hhold,
    fun b hb => ⟨⟨hx b hb, ?_, fun i hi => ?_⟩, ⟨hy b hb, ?_, fun i hi => ?_⟩⟩⟩
  · beta_reduce
    rw [hcell0 b hb 0 (by norm_num)]
    simp [layerTable]
  · beta_reduce
    rw [hcell b hb i (by omega) 0 (by norm_num), hcell b hb (i + 1) (by omega) 0 (by norm_num)]
    exact halves (x b) i
  · beta_reduce
    rw [hcell0 b hb 4 (by norm_num)]
    simp [layerTable]
  · beta_reduce
    rw [hcell b hb i (by omega) 4 (by norm_num), hcell b hb (i + 1) (by omega) 4 (by norm_num)]
    exact halves (y b) i

/-- the component and its systems exist -/
theorem system_exists (root : Nat → Option F) (dbg : Bool) (uint : F → U256) (element : U256 → F) (T : Tables F) (sx sy : F) (hs : T.shift = .Point sx sy)
    (hl : T.left_x.length = 256 ∧ T.left_y.length = 256 ∧ T.right_x.length = 256 ∧ T.right_y.length = 256) (omega : F) (ho : root 256 = some omega) (h : Nat) (g : F)
    (hg : root (2 ^ (h + 8)) = some g) : ∃ comp, MerkleTree dbg root uint element T (2 ^ h) = some comp ∧ ∀ claim, ∃ c, comp.system root claim = some c := by
  have hpos := Nat.two_pow_pos h
  have hn : 256 * 2 ^ h = 2 ^ (h + 8) := by rw [pow_add, mul_comm]; norm_num
  have hnew : ∀ l : List F, l.length = 256 → Poly.new l = some l := by
    intro l hl
    unfold Poly.new
    rw [hl, if_pos (by decide)]
  obtain ⟨es, hes⟩ : ∃ es, layerConstraints root T = some es := by
    unfold layerConstraints
    rw [hs]
    dsimp only
    rw [hnew _ hl.1, hnew _ hl.2.1, hnew _ hl.2.2.1, hnew _ hl.2.2.2, ho]
    exact ⟨_, rfl⟩
  unfold MerkleTree Component.Vertical.new
  rw [if_pos (by rw [Nat.log2_two_pow]), Option.map_some]
  refine ⟨_, rfl, fun claim => ?_⟩
  obtain ⟨ls, hls⟩ : ∃ ls, (Component.Vertical dbg (MerkleTreeLayer root uint element T) (2 ^ h)).constraints (List.replicate (2 ^ h) ()) = some ls := by
    obtain ⟨m, hm⟩ : ∃ m, 2 ^ h = m + 1 := ⟨2 ^ h - 1, by omega⟩
    refine ⟨es.map (retrace (.Exp .X (2 ^ h)) fun i j => .Trace i j), ?_⟩
    have e : (Component.Vertical dbg (MerkleTreeLayer root uint element T) (2 ^ h)).constraints (List.replicate (2 ^ h) ()) =
      (List.replicate (2 ^ h) ()).head?.bind fun _ => (layerConstraints root T).bind fun es => es.mapM fun e => Expr.map (Component.powX (2 ^ h)) e := rfl
    rw [e, hes, show (List.replicate (2 ^ h) ()).head? = some () by rw [hm]; rfl, Option.bind_some, Option.bind_some]
    exact mapM_some _ _ es fun e _ => powX_retrace _ e
  have hsize : (Component.Vertical dbg (MerkleTreeLayer root uint element T) (2 ^ h)).polynomial_size = some (2 ^ (h + 8)) := by
    rw [← hn]
    rfl
  obtain ⟨es', hes'⟩ : ∃ es', treeConstraints ls g (2 ^ h) claim = some es' := by
    unfold treeConstraints csub
    dsimp only
    rw [if_pos (show 1 ≤ 256 * 2 ^ h by omega), Option.bind_some, if_pos (show 2 ^ h ≤ 256 * 2 ^ h by omega), Option.bind_some, if_pos (show 1 ≤ 2 ^ h by omega), Option.map_some]
    exact ⟨_, rfl⟩
  unfold Component.system
  dsimp only
  rw [hls, hsize, Option.bind_some, Option.bind_some, Option.bind_some, hg, Option.bind_some, hes', Option.bind_some]
  unfold Constraints.from_expressions
  rw [hg]
  exact ⟨_, rfl⟩

/-- the inputs of a layer: node and sibling -/
def inputs (node : Bool × F) (v : F) : F × F := if node.1 then (node.2, v) else (v, node.2)

/-- No addition in the hash of these elements, in one order or the other, is exceptional. -/
def Regular (B : Bases β) (uint : F → U256) (x y : F) : Prop :=
  ¬ Doubles B (uint x).toNat (uint y).toNat ∧ ¬ Cancels B (uint x).toNat (uint y).toNat ∧ ¬ HashClash B (uint x).toNat (uint y).toNat

theorem layerWitnesses_some (hash : F → F → Option F) (path : List (Bool × F)) (leaf r : F) (h : path.foldlM (stepUp hash) leaf = some r) :
    ∃ ws, layerWitnesses hash leaf path = some ws ∧ ws.length = path.length ∧
      ∀ b node, path[b]? = some node → ∃ v v', (path.take b).foldlM (stepUp hash) leaf = some v ∧ (path.take (b + 1)).foldlM (stepUp hash) leaf = some v' ∧
        ws[b]? = some (v, node.2, node.1) := by
  induction path generalizing leaf with
  | nil => exact ⟨[], rfl, rfl, by simp⟩
  | cons node path ih =>
    rw [List.foldlM_cons] at h
    obtain ⟨next, h1, h2⟩ := Option.bind_eq_some_iff.1 h
    obtain ⟨ws, h3, h4, h5⟩ := ih next h2
    refine ⟨(leaf, node.2, node.1) :: ws, ?_, by simp [h4], ?_⟩
    · obtain ⟨d, s⟩ := node
      rw [layerWitnesses, h1, Option.bind_some, h3]
      rfl
    · intro b node' hb
      cases b with
      | zero =>
        rw [List.getElem?_cons_zero] at hb
        cases hb
        refine ⟨leaf, next, rfl, ?_, rfl⟩
        simp [h1]
      | succ b =>
        rw [List.getElem?_cons_succ] at hb
        obtain ⟨v, v', h6, h7, h8⟩ := h5 b node' hb
        refine ⟨v, v', ?_, ?_, h8⟩
        · rw [List.take_succ_cons, List.foldlM_cons, h1]
          exact h6
        · rw [List.take_succ_cons, List.foldlM_cons, h1]
          exact h7

/-- the table of a layer -/
theorem layer_fits (root : Nat → Option F) (h2 : (2 : F) ≠ 0) (uint : F → U256) (element : U256 → F) (hconv : Conversions uint element) (T : Tables F) (omega : F) (B : Bases β)
    (hT : TablesHold T omega B) (node : Bool × F) (v : F) (hreg : Regular B uint (inputs node v).1 (inputs node v).2) :
    Fits (MerkleTreeLayer root uint element T) (v, node.2, node.1) 256 ∧ ∀ t, IsTrace (MerkleTreeLayer root uint element T) (v, node.2, node.1) 256 t →
      ∀ i < 256, ∀ j < 8, t.get i j = some (layerTable B (uint (inputs node v).1).toNat (uint (inputs node v).2).toNat i j) := by
  have h1 := layerTrace_eq h2 uint element hconv T omega B hT (inputs node v).1 (inputs node v).2 v node.2 node.1 rfl hreg.1 hreg.2.1
  have hm := mem_cells element uint hconv B (uint (inputs node v).1) (uint (inputs node v).2)
  generalize (List.range 256).flatMap (fun i => layerCells element i (layerState B (uint (inputs node v).1) (uint (inputs node v).2) i)) = ws at h1 hm
  have hb : ∀ p ∈ ws, p.1 < 8 ∧ p.2.1 < 256 := fun p hp => ⟨((hm p.1 p.2.1 p.2.2).1 hp).1, ((hm p.1 p.2.1 p.2.2).1 hp).2.1⟩
  refine ⟨⟨rfl, ws, h1, hb⟩, fun t ht i hi j hj => ?_⟩
  obtain ⟨t', h3, h4⟩ := trace_table_spec (MerkleTreeLayer root uint element T) (v, node.2, node.1) 256 ws rfl h1 hb
  rw [Option.some.inj (ht.1.symm.trans h3.1), h4 i j hi hj]
  congr 1
  have hmem : ∀ x, (i, j, x) ∈ ws.map (fun w => (w.2.1, w.1, w.2.2)) ↔ x = layerTable B (uint (inputs node v).1).toNat (uint (inputs node v).2).toNat i j := by
    intro x
    rw [List.mem_map]
    constructor
    · rintro ⟨w, hw, e⟩
      obtain ⟨a, b, d⟩ := w
      simp only [Prod.mk.injEq] at e
      obtain ⟨rfl, rfl, rfl⟩ := e
      exact ((hm _ _ _).1 hw).2.2
    · intro e
      exact ⟨(j, i, x), (hm _ _ _).2 ⟨hj, hi, e⟩, rfl⟩
  exact written_of_mem _ i j _ ((hmem _).2 rfl) fun v' hv' => (hmem v').1 hv'

theorem tree_component (dbg : Bool) (root : Nat → Option F) (uint : F → U256) (element : U256 → F) (T : Tables F) (n : Nat) (comp : Component F (Claim F) (Witness F))
    (hcomp : MerkleTree dbg root uint element T n = some comp) : comp.claim = Claim.ofWitness ∧ comp.num_polynomials = 8 ∧ ∀ w ws, layerWitnesses (merkle_hash uint T) w.leaf w.path = some ws →
      comp.trace_table w = (Component.Vertical dbg (MerkleTreeLayer root uint element T) n).trace_table ws := by
  obtain ⟨layers, hl, rfl⟩ := Option.map_eq_some_iff.1 hcomp
  obtain ⟨-, rfl⟩ := ((C47_vertical_new dbg _ _).1 layers).1 hl
  refine ⟨rfl, rfl, fun w ws hws => ?_⟩
  unfold Component.trace_table
  dsimp only
  rw [hws]
  rfl

/-- C84: the trace for a witness - a leaf and its siblings on the way up - passes the check of the component and can be proved, unless a hash is degenerate. -/
theorem C84_prove (env : Env F) (hroot : RootFn env.root) (hcompat : RootCompat env.root) (hgen : env.generator ≠ 0)
    (hsearch : ∀ l n z, env.search l n = some z → l[z]? = some n) (o : Oracles F) (dbg : Bool)
    (uint : F → U256) (element : U256 → F) (hconv : Conversions uint element) (T : Tables F) (omega : F) (ho : env.root 256 = some omega) (B : Bases β)
    (hT : TablesHold T omega B) (hchar : ∀ k : Nat, 0 < k → k < 8 → (k : F) ≠ 0) (h : Nat) (hh : h + 12 < 64) (comp : Component F (Claim F) (Witness F))
    (hcomp : MerkleTree dbg env.root uint element T (2 ^ h) = some comp) (leaf : F) (path : List (Bool × F)) (hpath : path.length = 2 ^ h) (witness : Witness F)
    (hw : Witness.new (merkle_hash uint T) leaf path = some witness)
    (hreg : ∀ b node v, path[b]? = some node → (path.take b).foldlM (stepUp (merkle_hash uint T)) leaf = some v → Regular B uint (inputs node v).1 (inputs node v).2)
    (c : Constraints F) (hc : comp.system env.root (comp.claim witness) = some c) (g : F) (hg : env.root (2 ^ (h + 8)) = some g) :
    ∃ t, IsTrace comp witness (2 ^ (h + 8)) t ∧ comp.check env.root witness = some (.ok ()) ∧ Provable env o c (h + 8) g t := by
  have h2 : (2 : F) ≠ 0 := hchar 2 (by norm_num) (by norm_num)
  have hpos := Nat.two_pow_pos h
  have hn : 256 * 2 ^ h = 2 ^ (h + 8) := by rw [pow_add, mul_comm]; norm_num
  obtain ⟨sx, sy, qs, e1, hs, h3⟩ := rows_iff_layers env.root hroot hcompat dbg uint element T h (by omega) comp hcomp (comp.claim witness) c hc g hg
  have hom : g ^ 2 ^ h = omega := by
    have := hcompat 8 h g (by omega) (by rw [add_comm]; exact hg)
    rw [show 2 ^ 8 = 256 from rfl, ho] at this
    exact (Option.some.inj this).symm
  obtain ⟨r, hr, rfl⟩ := Option.map_eq_some_iff.1 hw
  obtain ⟨hclaim, hcols, htrace⟩ := tree_component dbg env.root uint element T _ comp hcomp
  obtain ⟨ws, hws, hlen, hwit⟩ := layerWitnesses_some (merkle_hash uint T) path leaf r hr
  -- the tables of the layers
  have hfit : ∀ w ∈ ws, Fits (MerkleTreeLayer env.root uint element T) w 256 := by
    intro w hmem
    obtain ⟨b, hb, rfl⟩ := List.mem_iff_getElem.1 hmem
    obtain ⟨v, v', h4, -, h5⟩ := hwit b path[b] (List.getElem?_eq_getElem (by omega))
    rw [List.getElem?_eq_getElem hb] at h5
    rw [Option.some.inj h5]
    exact (layer_fits env.root h2 uint element hconv T omega B hT path[b] v (hreg b _ v (List.getElem?_eq_getElem (by omega)) h4)).1
  obtain ⟨t, ht, hcells⟩ := C47_vertical_cells dbg (MerkleTreeLayer env.root uint element T) (2 ^ h) ws 256 rfl hfit (by omega)
  rw [hn] at ht
  replace htrace : comp.trace_table ⟨path, leaf, r⟩ = some t := (htrace _ ws hws).trans ht.1
  -- the values on the way up
  let z : Nat → F := fun b => ((path.take b).foldlM (stepUp (merkle_hash uint T)) leaf).getD 0
  let node : Nat → Bool × F := fun b => path.getD b (false, 0)
  have hnode : ∀ b < 2 ^ h, path[b]? = some (node b) := by
    intro b hb
    show path[b]? = some (path.getD b (false, 0))
    rw [List.getD_eq_getElem _ _ (by omega), List.getElem?_eq_getElem (by omega)]
  have hz : ∀ b < 2 ^ h, (path.take b).foldlM (stepUp (merkle_hash uint T)) leaf = some (z b) ∧
      (path.take (b + 1)).foldlM (stepUp (merkle_hash uint T)) leaf = some (z (b + 1)) ∧ ws[b]? = some (z b, (node b).2, (node b).1) := by
    intro b hb
    obtain ⟨v, v', h4, h5, h6⟩ := hwit b _ (hnode b hb)
    have e : z b = v := by show Option.getD _ _ = _; rw [h4]; rfl
    have e' : z (b + 1) = v' := by show Option.getD _ _ = _; rw [h5]; rfl
    rw [e, e']
    exact ⟨h4, h5, h6⟩
  have hregb : ∀ b < 2 ^ h, Regular B uint (inputs (node b) (z b)).1 (inputs (node b) (z b)).2 := fun b hb => hreg b _ _ (hnode b hb) (hz b hb).1
  have hout : ∀ b < 2 ^ h, z (b + 1) = coordX (ofPoint (pedersen B (uint (inputs (node b) (z b)).1).toNat (uint (inputs (node b) (z b)).2).toNat)) := by
    intro b hb
    have hne := (regular_of B _ _ hT.shift_ne (hregb b hb).1 (hregb b hb).2.1 252 (hconv.lt _) (hconv.lt _)).1
    have hv := merkle_hash_eq h2 uint element hconv T omega B hT _ _ (hregb b hb).2.2 _ _ (ofPoint_coords hne)
    have h6 := (hz b hb).2.1
    rw [List.take_add_one, hnode b hb, List.foldlM_append, (hz b hb).1] at h6
    have h7 : stepUp (merkle_hash uint T) (z b) (node b) = some (z (b + 1)) := by simpa using h6
    have h8 : stepUp (merkle_hash uint T) (z b) (node b) = merkle_hash uint T (inputs (node b) (z b)).1 (inputs (node b) (z b)).2 := by
      unfold stepUp inputs
      split <;> rfl
    rw [h8, hv] at h7
    exact (Option.some.inj h7).symm
  have hhold : Examples.Hold g (2 ^ (h + 8)) (fun r i => (t.get r i).getD 0) qs := by
    rw [h3, hom, hclaim]
    refine layers_of T omega B hT sx sy e1 (2 ^ h) hpos leaf r (fun b => (uint (inputs (node b) (z b)).1).toNat) (fun b => (uint (inputs (node b) (z b)).2).toNat)
      (fun b _ => hconv.lt _) (fun b _ => hconv.lt _) (fun b hb => (hregb b hb).1) (fun b hb => (hregb b hb).2.1) z hout rfl ?_ ?_ (fun r i => (t.get r i).getD 0) ?_
    · show Option.getD _ _ = _
      rw [← hpath, List.take_length, hr]
      rfl
    · intro b hb
      beta_reduce
      rw [hconv.cast, hconv.cast]
      unfold inputs
      split
      · exact Or.inr rfl
      · exact Or.inl rfl
    · intro b hb i hi j hj
      obtain ⟨tk, k1, k2⟩ := hcells b _ (hz b hb).2.2
      beta_reduce
      rw [show 256 * b + i = i + b * 256 by ring, k2 i hi j hj,
        (layer_fits env.root h2 uint element hconv T omega B hT (node b) (z b) (hregb b hb)).2 tk k1 i hi j hj]
      rfl
  refine ⟨t, ⟨htrace, ht.2.1, ht.2.2.1.trans hcols.symm, ht.2.2.2⟩, ?_, system_provable env hroot hcompat hgen hsearch o c (h + 8) 8 g _ 2 hs (by omega) (by omega) t ht.2.2.2 ht.2.1 ht.2.2.1 hhold⟩
  have hcheck := (hs.check t ht.2.2.2 ht.2.1 ht.2.2.1).2 hhold
  have hc' := hc
  unfold Component.system at hc'
  obtain ⟨size, s1, hc'⟩ := Option.bind_eq_some_iff.1 hc'
  obtain ⟨es, s2, hc'⟩ := Option.bind_eq_some_iff.1 hc'
  unfold Component.check
  rw [s1, Option.bind_some, s2, Option.bind_some]
  split at hc'
  · rename_i cs hcs
    rw [hcs]
    dsimp only
    rw [htrace, Option.bind_some, Option.some.inj hc']
    exact hcheck
  · cases hc'

end
end PedersenMerkle
end Props
end OpenZKP
