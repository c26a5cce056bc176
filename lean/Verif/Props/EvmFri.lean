import Verif.Evm.FriChain
import Verif.Props.FieldIso

/-!
# Property C76: FRI in the contracts

The contract accepts a FRI proof exactly if the protocol does (`FriOk`, the specification used for the verifier in Rust, C63): the values folded from layer to layer are
those of the openings, the openings are in the committed trees, and the last layer is the polynomial given by its coefficients.
-/

namespace OpenZKP
namespace Props
open Evm PrimeField Evm.Fri MerkleVerifier Stark Stark.Accept FFT

/-- The words of the contract stand for the elements that the field in Rust takes them for. -/
theorem C76_words (u : U256) (hu : u.toNat < PF.BASE.modulus.toNat) : montgomery.val u = ((nat PF.BASE u : Nat) : ZMod MODULUS) := by
  have h := PF.V_mul_R (P := PF.BASE) base_ok.consts (x := u) hu
  have e : ((nat PF.BASE u : Nat) : ZMod MODULUS) * 2 ^ 256 = (u.toNat : ZMod MODULUS) := h
  show (u.toNat : ZMod MODULUS) * ((2 : Z) ^ 256)⁻¹ = _
  rw [← e, mul_assoc, mul_inv_cancel₀ r_ne, mul_one]

theorem accept_unfold (K : Keccak) (ctx : FriContext) (mem : Nat → Mem) (m : Nat) (hm : m ≤ 40) (hlog : ctx.log_eval_domain_size = m) (hlayout : ctx.fri_layout ≠ [])
    (hb : ∀ q ∈ ctx.queries, q < 2 ^ m) (hlen : ctx.polynomial_at_queries.length = ctx.queries.length) (hred : ∀ v ∈ ctx.polynomial_at_queries, v < MODULUS)
    (f : Nat → Z) (hf : ∀ (z : Nat) (q v : Nat), ctx.queries[z]? = some q → ctx.polynomial_at_queries[z]? = some v → f q = mont v) :
    ∃ (a : Arrays) (generator : Nat), (generator : Z) = (3 : Z) ^ ((MODULUS - 1) / 2 ^ m) ∧ Holds a ((3 : Z) ^ ((MODULUS - 1) / 2 ^ m)) m f ctx.queries ∧
      RootAt ((3 : Z) ^ ((MODULUS - 1) / 2 ^ m)) m ∧
      fold_and_check_fri_layers K ctx mem = (layers K ctx mem ctx.fri_layout 0 a (2 ^ m) m generator).bind fun r => lastLayer ctx r.1 r.2.1 r.2.2 := by
  have hdvd : 2 ^ m ∣ MODULUS - 1 := Dvd.dvd.trans (pow_dvd_pow 2 (show m ≤ 192 by omega)) (by decide +kernel)
  have hroots := EvmField.C72_roots 0 (2 ^ m) (by norm_num) (Nat.pow_lt_pow_right (by norm_num) (by omega))
  cases hr : PrimeField.root (2 ^ m) with
  | none => exact absurd hdvd (hroots.2.2.2.1 hr)
  | some generator =>
    have hg := (hroots.2.2.1 generator hr).2.2
    have hRoot := rootAt_three m hdvd
    refine ⟨⟨ctx.polynomial_at_queries, ctx.queries, ctx.queries.map fun q => fpow generator (wsub (2 ^ m) (Utils.bit_reverse2 q m)), List.replicate ctx.queries.length []⟩,
      generator, hg, ⟨rfl, hlen, by simp, by simp, ?_⟩, hRoot, ?_⟩
    · intro e he
      obtain ⟨z, hz, rfl⟩ := List.getElem_of_mem he
      have hz' : z < ctx.queries.length := by
        rw [entries_length _ _ _ hlen (by simp [hlen])] at hz
        omega
      have e1 : ctx.queries[z]? = some ((entries ctx.queries ctx.polynomial_at_queries
          (ctx.queries.map fun q => fpow generator (wsub (2 ^ m) (Utils.bit_reverse2 q m))))[z]).1 := by
        rw [List.getElem?_eq_getElem hz']
        simp [entries]
      have e2 : ctx.polynomial_at_queries[z]? = some ((entries ctx.queries ctx.polynomial_at_queries
          (ctx.queries.map fun q => fpow generator (wsub (2 ^ m) (Utils.bit_reverse2 q m))))[z]).2.1 := by
        rw [List.getElem?_eq_getElem (by omega)]
        simp [entries]
      have e3 : ((entries ctx.queries ctx.polynomial_at_queries (ctx.queries.map fun q => fpow generator (wsub (2 ^ m) (Utils.bit_reverse2 q m))))[z]).2.2 =
          fpow generator (wsub (2 ^ m) (Utils.bit_reverse2 ((entries ctx.queries ctx.polynomial_at_queries
            (ctx.queries.map fun q => fpow generator (wsub (2 ^ m) (Utils.bit_reverse2 q m))))[z]).1 m)) := by
        simp [entries]
      refine ⟨hred _ (List.mem_of_getElem? e2), (hf z _ _ e1 e2).symm, ?_⟩
      have hq := hb _ (List.mem_of_getElem? e1)
      rw [e3, ((EvmField.C72_arithmetic _ _).2.2.1).2, hg, bit_reverse2_rev _ _ hm hq,
        wsub_le _ _ (by unfold W; exact Nat.pow_lt_pow_right (by norm_num) (by omega)) (le_of_lt (rev_lt _ _))]
      refine eq_inv_of_mul_eq_one_left ?_
      rw [← pow_add, Nat.sub_add_cancel (le_of_lt (rev_lt _ _)), hRoot.pow_eq_one]
    · unfold fold_and_check_fri_layers
      rw [hlog]
      cases hl : ctx.fri_layout with
      | nil => exact absurd hl hlayout
      | cons n ns =>
        rw [List.getElem?_cons_zero, Option.bind_some]
        simp only [wshl_one m (by omega), hr, Option.bind_some]

/-- C76 (soundness): if the contract accepts, then the protocol accepts — with the commitments of the proof as roots, and as values of each layer the first of those in the
proof.  What follows these values is ignored. -/
theorem C76_sound (env : Env Z) (hc : env.codec = montgomery) (ctx : FriContext) (mem : Nat → Mem) (m : Nat) (hm : m ≤ 40) (hlog : ctx.log_eval_domain_size = m)
    (hmem : ∀ t, (mem t).s0.length = 32 ∧ ∀ x, ((mem t).beyond x).length = 32)
    (hvals : ∀ vs ∈ ctx.fri_values, ∀ v ∈ vs, v < MODULUS) (hdec : ∀ d ∈ ctx.fri_decommitments, ∀ x ∈ d, x.length = 32) (hlast : ∀ c ∈ ctx.last_layer_coefficients, c < MODULUS)
    (hred : ∀ v ∈ ctx.polynomial_at_queries, v < MODULUS) (hlen : ctx.polynomial_at_queries.length = ctx.queries.length)
    (hasc : ctx.queries.Pairwise (· < ·)) (hb : ∀ q ∈ ctx.queries, q < 2 ^ m) (h1 : ∀ n ∈ ctx.fri_layout, 1 ≤ n) (hsum : ctx.fri_layout.sum ≤ m)
    (f : Nat → Z) (hf : ∀ (z : Nat) (q v : Nat), ctx.queries[z]? = some q → ctx.polynomial_at_queries[z]? = some v → f q = mont v)
    (h : fold_and_check_fri_layers env.K ctx mem = some ()) :
    ∃ ls : List Layer, ls.length = ctx.fri_layout.length ∧ ctx.fri_layout.length ≤ ctx.eval_points.length ∧
      (∀ (t : Nat) (l : Layer), ls[t]? = some l → ctx.fri_commitments[t]? = some l.root ∧ (∃ vs, ctx.fri_values[t]? = some (l.values.map U256.toNat ++ vs)) ∧
        (∀ u ∈ l.values, u.toNat < MODULUS) ∧ ∀ h ∈ l.hashes, h.length = 32) ∧
      FriOk env (ctx.last_layer_coefficients.map mont) ctx.fri_layout ls ((ctx.eval_points.take ctx.fri_layout.length).map mont) ((3 : Z) ^ ((MODULUS - 1) / 2 ^ m)) m f ctx.queries := by
  have hlayout : ctx.fri_layout ≠ [] := by
    intro e
    unfold fold_and_check_fri_layers at h
    rw [e] at h
    cases h
  obtain ⟨a, generator, hg, ha, hroot, hu⟩ := accept_unfold env.K ctx mem m hm hlog hlayout hb hlen hred f hf
  rw [hu] at h
  obtain ⟨r, hr, hl⟩ := Option.bind_eq_some_iff.1 h
  obtain ⟨ls, k1, k2, k3, k4⟩ := layers_sound env hc ctx mem hmem hvals hdec hlast ctx.fri_layout 0 a _ m f ctx.queries generator r ha hroot hasc hb hm h1 hsum hg hr hl
  refine ⟨ls, k1, by simpa using k3, ?_, by simpa using k4⟩
  intro t l ht
  have := k2 t l ht
  rwa [Nat.zero_add] at this

/-- C76 (completeness; partial: layers fold at most eightfold, and the queries meet at least two cosets of the last layer): if the protocol accepts, then so does the
contract, given gas for the Merkle proofs. -/
theorem C76_complete_partial (env : Env Z) (hc : env.codec = montgomery) (ctx : FriContext) (mem : Nat → Mem) (m : Nat) (hm : m ≤ 40) (hlog : ctx.log_eval_domain_size = m)
    (hgas : ∀ t, 64 * ctx.queries.length ≤ (mem t).gas) (hlast : ∀ c ∈ ctx.last_layer_coefficients, c < MODULUS)
    (hred : ∀ v ∈ ctx.polynomial_at_queries, v < MODULUS) (hlen : ctx.polynomial_at_queries.length = ctx.queries.length)
    (hasc : ctx.queries.Pairwise (· < ·)) (hb : ∀ q ∈ ctx.queries, q < 2 ^ m) (hlayout : ctx.fri_layout ≠ []) (h1 : ∀ n ∈ ctx.fri_layout, 1 ≤ n ∧ n ≤ 3) (hsum : ctx.fri_layout.sum ≤ m)
    (htwo : ∃ q ∈ ctx.queries, ∃ q' ∈ ctx.queries, q / 2 ^ ctx.fri_layout.sum ≠ q' / 2 ^ ctx.fri_layout.sum)
    (f : Nat → Z) (hf : ∀ (z : Nat) (q v : Nat), ctx.queries[z]? = some q → ctx.polynomial_at_queries[z]? = some v → f q = mont v)
    (ls : List Layer) (hls : ∀ (t : Nat) (l : Layer), ls[t]? = some l → ctx.fri_commitments[t]? = some l.root ∧ (∃ vs, ctx.fri_values[t]? = some (l.values.map U256.toNat ++ vs)) ∧
        (∀ u ∈ l.values, u.toNat < MODULUS) ∧ (∀ h ∈ l.hashes, h.length = 32) ∧ ctx.fri_decommitments[t]? = some l.hashes)
    (as : List Z) (has : ∀ (t : Nat) (x : Z), as[t]? = some x → ∃ e, ctx.eval_points[t]? = some e ∧ mont e = x)
    (h : FriOk env (ctx.last_layer_coefficients.map mont) ctx.fri_layout ls as ((3 : Z) ^ ((MODULUS - 1) / 2 ^ m)) m f ctx.queries) :
    fold_and_check_fri_layers env.K ctx mem = some () := by
  obtain ⟨a, generator, hg, ha, hroot, hu⟩ := accept_unfold env.K ctx mem m hm hlog hlayout hb hlen hred f hf
  obtain ⟨r, hr, hl⟩ := layers_complete env hc ctx mem ctx.queries.length hgas hlast ctx.fri_layout 0 a _ m f ctx.queries generator ls as ha hroot hasc hb hm h1 hsum hg (le_refl _) htwo
    (fun t l ht => by
      obtain ⟨a1, a2, a3, a4, -⟩ := hls t l ht
      rw [Nat.zero_add]
      exact ⟨a1, a2, a3, a4⟩) (fun t l ht => by
      rw [Nat.zero_add]
      exact (hls t l ht).2.2.2.2) (fun t x ht => by
      rw [Nat.zero_add]
      exact has t x ht) h
  rw [hu, hr, Option.bind_some, hl]

/-- C76 is violated without the restrictions: the contract rejects every proof without layers or with a layer that folds sixteenfold, both of which the protocol allows;
for words that are not reduced the fold is wrong; and after a layer that folds nothing all further points are taken to be zero. -/
theorem C76_violated :
    (∀ K ctx mem, ctx.fri_layout = [] → fold_and_check_fri_layers K ctx mem = none) ∧
    (∃ (env : Env Z) (last : List Z) (w : Z) (f : Nat → Z), env.codec = montgomery ∧ FriOk env last [] [] [] w 1 f [0]) ∧
    (∀ K ctx mem rest, ctx.fri_layout = 4 :: rest → fold_and_check_fri_layers K ctx mem = none) ∧
    (((fold (2 ^ 256 - 1) 1 0 : Nat) : Z) ≠ ((2 ^ 256 - 1 : Nat) : Z) + 1 + 0 * (((2 ^ 256 - 1 : Nat) : Z) - 1)) ∧
    (∀ v x e, fold_coset [v] x e = some (v, 0)) := by
  refine ⟨?_, ?_, ?_, ?_, fun _ _ _ => rfl⟩
  · intro K ctx mem h
    unfold fold_and_check_fri_layers
    rw [h]
    rfl
  · refine ⟨⟨polyKeccak, montgomery, fun _ => none, 3, fun _ _ => none⟩, [], 1, fun _ => 0, rfl, ?_⟩
    intro q _
    simp
  · intro K ctx mem rest h
    unfold fold_and_check_fri_layers
    have hl : ∀ a s l g, layers K ctx mem (4 :: rest) 0 a s l g = none := by
      intro a s l g
      rw [layers]
      simp only [wshl_one 4 (by norm_num)]
      rw [if_neg (by decide)]
    rw [h, List.getElem?_cons_zero, Option.bind_some]
    simp only [hl, Option.bind_none]
    cases PrimeField.root (wshl 1 ctx.log_eval_domain_size) <;> rfl
  · intro h
    rw [show fold (2 ^ 256 - 1) 1 0 = 0 by decide +kernel, zero_mul, add_zero, Nat.cast_zero] at h
    have h2 : ((2 ^ 256 : Nat) : Z) = 0 := by
      rw [show (2 ^ 256 : Nat) = (2 ^ 256 - 1) + 1 by norm_num, Nat.cast_add, Nat.cast_one]
      exact h.symm
    rw [ZMod.natCast_eq_zero_iff, Nat.dvd_iff_mod_eq_zero] at h2
    revert h2
    decide +kernel

/-! ## a concrete proof: four points, two queries, one layer that folds twofold -/

namespace FriExample

def env : Env Z := ⟨polyKeccak, montgomery, fun _ => none, 3, fun _ _ => none⟩
def leaf : Bytes := maskedKeccak polyKeccak (List.replicate 64 0)
def ctx : FriContext := ⟨[[0, 0, 7]], [nodeHash polyKeccak leaf leaf], [[]], [1], [5], 2, [0, 2], [0, 0], [0]⟩
def mem : Nat → Mem := fun _ => ⟨128, fun _ => List.replicate 32 0, List.replicate 32 0, List.replicate 32 0⟩

theorem leaf_eq : elementsHash env [0, 0] = leaf := by
  have h := elementsHash_words env rfl [0, 0] (by
    intro v hv
    simp only [List.mem_cons, List.not_mem_nil, or_false, or_self] at hv
    rw [hv]
    exact modulus_pos)
  have e0 : mont 0 = 0 := by unfold mont; rw [Nat.cast_zero, zero_mul]
  rw [List.map_cons, List.map_cons, List.map_nil, e0] at h
  rw [h]
  show merkle_leaf_hash polyKeccak [0, 0] = leaf
  decide +kernel

theorem friOk : FriOk env ([0].map mont) [1] [⟨nodeHash polyKeccak leaf leaf, [word 0, word 0], []⟩] [mont 5] ((3 : Z) ^ ((MODULUS - 1) / 2 ^ 2)) 2 (fun _ => 0) [0, 2] := by
  have e0 : mont 0 = 0 := by unfold mont; rw [Nat.cast_zero, zero_mul]
  rw [FriOk]
  refine ⟨fun _ => 0, [0, 1], by decide, ?_, fun _ _ => rfl, ?_, ?_, ?_⟩
  · intro j
    simp only [List.mem_cons, List.not_mem_nil, or_false, exists_eq_or_imp, exists_eq_left]
    norm_num
  · show [mont (word 0).toNat, mont (word 0).toNat] = _
    rw [toNat_word 0 (by norm_num), e0, show (([0, 1] : List Nat).flatMap fun j => (List.range (2 ^ 1)).map (j * 2 ^ 1 + ·)).filter (· ∉ [0, 2]) = [1, 3] by decide +kernel]
    rfl
  · unfold Opened
    show Merkle.verify (nodeHash polyKeccak) _ ([0, 1].zip [elementsHash env [0, 0], elementsHash env [0, 0]]) = _
    rw [leaf_eq]
    decide +kernel
  · rw [FriOk]
    intro q _
    simp only [foldMany, foldOnce, List.map_cons, List.map_nil, e0, List.length_singleton, Finset.sum_range_one, List.getD_cons_zero]
    ring

/-- it meets the hypotheses of `C76_complete_partial`, so the contract accepts it (and ignores the value 7) -/
theorem accepted : fold_and_check_fri_layers env.K ctx mem = some () := by
  have h0 : ∀ v ∈ [0, 0], v < MODULUS := by
    intro v hv
    simp only [List.mem_cons, List.not_mem_nil, or_false, or_self] at hv
    rw [hv]
    exact modulus_pos
  refine C76_complete_partial env rfl ctx mem 2 (by norm_num) rfl (fun _ => show 64 * 2 ≤ 128 by norm_num) (fun c hc => h0 c (by simpa [ctx] using hc)) h0 rfl (by decide) (by decide) (by decide)
    (by decide) (by decide) ⟨0, by decide, 2, by decide, by decide⟩ (fun _ => 0) ?_ [⟨nodeHash polyKeccak leaf leaf, [word 0, word 0], []⟩] ?_ [mont 5] ?_ friOk
  · intro z q v _ hv
    have : v = 0 := by simpa [ctx] using List.mem_of_getElem? hv
    rw [this]
    unfold mont
    rw [Nat.cast_zero, zero_mul]
  · intro t l ht
    have hl := List.mem_of_getElem? ht
    have htl : t = 0 := by
      have := (List.getElem?_eq_some_iff.1 ht).1
      simpa using this
    rw [List.mem_singleton] at hl
    subst hl htl
    refine ⟨rfl, ⟨[7], by decide +kernel⟩, ?_, by simp, rfl⟩
    intro u hu
    simp only [List.mem_cons, List.not_mem_nil, or_false, or_self] at hu
    rw [hu, toNat_word 0 (by norm_num)]
    exact modulus_pos
  · intro t x ht
    have hl := List.mem_of_getElem? ht
    have htl : t = 0 := by
      have := (List.getElem?_eq_some_iff.1 ht).1
      simpa using this
    rw [List.mem_singleton] at hl
    subst hl htl
    exact ⟨5, rfl, rfl⟩

-- and so those of `C76_sound`
example : ∃ ls : List Layer, ls.length = 1 ∧ FriOk env ([0].map mont) [1] ls [mont 5] ((3 : Z) ^ ((MODULUS - 1) / 2 ^ 2)) 2 (fun _ => 0) [0, 2] := by
  obtain ⟨ls, h1, -, -, h4⟩ := C76_sound env rfl ctx mem 2 (by norm_num) rfl (fun _ => ⟨rfl, fun _ => rfl⟩) (by decide +kernel) (by decide) (by decide +kernel) (by decide +kernel) rfl
    (by decide) (by decide) (by decide) (by decide) (fun _ => 0) (by
      intro z q v _ hv
      have : v = 0 := by simpa [ctx] using List.mem_of_getElem? hv
      rw [this]
      unfold mont
      rw [Nat.cast_zero, zero_mul]) accepted
  exact ⟨ls, h1, h4⟩

end FriExample

end Props
end OpenZKP
