import Verif.Evm.FriLemmas

/-!
# FRI in the contracts: all layers
-/

namespace OpenZKP
namespace Evm
namespace Fri
open PrimeField MerkleVerifier Stark Stark.Accept FFT Props Props.EvmField

theorem forM_iff {α : Type} (b : α → Option Unit) (l : List α) : (l.foldlM (init := ()) fun _ i => b i) = some () ↔ ∀ i ∈ l, b i = some () := by
  induction l with
  | nil => simp
  | cons x l ih =>
    rw [List.foldlM_cons]
    constructor
    · intro h
      obtain ⟨u, h1, h2⟩ := Option.bind_eq_some_iff.1 h
      intro i hi
      rcases List.mem_cons.1 hi with rfl | hi
      · exact h1
      · exact ih.1 h2 i hi
    · intro h
      rw [h x (by simp)]
      exact ih.2 fun i hi => h i (List.mem_cons_of_mem _ hi)

theorem bit_reverse2_rev (q m : Nat) (hm : m ≤ 40) (hq : q < 2 ^ m) : Utils.bit_reverse2 q m = rev m q := by
  rw [Utils.bit_reverse2_eq q m (lt_of_lt_of_le hq (Nat.pow_le_pow_right (by norm_num) hm)) hm]
  have := rev_lt_pow m (40 - m) q hq
  rw [show 40 - m + m = 40 by omega] at this
  rw [this, Nat.mul_div_cancel _ (by positivity)]

theorem elementsHash_words (env : Env Z) (hc : env.codec = montgomery) (l : List Nat) (h : ∀ v ∈ l, v < MODULUS) :
    elementsHash env (l.map mont) = merkle_leaf_hash env.K l := by
  have e : ((l.map mont).map montgomery.rep).map U256.toNat = l := by
    rw [List.map_map, List.map_map]
    refine (List.map_congr_left fun v hv => ?_).trans (List.map_id l)
    rw [Function.comp_apply, Function.comp_apply, rep_mont v (h v hv)]
    exact toNat_word v (lt_trans (h v hv) modulus_word)
  unfold elementsHash
  rw [hc, ← Props.C75_leaf_hash]
  exact congrArg (merkle_leaf_hash env.K) e

theorem entry_mem {indices values x_inv : List Nat} (h1 : values.length = indices.length) (h2 : values.length ≤ x_inv.length) (i : Nat) (hi : i < values.length) :
    ∃ e ∈ entries indices values x_inv, indices[i]? = some e.1 ∧ values[i]? = some e.2.1 := by
  refine ⟨(entries indices values x_inv)[i]'(by rw [entries_length _ _ _ h1 h2]; exact hi), List.getElem_mem _, ?_, ?_⟩
  · rw [List.getElem?_eq_getElem (by omega)]
    simp [entries]
  · rw [List.getElem?_eq_getElem (by omega)]
    simp [entries]

/-- the last layer -/
theorem lastLayer_iff (ctx : FriContext) {a : Arrays} {w : Z} {m : Nat} {f : Nat → Z} {Q : List Nat} (ha : Holds a w m f Q) (hm : m ≤ 40) (hQb : ∀ q ∈ Q, q < 2 ^ m)
    (generator : Nat) (hg : (generator : Z) = w) (hlast : ∀ c ∈ ctx.last_layer_coefficients, c < MODULUS) :
    lastLayer ctx a m generator = some () ↔ ∀ q ∈ Q, f q = ∑ i ∈ Finset.range ctx.last_layer_coefficients.length, (ctx.last_layer_coefficients.map mont).getD i 0 * (w ^ rev m q) ^ i := by
  have h1 : a.values.length = a.indices.length := by rw [ha.values, ha.indices]
  have h2 : a.values.length ≤ a.x_inv.length := by rw [ha.values]; exact ha.x_inv
  have hval : ∀ e ∈ entries a.indices a.values a.x_inv,
      (horner_eval ctx.last_layer_coefficients (fpow generator (Utils.bit_reverse2 e.1 m)) = e.2.1 ↔
        f e.1 = ∑ i ∈ Finset.range ctx.last_layer_coefficients.length, (ctx.last_layer_coefficients.map mont).getD i 0 * (w ^ rev m e.1) ^ i) := by
    intro e he
    have hq : e.1 < 2 ^ m := by
      apply hQb
      rw [← ha.indices, ← entries_fst a.indices a.values a.x_inv h1 h2]
      exact List.mem_map_of_mem he
    obtain ⟨g1, g2⟩ := C72_horner_partial ctx.last_layer_coefficients (fpow generator (Utils.bit_reverse2 e.1 m)) (by
      intro c hc
      have := hlast c hc
      have := modulus_lt
      unfold W at this
      omega)
    obtain ⟨k1, k2, -⟩ := ha.at' e he
    have hsum : ∑ i ∈ Finset.range ctx.last_layer_coefficients.length, (ctx.last_layer_coefficients.map mont).getD i 0 * (w ^ rev m e.1) ^ i =
        ((horner_eval ctx.last_layer_coefficients (fpow generator (Utils.bit_reverse2 e.1 m)) : Nat) : Z) * ((2 : Z) ^ 256)⁻¹ := by
      rw [g2, Finset.sum_mul]
      apply Finset.sum_congr rfl
      intro i hi
      have hil := Finset.mem_range.1 hi
      rw [((C72_arithmetic generator (Utils.bit_reverse2 e.1 m)).2.2.1).2, hg, bit_reverse2_rev _ _ hm hq]
      rw [List.getD_eq_getElem?_getD, List.getD_eq_getElem?_getD, List.getElem?_map, List.getElem?_eq_getElem hil]
      simp only [Option.map_some, Option.getD_some]
      unfold mont
      ring
    rw [hsum, ← k2]
    constructor
    · intro h
      rw [h]
      rfl
    · intro h
      exact (mont_inj k1 g1 h).symm
  unfold lastLayer
  rw [forM_iff]
  constructor
  · intro h q hq
    rw [← ha.indices] at hq
    obtain ⟨i, hi, hiq⟩ := List.getElem_of_mem hq
    obtain ⟨e, he, e1, e2⟩ := entry_mem h1 h2 i (by omega)
    have := h i (List.mem_range.2 (by omega))
    rw [e1, e2] at this
    simp only [Option.bind_some] at this
    rw [List.getElem?_eq_getElem hi, Option.some.injEq, hiq] at e1
    rw [e1]
    by_contra hne
    rw [if_neg (fun hh => hne ((hval e he).1 hh))] at this
    cases this
  · intro h i hi
    have hil := List.mem_range.1 hi
    obtain ⟨e, he, e1, e2⟩ := entry_mem h1 h2 i hil
    rw [e1, e2]
    simp only [Option.bind_some]
    rw [if_pos ((hval e he).2 (h _ (by
      rw [← ha.indices]
      exact List.mem_of_getElem? e1)))]

/-- the files of a proof are those of the layers -/
def Files (ctx : FriContext) (i : Nat) (ls : List Layer) : Prop := ∀ t l, ls[t]? = some l →
  ctx.fri_commitments[i + t]? = some l.root ∧ (∃ vs, ctx.fri_values[i + t]? = some (l.values.map U256.toNat ++ vs)) ∧ (∀ u ∈ l.values, u.toNat < MODULUS) ∧ ∀ h ∈ l.hashes, h.length = 32

theorem wshl_one (n : Nat) (hn : n < 256) : wshl 1 n = 2 ^ n := by
  unfold wshl
  rw [if_pos hn, one_mul, Nat.mod_eq_of_lt]
  exact Nat.pow_lt_pow_right (by norm_num) hn

theorem pow_le_eight {n : Nat} (h : 2 ^ n ≤ MAX_COSET_SIZE) : n ≤ 3 := by
  by_contra hn
  have : 2 ^ 4 ≤ 2 ^ n := Nat.pow_le_pow_right (by norm_num) (by omega)
  unfold MAX_COSET_SIZE at h
  omega

theorem range'_cosets (J : List Nat) (n : Nat) : (J.flatMap fun j => List.range' (j * 2 ^ n) (2 ^ n)) = J.flatMap fun j => (List.range (2 ^ n)).map (j * 2 ^ n + ·) := by
  congr 1
  funext j
  exact List.range'_eq_map_range

variable (env : Env Z) (hc : env.codec = montgomery)
include hc

theorem opened_words (size : Nat) (root : Bytes) (hashes : List Bytes) (J : List Nat) (n : Nat) (V : Nat → Nat)
    (hV : ∀ j ∈ J, ∀ q, j * 2 ^ n ≤ q → q < j * 2 ^ n + 2 ^ n → V q < MODULUS) :
    Opened env size root hashes J (J.map fun j => (List.range (2 ^ n)).map fun i => mont (V (j * 2 ^ n + i))) ↔
      Merkle.verify (nodeHash env.K) ⟨⟨size, root⟩, J, hashes⟩ (J.zip (J.map fun j => merkle_leaf_hash env.K ((List.range' (j * 2 ^ n) (2 ^ n)).map V))) = .ok () := by
  unfold Opened
  rw [List.map_map]
  have : J.map (elementsHash env ∘ fun j => (List.range (2 ^ n)).map fun i => mont (V (j * 2 ^ n + i))) =
      J.map fun j => merkle_leaf_hash env.K ((List.range' (j * 2 ^ n) (2 ^ n)).map V) := by
    apply List.map_congr_left
    intro j hj
    rw [Function.comp_apply, ← elementsHash_words env hc, List.map_map, List.range'_eq_map_range, List.map_map]
    · rfl
    · intro v hv
      obtain ⟨q, hq, rfl⟩ := List.mem_map.1 hv
      have := List.mem_range'_1.1 hq
      exact hV j hj q this.1 this.2
  rw [this]

theorem layers_sound (ctx : FriContext) (mem : Nat → Mem) (hmem : ∀ t, (mem t).s0.length = 32 ∧ ∀ x, ((mem t).beyond x).length = 32)
    (hvals : ∀ vs ∈ ctx.fri_values, ∀ v ∈ vs, v < MODULUS) (hdec : ∀ d ∈ ctx.fri_decommitments, ∀ x ∈ d, x.length = 32) (hlast : ∀ c ∈ ctx.last_layer_coefficients, c < MODULUS) :
    ∀ (layout : List Nat) (i : Nat) (a : Arrays) (w : Z) (m : Nat) (f : Nat → Z) (Q : List Nat) (generator : Nat) (r : Arrays × Nat × Nat),
    Holds a w m f Q → RootAt w m → Q.Pairwise (· < ·) → (∀ q ∈ Q, q < 2 ^ m) → m ≤ 40 → (∀ n ∈ layout, 1 ≤ n) → layout.sum ≤ m → (generator : Z) = w →
    layers env.K ctx mem layout i a (2 ^ m) m generator = some r → lastLayer ctx r.1 r.2.1 r.2.2 = some () →
    ∃ ls : List Layer, ls.length = layout.length ∧ Files ctx i ls ∧ i + layout.length ≤ i + (ctx.eval_points.drop i).length ∧
      FriOk env (ctx.last_layer_coefficients.map mont) layout ls (((ctx.eval_points.drop i).take layout.length).map mont) w m f Q := by
  intro layout
  induction layout with
  | nil =>
    intro i a w m f Q generator r ha hroot hQ hQb hm h1 hsum hg h hl
    obtain rfl := Option.some.inj h
    refine ⟨[], rfl, fun t l hl => by simp at hl, by simp, ?_⟩
    simp only [List.length_nil, List.take_zero, List.map_nil, FriOk, List.length_map]
    exact (lastLayer_iff ctx ha hm hQb generator hg hlast).1 hl
  | cons n layout ih =>
    intro i a w m f Q generator r ha hroot hQ hQb hm h1 hsum hg h hl
    rw [List.sum_cons] at hsum
    have hn1 := h1 n (by simp)
    rw [layers] at h
    simp only [wshl_one n (by omega)] at h
    split at h
    next hcs =>
      have hn3 := pow_le_eight hcs
      obtain ⟨completion, hcomp, h⟩ := Option.bind_eq_some_iff.1 h
      obtain ⟨ep, hep, h⟩ := Option.bind_eq_some_iff.1 h
      obtain ⟨a', ha', h⟩ := Option.bind_eq_some_iff.1 h
      obtain ⟨V, J, rest, b1, b2, b3, b4, b5, b6, b7, b8⟩ := layer_sound env.K ha hroot hQ n hn1 hn3 (by omega) completion (hvals _ (List.mem_of_getElem? hcomp)) ep a' ha'
      obtain ⟨av, ai, ax, ah⟩ := a'
      obtain rfl : ai = J := b6
      dsimp only at b7
      rw [b7, Option.bind_some] at h
      obtain ⟨root, hrt, h⟩ := Option.bind_eq_some_iff.1 h
      obtain ⟨decommitment, hdc, h⟩ := Option.bind_eq_some_iff.1 h
      split at h
      next hver =>
        rw [Nat.pow_div (by omega) (by norm_num)] at hver h
        have hJb : ∀ j ∈ ai, j < 2 ^ (m - n) := by
          intro j hj
          obtain ⟨q, hq, rfl⟩ := (b2 j).1 hj
          rw [Nat.div_lt_iff_lt_mul (by positivity), ← pow_add, show m - n + n = m by omega]
          exact hQb q hq
        rw [show ai.map (fun j => j + 2 ^ (m - n)) = ai.map fun j => 2 ^ (m - n) + j from List.map_congr_left fun j _ => Nat.add_comm _ _] at hver
        obtain ⟨-, hashes, g1, -, g2⟩ := Props.C75_sound env.K _ _ _ _ root _ ai decommitment (m - n) (by omega) b1 hJb (hmem i).1 (hmem i).2 (hdec _ (List.mem_of_getElem? hdc))
          (by
            intro x hx
            obtain ⟨j, hj, rfl⟩ := List.mem_map.1 hx
            rw [← elementsHash_words env hc]
            · exact leafHash_length _ _
            · intro v hv
              obtain ⟨q, hq, rfl⟩ := List.mem_map.1 hv
              have := List.mem_range'_1.1 hq
              exact b5 j hj q this.1 this.2) hver
        rw [wsub_le _ _ (by unfold W; omega) (by omega)] at h
        obtain ⟨ls, k1, k2, k3, k4⟩ := ih (i + 1) _ (w ^ 2 ^ n) (m - n) _ ai (fpow generator (2 ^ n)) r b8 (hroot.next n (by omega)) b1 hJb (by omega)
          (fun k hk => h1 k (List.mem_cons_of_mem _ hk)) (by omega) (by rw [((C72_arithmetic generator (2 ^ n)).2.2.1).2, hg]) h hl
        have hdrop : ctx.eval_points.drop i = ep :: ctx.eval_points.drop (i + 1) := by
          obtain ⟨hi, he⟩ := List.getElem?_eq_some_iff.1 hep
          rw [List.drop_eq_getElem_cons hi, he]
        have hval : ∀ v ∈ ((ai.flatMap fun j => List.range' (j * 2 ^ n) (2 ^ n)).filter (· ∉ Q)).map V, v < MODULUS := by
          intro v hv
          exact hvals _ (List.mem_of_getElem? hcomp) v (by rw [b4]; exact List.mem_append_left _ hv)
        refine ⟨⟨root, (((ai.flatMap fun j => List.range' (j * 2 ^ n) (2 ^ n)).filter (· ∉ Q)).map V).map word, hashes⟩ :: ls, by simp [k1], ?_, ?_, ?_⟩
        · intro t l ht
          cases t with
          | zero =>
            simp only [List.getElem?_cons_zero, Option.some.injEq] at ht
            subst ht
            refine ⟨hrt, ⟨rest, ?_⟩, ?_, g1⟩
            · rw [Nat.add_zero, hcomp, b4]
              congr 2
              rw [List.map_map]
              conv_lhs => rw [← List.map_id (List.map V _)]
              apply List.map_congr_left
              intro v hv
              exact (toNat_word v (lt_trans (hval v hv) modulus_word)).symm
            · intro u hu
              obtain ⟨v, hv, rfl⟩ := List.mem_map.1 hu
              rw [toNat_word v (lt_trans (hval v hv) modulus_word)]
              exact hval v hv
          | succ t =>
            rw [List.getElem?_cons_succ] at ht
            have := k2 t l ht
            rwa [show i + 1 + t = i + (t + 1) by omega] at this
        · rw [hdrop]
          simp only [List.length_cons]
          omega
        · rw [hdrop, List.length_cons, List.take_succ_cons, List.map_cons, FriOk]
          refine ⟨fun q => mont (V q), ai, b1, b2, b3, ?_, ?_, k4⟩
          · dsimp only
            rw [hc, List.map_map, ← range'_cosets, List.map_map]
            apply List.map_congr_left
            intro q hq
            exact val_word _ (hval _ (List.mem_map_of_mem hq))
          · exact (opened_words env hc _ _ _ ai n V b5).2 g2
      next => cases h
    next => cases h

theorem layers_complete (ctx : FriContext) (mem : Nat → Mem) (N : Nat) (hmem : ∀ t, 64 * N ≤ (mem t).gas) (hlast : ∀ c ∈ ctx.last_layer_coefficients, c < MODULUS) :
    ∀ (layout : List Nat) (i : Nat) (a : Arrays) (w : Z) (m : Nat) (f : Nat → Z) (Q : List Nat) (generator : Nat) (ls : List Layer) (as : List Z),
    Holds a w m f Q → RootAt w m → Q.Pairwise (· < ·) → (∀ q ∈ Q, q < 2 ^ m) → m ≤ 40 → (∀ n ∈ layout, 1 ≤ n ∧ n ≤ 3) → layout.sum ≤ m → (generator : Z) = w → Q.length ≤ N →
    (∃ q ∈ Q, ∃ q' ∈ Q, q / 2 ^ layout.sum ≠ q' / 2 ^ layout.sum) → Files ctx i ls → (∀ t l, ls[t]? = some l → ctx.fri_decommitments[i + t]? = some l.hashes) →
    (∀ t x, as[t]? = some x → ∃ e, ctx.eval_points[i + t]? = some e ∧ mont e = x) →
    FriOk env (ctx.last_layer_coefficients.map mont) layout ls as w m f Q →
    ∃ r, layers env.K ctx mem layout i a (2 ^ m) m generator = some r ∧ lastLayer ctx r.1 r.2.1 r.2.2 = some () := by
  intro layout
  induction layout with
  | nil =>
    intro i a w m f Q generator ls as ha hroot hQ hQb hm h1 hsum hg hN htwo hfiles hdec hep hfri
    cases ls with
    | cons => cases as <;> exact hfri.elim
    | nil =>
      cases as with
      | cons => exact hfri.elim
      | nil =>
        refine ⟨_, rfl, ?_⟩
        simp only [FriOk, List.length_map] at hfri
        exact (lastLayer_iff ctx ha hm hQb generator hg hlast).2 hfri
  | cons n layout ih =>
    intro i a w m f Q generator ls as ha hroot hQ hQb hm h1 hsum hg hN htwo hfiles hdec hep hfri
    cases ls with
    | nil => cases as <;> exact hfri.elim
    | cons l ls =>
      cases as with
      | nil => exact hfri.elim
      | cons x as =>
        rw [FriOk] at hfri
        obtain ⟨V, J, b1, b2, b3, b4, b5, b6⟩ := hfri
        rw [List.sum_cons] at hsum htwo
        obtain ⟨hn1, hn3⟩ := h1 n (by simp)
        obtain ⟨f1, ⟨rest, f2⟩, f3, f4⟩ := hfiles 0 l rfl
        have f5 := hdec 0 l rfl
        obtain ⟨ep, f6, f7⟩ := hep 0 x rfl
        rw [Nat.add_zero] at f1 f2 f5 f6
        have hfst := entries_fst a.indices a.values a.x_inv (by rw [ha.values, ha.indices]) (by rw [ha.values]; exact ha.x_inv)
        have hJb : ∀ j ∈ J, j < 2 ^ (m - n) := by
          intro j hj
          obtain ⟨q, hq, rfl⟩ := (b2 j).1 hj
          rw [Nat.div_lt_iff_lt_mul (by positivity), ← pow_add, show m - n + n = m by omega]
          exact hQb q hq
        have hmiss : l.values.map U256.toNat = (missing (2 ^ n) J (entries a.indices a.values a.x_inv)).map fun q => repNat (V q) := by
          unfold missing
          rw [hfst, ha.indices, range'_cosets]
          have := congrArg (List.map repNat) b4
          rw [List.map_map, List.map_map] at this
          rw [show (fun q => repNat (V q)) = repNat ∘ V from rfl, ← this]
          apply List.map_congr_left
          intro u hu
          rw [Function.comp_apply, hc]
          exact (repNat_mont _ (f3 u hu)).symm
        obtain ⟨a', d1, d2, d3, d4⟩ := layer_run env.K ha hroot hQ n hn1 hn3 (by omega) (fun q => repNat (V q)) J b1 b2 (fun _ _ q _ _ => repNat_lt _) (by
          intro e he
          obtain ⟨k1, k2, -⟩ := ha.at' e he
          have hq : e.1 ∈ Q := by
            rw [← ha.indices, ← hfst]
            exact List.mem_map_of_mem he
          rw [b3 _ hq, ← k2, repNat_mont _ k1]) rest ep
        simp only [mont_repNat] at d4
        rw [f7] at d4
        have hJlen : J.length ≤ Q.length := by
          have : J ⊆ Q.map (· / 2 ^ n) := by
            intro j hj
            obtain ⟨q, hq, rfl⟩ := (b2 j).1 hj
            exact List.mem_map.2 ⟨q, hq, rfl⟩
          have hnd : J.Nodup := b1.imp (fun h => Nat.ne_of_lt h)
          have := (hnd.subperm this).length_le
          rwa [List.length_map] at this
        obtain ⟨q, hq, q', hq', hqq⟩ := htwo
        have hdd : ∀ q, q / 2 ^ n / 2 ^ layout.sum = q / 2 ^ (n + layout.sum) := fun q => by rw [Nat.div_div_eq_div_mul, ← pow_add]
        have htwoJ : 2 ≤ J.length := by
          by_contra hlt
          have m1 := (b2 (q / 2 ^ n)).2 ⟨q, hq, rfl⟩
          have m2 := (b2 (q' / 2 ^ n)).2 ⟨q', hq', rfl⟩
          match J, hlt with
          | [], _ => simp at m1
          | [j], _ =>
            rw [List.mem_singleton] at m1 m2
            apply hqq
            rw [← hdd, ← hdd, m1, m2]
          | _ :: _ :: _, hlt => simp at hlt
        have hver := Props.C75_complete_partial env.K (mem i).gas (mem i).beyond (mem i).s0 (mem i).s1 l.root
          (J.map fun j => merkle_leaf_hash env.K ((List.range' (j * 2 ^ n) (2 ^ n)).map fun q => repNat (V q))) J l.hashes (m - n) (by omega) (by simp) htwoJ b1 hJb
          (by have := hmem i; omega) (by
            refine (opened_words env hc _ _ _ J n (fun q => repNat (V q)) (fun _ _ q _ _ => repNat_lt _)).1 ?_
            simp only [mont_repNat]
            exact b5)
        obtain ⟨r, e1, e2⟩ := ih (i + 1) _ (w ^ 2 ^ n) (m - n) _ J (fpow generator (2 ^ n)) ls as d4 (hroot.next n (by omega)) b1 hJb (by omega)
          (fun k hk => h1 k (List.mem_cons_of_mem _ hk)) (by omega) (by rw [((C72_arithmetic generator (2 ^ n)).2.2.1).2, hg]) (by omega)
          ⟨_, (b2 _).2 ⟨q, hq, rfl⟩, _, (b2 _).2 ⟨q', hq', rfl⟩, by rw [hdd, hdd]; exact hqq⟩
          (fun t l' h => by
            have := hfiles (t + 1) l' h
            rwa [show i + (t + 1) = i + 1 + t by omega] at this)
          (fun t l' h => by
            have := hdec (t + 1) l' h
            rwa [show i + (t + 1) = i + 1 + t by omega] at this)
          (fun t y h => by
            have := hep (t + 1) y h
            rwa [show i + (t + 1) = i + 1 + t by omega] at this) b6
        refine ⟨r, ?_, e2⟩
        rw [layers]
        simp only [wshl_one n (by omega)]
        have h8 : 2 ^ n ≤ MAX_COSET_SIZE := by
          unfold MAX_COSET_SIZE
          exact Nat.pow_le_pow_right (by norm_num) hn3
        rw [if_pos h8, f2, Option.bind_some, f6, Option.bind_some, hmiss, d1, Option.bind_some, d2, d3, Option.bind_some, f1, Option.bind_some, f5, Option.bind_some,
          Nat.pow_div (by omega) (by norm_num), show J.map (fun j => j + 2 ^ (m - n)) = J.map fun j => 2 ^ (m - n) + j from List.map_congr_left fun j _ => Nat.add_comm _ _,
          if_pos hver, wsub_le _ _ (by unfold W; omega) (by omega)]
        rw [← d2]
        rw [← d2] at e1
        exact e1

end Fri
end Evm
end OpenZKP
