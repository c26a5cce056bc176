import Verif.Evm.FriLayer
import Verif.Evm.FriFold
import Verif.Evm.Montgomery
import Verif.Stark.Openings

/-!
# FRI in the contracts: the layers
-/

namespace OpenZKP
namespace Evm
namespace Fri
open PrimeField MerkleVerifier Stark Stark.Accept FFT

theorem foldMany_smul (c : Z) (n : Nat) : ∀ (w : Z) (m : Nat) (a : Z) (V : Nat → Z) (j : Nat), foldMany n w m a (fun q => V q * c) j = foldMany n w m a V j * c := by
  induction n with
  | zero => intros; rfl
  | succ n ih =>
    intro w m a V j
    rw [foldMany, foldMany, ← ih]
    congr 1
    funext q
    unfold foldOnce
    ring

theorem entries_map (J : List Nat) (g1 g2 : Nat → Nat) (r : List Nat) : entries J (J.map g1) (J.map g2 ++ r) = J.map fun j => (j, g1 j, g2 j) := by
  unfold entries
  induction J with
  | nil => rfl
  | cons j J ih => simp [ih]

theorem entries_fst (indices values x_inv : List Nat) (h1 : values.length = indices.length) (h2 : values.length ≤ x_inv.length) :
    (entries indices values x_inv).map Prod.fst = indices := by
  unfold entries
  rw [List.map_fst_zip]
  rw [List.length_zip]
  omega

/-- what the arrays hold before a layer with the points `w^(rev m i)` -/
structure Holds (a : Arrays) (w : Z) (m : Nat) (f : Nat → Z) (Q : List Nat) : Prop where
  indices : a.indices = Q
  values : a.values.length = Q.length
  x_inv : Q.length ≤ a.x_inv.length
  hashes : Q.length ≤ a.hashes.length
  at' : ∀ e ∈ entries a.indices a.values a.x_inv, e.2.1 < MODULUS ∧ mont e.2.1 = f e.1 ∧ (e.2.2 : Z) = (w ^ rev m e.1)⁻¹

/-- `w` is the root of order `2^m` -/
def RootAt (w : Z) (m : Nat) : Prop := ∀ n, n ≤ 3 → n ≤ m → w ^ 2 ^ (m - n) = zeta n

theorem RootAt.next {w : Z} {m : Nat} (h : RootAt w m) (n : Nat) (hn : n ≤ m) : RootAt (w ^ 2 ^ n) (m - n) := by
  intro k hk hkm
  rw [← h k hk (by omega), ← pow_mul, ← pow_add, show n + (m - n - k) = m - k by omega]

theorem rootAt_three (m : Nat) (hm : 2 ^ m ∣ MODULUS - 1) : RootAt ((3 : Z) ^ ((MODULUS - 1) / 2 ^ m)) m := by
  intro n hn hnm
  obtain ⟨c, hc⟩ := hm
  have h8 : 2 ^ 3 ∣ MODULUS - 1 := by decide +kernel
  obtain ⟨d, hd⟩ := h8
  unfold zeta
  rw [oroot1_eq, ← pow_mul, ← pow_mul]
  congr 1
  have e1 : (MODULUS - 1) / 2 ^ m = c := by rw [hc, Nat.mul_div_cancel_left _ (by positivity)]
  have e2 : (MODULUS - 1) / 2 ^ 3 = d := by rw [hd, Nat.mul_div_cancel_left _ (by positivity)]
  rw [e1, e2]
  apply Nat.eq_of_mul_eq_mul_left (show 0 < 2 ^ n by positivity)
  calc 2 ^ n * (c * 2 ^ (m - n)) = 2 ^ (n + (m - n)) * c := by rw [pow_add]; ring
    _ = 2 ^ m * c := by rw [show n + (m - n) = m by omega]
    _ = 2 ^ 3 * d := by rw [← hc, hd]
    _ = 2 ^ (n + (3 - n)) * d := by rw [show n + (3 - n) = 3 by omega]
    _ = 2 ^ n * (d * 2 ^ (3 - n)) := by rw [pow_add]; ring

theorem RootAt.pow_eq_one {w : Z} {m : Nat} (h : RootAt w m) : w ^ 2 ^ m = 1 := by
  have := h 0 (by norm_num) (Nat.zero_le _)
  rw [Nat.sub_zero] at this
  rw [this]
  unfold zeta
  exact oroot8

theorem RootAt.ne_zero {w : Z} {m : Nat} (h : RootAt w m) : w ≠ 0 := by
  rintro rfl
  have := h.pow_eq_one
  rw [zero_pow (by positivity)] at this
  exact zero_ne_one this

theorem from_montgomery_cast (v : Nat) : ((from_montgomery v : Nat) : Z) = mont v := by
  unfold from_montgomery mont
  rw [mulmod_cast, montgomery_r_inv]

variable (K : Keccak)

/-- a layer whose values are those of `V` -/
theorem layer_run {a : Arrays} {w : Z} {m : Nat} {f : Nat → Z} {Q : List Nat} (ha : Holds a w m f Q) (hroot : RootAt w m) (hQ : Q.Pairwise (· < ·)) (n : Nat) (hn1 : 1 ≤ n)
    (hn3 : n ≤ 3) (hnm : n ≤ m) (V : Nat → Nat) (J : List Nat) (hJp : J.Pairwise (· < ·)) (hJ : ∀ j, j ∈ J ↔ ∃ q ∈ Q, j = q / 2 ^ n)
    (hV : ∀ j ∈ J, ∀ q, j * 2 ^ n ≤ q → q < j * 2 ^ n + 2 ^ n → V q < MODULUS) (hVe : ∀ e ∈ entries a.indices a.values a.x_inv, e.2.1 = V e.1) (rest : List Nat) (ep : Nat) :
    ∃ a', fold_layer K a ((missing (2 ^ n) J (entries a.indices a.values a.x_inv)).map V ++ rest) (from_montgomery ep) (2 ^ n) = some a' ∧ a'.indices = J ∧
      Utils.truncate a'.hashes J.length = some (J.map fun j => merkle_leaf_hash K ((List.range' (j * 2 ^ n) (2 ^ n)).map V)) ∧
      Holds { a' with hashes := J.map fun j => merkle_leaf_hash K ((List.range' (j * 2 ^ n) (2 ^ n)).map V) } (w ^ 2 ^ n) (m - n)
        (foldMany n w m (mont ep) fun q => mont (V q)) J := by
  have hs : 0 < 2 ^ n := by positivity
  have hfst := entries_fst a.indices a.values a.x_inv (by rw [ha.values, ha.indices]) (by rw [ha.values]; exact ha.x_inv)
  have hlen := entries_length a.indices a.values a.x_inv (by rw [ha.values, ha.indices]) (by rw [ha.values]; exact ha.x_inv)
  -- the fold of each coset
  have hfold : ∀ j, j ∈ J → ∀ x : Nat, (x : Z) = (w ^ rev (m - n) j)⁻¹ → ∃ g : Nat × Nat,
      fold_coset ((List.range' (j * 2 ^ n) (2 ^ n)).map V) x (from_montgomery ep) = some g ∧ g.1 < MODULUS ∧ g.2 < MODULUS ∧
      mont g.1 = foldMany n w m (mont ep) (fun q => mont (V q)) j ∧ (g.2 : Z) = ((w ^ 2 ^ n) ^ rev (m - n) j)⁻¹ := by
    intro j hj x hx
    obtain ⟨v, y, h1, h2, h3, h4, h5⟩ := fold_coset_eq n m j hn1 hn3 hnm w (hroot n hn3 hnm) V (hV j hj) x (from_montgomery ep) hx
    refine ⟨(v, y), h1, h2, h3, ?_, ?_⟩
    · unfold mont at *
      rw [show ((v, y) : Nat × Nat).1 = v from rfl, h4, foldMany_smul, from_montgomery_cast]
      rfl
    · rw [show ((v, y) : Nat × Nat).2 = y from rfl, h5, hx, inv_pow, ← pow_mul, ← pow_mul, Nat.mul_comm]
  -- the inverse of the point of each coset
  have hx : ∀ e ∈ entries a.indices a.values a.x_inv, ∃ r, roots[e.1 % 2 ^ n]? = some r ∧ ((fmul e.2.2 r : Nat) : Z) = (w ^ rev (m - n) (e.1 / 2 ^ n))⁻¹ := by
    intro e he
    obtain ⟨r, h1, h2⟩ := roots_get n (e.1 % 2 ^ n) hn3 (Nat.mod_lt _ hs)
    refine ⟨r, h1, ?_⟩
    have hp := point_eq w _ m n (e.1 / 2 ^ n) (e.1 % 2 ^ n) hnm (hroot n hn3 hnm) (Nat.mod_lt _ hs)
    rw [Nat.mul_comm, Nat.div_add_mod] at hp
    have hw0 := hroot.ne_zero
    have hz : zeta n ^ rev n (e.1 % 2 ^ n) ≠ 0 := by
      rw [← hroot n hn3 hnm]
      exact pow_ne_zero _ (pow_ne_zero _ hw0)
    unfold fmul
    rw [mulmod_cast, h2, (ha.at' e he).2.2, hp, mul_inv, mul_comm, ← mul_assoc, mul_inv_cancel₀ hz, one_mul]
  have hmemJ : ∀ e ∈ entries a.indices a.values a.x_inv, e.1 / 2 ^ n ∈ J := by
    intro e he
    refine (hJ _).2 ⟨e.1, ?_, rfl⟩
    rw [← ha.indices, ← hfst]
    exact List.mem_map_of_mem he
  have hJe : ∀ j, j ∈ J ↔ ∃ e ∈ entries a.indices a.values a.x_inv, j = e.1 / 2 ^ n := by
    intro j
    rw [hJ]
    constructor
    · rintro ⟨q, hq, h⟩
      rw [← ha.indices, ← hfst] at hq
      obtain ⟨e, he, rfl⟩ := List.mem_map.1 hq
      exact ⟨e, he, h⟩
    · rintro ⟨e, he, h⟩
      refine ⟨e.1, ?_, h⟩
      rw [← ha.indices, ← hfst]
      exact List.mem_map_of_mem he
  -- the fold does not depend on the words for the inverses
  have hG : ∃ G : Nat → Nat × Nat, ∀ j ∈ J, ∀ x : Nat, x < MODULUS → (x : Z) = (w ^ rev (m - n) j)⁻¹ →
      fold_coset ((List.range' (j * 2 ^ n) (2 ^ n)).map V) x (from_montgomery ep) = some (G j) ∧ (G j).1 < MODULUS ∧ (G j).2 < MODULUS ∧
      mont (G j).1 = foldMany n w m (mont ep) (fun q => mont (V q)) j ∧ ((G j).2 : Z) = ((w ^ 2 ^ n) ^ rev (m - n) j)⁻¹ := by
    have hx' : ∀ j, ∃ x : Nat, x < MODULUS ∧ (x : Z) = (w ^ rev (m - n) j)⁻¹ := fun j => ⟨((w ^ rev (m - n) j)⁻¹).val, ZMod.val_lt _, ZMod.natCast_zmod_val _⟩
    have hg : ∀ j, ∃ g : Nat × Nat, j ∈ J → ∀ x : Nat, x < MODULUS → (x : Z) = (w ^ rev (m - n) j)⁻¹ →
        fold_coset ((List.range' (j * 2 ^ n) (2 ^ n)).map V) x (from_montgomery ep) = some g ∧ g.1 < MODULUS ∧ g.2 < MODULUS ∧
        mont g.1 = foldMany n w m (mont ep) (fun q => mont (V q)) j ∧ (g.2 : Z) = ((w ^ 2 ^ n) ^ rev (m - n) j)⁻¹ := by
      intro j
      by_cases hj : j ∈ J
      · obtain ⟨x, hx1, hx2⟩ := hx' j
        obtain ⟨g, hg⟩ := hfold j hj x hx2
        refine ⟨g, fun _ y hy1 hy2 => ?_⟩
        rw [show y = x from cast_inj hy1 hx1 (by rw [hy2, hx2])]
        exact hg
      · exact ⟨(0, 0), fun h => absurd h hj⟩
    exact ⟨fun j => (hg j).choose, fun j hj => (hg j).choose_spec hj⟩
  obtain ⟨G, hG⟩ := hG
  have hGJ : ∀ j ∈ J, (G j).1 < MODULUS ∧ (G j).2 < MODULUS ∧ mont (G j).1 = foldMany n w m (mont ep) (fun q => mont (V q)) j ∧ ((G j).2 : Z) = ((w ^ 2 ^ n) ^ rev (m - n) j)⁻¹ := by
    intro j hj
    have := hG j hj ((w ^ rev (m - n) j)⁻¹).val (ZMod.val_lt _) (ZMod.natCast_zmod_val _)
    exact this.2
  have hrun := layerL_complete (2 ^ n) (from_montgomery ep) hs V G rest (a.values.length + 1) (entries a.indices a.values a.x_inv) J (by omega) (by rw [hfst, ha.indices]; exact hQ) hJp hJe hVe
    (by
      intro e he
      obtain ⟨r, h1, h2⟩ := hx e he
      exact ⟨r, h1, (hG _ (hmemJ e he) _ (mulmod_lt _ _) h2).1⟩)
  have hJlen : J.length ≤ Q.length := by
    have : J ⊆ Q.map (· / 2 ^ n) := by
      intro j hj
      obtain ⟨q, hq, rfl⟩ := (hJ j).1 hj
      exact List.mem_map.2 ⟨q, hq, rfl⟩
    have hnd : J.Nodup := hJp.imp (fun h => Nat.ne_of_lt h)
    have := (hnd.subperm this).length_le
    rwa [List.length_map] at this
  rw [fold_layer_eq K a _ _ _ hs (by rw [ha.values, ha.indices]) (by rw [ha.values]; exact ha.x_inv) (by rw [ha.values]; exact ha.hashes), hrun]
  have hid : J.map ((fun g : Nat × List Nat × Nat × Nat => g.1) ∘ fun j => (j, (List.range' (j * 2 ^ n) (2 ^ n)).map V, G j)) = J := List.map_id J
  refine ⟨_, rfl, ?_, ?_, ?_⟩
  · simp only [List.map_map]
    exact hid
  · simp only [overwrite, List.map_map, List.take_zero, List.nil_append, Nat.zero_add, List.length_map]
    unfold Utils.truncate
    rw [if_pos (by simp), List.take_left' (by simp)]
    rfl
  · constructor
    · simp only [List.map_map]
      exact hid
    · simp
    · simp only [overwrite, List.map_map, List.take_zero, List.nil_append, List.length_append, List.length_map]
      omega
    · simp
    · dsimp only
      simp only [overwrite, List.map_map, List.take_zero, List.nil_append]
      rw [hid]
      intro e he
      obtain ⟨j, hj, rfl⟩ := List.mem_map.1 (((congrArg (e ∈ ·) (entries_map J (fun j => (G j).1) (fun j => (G j).2) _)).mp he : _))
      exact ⟨(hGJ j hj).1, (hGJ j hj).2.2.1, (hGJ j hj).2.2.2⟩

/-- words for the cosets -/
theorem groups_fun (size : Nat) (hs : 0 < size) (gs : List (Nat × List Nat × Nat × Nat)) (hp : (gs.map Prod.fst).Pairwise (· < ·)) (hl : ∀ g ∈ gs, g.2.1.length = size) :
    ∃ V : Nat → Nat, ∀ g ∈ gs, g.2.1 = (List.range' (g.1 * size) size).map V := by
  refine ⟨fun q => ((gs.find? (·.1 = q / size)).map fun g => g.2.1.getD (q % size) 0).getD 0, ?_⟩
  intro g hg
  have hfind : gs.find? (·.1 = g.1) = some g := by
    have hnd : (gs.map Prod.fst).Nodup := hp.imp (fun h => Nat.ne_of_lt h)
    cases h : gs.find? (·.1 = g.1) with
    | none =>
      rw [List.find?_eq_none] at h
      exact absurd (h g hg) (by simp)
    | some g' =>
      have h1 := List.find?_some h
      have h2 := List.mem_of_find?_eq_some h
      simp only [decide_eq_true_eq] at h1
      rw [List.inj_on_of_nodup_map hnd h2 hg h1]
  apply List.ext_getElem
  · simp [hl g hg]
  · intro i h1 h2
    rw [hl g hg] at h1
    rw [List.getElem_map, List.getElem_range']
    have hd : (g.1 * size + 1 * i) / size = g.1 := div_of_range (by omega) (by omega)
    have hm : (g.1 * size + 1 * i) % size = i := by
      rw [one_mul, Nat.mul_comm, Nat.mul_add_mod, Nat.mod_eq_of_lt h1]
    rw [hd, hm, hfind]
    simp [List.getD_eq_getElem?_getD, hl g hg, h1]

/-- what is known after a layer has been folded -/
theorem layer_sound {a : Arrays} {w : Z} {m : Nat} {f : Nat → Z} {Q : List Nat} (ha : Holds a w m f Q) (hroot : RootAt w m) (hQ : Q.Pairwise (· < ·)) (n : Nat) (hn1 : 1 ≤ n)
    (hn3 : n ≤ 3) (hnm : n ≤ m) (completion : List Nat) (hcomp : ∀ v ∈ completion, v < MODULUS) (ep : Nat) (a' : Arrays)
    (h : fold_layer K a completion (from_montgomery ep) (2 ^ n) = some a') :
    ∃ (V : Nat → Nat) (J : List Nat) (rest : List Nat), J.Pairwise (· < ·) ∧ (∀ j, j ∈ J ↔ ∃ q ∈ Q, j = q / 2 ^ n) ∧ (∀ q ∈ Q, mont (V q) = f q) ∧
      completion = (((J.flatMap fun j => List.range' (j * 2 ^ n) (2 ^ n)).filter (· ∉ Q)).map V) ++ rest ∧
      (∀ j ∈ J, ∀ q, j * 2 ^ n ≤ q → q < j * 2 ^ n + 2 ^ n → V q < MODULUS) ∧ a'.indices = J ∧
      Utils.truncate a'.hashes J.length = some (J.map fun j => merkle_leaf_hash K ((List.range' (j * 2 ^ n) (2 ^ n)).map V)) ∧
      Holds { a' with hashes := J.map fun j => merkle_leaf_hash K ((List.range' (j * 2 ^ n) (2 ^ n)).map V) } (w ^ 2 ^ n) (m - n)
        (foldMany n w m (mont ep) fun q => mont (V q)) J := by
  have hs : 0 < 2 ^ n := by positivity
  have hfst := entries_fst a.indices a.values a.x_inv (by rw [ha.values, ha.indices]) (by rw [ha.values]; exact ha.x_inv)
  have h0 := h
  rw [fold_layer_eq K a _ _ _ hs (by rw [ha.values, ha.indices]) (by rw [ha.values]; exact ha.x_inv) (by rw [ha.values]; exact ha.hashes), Option.map_eq_some_iff] at h
  obtain ⟨gs, hgs, -⟩ := h
  obtain ⟨used, rest, b1, b2, b3, b4, b5⟩ := layerL_sound (2 ^ n) (from_montgomery ep) hs _ _ _ _ hgs (by rw [hfst, ha.indices]; exact hQ)
  obtain ⟨V, hV⟩ := groups_fun (2 ^ n) hs gs b2 (fun g hg => (b4 g hg).1)
  obtain ⟨c1, c2⟩ := b5 V hV
  have hJ : ∀ j, j ∈ gs.map Prod.fst ↔ ∃ q ∈ Q, j = q / 2 ^ n := by
    intro j
    rw [b3]
    constructor
    · rintro ⟨e, he, h⟩
      refine ⟨e.1, ?_, h⟩
      rw [← ha.indices, ← hfst]
      exact List.mem_map_of_mem he
    · rintro ⟨q, hq, h⟩
      rw [← ha.indices, ← hfst] at hq
      obtain ⟨e, he, rfl⟩ := List.mem_map.1 hq
      exact ⟨e, he, h⟩
  have hmiss : missing (2 ^ n) (gs.map Prod.fst) (entries a.indices a.values a.x_inv) =
      ((gs.map Prod.fst).flatMap fun j => List.range' (j * 2 ^ n) (2 ^ n)).filter (· ∉ Q) := by
    unfold missing
    rw [hfst, ha.indices]
  have hlt : ∀ j ∈ gs.map Prod.fst, ∀ q, j * 2 ^ n ≤ q → q < j * 2 ^ n + 2 ^ n → V q < MODULUS := by
    intro j hj q hq1 hq2
    by_cases hq : q ∈ Q
    · rw [← ha.indices, ← hfst] at hq
      obtain ⟨e, he, rfl⟩ := List.mem_map.1 hq
      rw [← c2 e he]
      exact (ha.at' e he).1
    · apply hcomp
      rw [b1, c1, List.mem_append, hmiss]
      left
      refine List.mem_map_of_mem (List.mem_filter.2 ⟨List.mem_flatMap.2 ⟨j, hj, List.mem_range'_1.2 ⟨hq1, hq2⟩⟩, by simpa using hq⟩)
  obtain ⟨a'', d1, d2, d3, d4⟩ := layer_run K ha hroot hQ n hn1 hn3 hnm V (gs.map Prod.fst) b2 hJ hlt c2 rest ep
  rw [← c1, ← b1, h0] at d1
  obtain rfl := Option.some.inj d1
  refine ⟨V, gs.map Prod.fst, rest, b2, hJ, ?_, ?_, hlt, d2, d3, d4⟩
  · intro q hq
    rw [← ha.indices, ← hfst] at hq
    obtain ⟨e, he, rfl⟩ := List.mem_map.1 hq
    rw [← c2 e he]
    exact (ha.at' e he).2.1
  · rw [← hmiss, ← c1, b1]

end Fri
end Evm
end OpenZKP
