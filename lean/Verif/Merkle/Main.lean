import Verif.Merkle.Open

namespace OpenZKP
namespace Merkle

variable {α : Type}

/-! ## trees -/

theorem leaf_fun {leaves : List α} {k : Nat} (hlen : leaves.length = 2 ^ k) :
    ∃ leaf : Nat → α, ∀ o, o < 2 ^ k → leaves[o]? = some (leaf o) := by
  have h0 : 0 < leaves.length := by rw [hlen]; positivity
  refine ⟨fun o => if h : o < leaves.length then leaves[o] else leaves[0], fun o ho => ?_⟩
  rw [← hlen] at ho
  simp [ho]

theorem node_hash_fuel {t : Tree α} {H : α → α → α} {leaves : List α} {leaf : Nat → α} {k : Nat} (hk : k ≤ 63)
    (hlen : leaves.length = 2 ^ k) (hleaf : ∀ o, o < 2 ^ k → leaves[o]? = some (leaf o)) (ht : t.leaves = leaves)
    (hn : ∀ j h, t.nodes[j]? = some h → h = nodeAt H leaf k (j + 1)) :
    ∀ i, 1 ≤ i → Nat.log 2 i ≤ k → node_hash H t 65 i = .ok (nodeAt H leaf k i) := fun i h1 h2 =>
  node_hash_eq H hk hlen hleaf t ht hn 65 i h1 h2 (by omega)

theorem openLoop_congr (H : α → α → α) (t t' : Tree α) {k : Nat}
    (h : ∀ i, 1 ≤ i → Nat.log 2 i ≤ k → node_hash H t 65 i = node_hash H t' 65 i) (fuel : Nat) (q : List Nat)
    (hq : ∀ x ∈ q, 1 ≤ x ∧ Nat.log 2 x ≤ k) : openLoop H t fuel q = openLoop H t' fuel q := by
  induction fuel generalizing q with
  | zero => rfl
  | succ fuel ih =>
    cases q with
    | nil => rfl
    | cons c q =>
      have hc := hq c (by simp)
      by_cases h1 : c = 1
      · subst h1
        exact ih q (fun x hx => hq x (by simp [hx]))
      · have hc2 : 2 ≤ c := by omega
        unfold openLoop
        rw [parent_eq hc2, sibling_eq hc2]
        dsimp only
        have hb : ∀ x ∈ q ++ [c / 2], 1 ≤ x ∧ Nat.log 2 x ≤ k := by
          intro x hx
          rcases List.mem_append.1 hx with h' | h'
          · exact hq x (by simp [h'])
          · rw [List.mem_singleton] at h'; subst h'; exact ⟨by omega, by rw [log_half]; omega⟩
        cases hqq : q ++ [c / 2] with
        | nil => rfl
        | cons y r =>
          rw [hqq] at hb
          dsimp only
          rw [ih r (fun x hx => hb x (by simp [hx])), ih (y :: r) hb,
            h (c ^^^ 1) (by rw [xor_one]; split <;> omega) (by rw [sibling_log hc2]; exact hc.2)]

/-! ## verification of true claims -/

section
variable [DecidableEq α]

theorem leafNodes_ok {k : Nat} (hk : k ≤ 63) (claims : List (Nat × α)) (hi : ∀ c ∈ claims, c.1 < 2 ^ k) :
    leafNodes (2 ^ k) claims = .ok ((claims.map fun c => (2 ^ k + c.1, c.2)).insertionSort (fun a b => a.1 ≤ b.1)) := by
  unfold leafNodes
  rw [mapM_ok _ (fun c => (2 ^ k + c.1, c.2)) claims (fun c h => by rw [from_size_offset_ok hk (hi c h)]; rfl)]
  rfl

instance : Std.Total (fun a b : Nat × α => a.1 ≤ b.1) := ⟨fun a b => Nat.le_total a.1 b.1⟩
instance : IsTrans (Nat × α) (fun a b : Nat × α => a.1 ≤ b.1) := ⟨fun _ _ _ h1 h2 => Nat.le_trans h1 h2⟩

/-- sorting and deduplicating claims that agree with `T` gives the sorted positions with the values of `T` -/
theorem nodes_eq (T : Nat → α) (l : List (Nat × α)) (hT : ∀ c ∈ l, c.2 = T c.1) (s : List Nat)
    (hs : s.Pairwise (· < ·)) (hm : ∀ x, x ∈ s ↔ ∃ c ∈ l, c.1 = x) :
    noMismatch (l.insertionSort (fun a b => a.1 ≤ b.1)) = true ∧
    dedupBy Prod.fst (l.insertionSort (fun a b => a.1 ≤ b.1)) = s.map fun x => (x, T x) := by
  set r := l.insertionSort (fun a b => a.1 ≤ b.1) with hr
  have hmem : ∀ c, c ∈ r ↔ c ∈ l := fun c => List.mem_insertionSort _
  have hsort : r.Pairwise (fun a b => a.1 ≤ b.1) := List.pairwise_insertionSort _ l
  have hTr : ∀ c ∈ r, c.2 = T c.1 := fun c hc => hT c ((hmem c).1 hc)
  refine ⟨noMismatch_of T r hTr, ?_⟩
  have hd := dedupBy_strict Prod.fst r hsort
  have hsub : ∀ c ∈ dedupBy Prod.fst r, c ∈ r := fun c hc => (dedupBy_sublist Prod.fst r).subset hc
  have hkeys : (dedupBy Prod.fst r).map Prod.fst = s := by
    refine strict_ext ?_ hs ?_
    · rw [List.pairwise_map]; exact hd
    · intro x
      rw [hm, List.mem_map]
      constructor
      · rintro ⟨c, hc, rfl⟩; exact ⟨c, (hmem c).1 (hsub c hc), rfl⟩
      · rintro ⟨c, hc, rfl⟩
        exact dedupBy_keys Prod.fst r c ((hmem c).2 hc)
  rw [← hkeys, List.map_map]
  symm
  calc _ = (dedupBy Prod.fst r).map id := List.map_congr_left (fun c hc => by
        simp only [Function.comp_apply, id]; rw [← hTr c (hsub c hc)])
    _ = _ := List.map_id _

end

section
variable [DecidableEq α] (H : α → α → α) {t : Tree α} {leaf : Nat → α} {k : Nat} (hk : k ≤ 63)
  (hc : t.commitment = ⟨2 ^ k, nodeAt H leaf k 1⟩)
  (hN : ∀ i, 1 ≤ i → Nat.log 2 i ≤ k → node_hash H t 65 i = .ok (nodeAt H leaf k i))
include hk hc hN

theorem open_ok (indices : List Nat) (hi : ∀ i ∈ indices, i < 2 ^ k) :
    ∃ s p n, openAt H t indices = .ok p ∧ p.commitment = t.commitment ∧
      sort_indices t.commitment indices = .ok s ∧ p.indices = s.map Index.offset ∧
      (∀ i, i ∈ p.indices ↔ i ∈ indices) ∧
      proof_size t.commitment indices = .ok n ∧ p.hashes.length = n ∧
      (∀ is hs, (∀ i, i ∈ is ↔ i ∈ indices) →
        from_hashes t.commitment is hs = if hs.length = n then .ok ⟨t.commitment, is, hs⟩ else .error .NotEnoughHashes) ∧
      ∀ ext, ∃ tr, verifyLoop H (nodeAt H leaf k 1) (65 * s.length + 1) (s.map fun x => (x, nodeAt H leaf k x)) (p.hashes ++ ext)
        = .ok tr := by
  obtain ⟨s, hsort, hs, hm⟩ := sort_indices_ok hk (nodeAt H leaf k 1) indices hi
  rw [← hc] at hsort
  have hl : ∀ z ∈ s, 1 ≤ z ∧ Nat.log 2 z = k := by
    intro z hz
    obtain ⟨i, hi', rfl⟩ := (hm z).1 hz
    have : 0 < 2 ^ k := by positivity
    exact ⟨by omega, log_level (hi i hi')⟩
  obtain ⟨hs', ho, hcount, hv⟩ := simulation H t (nodeAt H leaf k) (k := k) (fun p h1 h2 => nodeAt_step H leaf h1 h2) hN
    (65 * s.length + 1) s (sorted_qrel hs hl) (fun z hz => ⟨(hl z hz).1, (hl z hz).2.le⟩) (work_le hk hl)
  have hsort' := hsort
  rw [hc] at hsort'
  obtain ⟨n, hn, hn'⟩ := proof_size_eq hk (nodeAt H leaf k 1) indices s hsort' hs hl
  rw [← hc] at hn
  have hfrom : ∀ is hs, (∀ i, i ∈ is ↔ i ∈ indices) →
        from_hashes t.commitment is hs = if hs.length = n then .ok ⟨t.commitment, is, hs⟩ else .error .NotEnoughHashes := by
    intro is hs he
    have e := sort_indices_congr hk (nodeAt H leaf k 1) indices is hi (fun i => (he i).symm)
    rw [← hc, hsort] at e
    have hps : proof_size t.commitment is = .ok n := by
      rw [← hn]; unfold proof_size; rw [← e, hsort]
    unfold from_hashes
    rw [← e, hps]
    rfl
  have hoff : ∀ i, i ∈ s.map Index.offset ↔ i ∈ indices := by
    intro i
    rw [List.mem_map]
    have hof : ∀ i ∈ indices, Index.offset (2 ^ k + i) = i := by
      intro i h
      have hlog := log_level (hi i h)
      have hpos : 0 < 2 ^ k := by positivity
      rw [offset_eq (by omega) (lt_of_log (by omega) hk hlog.le), hlog]
      omega
    constructor
    · rintro ⟨z, hz, rfl⟩
      obtain ⟨j, hj, rfl⟩ := (hm z).1 hz
      rwa [hof j hj]
    · intro h
      exact ⟨2 ^ k + i, (hm _).2 ⟨i, h, rfl⟩, hof i h⟩
  refine ⟨s, ⟨t.commitment, s.map Index.offset, hs'⟩, n, ?_, rfl, hsort, rfl, hoff, hn, ?_, hfrom, hv⟩
  · unfold openAt
    rw [hsort]
    simp only [Except.bind]
    rw [ho]
    simp only []
    rw [hfrom _ _ hoff, if_pos (by omega)]
  · show hs'.length = n
    omega

theorem verify_ok (indices : List Nat) (claims : List (Nat × α))
    (hset : ∀ i, i ∈ indices ↔ ∃ c ∈ claims, c.1 = i) (htrue : ∀ c ∈ claims, c.1 < 2 ^ k ∧ c.2 = leaf c.1) :
    ∃ p n, openAt H t indices = .ok p ∧ p.commitment = t.commitment ∧ (∀ i, i ∈ p.indices ↔ i ∈ indices) ∧
      proof_size t.commitment indices = .ok n ∧ p.hashes.length = n ∧
      (∀ is hs, (∀ i, i ∈ is ↔ i ∈ indices) →
        from_hashes t.commitment is hs = if hs.length = n then .ok ⟨t.commitment, is, hs⟩ else .error .NotEnoughHashes) ∧
      ∀ is ext, verify H ⟨t.commitment, is, p.hashes ++ ext⟩ claims = .ok () := by
  have hi : ∀ i ∈ indices, i < 2 ^ k := by
    intro i h
    obtain ⟨c, h1, rfl⟩ := (hset i).1 h
    exact (htrue c h1).1
  obtain ⟨s, p, n, ho, hpc, hsort, _, hpi, hn, hlen, hfrom, hv⟩ := open_ok H hk hc hN indices hi
  refine ⟨p, n, ho, hpc, hpi, hn, hlen, hfrom, ?_⟩
  intro is ext
  obtain ⟨s', hsort', hs, hm⟩ := sort_indices_ok hk (nodeAt H leaf k 1) indices hi
  rw [← hc, hsort] at hsort'
  cases hsort'
  obtain ⟨hno, hded⟩ := nodes_eq (nodeAt H leaf k) (claims.map fun c => (2 ^ k + c.1, c.2)) (by
      intro c hc'
      obtain ⟨d, hd, rfl⟩ := List.mem_map.1 hc'
      rw [nodeAt_leaf H leaf (htrue d hd).1]
      exact (htrue d hd).2) s hs (by
      intro x
      rw [hm]
      constructor
      · rintro ⟨i, h, rfl⟩
        obtain ⟨c, h1, rfl⟩ := (hset i).1 h
        exact ⟨_, List.mem_map.2 ⟨c, h1, rfl⟩, rfl⟩
      · rintro ⟨c, h1, rfl⟩
        obtain ⟨d, hd, rfl⟩ := List.mem_map.1 h1
        exact ⟨d.1, (hset _).2 ⟨d, hd, rfl⟩, rfl⟩)
  obtain ⟨tr, htr⟩ := hv ext
  unfold verify verifyTrace
  rw [hc]
  dsimp only
  rw [leafNodes_ok hk claims (fun c h => (htrue c h).1)]
  simp only [Except.bind]
  rw [hno, if_neg (by simp), hded, List.length_map, htr]
  rfl

end

/-! ## binding -/

section
variable [DecidableEq α] (H : α → α → α)

/-- `tr` contains hash inputs connecting node `i` with hash `h` to the root -/
inductive Auth (tr : List (α × α)) (root : α) : Nat → α → Prop
  | root : Auth tr root 1 root
  | left (p : Nat) (h s : α) : 1 ≤ p → Auth tr root p (H h s) → (h, s) ∈ tr → Auth tr root (2 * p) h
  | right (p : Nat) (h s : α) : 1 ≤ p → Auth tr root p (H s h) → (s, h) ∈ tr → Auth tr root (2 * p + 1) h

theorem Auth.mono {tr tr' : List (α × α)} {root : α} {i : Nat} {h : α} (a : Auth H tr root i h) (hs : ∀ x ∈ tr, x ∈ tr') :
    Auth H tr' root i h := by
  induction a with
  | root => exact .root
  | left p h s h1 _ hm ih => exact .left p h s h1 ih (hs _ hm)
  | right p h s h1 _ hm ih => exact .right p h s h1 ih (hs _ hm)

theorem Auth.binding {tr1 tr2 : List (α × α)} {root : α} {i : Nat} {h1 h2 : α} (a1 : Auth H tr1 root i h1)
    (a2 : Auth H tr2 root i h2) (hne : h1 ≠ h2) : ∃ u ∈ tr1, ∃ v ∈ tr2, u ≠ v ∧ H u.1 u.2 = H v.1 v.2 := by
  induction a1 generalizing h2 with
  | root =>
    generalize hi : (1 : Nat) = i at a2
    cases a2 with
    | root => exact absurd rfl hne
    | left p h s hp _ _ => omega
    | right p h s hp _ _ => omega
  | left p h s hp _ hm ih =>
    generalize hi : 2 * p = i at a2
    cases a2 with
    | root => omega
    | right p' _ s' hp' a' hm' => omega
    | left p' _ s' hp' a' hm' =>
      obtain rfl : p = p' := by omega
      by_cases e : H h s = H h2 s'
      · exact ⟨_, hm, _, hm', by simp [hne], e⟩
      · exact ih a' e
  | right p h s hp _ hm ih =>
    generalize hi : 2 * p + 1 = i at a2
    cases a2 with
    | root => omega
    | left p' _ s' hp' a' hm' => omega
    | right p' _ s' hp' a' hm' =>
      obtain rfl : p = p' := by omega
      by_cases e : H s h = H s' h2
      · exact ⟨_, hm, _, hm', by simp [hne], e⟩
      · exact ih a' e

theorem map_ok_inv {ε β γ : Type} {x : Except ε β} {f : β → γ} {y : γ} (h : x.map f = .ok y) :
    ∃ z, x = .ok z ∧ f z = y := by
  cases x with
  | error e => cases h
  | ok z => cases h; exact ⟨z, rfl, rfl⟩

theorem bind_ok_inv {ε β γ : Type} {x : Except ε β} {f : β → Except ε γ} {y : γ} (h : x.bind f = .ok y) :
    ∃ z, x = .ok z ∧ f z = .ok y := by
  cases x with
  | error e => cases h
  | ok z => exact ⟨z, rfl, h⟩

theorem verifyLoop_auth (root : α) (fuel : Nat) (q : List (Nat × α)) (hs : List α) (tr : List (α × α))
    (h : verifyLoop H root fuel q hs = .ok tr) (hq : ∀ x ∈ q, 1 ≤ x.1) : ∀ x ∈ q, Auth H tr root x.1 x.2 := by
  induction fuel generalizing q hs tr with
  | zero => cases h
  | succ fuel ih =>
    cases q with
    | nil => simp
    | cons c q =>
      obtain ⟨c, hash⟩ := c
      have hc := hq (c, hash) (by simp)
      simp only at hc
      have hq' : ∀ x ∈ q, 1 ≤ x.1 := fun x hx => hq x (by simp [hx])
      by_cases h1 : c = 1
      · subst h1
        unfold verifyLoop at h
        rw [show Index.parent 1 = none from rfl] at h
        dsimp only at h
        split at h
        · next e =>
          subst e
          intro x hx
          rcases List.mem_cons.1 hx with rfl | hx
          · exact .root
          · exact ih q hs tr h hq' x hx
        · cases h
      · have hc2 : 2 ≤ c := by omega
        -- the result of the recursive call for an unmerged node
        have key : ∀ (u : α × α) (hh : α) (r : List (Nat × α)) (hs' : List α),
            ((verifyLoop H root fuel (r ++ [(c / 2, hh)]) hs').map (u :: ·)) = .ok tr → (∀ x ∈ r, 1 ≤ x.1) →
            Auth H tr root (c / 2) hh ∧ u ∈ tr ∧ ∀ x ∈ r, Auth H tr root x.1 x.2 := by
          intro u hh r hs' e hr
          obtain ⟨tr', e1, rfl⟩ := map_ok_inv e
          have := ih (r ++ [(c / 2, hh)]) hs' tr' e1 (by
            intro x hx
            rcases List.mem_append.1 hx with h' | h'
            · exact hr x h'
            · rw [List.mem_singleton] at h'; subst h'; show 1 ≤ c / 2; omega)
          have hsub : ∀ x ∈ tr', x ∈ u :: tr' := fun x hx => by simp [hx]
          exact ⟨(this (c / 2, hh) (by simp)).mono H hsub, by simp, fun x hx => (this x (by simp [hx])).mono H hsub⟩
        unfold verifyLoop at h
        rw [parent_eq hc2] at h
        dsimp only at h
        by_cases he : c % 2 = 0
        · rw [if_pos (by simp [Index.is_left, he])] at h
          have hce : c = 2 * (c / 2) := by omega
          have unm : ∀ hs, (match hs with
            | h :: hashes => (verifyLoop H root fuel (q ++ [(c / 2, H hash h)]) hashes).map ((hash, h) :: ·)
            | [] => .error .NotEnoughHashes) = .ok tr → ∀ x ∈ (c, hash) :: q, Auth H tr root x.1 x.2 := by
            intro hs e
            cases hs with
            | nil => cases e
            | cons s hs =>
              obtain ⟨a1, a2, a3⟩ := key _ _ _ _ e hq'
              intro x hx
              rcases List.mem_cons.1 hx with rfl | hx
              · show Auth H tr root c hash
                rw [hce]; exact .left _ _ _ (by omega) a1 a2
              · exact a3 x hx
          cases q with
          | nil => exact unm hs h
          | cons y q =>
            obtain ⟨y, yh⟩ := y
            dsimp only at h
            split at h
            · next es =>
              rw [sibling_eq hc2, xor_one, if_pos he, Option.some.injEq] at es
              obtain ⟨a1, a2, a3⟩ := key _ _ _ _ h (fun x hx => hq' x (by simp [hx]))
              intro x hx
              rcases List.mem_cons.1 hx with rfl | hx
              · show Auth H tr root c hash
                rw [hce]; exact .left _ _ _ (by omega) a1 a2
              · rcases List.mem_cons.1 hx with rfl | hx
                · show Auth H tr root y yh
                  rw [show y = 2 * (c / 2) + 1 by omega]; exact .right _ _ _ (by omega) a1 a2
                · exact a3 x hx
            · exact unm hs h
        · rw [if_neg (by simp [Index.is_left]; omega)] at h
          cases hs with
          | nil => cases h
          | cons s hs =>
            obtain ⟨a1, a2, a3⟩ := key _ _ _ _ h hq'
            intro x hx
            rcases List.mem_cons.1 hx with rfl | hx
            · show Auth H tr root c hash
              rw [show c = 2 * (c / 2) + 1 by omega]; exact .right _ _ _ (by omega) a1 a2
            · exact a3 x hx

theorem verifyTrace_auth (p : Proof α) (claims : List (Nat × α)) (tr : List (α × α))
    (h : verifyTrace H p claims = .ok tr) : ∀ c ∈ claims, Auth H tr p.commitment.hash (p.commitment.size + c.1) c.2 := by
  unfold verifyTrace at h
  obtain ⟨nodes, h1, h2⟩ := bind_ok_inv h
  unfold leafNodes at h1
  obtain ⟨ns, h3, rfl⟩ := map_ok_inv h1
  have hf := mapM_ok_inv _ _ _ h3
  split at h2
  · cases h2
  · next hm =>
    have hno : noMismatch (ns.insertionSort (fun a b => a.1 ≤ b.1)) = true := by
      cases hx : noMismatch (ns.insertionSort (fun a b => a.1 ≤ b.1)) with
      | true => rfl
      | false => exact absurd hx hm
    have hcomp := dedupBy_complete _ hno
    have hpos : ∀ x ∈ ns, 1 ≤ x.1 := by
      intro x hx
      obtain ⟨j, hj, rfl⟩ := List.getElem_of_mem hx
      have := (List.forall₂_iff_get.1 hf).2 j (by rw [hf.length_eq]; exact hj) hj
      obtain ⟨z, hz, hz'⟩ := map_ok_inv this
      obtain ⟨k, _, hk, _, rfl⟩ := (from_size_offset_iff _ _ _).1 hz
      have : 0 < 2 ^ k := by positivity
      simp only [List.get_eq_getElem] at hz'
      rw [← hz']
      show 1 ≤ p.commitment.size + _
      omega
    have ha := verifyLoop_auth H _ _ _ _ _ h2 (by
      intro x hx
      exact hpos x ((List.mem_insertionSort _).1 ((dedupBy_sublist _ _).subset hx)))
    intro c hc
    obtain ⟨j, hj, rfl⟩ := List.getElem_of_mem hc
    have hj' : j < ns.length := by rw [← hf.length_eq]; exact hj
    have := (List.forall₂_iff_get.1 hf).2 j hj hj'
    obtain ⟨z, hz, hz'⟩ := map_ok_inv this
    obtain ⟨k, _, hk, _, rfl⟩ := (from_size_offset_iff _ _ _).1 hz
    simp only [List.get_eq_getElem] at hz'
    have hmem : (p.commitment.size + claims[j].1, claims[j].2) ∈ ns := by
      rw [hz']; exact List.getElem_mem hj'
    exact ha _ (hcomp _ ((List.mem_insertionSort _).2 hmem))

end

/-! ## last common ancestor -/

theorem aligned {x : Nat} (hx : 1 ≤ x) (h : x < 2 ^ 64) :
    Nat.log 2 x ≤ 63 ∧ x * 2 ^ leading_zeros x % 2 ^ 64 = x * 2 ^ (63 - Nat.log 2 x) ∧
    2 ^ 63 ≤ x * 2 ^ (63 - Nat.log 2 x) ∧ x * 2 ^ (63 - Nat.log 2 x) < 2 ^ 64 := by
  have hl : Nat.log 2 x < 64 := by rw [Nat.log_lt_iff_lt_pow (by norm_num) (by omega)]; exact h
  obtain ⟨b1, b2⟩ := level_bounds hx
  have h1 : 2 ^ 63 ≤ x * 2 ^ (63 - Nat.log 2 x) := by
    calc 2 ^ 63 = 2 ^ Nat.log 2 x * 2 ^ (63 - Nat.log 2 x) := by rw [← pow_add]; congr 1; omega
      _ ≤ _ := Nat.mul_le_mul_right _ b1
  have h2 : x * 2 ^ (63 - Nat.log 2 x) < 2 ^ 64 := by
    calc x * 2 ^ (63 - Nat.log 2 x) < 2 ^ (Nat.log 2 x + 1) * 2 ^ (63 - Nat.log 2 x) :=
          Nat.mul_lt_mul_of_pos_right b2 (by positivity)
      _ = 2 ^ 64 := by rw [← pow_add]; congr 1; omega
  refine ⟨by omega, ?_, h1, h2⟩
  unfold leading_zeros
  rw [if_neg (by omega), Nat.log2_eq_log_two, Nat.mod_eq_of_lt h2]

theorem shift_div (x m j : Nat) (h : m ≤ j) : x * 2 ^ m / 2 ^ j = x / 2 ^ (j - m) := by
  rw [show (2 : Nat) ^ j = 2 ^ m * 2 ^ (j - m) by rw [← pow_add]; congr 1; omega, ← Nat.div_div_eq_div_mul,
    Nat.mul_div_cancel _ (by positivity)]

/-- for nodes that are not each other's ancestor, the common ancestor computed is the deepest -/
theorem lca_correct {x y : Nat} (hx : 1 ≤ x) (hx' : x < 2 ^ 64) (hy : 1 ≤ y) (hy' : y < 2 ^ 64)
    (hxy : ∀ j, x ≠ y / 2 ^ j) (hyx : ∀ j, y ≠ x / 2 ^ j) :
    1 ≤ Index.last_common_ancestor x y ∧
    (∃ j, Index.last_common_ancestor x y = x / 2 ^ j) ∧ (∃ j, Index.last_common_ancestor x y = y / 2 ^ j) ∧
    ∀ c, 1 ≤ c → (∃ j, c = x / 2 ^ j) → (∃ j, c = y / 2 ^ j) → ∃ j, c = Index.last_common_ancestor x y / 2 ^ j := by
  obtain ⟨lx, ax, bx, cx⟩ := aligned hx hx'
  obtain ⟨ly, ay, by_, cy⟩ := aligned hy hy'
  set a := x * 2 ^ (63 - Nat.log 2 x) with ha
  set b := y * 2 ^ (63 - Nat.log 2 y) with hb
  have hab : a ≠ b := by
    intro e
    rcases Nat.le_total (Nat.log 2 x) (Nat.log 2 y) with h | h
    · apply hxy (Nat.log 2 y - Nat.log 2 x)
      have := shift_div x (63 - Nat.log 2 x) (63 - Nat.log 2 x) le_rfl
      rw [← ha, e, hb, shift_div _ _ _ (by omega)] at this
      simp only [Nat.sub_self, pow_zero, Nat.div_one] at this
      rw [show Nat.log 2 y - Nat.log 2 x = 63 - Nat.log 2 x - (63 - Nat.log 2 y) by omega]; exact this.symm
    · apply hyx (Nat.log 2 x - Nat.log 2 y)
      have := shift_div y (63 - Nat.log 2 y) (63 - Nat.log 2 y) le_rfl
      rw [← hb, ← e, ha, shift_div _ _ _ (by omega)] at this
      simp only [Nat.sub_self, pow_zero, Nat.div_one] at this
      rw [show Nat.log 2 x - Nat.log 2 y = 63 - Nat.log 2 y - (63 - Nat.log 2 x) by omega]; exact this.symm
  have hne0 : a ^^^ b ≠ 0 := by rwa [Ne, Nat.xor_eq_zero_iff]
  set l := Nat.log 2 (a ^^^ b) with hl
  have hsame := fun j => same_ancestor a b j hab
  have hl63 : l < 63 := by
    rw [← hsame 63]
    rw [show a / 2 ^ 63 = 1 by omega, show b / 2 ^ 63 = 1 by omega]
  have hL : Index.last_common_ancestor x y = a / 2 ^ (l + 1) := by
    unfold Index.last_common_ancestor
    dsimp only
    rw [ax, ay, leading_zeros, if_neg hne0, Nat.log2_eq_log_two, ← hl]
    congr 2; omega
  have hL' : Index.last_common_ancestor x y = b / 2 ^ (l + 1) := by
    rw [hL, hsame]; omega
  -- the difference lies within both nodes
  have hlx : 63 - Nat.log 2 x ≤ l := by
    by_contra hlt
    push Not at hlt
    have e := (hsame (63 - Nat.log 2 x)).2 hlt
    rw [ha, shift_div _ _ _ le_rfl, hb] at e
    simp only [Nat.sub_self, pow_zero, Nat.div_one] at e
    rcases Nat.le_total (Nat.log 2 x) (Nat.log 2 y) with h | h
    · rw [shift_div _ _ _ (by omega)] at e; exact hxy _ e
    · have e' := (hsame (63 - Nat.log 2 y)).2 (by omega)
      rw [hb, shift_div _ _ _ le_rfl, ha, shift_div _ _ _ (by omega)] at e'
      simp only [Nat.sub_self, pow_zero, Nat.div_one] at e'
      exact hyx _ e'.symm
  have hly : 63 - Nat.log 2 y ≤ l := by
    by_contra hlt
    push Not at hlt
    have e := (hsame (63 - Nat.log 2 y)).2 hlt
    rw [hb, shift_div _ _ _ le_rfl, ha, shift_div _ _ _ (by omega)] at e
    simp only [Nat.sub_self, pow_zero, Nat.div_one] at e
    exact hyx _ e.symm
  refine ⟨?_, ⟨l + 1 - (63 - Nat.log 2 x), ?_⟩, ⟨l + 1 - (63 - Nat.log 2 y), ?_⟩, ?_⟩
  · rw [hL]
    refine (Nat.one_le_div_iff (by positivity)).2 (le_trans (Nat.pow_le_pow_right (by norm_num) ?_) bx)
    omega
  · rw [hL, ha, shift_div _ _ _ (by omega)]
  · rw [hL', hb, shift_div _ _ _ (by omega)]
  · rintro c hc ⟨i, ei⟩ ⟨j, ej⟩
    have hi := anc_le (j := i) hx (by omega)
    have hj := anc_le (j := j) hy (by omega)
    have hlc : Nat.log 2 c = Nat.log 2 x - i := by rw [ei, log_div]
    have hlc' : Nat.log 2 c = Nat.log 2 y - j := by rw [ej, log_div]
    have e1 : c = a / 2 ^ (63 - Nat.log 2 c) := by
      rw [ha, shift_div _ _ _ (by omega), show 63 - Nat.log 2 c - (63 - Nat.log 2 x) = i by omega]; exact ei
    have e2 : c = b / 2 ^ (63 - Nat.log 2 c) := by
      rw [hb, shift_div _ _ _ (by omega), show 63 - Nat.log 2 c - (63 - Nat.log 2 y) = j by omega]; exact ej
    have hlt := (hsame (63 - Nat.log 2 c)).1 (by rw [← e1, ← e2])
    refine ⟨63 - Nat.log 2 c - (l + 1), ?_⟩
    rw [hL, Nat.div_div_eq_div_mul, ← pow_add, show l + 1 + (63 - Nat.log 2 c - (l + 1)) = 63 - Nat.log 2 c by omega, ← e1]

end Merkle
end OpenZKP
