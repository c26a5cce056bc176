import Verif.Stark.Openings
import Verif.Props.Fri

/-!
Lemmas: the verifier accepts the FRI layers of the prover.
-/

namespace OpenZKP
namespace Stark
open FFT U256 Merkle Props Polynomial

section
variable {F : Type} [Field F] [DecidableEq F] (env : Env F)

/-- every opening of the tree `t` over `leaves`, written after `pre`, is read and accepted by the verifier -/
def Opens (leaves : List (List F)) (k : Nat) (t : Merkle.Tree Bytes) : Prop :=
  ∀ indices, (∀ i ∈ indices, i < 2 ^ k) → ∃ p, openAt (nodeHash env.K) t indices = .ok p ∧
    ∀ (err : VerifierError) (values : List (Nat × List F)) (coin : PublicCoin) (pre full : Bytes),
      (∀ i, i ∈ indices ↔ ∃ v ∈ values, v.1 = i) → (∀ v ∈ values, leaves[v.1]? = some v.2) → pre ++ p.hashes.flatten <+: full →
      ∃ coin', checkLeaves env err t.commitment indices values (vch coin full pre) = .ok (vch coin' full (pre ++ p.hashes.flatten))

omit [DecidableEq F] [Field F] in
/-- the prover writes leaves and their opening, the verifier reads and accepts them -/
theorem openLeaves_ok (leaves : List (List F)) (k : Nat) (t : Merkle.Tree Bytes) (ht : Opens env leaves k t) (hlen : leaves.length = 2 ^ k)
    (width : Nat) (hw : ∀ l ∈ leaves, l.length = width) (indices : List Nat) (hi : ∀ i ∈ indices, i < 2 ^ k) (pc : ProverChannel) :
    ∃ pc', openLeaves env leaves t indices pc = .ok pc' ∧ pc.proof <+: pc'.proof ∧
      ∀ err coin full, pc'.proof <+: full → ∃ c1 coin',
        readLeaves env width indices (vch coin full pc.proof) = .ok (indices.map fun i => (i, leaves.getD i []), c1) ∧
        checkLeaves env err t.commitment indices (indices.map fun i => (i, leaves.getD i [])) c1 = .ok (vch coin' full pc'.proof) := by
  have hget : ∀ i, i < 2 ^ k → leaves[i]? = some (leaves.getD i []) := by
    intro i hi
    have : i < leaves.length := by omega
    simp [List.getD_eq_getElem?_getD, List.getElem?_eq_getElem this]
  obtain ⟨p, hp, hv⟩ := ht indices hi
  have hm : (indices.mapM fun i => leaves[i]?) = some (indices.map fun i => leaves.getD i []) :=
    option_mapM_some _ _ _ fun i h => hget i (hi i h)
  refine ⟨((indices.map fun i => leaves.getD i []).foldl (fun ch v => ch.writeLeaf env v) pc).writeHashes env.K p.hashes, ?_, ?_, ?_⟩
  · unfold openLeaves
    rw [hm]
    simp only [pPanic, Except.bind]
    rw [hp]
    rfl
  · rw [writeHashes_proof, writeLeaves_proof, List.append_assoc]
    exact List.prefix_append _ _
  · intro err coin full hf
    rw [writeHashes_proof, writeLeaves_proof] at hf ⊢
    obtain ⟨coin1, e1⟩ := readLeaves_pre env width (fun i => leaves.getD i []) indices
      (fun i h => hw _ (List.mem_of_getElem? (hget i (hi i h)))) coin pc.proof full ((List.prefix_append _ _).trans hf)
    obtain ⟨coin2, e2⟩ := hv err (indices.map fun i => (i, leaves.getD i [])) coin1 _ full (by intro i; simp)
      (by intro v hv
          obtain ⟨i, h, rfl⟩ := List.mem_map.1 hv
          exact hget i (hi i h)) hf
    exact ⟨_, coin2, e1, e2⟩

/-! ## One layer -/

/-- what the prover writes of the values at the positions `ns` -/
def cosetBytes (layer : List F) (previous ns : List Nat) : Bytes :=
  ns.flatMap fun n => match env.search previous n with
    | some _ => []
    | none => fieldBytes env (layer.getD n 0)

omit [DecidableEq F] in
theorem cosetBytes_append (layer : List F) (previous ns ms : List Nat) :
    cosetBytes env layer previous (ns ++ ms) = cosetBytes env layer previous ns ++ cosetBytes env layer previous ms := by
  unfold cosetBytes; rw [List.flatMap_append]

omit [DecidableEq F] in
theorem getElem?_getD {l : List F} {n : Nat} (h : n < l.length) : l[n]? = some (l.getD n 0) := by
  simp [List.getD_eq_getElem?_getD, List.getElem?_eq_getElem h]

omit [DecidableEq F] in
theorem writeCosets_ok (layer : List F) (previous ns : List Nat) (h : ∀ n ∈ ns, n < layer.length) (pc : ProverChannel) :
    ∃ pc', writeCosets env layer previous ns pc = some pc' ∧ pc'.proof = pc.proof ++ cosetBytes env layer previous ns := by
  induction ns generalizing pc with
  | nil => exact ⟨pc, rfl, by simp [cosetBytes]⟩
  | cons n ns ih =>
    rw [writeCosets]
    cases hs : env.search previous n with
    | some z =>
      obtain ⟨pc', e1, e2⟩ := ih (fun m hm => h m (by simp [hm])) pc
      refine ⟨pc', e1, ?_⟩
      rw [e2]
      simp [cosetBytes, hs]
    | none =>
      obtain ⟨pc', e1, e2⟩ := ih (fun m hm => h m (by simp [hm])) (pc.writeField env (layer.getD n 0))
      refine ⟨pc', ?_, ?_⟩
      · dsimp only
        rw [getElem?_getD (h n (by simp)), Option.bind_some]
        exact e1
      · rw [e2, writeField_proof]
        simp [cosetBytes, hs]

omit [DecidableEq F] in
theorem readCoset_pre (layer : List F) (previous ns : List Nat) (known : Nat → Nat → Except VerifierError F)
    (hk : ∀ n ∈ ns, ∀ z, env.search previous n = some z → known n z = .ok (layer.getD n 0)) (coin : PublicCoin) (pre full : Bytes)
    (hp : pre ++ cosetBytes env layer previous ns <+: full) :
    ∃ coin', readCoset env known previous ns (vch coin full pre) =
      .ok (ns.map fun n => layer.getD n 0, vch coin' full (pre ++ cosetBytes env layer previous ns)) := by
  induction ns generalizing coin pre with
  | nil => exact ⟨coin, by simp [readCoset, cosetBytes]⟩
  | cons n ns ih =>
    rw [readCoset]
    cases hs : env.search previous n with
    | some z =>
      have e : cosetBytes env layer previous (n :: ns) = cosetBytes env layer previous ns := by simp [cosetBytes, hs]
      rw [e] at hp ⊢
      obtain ⟨coin', e1⟩ := ih (fun m hm => hk m (by simp [hm])) coin pre hp
      refine ⟨coin', ?_⟩
      dsimp only
      rw [hk n (by simp) z hs]
      simp only [Except.bind, e1]
      rfl
    | none =>
      have e : cosetBytes env layer previous (n :: ns) = fieldBytes env (layer.getD n 0) ++ cosetBytes env layer previous ns := by
        simp [cosetBytes, hs]
      rw [e, ← List.append_assoc] at hp ⊢
      obtain ⟨coin', e1⟩ := ih (fun m hm => hk m (by simp [hm])) (coin.write env.K (fieldBytes env (layer.getD n 0))) _ hp
      refine ⟨coin', ?_⟩
      dsimp only
      rw [readField_pre env ((List.prefix_append _ _).trans hp)]
      simp only [orPanic, Except.bind, e1]
      rfl

/-- the positions of coset `i` -/
def cosetPositions (coset_size i : Nat) : List Nat := (List.range coset_size).map fun j => i * coset_size + j

omit [DecidableEq F] in
theorem readCosets_pre (layer : List F) (previous : List Nat) (coset_size : Nat) (is : List Nat) (known : Nat → Nat → Except VerifierError F)
    (hk : ∀ n z, env.search previous n = some z → known n z = .ok (layer.getD n 0)) (coin : PublicCoin) (pre full : Bytes)
    (hp : pre ++ cosetBytes env layer previous (is.flatMap (cosetPositions coset_size)) <+: full) :
    ∃ coin', readCosets env known previous coset_size is (vch coin full pre) =
      .ok (is.map fun i => (i, (cosetPositions coset_size i).map fun n => layer.getD n 0),
        vch coin' full (pre ++ cosetBytes env layer previous (is.flatMap (cosetPositions coset_size)))) := by
  induction is generalizing coin pre with
  | nil => exact ⟨coin, by simp [readCosets, cosetBytes]⟩
  | cons i is ih =>
    rw [List.flatMap_cons, cosetBytes_append, ← List.append_assoc] at hp ⊢
    obtain ⟨coin1, e1⟩ := readCoset_pre env layer previous (cosetPositions coset_size i) known (fun n _ z => hk n z) coin pre full
      ((List.prefix_append _ _).trans hp)
    obtain ⟨coin2, e2⟩ := ih coin1 _ hp
    refine ⟨coin2, ?_⟩
    rw [readCosets]
    change Except.bind (readCoset env known previous (cosetPositions coset_size i) (vch coin full pre)) _ = _
    rw [e1]
    simp only [Except.bind, e2]
    rfl

omit [DecidableEq F] in
theorem coset_slice (layer : List F) (k m i : Nat) (hl : layer.length = 2 ^ (m + k)) (hi : i < 2 ^ m) :
    ((cosetPositions (2 ^ k) i).map fun n => layer.getD n 0) = (layer.drop (i * 2 ^ k)).take (2 ^ k) := by
  have hb : i * 2 ^ k + 2 ^ k ≤ layer.length := by
    rw [hl, pow_add]
    calc i * 2 ^ k + 2 ^ k = (i + 1) * 2 ^ k := by ring
      _ ≤ _ := Nat.mul_le_mul_right _ hi
  apply List.ext_getElem?
  intro j
  unfold cosetPositions
  by_cases hj : j < 2 ^ k
  · rw [List.getElem?_map, List.getElem?_map, List.getElem?_range hj, List.getElem?_take, if_pos hj, List.getElem?_drop,
      getElem?_getD (l := layer) (n := i * 2 ^ k + j) (by omega)]
    rfl
  · rw [List.getElem?_eq_none (by simp; omega), List.getElem?_eq_none (by rw [List.length_take]; omega)]

omit [DecidableEq F] in
theorem cosetPositions_lt (layer : List F) (k m i : Nat) (hl : layer.length = 2 ^ (m + k)) (hi : i < 2 ^ m) :
    ∀ n ∈ cosetPositions (2 ^ k) i, n < layer.length := by
  have hb : i * 2 ^ k + 2 ^ k ≤ layer.length := by
    rw [hl, pow_add]
    calc i * 2 ^ k + 2 ^ k = (i + 1) * 2 ^ k := by ring
      _ ≤ _ := Nat.mul_le_mul_right _ hi
  intro n hn
  obtain ⟨j, hj, rfl⟩ := List.mem_map.1 hn
  have := List.mem_range.1 hj
  omega

omit [DecidableEq F] [Field F] in
theorem friLeaves_ok (layer : List F) (k m : Nat) (hl : layer.length = 2 ^ (m + k)) :
    ∃ leaves, friLeaves (2 ^ k) layer = some leaves ∧ leaves.length = 2 ^ m ∧
      ∀ i < 2 ^ m, leaves[i]? = some ((layer.drop (i * 2 ^ k)).take (2 ^ k)) := by
  have h1 : layer.length % 2 ^ k = 0 := by rw [hl, pow_add]; simp
  have h2 : layer.length / 2 ^ k = 2 ^ m := by rw [hl, pow_add, Nat.mul_div_cancel _ (Nat.two_pow_pos _)]
  refine ⟨(List.range (layer.length / 2 ^ k)).map fun i => (layer.drop (i * 2 ^ k)).take (2 ^ k), ?_, ?_, ?_⟩
  · unfold friLeaves
    rw [h1, if_neg (by simp)]
  · rw [List.length_map, List.length_range, h2]
  · intro i hi
    rw [List.getElem?_map, List.getElem?_range (by rw [h2]; exact hi)]
    rfl

theorem assoc_map {β : Type} (f : Nat → β) (l : List Nat) (n : Nat) (h : n ∈ l) : assoc (l.map fun i => (i, f i)) n = some (f n) := by
  unfold assoc
  induction l with
  | nil => cases h
  | cons a l ih =>
    rw [List.map_cons, List.find?_cons]
    by_cases ha : a = n
    · subst ha; simp
    · rw [show decide ((a, f a).1 = n) = false by simpa using ha]
      exact ih (by rcases List.mem_cons.1 h with rfl | h; · exact absurd rfl ha
                   · exact h)

/-! ## All layers -/

/-- the prover's layers and the verifier's commitments -/
inductive FriRel (x_inv : List F) : List Nat → Nat → List F → List (FriTree F) → List (Merkle.Commitment Bytes × F) → List F → Nat → Prop
  | nil (m : Nat) (L : List F) (hL : L.length = 2 ^ m) : FriRel x_inv [] m L [] [] L m
  | cons (k m : Nat) (L L' : List F) (c : F) (tree : Merkle.Tree Bytes) (leaves : List (List F)) (layout : List Nat)
      (trees : List (FriTree F)) (coms : List (Merkle.Commitment Bytes × F)) (last : List F) (m' : Nat) (hk : 1 ≤ k)
      (hL : L.length = 2 ^ (m + k)) (hleaves : friLeaves (2 ^ k) L = some leaves) (hopen : Opens env leaves m tree)
      (hfold : foldStages x_inv k c L = L') (hrest : FriRel x_inv layout m L' trees coms last m') :
      FriRel x_inv (k :: layout) (m + k) L (⟨2 ^ k, L, tree⟩ :: trees) ((tree.commitment, c) :: coms) last m'

theorem friCommit_at (hroot : RootFn env.root) (M : Nat) (hM : M < 64) (W : F) (hW : env.root (2 ^ M) = some W) (x_inv : List F)
    (hx : friInverses env.root (2 ^ M) = some x_inv) (layout : List Nat) (hlay : ∀ k ∈ layout, 1 ≤ k ∧ k ≤ 4) (m' : Nat)
    (hm : m' + layout.sum ≤ M) (P : F[X]) (L : List F) (hP : IsLayer (m' + layout.sum) (W ^ 2 ^ (M - (m' + layout.sum))) P L)
    (pc pc' : ProverChannel) (trees : List (FriTree F)) (last : List F) (h : friCommit env x_inv layout L pc = .ok ((trees, last), pc')) :
    pc.proof <+: pc'.proof ∧
    (∃ P', IsLayer m' (W ^ 2 ^ (M - m')) P' last ∧ ∀ d, P.degree < (d * 2 ^ layout.sum : Nat) → P'.degree < d) ∧
    ∃ coms, FriRel env x_inv layout (m' + layout.sum) L trees coms last m' ∧
      ∀ full, pc'.proof <+: full →
        readCommitments env layout (2 ^ (m' + layout.sum)) (vat pc full) = .ok ((coms, 2 ^ m'), vat pc' full) := by
  induction layout generalizing P L pc trees with
  | nil =>
    cases h
    refine ⟨List.prefix_refl _, ⟨P, hP, fun d h => by simpa using h⟩, [], ?_, fun full _ => rfl⟩
    exact FriRel.nil _ _ hP.1
  | cons k layout ih =>
    have hk := hlay k (by simp)
    have hs : m' + (k :: layout).sum = m' + layout.sum + k := by rw [List.sum_cons]; omega
    rw [hs] at hP hm ⊢
    set m := m' + layout.sum with hmdef
    rw [friCommit, if_neg (by omega)] at h
    dsimp only at h
    obtain ⟨leaves, hl1, hl2, hl3⟩ := friLeaves_ok L k m hP.1
    rw [hl1] at h
    simp only [pPanic, Except.bind] at h
    obtain ⟨t, ht1, ht2, ht3, ht4⟩ := makeTree_ok env leaves m (by omega) hl2
    rw [ht1] at h
    dsimp only at h
    cases hg : (pc.writeHash env.K t.commitment.hash).getField env with
    | none => rw [hg] at h; cases h
    | some r =>
      obtain ⟨c, pc1⟩ := r
      rw [hg] at h
      dsimp only at h
      obtain ⟨x', hx', hlayer⟩ := C39_layer env.root hroot M m k hM hk hm W hW
      rw [hx] at hx'
      cases hx'
      obtain ⟨L', hL1, hL2⟩ := hlayer c P L hP
      rw [hL1] at h
      dsimp only at h
      obtain ⟨⟨⟨trees', last'⟩, pc2⟩, hr1, hr2⟩ := map_ok_inv h
      cases hr2
      obtain ⟨i1, ⟨P', i2, i3⟩, coms, i4, i5⟩ := ih (fun k hk => hlay k (by simp [hk])) (by omega) (foldPolys k c P) L' hL2 pc1 trees' hr1
      have hg2 := getField_at env [] hg
      have hpre : pc.proof ++ t.commitment.hash <+: pc1.proof := by rw [hg2.2]; exact List.prefix_refl _
      refine ⟨(List.prefix_append _ _).trans (hpre.trans i1), ⟨P', i2, ?_⟩, (t.commitment, c) :: coms, ?_, ?_⟩
      · intro d hd
        apply i3
        apply C39_degree
        rw [mul_assoc, ← pow_add, add_comm, ← List.sum_cons (a := k)]
        exact hd
      · refine FriRel.cons k m L L' c t leaves layout trees' coms _ m' hk.1 hP.1 hl1 ht4 ?_ i4
        unfold foldLayer at hL1
        rw [if_pos hk] at hL1
        exact Option.some.inj hL1
      · intro full hf
        rw [readCommitments, if_neg (by omega)]
        dsimp only
        have e1 := replayHash_pre env.K (coin := pc.coin) ht3 ((hpre.trans i1).trans hf)
        rw [show vat pc full = vch pc.coin full pc.proof from rfl, e1]
        simp only [orPanic, Except.bind]
        rw [show (2 : Nat) ^ (m + k) / 2 ^ k = 2 ^ m by rw [pow_add, Nat.mul_div_cancel _ (Nat.two_pow_pos _)]]
        have e2 : Merkle.from_size_hash (2 ^ m) t.commitment.hash = .ok t.commitment := by
          unfold Merkle.from_size_hash
          rw [if_pos (Or.inr (isPow2_two_pow m)), ← ht2]
        rw [e2]
        simp only [orMerkle]
        have e3 := (getField_at env full hg).1
        rw [show vat (pc.writeHash env.K t.commitment.hash) full =
          vch (pc.coin.write env.K t.commitment.hash) full (pc.proof ++ t.commitment.hash) from rfl] at e3
        rw [e3]
        dsimp only
        rw [i5 full hf]
        rfl

theorem decommit_ok (hroot : RootFn env.root) (hsearch : ∀ l n z, env.search l n = some z → l[z]? = some n) (M : Nat) (hM : M < 64) (W : F)
    (hW : env.root (2 ^ M) = some W) (x_inv : List F) (hx : friInverses env.root (2 ^ M) = some x_inv) {layout : List Nat} {m m' : Nat}
    {L last : List F} {trees : List (FriTree F)} {coms : List (Merkle.Commitment Bytes × F)} (hrel : FriRel env x_inv layout m L trees coms last m')
    (hm : m ≤ M) (previous : List Nat) (hprev : ∀ n ∈ previous, n < 2 ^ m) (known : Nat → Nat → Except VerifierError F)
    (hk : ∀ n z, env.search previous n = some z → known n z = .ok (L.getD n 0)) (folds : List (Nat × F))
    (hf : layout = [] → ∀ n ∈ previous, assoc folds n = some (L.getD n 0)) (pc : ProverChannel) :
    ∃ pc', decommit_fri_layers_and_trees env trees previous pc = .ok pc' ∧ pc.proof <+: pc'.proof ∧
      ∀ coin full, pc'.proof <+: full → ∃ coin' previous' folds',
        friLayers env ((List.range (2 ^ M)).map (W ^ ·)) (layout.zip coms) known previous folds (2 ^ (M - m)) (2 ^ m) (vch coin full pc.proof) =
          .ok ((previous', folds', 2 ^ m'), vch coin' full pc'.proof) ∧
        ∀ n ∈ previous', n < 2 ^ m' ∧ assoc folds' n = some (last.getD n 0) := by
  induction hrel generalizing previous known folds pc with
  | nil m L hL =>
    refine ⟨pc, rfl, List.prefix_refl _, fun coin full _ => ⟨coin, previous, folds, rfl, fun n hn => ⟨hprev n hn, hf rfl n hn⟩⟩⟩
  | cons k m L L' c tree leaves layout trees coms last m' hk1 hL hleaves hopen hfold hrest ih =>
    set indices := Merkle.dedupBy id (previous.map (· / 2 ^ k)) with hind
    have hi : ∀ i ∈ indices, i < 2 ^ m := by
      intro i h
      obtain ⟨n, hn, rfl⟩ := List.mem_map.1 ((dedupBy_sublist id _).subset h)
      have := hprev n hn
      rw [pow_add] at this
      exact Nat.div_lt_of_lt_mul (by rw [mul_comm]; exact this)
    obtain ⟨x', hx', hver⟩ := C39_verifier env.root hroot M m k hM hk1 hm W hW
    rw [hx] at hx'
    cases hx'
    have hfoldv : ∀ i < 2 ^ m, fri_fold ((L.drop (i * 2 ^ k)).take (2 ^ k)) c (2 ^ (M - (m + k))) (2 ^ k / 2 * i) (2 ^ (m + k))
          ((List.range (2 ^ M)).map (W ^ ·)) = some (L'.getD i 0) := by
      intro i hi
      obtain ⟨v, h1, h2⟩ := hver c L hL i hi
      rw [hfold] at h2
      rw [h1, List.getD_eq_getElem?_getD, h2]
      rfl
    obtain ⟨leaves', hl1, hl2, hl3⟩ := friLeaves_ok L k m hL
    rw [hleaves] at hl1
    cases hl1
    obtain ⟨p, hp1, hp2⟩ := hopen indices hi
    have hpos : ∀ n ∈ indices.flatMap (cosetPositions (2 ^ k)), n < L.length := by
      intro n hn
      obtain ⟨i, h1, h2⟩ := List.mem_flatMap.1 hn
      exact cosetPositions_lt L k m i hL (hi i h1) n h2
    obtain ⟨pc1, hw1, hw2⟩ := writeCosets_ok env L previous _ hpos pc
    have hfolds : ∀ n ∈ indices, assoc (indices.map fun i => (i, L'.getD i 0)) n = some (L'.getD n 0) := fun n hn =>
      assoc_map (fun i => L'.getD i 0) indices n hn
    obtain ⟨pc', hd1, hd2, hd3⟩ := ih (by omega) indices hi (knownFold (indices.map fun i => (i, L'.getD i 0))) (by
      intro n z hz
      have : n ∈ indices := List.mem_of_getElem? (hsearch _ _ _ hz)
      unfold knownFold
      rw [hfolds n this]) (indices.map fun i => (i, L'.getD i 0)) (fun _ => hfolds) (pc1.writeHashes env.K p.hashes)
    refine ⟨pc', ?_, ?_, ?_⟩
    · rw [decommit_fri_layers_and_trees]
      dsimp only
      rw [← hind]
      change Except.bind (pPanic (writeCosets env L previous (indices.flatMap (cosetPositions (2 ^ k))) pc)) _ = _
      rw [hw1]
      simp only [pPanic, Except.bind]
      rw [hp1]
      exact hd1
    · rw [writeHashes_proof, hw2] at hd2
      rw [List.append_assoc] at hd2
      exact (List.prefix_append _ _).trans hd2
    · intro coin full hfull
      have hpre := hd2.trans hfull
      rw [writeHashes_proof, hw2] at hpre
      obtain ⟨coin1, e1⟩ := readCosets_pre env L previous (2 ^ k) indices known hk coin pc.proof full ((List.prefix_append _ _).trans hpre)
      have ev : (indices.map fun i => (i, (cosetPositions (2 ^ k) i).map fun n => L.getD n 0)) =
          indices.map fun i => (i, (L.drop (i * 2 ^ k)).take (2 ^ k)) :=
        List.map_congr_left fun i h => by rw [coset_slice L k m i hL (hi i h)]
      rw [ev] at e1
      obtain ⟨coin2, e2⟩ := hp2 .InvalidFriCommitment (indices.map fun i => (i, (L.drop (i * 2 ^ k)).take (2 ^ k))) coin1 _ full
        (by intro i; simp) (by
          intro v hv
          obtain ⟨i, h, rfl⟩ := List.mem_map.1 hv
          exact hl3 i (hi i h)) hpre
      obtain ⟨coin3, previous', folds', e3, e4⟩ := hd3 coin2 full hfull
      refine ⟨coin3, previous', folds', ?_, e4⟩
      rw [List.zip_cons_cons, friLayers]
      rw [← hind, e1]
      simp only [Except.bind]
      rw [List.mapM_map, option_mapM_some _ (fun i => (i, L'.getD i 0)) indices (fun i h => by
        simp only [Function.comp_apply]
        rw [hfoldv i (hi i h)]
        rfl)]
      simp only [orPanic]
      rw [e2]
      dsimp only
      rw [writeHashes_proof, hw2] at e3
      rw [show (2 : Nat) ^ (M - (m + k)) * 2 ^ k = 2 ^ (M - m) by rw [← pow_add]; congr 1; omega,
        show (2 : Nat) ^ (m + k) / 2 ^ k = 2 ^ m by rw [pow_add, Nat.mul_div_cancel _ (Nat.two_pow_pos _)]]
      exact e3

end

end Stark
end OpenZKP
