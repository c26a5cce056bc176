import Verif.Evm.GenerateEval

/-!
# Lemmas on the generator of contracts: a call of the contract that evaluates the constraints
-/

namespace OpenZKP
namespace Evm
namespace Generate
open Stark PrimeField OpenZKP.Props Polynomial

/-- all entries of the map for relevant expressions -/
def Entries (key : E → Nat) (R : E → Prop) (P : E → Yul → Prop) (mp : List (E × Yul)) : Prop := ∀ f y, R f → mapGet key f mp = some y → P f y

theorem Entries.insert {key : E → Nat} {R : E → Prop} {P : E → Yul → Prop} {mp : List (E × Yul)} (hR : NoClash key R) (h : Entries key R P mp) (e : E) (y : Yul) (he : R e) (hy : P e y) :
    Entries key R P (mapInsert key e y mp) := by
  intro f z hf hz
  rw [mapGet_insert] at hz
  split at hz
  · next hk =>
    obtain rfl := hR e f he hf hk
    cases hz
    exact hy
  · exact h f z hf hz

theorem Entries.inputs {key : E → Nat} {R : E → Prop} {P : E → Yul → Prop} (hR : NoClash key R) : ∀ (es : List E) (index : Nat) (mp : List (E × Yul)), Entries key R P mp →
    (∀ i e, es[i]? = some e → R e ∧ P e (.calldataload ((index + i) * 32))) → Entries key R P (addInputs key es index mp) := by
  intro es
  induction es with
  | nil => intro index mp h _; exact h
  | cons e es ih =>
    intro index mp h hes
    obtain ⟨h1, h2⟩ := hes 0 e rfl
    refine ih (index + 1) _ (h.insert hR e _ h1 (by simpa using h2)) fun i f hf => ?_
    obtain ⟨h3, h4⟩ := hes (i + 1) f (by simpa using hf)
    exact ⟨h3, by rw [show index + 1 + i = index + (i + 1) by ring]; exact h4⟩

theorem addAdjustments_spec {key : E → Nat} {R : E → Prop} (hR : NoClash key R) : ∀ (ds : List Nat) (index : Nat) (mp : List (E × Yul)) (acc : List (Nat × Nat)), (∀ d ∈ ds, R (.Exp .X d)) →
    ∃ ds' : List Nat, (∀ d ∈ ds', d ∈ ds) ∧ (addAdjustments key ds index mp acc).1 = index + ds'.length ∧
      (addAdjustments key ds index mp acc).2.2 = acc ++ ds'.mapIdx (fun i d => ((index + i) * 32, d)) ∧
      ∀ P : E → Yul → Prop, Entries key R P mp → (∀ i d, ds'[i]? = some d → P (.Exp .X d) (.mload ((index + i) * 32))) → Entries key R P (addAdjustments key ds index mp acc).2.1 := by
  intro ds
  induction ds with
  | nil => intro index mp acc _; exact ⟨[], by simp, by simp [addAdjustments], by simp [addAdjustments], fun P h _ => h⟩
  | cons d ds ih =>
    intro index mp acc hds
    unfold addAdjustments
    split
    · obtain ⟨ds', h1, h2, h3, h4⟩ := ih (index + 1) (mapInsert key (.Exp .X d) (.mload (index * 32)) mp) (acc ++ [(index * 32, d)]) fun d hd => hds d (by simp [hd])
      refine ⟨d :: ds', ?_, ?_, ?_, ?_⟩
      · intro d' hd'
        rcases List.mem_cons.1 hd' with h | h
        · simp [h]
        · simp [h1 d' h]
      · rw [h2, List.length_cons]; ring
      · rw [h3, List.mapIdx_cons, List.append_assoc]
        simp only [List.cons_append, List.nil_append, Nat.add_zero]
        congr 3
        funext i d'
        rw [show index + 1 + i = index + (i + 1) by ring]
      · intro P hP hd
        refine h4 P (hP.insert hR _ _ (hds d (by simp)) (by simpa using hd 0 d rfl)) fun i d' hd' => ?_
        rw [show index + 1 + i = index + (i + 1) by ring]
        exact hd (i + 1) d' (by simpa using hd')
    · obtain ⟨ds', h1, h2, h3, h4⟩ := ih index mp acc fun d hd => hds d (by simp [hd])
      exact ⟨ds', fun d' hd' => by simp [h1 d' hd'], h2, h3, h4⟩

theorem addInverses_spec {key : E → Nat} {R : E → Prop} (hR : NoClash key R) : ∀ (es : List E) (index pos : Nat) (mp mp' : List (E × Yul)) (acc acc' : List (Nat × Yul)), (∀ e ∈ es, R e) →
    addInverses key es index pos mp acc = some (mp', acc') →
    ∃ (as : List E) (ss : List Yul), es = as.map .Inv ∧ ss.length = as.length ∧ acc' = acc ++ ss.mapIdx (fun i s => ((index + i) * 32, s)) ∧
      ∀ P : E → Yul → Prop, Entries key R P mp → (∀ (i : Nat) (a : E), as[i]? = some a → P (.Inv a) (.mload ((pos + i) * 32))) →
        Entries key R P mp' ∧ ∀ (i : Nat) (a : E) (s : Yul), as[i]? = some a → ss[i]? = some s → ∃ mi, soldity_encode key mi a = some s ∧ Entries key R P mi := by
  intro es
  induction es with
  | nil =>
    intro index pos mp mp' acc acc' _ h
    simp only [addInverses, Option.some.injEq, Prod.mk.injEq] at h
    obtain ⟨rfl, rfl⟩ := h
    exact ⟨[], [], rfl, rfl, by simp, fun P h _ => ⟨h, by simp⟩⟩
  | cons e es ih =>
    intro index pos mp mp' acc acc' hes h
    unfold addInverses at h
    split at h
    · next a =>
      obtain ⟨s, hs, h⟩ := Option.bind_eq_some_iff.1 h
      obtain ⟨as, ss, h1, h2, h3, h4⟩ := ih _ _ _ _ _ _ (fun e he => hes e (by simp [he])) h
      refine ⟨a :: as, s :: ss, by rw [h1]; rfl, by simp [h2], ?_, ?_⟩
      · rw [h3, List.mapIdx_cons, List.append_assoc]
        simp only [List.cons_append, List.nil_append, Nat.add_zero]
        congr 3
        funext i s'
        rw [show index + 1 + i = index + (i + 1) by ring]
      · intro P hP hinv
        obtain ⟨h5, h6⟩ := h4 P (hP.insert hR _ _ (hes _ (by simp)) (by simpa using hinv 0 a rfl)) fun i a' ha' => by
          rw [show pos + 1 + i = pos + (i + 1) by ring]
          exact hinv (i + 1) a' (by simpa using ha')
        refine ⟨h5, fun i a' s' ha' hs' => ?_⟩
        cases i with
        | zero =>
          simp only [List.getElem?_cons_zero, Option.some.injEq] at ha' hs'
          subst ha' hs'
          exact ⟨mp, hs, hP⟩
        | succ i => exact h6 i a' s' (by simpa using ha') (by simpa using hs')
    · cases h

theorem addConstraints_spec (key : E → Nat) (mp : List (E × Yul)) : ∀ (es : List (E × Nat)) (index : Nat) (cs : List ConstraintContext), addConstraints key mp es index = some cs →
    cs.length = es.length ∧ ∀ i c, cs[i]? = some c → ∃ t, es[i]? = some t ∧ mapGet key (.Exp .X t.2) mp = some c.degree_adjustment_location ∧ soldity_encode key mp t.1 = some c.expression ∧
      c.first_coefficient_location = (index + 2 * i) * 32 ∧ c.second_coefficient_location = (index + 2 * i + 1) * 32 := by
  intro es
  induction es with
  | nil =>
    intro index cs h
    simp only [addConstraints, Option.some.injEq] at h
    subst h
    simp
  | cons t es ih =>
    intro index cs h
    unfold addConstraints at h
    obtain ⟨l, hl, h⟩ := Option.bind_eq_some_iff.1 h
    obtain ⟨s, hs, h⟩ := Option.bind_eq_some_iff.1 h
    obtain ⟨rest, hr, rfl⟩ := Option.map_eq_some_iff.1 h
    obtain ⟨h1, h2⟩ := ih _ _ hr
    refine ⟨by simp [h1], fun i c hc => ?_⟩
    cases i with
    | zero =>
      simp only [List.getElem?_cons_zero, Option.some.injEq] at hc
      subst hc
      exact ⟨t, rfl, hl, hs, by simp, by simp⟩
    | succ i =>
      obtain ⟨t', h3, h4, h5, h6, h7⟩ := h2 i c (by simpa using hc)
      exact ⟨t', by simpa using h3, h4, h5, by rw [h6]; ring, by rw [h7]; ring⟩

theorem load_word (data : List Nat) (k : Nat) : load data (k * 32) = data.getD k 0 := by
  unfold load
  rw [Nat.mul_div_cancel _ (by norm_num)]

theorem Sees.calldata {p B : Nat} {data : List Nat} {m0 : Mem} {k : Nat} {v : Z} (h : data.getD k 0 ≤ MODULUS) (hv : ((data.getD k 0 : Nat) : Z) = v) : Sees p B data m0 (.calldataload (k * 32)) v := by
  intro m hm
  unfold eval
  rw [load_word]
  exact ⟨fun q _ => rfl, h, hv⟩

theorem Sees.memory {p B : Nat} {data : List Nat} {m0 : Mem} {q : Nat} {v : Z} (hq : q < B) (h : m0 q ≤ MODULUS) (hv : ((m0 q : Nat) : Z) = v) : Sees p B data m0 (.mload q) v := by
  intro m hm
  unfold eval
  rw [hm q hq]
  exact ⟨fun q _ => rfl, h, hv⟩

theorem Sees.expmod {p B : Nat} {data : List Nat} {m0 : Mem} (hB : 0 < B) (hp : B ≤ p) (h0 : m0 0 = MODULUS) {a : Yul} {v : Z} (k : Nat) (ha : Sees p B data m0 a v) :
    Sees p B data m0 (.mid_expmod a k) (v ^ k) := by
  intro m hm
  have ha' := ha m hm
  have hz := ha.zero hB hp h0 m hm
  unfold eval
  simp only
  have := expmod_spec p (eval p data a m).2 k _ (by omega) hz
  refine ⟨fun q hq => (this.1 q hq).trans (ha'.1 q hq), ?_⟩
  rw [this.2]
  refine ⟨(modexp_lt _ _).le, ?_⟩
  rw [modexp_cast, ha'.2.2]

/-- a call with these words as calldata gives the sum of the constraints with coefficients and adjusted degrees -/
theorem call_spec (cl : Nat → Option Z[X]) (x : Z) (trace : Nat → Int → Option Z) (key : E → Nat) (R : E → Prop) (hR : NoClash key R) (hpart : ∀ e f, R e → Part e f → R f) (hX : R .X)
    (claims inverses traces periodic : List E) (ads : List Nat) (es : List E) (g : OodsPolyContext) (data : List Nat) (n : Nat) (hg : write_oods_poly key n claims inverses traces periodic ads es = some g)
    (hRc : ∀ e ∈ claims, R e) (hRp : ∀ e ∈ periodic, R e) (hRt : ∀ e ∈ traces, R e) (hRi : ∀ e ∈ inverses, R e) (hRd : ∀ d ∈ ads, R (.Exp .X d)) (hRe : ∀ e ∈ es, R e)
    (hflat : ∀ a b, .Inv a ∈ inverses → ¬ Part a (.Inv b)) (hval : ∀ e ∈ inverses, ∃ v, claimValue cl x trace e = some v)
    (d0 : data.getD 0 0 ≤ MODULUS ∧ ((data.getD 0 0 : Nat) : Z) = x)
    (dc : ∀ i e v, claims[i]? = some e → claimValue cl x trace e = some v → data.getD (1 + i) 0 ≤ MODULUS ∧ ((data.getD (1 + i) 0 : Nat) : Z) = v)
    (dp : ∀ i e v, periodic[i]? = some e → claimValue cl x trace e = some v → data.getD (1 + claims.length + i) 0 ≤ MODULUS ∧ ((data.getD (1 + claims.length + i) 0 : Nat) : Z) = v)
    (dt : ∀ i e v, traces[i]? = some e → claimValue cl x trace e = some v → data.getD (1 + claims.length + periodic.length + n * 2 + i) 0 ≤ MODULUS ∧
      ((data.getD (1 + claims.length + periodic.length + n * 2 + i) 0 : Nat) : Z) = v)
    (V : E → Z) (hV : ∀ e ∈ es, claimValue cl x trace e = some (V e)) (hlen : ads.length = es.length) (hn : n = es.length)
    (hcf : ∀ k < 2 * n, data.getD (1 + claims.length + periodic.length + k) 0 < MODULUS) (gas : Nat) (hgas : g.batch_inverted.length < gas) :
    ∃ w, g.call gas 0 data = some w ∧ w < MODULUS ∧ (w : Z) = ∑ i ∈ Finset.range es.length, V (es.getD i .X) *
      (((data.getD (1 + claims.length + periodic.length + 2 * i) 0 : Nat) : Z) + ((data.getD (1 + claims.length + periodic.length + 2 * i + 1) 0 : Nat) : Z) * x ^ ads.getD i 0) := by
  unfold write_oods_poly at hg
  simp only at hg
  set mp3 := addInputs key traces (1 + claims.length + periodic.length + n * 2) (addInputs key periodic (1 + claims.length) (addInputs key claims 1 (mapInsert key .X (.calldataload 0) []))) with hmp3
  obtain ⟨ds', hds', hidx, hacc, hmp4⟩ := addAdjustments_spec hR ads 1 mp3 [] hRd
  generalize hst : (addAdjustments key ads 1 mp3 []).1 = st at *
  generalize hm4 : (addAdjustments key ads 1 mp3 []).2.1 = mp4 at *
  generalize hda : (addAdjustments key ads 1 mp3 []).2.2 = da at *
  obtain ⟨⟨mp5, bi⟩, hinv, hg⟩ := Option.bind_eq_some_iff.1 hg
  obtain ⟨cs, hcs, rfl⟩ := Option.map_eq_some_iff.1 hg
  obtain ⟨as, ss, has, hss, hbi, hmp5⟩ := addInverses_spec hR _ _ _ _ _ _ _ hRi hinv
  obtain ⟨hcl, hcs⟩ := addConstraints_spec _ _ _ _ _ hcs
  have hni : inverses.length = as.length := by rw [has, List.length_map]
  rw [List.nil_append] at hbi hacc
  have hst0 : 0 < st := by omega
  replace hgas : inverses.length < gas := by
    have h1 : bi.length < gas := hgas
    rw [hbi, List.length_mapIdx] at h1
    omega
  -- the value of a denominator
  have hden : ∀ (i : Nat) (a : E), as[i]? = some a → R (.Inv a) ∧ (∀ b, ¬ Part a (.Inv b)) ∧ ∃ v, claimValue cl x trace a = some v ∧ v ≠ 0 ∧ claimValue cl x trace (.Inv a) = some v⁻¹ := by
    intro i a ha
    have hm : Expr.Inv a ∈ inverses := by rw [has]; exact List.mem_map_of_mem (List.mem_of_getElem? ha)
    refine ⟨hRi _ hm, fun b => hflat a b hm, ?_⟩
    obtain ⟨v, hv⟩ := hval _ hm
    have hv' := hv
    simp only [claimValue] at hv'
    split at hv'
    · next u hu =>
      split at hv'
      · cases hv'
      · next hne =>
        cases hv'
        exact ⟨u, hu, hne, hv⟩
    · cases hv'
  set p := (st + inverses.length + inverses.length) * 32 with hp
  unfold OodsPolyContext.call
  simp only [ne_eq, not_true_eq_false, if_false]
  -- the memory at first
  set mA : Mem := Mem.store (fun _ => 0) 0 0x800000000000011000000000000000000000000000000000000000000000001 with hmA
  have hA0 : mA 0 = MODULUS := by rw [hmA]; unfold Mem.store; rw [if_pos rfl]; rfl
  -- the adjustments of the degree
  have hBs := storeAll_spec (p := p) (B := 32) (data := data) (m0 := mA) (by omega) (da.map fun a => (a.1, Yul.mid_expmod (.calldataload 0) a.2)) 1 mA (fun i => x ^ ds'.getD i 0)
    (by
      intro i t ht
      rw [hacc, List.getElem?_map, List.getElem?_mapIdx, Option.map_map] at ht
      obtain ⟨d, hd, rfl⟩ := Option.map_eq_some_iff.1 ht
      refine ⟨rfl, ?_⟩
      show Sees p 32 data mA (.mid_expmod (.calldataload 0) d) (x ^ ds'.getD i 0)
      rw [List.getD, hd, Option.getD_some]
      exact Sees.expmod (by omega) (by omega) hA0 d (Sees.calldata (k := 0) d0.1 d0.2))
    (by rw [List.length_map, hacc, List.length_mapIdx]; omega) (by omega) (fun _ _ => rfl)
  set mB := storeAll p data (da.map fun a => (a.1, Yul.mid_expmod (.calldataload 0) a.2)) mA with hmB
  obtain ⟨hB1, hB2⟩ := hBs
  have hB0 : mB 0 = MODULUS := by rw [hB1 0 (by omega), hA0]
  rw [List.length_map, hacc, List.length_mapIdx] at hB2
  -- the denominators
  have hP3 : ∀ (B : Nat) (m0 : Mem), Entries key R (fun f y => ∀ v, claimValue cl x trace f = some v → Sees p B data m0 y v) mp3 := by
    intro B m0
    rw [hmp3]
    refine Entries.inputs hR _ _ _ (Entries.inputs hR _ _ _ (Entries.inputs hR _ _ _ (Entries.insert hR ?_ _ _ hX ?_) ?_) ?_) ?_
    · intro f y _ h
      simp [mapGet] at h
    · intro v hv
      simp only [claimValue, Option.some.injEq] at hv
      subst hv
      exact Sees.calldata (k := 0) d0.1 d0.2
    · exact fun i e he => ⟨hRc e (List.mem_of_getElem? he), fun v hv => Sees.calldata (dc i e v he hv).1 (dc i e v he hv).2⟩
    · exact fun i e he => ⟨hRp e (List.mem_of_getElem? he), fun v hv => Sees.calldata (dp i e v he hv).1 (dp i e v he hv).2⟩
    · exact fun i e he => ⟨hRt e (List.mem_of_getElem? he), fun v hv => Sees.calldata (dt i e v he hv).1 (dt i e v he hv).2⟩
  have hadj : ∀ (B : Nat) (m0 : Mem), st * 32 ≤ B → (∀ q < st * 32, m0 q = mB q) → ∀ (i d : Nat), ds'[i]? = some d → ∀ v, claimValue cl x trace (.Exp .X d) = some v →
      Sees p B data m0 (.mload ((1 + i) * 32)) v := by
    intro B m0 hB hm i d hd v hv
    have hi : i < ds'.length := (List.getElem?_eq_some_iff.1 hd).1
    obtain ⟨h1, h2⟩ := hB2 i hi
    rw [← hm _ (by omega)] at h1 h2
    refine Sees.memory (by omega) h1 ?_
    rw [h2, List.getD, hd, Option.getD_some]
    simp only [claimValue, Option.map_some, Option.some.injEq] at hv
    exact hv
  have hCs := storeAll_spec (p := p) (B := st * 32) (data := data) (m0 := mB) (by omega) bi (st + inverses.length) mB (fun i => (claimValue cl x trace (as.getD i .X)).getD 0)
    (by
      intro i t ht
      rw [hbi, List.getElem?_mapIdx] at ht
      obtain ⟨s, hs, rfl⟩ := Option.map_eq_some_iff.1 ht
      refine ⟨rfl, ?_⟩
      show Sees p (st * 32) data mB s _
      have hi : i < as.length := by rw [← hss]; exact (List.getElem?_eq_some_iff.1 hs).1
      have ha : as[i]? = some as[i] := List.getElem?_eq_getElem hi
      obtain ⟨hRi', hnf, v, hv, hne, hvi⟩ := hden i _ ha
      rw [List.getD, ha, Option.getD_some, hv, Option.getD_some]
      obtain ⟨mi, hmi1, hmi2⟩ := (hmp5 (fun f y => (∀ b, f ≠ .Inv b) → ∀ v, claimValue cl x trace f = some v → Sees p (st * 32) data mB y v)
        (hmp4 _ (fun f y hf hy _ v hv => hP3 _ _ f y hf hy v hv) (fun i d hd _ v hv => hadj _ _ (le_refl _) (fun _ _ => rfl) i d hd v hv))
        (fun i a _ hb => absurd rfl (hb a))).2 i _ s ha hs
      refine (encode_sound (by omega) (by omega) hB0 cl x trace key mi (Part as[i]) (fun e f he hf => he.trans hf) ?_ as[i]).1 v s .self hv hmi1
      intro e v y he hv hy
      exact hmi2 e y (hpart _ _ (hpart _ _ hRi' Part.self.inv) he) hy (fun b hb => hnf b (hb ▸ he)) v hv)
    (by rw [hbi, List.length_mapIdx]; omega) (by omega) (fun _ _ => rfl)
  set mC := storeAll p data bi mB with hmC
  obtain ⟨hC1, hC2⟩ := hCs
  rw [hbi, List.length_mapIdx, hss] at hC2
  have hC0 : mC 0 = MODULUS := by rw [hC1 0 (by omega), hB0]
  -- the products
  obtain ⟨mD, prod, hD1, hD2, hD3, hD4⟩ := productLoop_spec st inverses.length (fun i => (claimValue cl x trace (as.getD i .X)).getD 0) hst0 inverses.length 0 gas mC 1 (by omega) (by omega) hC0
    (fun j hj => (hC2 j (by omega)).2) (by simp [prodTo]) (fun j hj => absurd hj (by omega))
  rw [Nat.add_zero] at hD1
  rw [hD1, Option.bind_some]
  simp only
  have hD0 : mD 0 = MODULUS := by rw [hD2 0 (by omega), hC0]
  obtain ⟨hE1, hE2⟩ := expmod_spec p prod (wsub (mD 0) 2) mD (by omega) hD0
  generalize hEm : (Generate.expmod p prod (wsub (mD 0) 2) mD).1 = mE at *
  generalize hEi : (Generate.expmod p prod (wsub (mD 0) 2) mD).2 = inv at *
  have hE0 : mE 0 = MODULUS := by rw [hE1 0 (by omega), hD0]
  have hinvc : (inv : Z) = (prodTo (fun i => (claimValue cl x trace (as.getD i .X)).getD 0) inverses.length)⁻¹ := by
    rw [← hD4, ← inverse_cast, hE2, hD0]
    rfl
  obtain ⟨mF, hF1, hF2, hF3⟩ := inverseLoop_spec st inverses.length (fun i => (claimValue cl x trace (as.getD i .X)).getD 0) hst0
    (by
      intro j hj
      have ha : as[j]? = some as[j] := List.getElem?_eq_getElem (by omega)
      obtain ⟨_, _, v, hv, hne, _⟩ := hden j _ ha
      rw [List.getD, ha, Option.getD_some, hv, Option.getD_some]
      exact hne)
    inverses.length gas mE inv (le_refl _) hgas hE0
    (fun j hj => by rw [hE1 _ (by omega), hD2 _ (by omega)]; exact (hC2 j (by omega)).2) hinvc (fun j hj => by rw [hE1 _ (by omega)]; exact hD3 j hj)
  rw [hF1, Option.map_some]
  have hF0 : mF 0 = MODULUS := by rw [hF2 0 (by omega), hE0]
  have hFB : ∀ q < st * 32, mF q = mB q := by
    intro q hq
    rw [hF2 q (by omega), hE1 q (by omega), hD2 q (by omega), hC1 q (by omega)]
  -- the sum
  have hP5 := (hmp5 (fun f y => ∀ v, claimValue cl x trace f = some v → Sees p ((st + inverses.length) * 32) data mF y v)
    (hmp4 _ (hP3 _ _) (fun i d hd v hv => hadj _ _ (by omega) hFB i d hd v hv))
    (by
      intro i a ha v hv
      have hi : i < as.length := (List.getElem?_eq_some_iff.1 ha).1
      obtain ⟨_, _, u, hu, _, hui⟩ := hden i a ha
      rw [hui] at hv
      cases hv
      obtain ⟨h1, h2⟩ := hF3 i (by omega)
      refine Sees.memory (by omega) h1 ?_
      rw [h2, List.getD, ha, Option.getD_some, hu, Option.getD_some])).1
  have hsum := terms_spec (p := p) (B := (st + inverses.length) * 32) (data := data) (m0 := mF) (by omega) (by omega) hF0 cs mF 0 (fun i => V (es.getD i .X)) (fun i => x ^ ads.getD i 0)
    (1 + claims.length + periodic.length) (fun _ _ => rfl) modulus_pos
    (by
      intro i c hc
      obtain ⟨⟨e, d⟩, ht, h1, h2, h3, h4⟩ := hcs i c hc
      rw [List.getElem?_zip_eq_some] at ht
      obtain ⟨he, hd⟩ := ht
      have hem := List.mem_of_getElem? he
      have hi : i < es.length := (List.getElem?_eq_some_iff.1 he).1
      refine ⟨?_, ?_, ?_, h3, h4⟩
      · show Sees _ _ _ _ _ (V (es.getD i .X))
        rw [List.getD, he, Option.getD_some]
        exact (encode_sound (by omega) (by omega) hF0 cl x trace key mp5 R hpart (fun e v y he hv hy => hP5 e y he hy v hv) e).1 _ _ (hRe e hem) (hV e hem) h2
      · show Sees _ _ _ _ _ (x ^ ads.getD i 0)
        rw [List.getD, hd, Option.getD_some]
        exact hP5 _ _ (hRd d (List.mem_of_getElem? hd)) h1 _ (by simp only [claimValue, Option.map_some])
      · rw [h3, load_word]
        have := hcf (2 * i) (by omega)
        rwa [show 1 + claims.length + periodic.length + 2 * i = 1 + claims.length + periodic.length + 2 * i by ring])
  refine ⟨_, rfl, hsum.1, ?_⟩
  rw [hsum.2, hcl, List.length_zip, hlen, min_self, Nat.cast_zero, zero_add]
  simp only [load_word]

end Generate
end Evm
end OpenZKP
