import Verif.Stark.SerializeLemmas
import Verif.Stark.JsonLemmas
import Verif.Props.VerifierExact
import Verif.Evm.VerifierSpec
import Verif.Evm.Montgomery
import Verif.Evm.CoinLemmas

/-!
# C83: the proof for the contract
-/

namespace OpenZKP
namespace Props
open FFT U256 Stark Stark.Accept

section
variable {F : Type} [Field F] [DecidableEq F]

theorem field_json (env : Env F) (u : U256) : Json.Text (wordJson env u) (solField env (env.codec.val u)) := Json.text_hex _

/-- the text for a filled proof -/
theorem text_json (env : Env F) (P : Contents) (h : P.Filled) (hl : P.LayersFilled) : Json.Text (proofJson env P) (('{' :: text env P) ++ ['}']) := by
  unfold proofJson text
  refine Json.Text.obj ?_
  dsimp only
  have words : ∀ l : List U256, l ≠ [] → Json.Text (.arr (l.map (wordJson env))) (solVec (l.map fun u => solField env (env.codec.val u))) :=
    fun l hl => Json.text_map _ _ l hl fun u _ => field_json env u
  have hashes : ∀ l : List Bytes, l ≠ [] → Json.Text (.arr (l.map Json.bytes)) (solVec (l.map solHex)) := fun l hl => Json.text_map _ _ l hl fun u _ => Json.text_hex u
  refine Json.members_cons _ (by decide) (w := []) (Json.text_hex _) Json.blank_nil fun w1 b1 => ?_
  refine Json.members_cons _ (by decide) (Json.text_hex _) b1 fun w2 b2 => ?_
  refine Json.members_cons _ (by decide) (words _ h.trace_values) b2 fun w3 b3 => ?_
  refine Json.members_cons _ (by decide) (words _ h.constraint_values) b3 fun w4 b4 => ?_
  refine Json.members_cons _ (by decide) (Json.text_map _ _ _ h.fri fun l _ => Json.text_hex _) b4 fun w5 b5 => ?_
  refine Json.members_cons _ (by decide) (words _ h.last_layer) b5 fun w6 b6 => ?_
  refine Json.members_comma _ (by decide) (Json.text_hex _) b6 fun w7 b7 => ?_
  refine Json.members_cons _ (by decide) (words _ h.trace_rows) b7 fun w8 b8 => ?_
  refine Json.members_cons _ (by decide) (hashes _ h.trace_hashes) b8 fun w9 b9 => ?_
  refine Json.members_cons _ (by decide) (words _ h.constraint_rows) b9 fun w10 b10 => ?_
  refine Json.members_cons _ (by decide) (hashes _ h.constraint_hashes) b10 fun w11 b11 => ?_
  refine Json.members_cons _ (by decide) (Json.text_map _ _ _ h.fri fun l hl' => words _ (hl l hl').1) b11 fun w12 b12 => ?_
  exact Json.members_last _ (by decide) (Json.text_map _ _ _ h.fri fun l hl' => hashes _ (hl l hl').2) b12

/-- the text for a proof with an empty array -/
theorem text_not_json (env : Env F) (P : Contents) (h : ¬ P.Filled) (v : Json.Value) : ¬ Json.Text v (('{' :: text env P) ++ ['}']) := by
  intro hv
  have hs := Json.scan_text hv
  have words : ∀ (name : String) (_ : Json.plain name.toList = true) (l : List U256) (last : Char) (rest : List Char),
      Json.scan false last (solMember name (solVec (l.map fun u => solField env (env.codec.val u))) ", \n" ++ rest) = true → l ≠ [] ∧ Json.scan false ',' rest = true := by
    intro name hn l last rest hr
    by_cases hl : l = []
    · subst hl
      rw [List.map_nil, solVec, Json.scan_missing name hn] at hr
      cases hr
    · exact ⟨hl, by rwa [Json.scan_member name hn (Json.text_map (wordJson env) _ l hl fun u _ => field_json env u)] at hr⟩
  have hashes : ∀ {α : Type} (f : α → Bytes) (name : String) (_ : Json.plain name.toList = true) (l : List α) (last : Char) (rest : List Char),
      Json.scan false last (solMember name (solVec (l.map fun u => solHex (f u))) ", \n" ++ rest) = true → l ≠ [] ∧ Json.scan false ',' rest = true := by
    intro α f name hn l last rest hr
    by_cases hl : l = []
    · subst hl
      rw [List.map_nil, solVec, Json.scan_missing name hn] at hr
      cases hr
    · exact ⟨hl, by rwa [Json.scan_member name hn (Json.text_map (fun u => Json.bytes (f u)) _ l hl fun u _ => Json.text_hex _)] at hr⟩
  unfold text at hs
  simp only [List.append_assoc, List.cons_append] at hs
  rw [Json.scan_char _ _ _ (by decide) (by decide) (by rintro ⟨h, _⟩; revert h; decide)] at hs
  rw [Json.scan_member _ (by decide) (Json.text_hex _), Json.scan_member _ (by decide) (Json.text_hex _)] at hs
  obtain ⟨f1, hs⟩ := words _ (by decide) _ _ _ hs
  obtain ⟨f2, hs⟩ := words _ (by decide) _ _ _ hs
  obtain ⟨f3, hs⟩ := hashes (fun l : Layer => l.root) _ (by decide) _ _ _ hs
  obtain ⟨f4, hs⟩ := words _ (by decide) _ _ _ hs
  rw [Json.scan_name _ (by decide)] at hs
  obtain ⟨e, he, hx⟩ := Json.reads_text (Json.text_hex (to_be_bytes 8 P.nonce))
  rw [hx] at hs
  have e2 : ("," : String).toList = [','] := rfl
  rw [e2, List.cons_append, List.nil_append, Json.scan_char _ _ _ (by decide) (by decide) (fun h => he h.2)] at hs
  obtain ⟨f5, hs⟩ := words _ (by decide) _ _ _ hs
  obtain ⟨f6, hs⟩ := hashes id _ (by decide) _ _ _ hs
  obtain ⟨f7, hs⟩ := words _ (by decide) _ _ _ hs
  obtain ⟨f8, hs⟩ := hashes id _ (by decide) _ _ _ hs
  exact h ⟨f1, f2, f3, f4, f5, f6, f7, f8⟩

section
variable (env : Env F) (hroot : RootFn env.root) (hcompat : RootCompat env.root) (hsearch : SearchOk env.search) (c : Constraints F) (k b : Nat)
  (hkb : k + b < 64) (hk : c.trace_nrows = 2 ^ k) (hb : c.blowup = 2 ^ b) (hlayout : c.fri_layout.sum ≤ k + b) (hq : c.num_queries < 2 ^ 64)
  (hlay : c.fri_layout ≠ [] ∨ c.num_queries = 0)
include hsearch hkb hk hb hlayout hq hlay

/-- C83 (partial: an empty array is not written as JSON, see `C83_violated`): For a proof with the parts `P`, `proof_serialize` appends to the string, and
what it appends is, in braces, a JSON text for the object with these parts (`proofJson`), if no array is empty. -/
theorem C83_json_partial (w g : F) (p : Bytes) (args : List (Nat × Int)) (P : Contents) (x : Challenges F) (h : Accepts env c k b w g p args P x)
    (hcount : P.Counted c.fri_layout (k + b) x.queries) (hfilled : P.Filled) (hlayers : P.LayersFilled) (result : List Char) :
    ∃ out, serialize env c p result = .ok (result ++ out) ∧ Json.Text (proofJson env P) (('{' :: out) ++ ['}']) :=
  ⟨text env P, serialize_fwd env hsearch c k b hkb hk hb hlayout hq hlay w g p args P x h hcount result, text_json env P hfilled hlayers⟩

/-- C83: where an array is empty, what is appended is not JSON. -/
theorem C83_violated (w g : F) (p : Bytes) (args : List (Nat × Int)) (P : Contents) (x : Challenges F) (h : Accepts env c k b w g p args P x)
    (hcount : P.Counted c.fri_layout (k + b) x.queries) (hempty : ¬ P.Filled) (result : List Char) :
    ∃ out, serialize env c p result = .ok (result ++ out) ∧ ∀ v, ¬ Json.Text v (('{' :: out) ++ ['}']) :=
  ⟨text env P, serialize_fwd env hsearch c k b hkb hk hb hlayout hq hlay w g p args P x h hcount result, text_not_json env P hempty⟩

include hroot hcompat
/-- C83: `proof_serialize` succeeds on every proof that `verify` accepts, and what it appends does not depend on what was in the string. -/
theorem C83_serializes (p : Bytes) (h : Stark.verify env c p = .ok ()) : ∃ out, ∀ result, serialize env c p result = .ok (result ++ out) := by
  obtain ⟨w, g, args, P, x, _, _, h3, h4⟩ := C82_accepts env hroot hcompat hsearch c k b hkb hk hb hlayout hq p h
  exact ⟨text env P, serialize_fwd env hsearch c k b hkb hk hb hlayout hq hlay w g p args P x h3 h4⟩

end
end

/-- C83: an array with one empty array in it is written as an empty array. -/
theorem C83_nested_violated : Json.Text (.arr []) (solVec [solVec []]) :=
  Json.Text.none (w := ['\n', '\n']) (by intro c hc; simp at hc; exact Or.inr (Or.inl hc))

/-- the arrays of the contract as a JSON object: numbers and hashes as words of 32 bytes, the nonce as one of eight -/
def contractJson (proof : Evm.StarkVerifier.StarkProof) : Json.Value :=
  let number (v : Nat) : Json.Value := Json.bytes (to_be_bytes 32 v)
  .obj [
  ("trace_commitment".toList, Json.bytes proof.trace_commitment),
  ("constraint_commitment".toList, Json.bytes proof.constraint_commitment),
  ("trace_oods_values".toList, .arr (proof.trace_oods_values.map number)),
  ("constraint_oods_values".toList, .arr (proof.constraint_oods_values.map number)),
  ("fri_commitments".toList, .arr (proof.fri_commitments.map Json.bytes)),
  ("last_layer_coefficients".toList, .arr (proof.last_layer_coefficients.map number)),
  ("pow_nonce".toList, Json.bytes (to_be_bytes 8 proof.pow_nonce)),
  ("trace_values".toList, .arr (proof.trace_values.map number)),
  ("trace_decommitment".toList, .arr (proof.trace_decommitment.map Json.bytes)),
  ("constraint_values".toList, .arr (proof.constraint_values.map number)),
  ("constraint_decommitment".toList, .arr (proof.constraint_decommitment.map Json.bytes)),
  ("fri_values".toList, .arr (proof.fri_values.map fun l => .arr (l.map number))),
  ("fri_decommitments".toList, .arr (proof.fri_decommitments.map fun l => .arr (l.map Json.bytes)))]

theorem to_bytes_be_number (u : U256) : to_bytes_be u = to_be_bytes 32 u.toNat := by
  refine beValue_inj ?_ ?_
  · rw [to_bytes_be_length, to_be_bytes_length]
  · rw [to_bytes_be_value, to_be_bytes_value, Nat.mod_eq_of_lt]
    have := U256.toNat_lt u
    calc u.toNat < 2 ^ 256 := this
      _ = 256 ^ 32 := by decide +kernel

theorem contract_word (env : Env Evm.PrimeField.Z) (hc : env.codec = Evm.montgomery) (u : U256) (hu : u.toNat < PF.BASE.modulus.toNat) :
    wordJson env u = Json.bytes (to_be_bytes 32 u.toNat) := by
  rw [← Evm.modulus_base] at hu
  have : Evm.montgomery.rep (Evm.montgomery.val u) = u := by
    conv_lhs => rw [← Evm.word_toNat u]
    rw [Evm.val_word _ hu, Evm.rep_mont _ hu, Evm.word_toNat]
  unfold wordJson
  rw [hc, this, to_bytes_be_number]

/-- C83: over the field of the contracts, the object is that of the arrays of the contract (those of C79). -/
theorem C83_contract (env : Env Evm.PrimeField.Z) (hc : env.codec = Evm.montgomery) (c : Constraints Evm.PrimeField.Z) (k b : Nat) (w g : Evm.PrimeField.Z) (p : Bytes)
    (args : List (Nat × Int)) (P : Contents) (x : Challenges Evm.PrimeField.Z) (h : Accepts env c k b w g p args P x) (proof : Evm.StarkVerifier.StarkProof)
    (hP : Evm.StarkVerifier.Encodes proof P) : proofJson env P = contractJson proof := by
  obtain ⟨d, _, hs⟩ := h.sized
  have words : ∀ l : List U256, Reduced l → l.map (wordJson env) = (l.map U256.toNat).map fun v => Json.bytes (to_be_bytes 32 v) := by
    intro l hl
    rw [List.map_map]
    exact List.map_congr_left fun u hu => contract_word env hc u (hl u hu)
  have rows : ∀ l : List (List U256), (∀ r ∈ l, Reduced r) → Reduced l.flatten := by
    intro l hl u hu
    obtain ⟨r, hr, hu⟩ := List.mem_flatten.1 hu
    exact hl r hr u hu
  unfold proofJson contractJson
  dsimp only
  rw [hP.trace_root, hP.constraint_root, hP.trace_values, hP.constraint_values, hP.fri_roots, hP.last_layer, hP.nonce, hP.trace_rows, hP.trace_hashes, hP.constraint_rows,
    hP.constraint_hashes, hP.fri_values, hP.fri_hashes, ← words _ hs.trace_values.2, ← words _ hs.constraint_values.2, ← words _ hs.last_layer.2,
    ← words _ (rows _ fun r hr => (hs.trace_rows.2 r hr).2), ← words _ (rows _ fun r hr => (hs.constraint_rows.2 r hr).2)]
  simp only [List.map_map, Function.comp_def]
  have : (P.fri.map fun l => Json.Value.arr (l.values.map (wordJson env))) = P.fri.map fun l => Json.Value.arr (l.values.map fun u => Json.bytes (to_be_bytes 32 u.toNat)) := by
    refine List.map_congr_left fun l hl => ?_
    rw [words _ ((hs.fri.2 l hl).2.1), List.map_map]
    rfl
  rw [this]

namespace Small
open OpenZKP.Props.Small

theorem coin_end (seed : Bytes) (xs : List Bytes) (y : Bytes) : Accept.coin env.K seed (xs ++ [y]) = ⟨K.hash [], 0⟩ := by
  unfold Accept.coin
  rw [List.foldl_append]
  rfl

theorem perm_twice {l : List Nat} {a : Nat} (h : l.Perm [a, a]) : l = [a, a] := (List.perm_replicate (n := 2)).1 h

theorem queries_eq (w g : Z) (p : Bytes) (args : List (Nat × Int)) (P : Contents) (x : Challenges Z) (h : Accepts env c 1 1 w g p args P x) : x.queries = [2, 2] := by
  have h1 := h.drawn.queries.2
  rw [coin_end] at h1
  have : (List.range c.num_queries).map (queryWord env.K ⟨K.hash [], 0⟩ (1 + 1)) = [2, 2] := by decide +kernel
  rw [this] at h1
  exact perm_twice h1

-- all arrays of the proof of the small system are filled
theorem filled : ∃ p w g args P x, Stark.verify env c p = .ok () ∧ Accepts env c 1 1 w g p args P x ∧ P.Counted c.fri_layout (1 + 1) x.queries ∧ P.Filled ∧ P.LayersFilled := by
  obtain ⟨p, _, h⟩ := proved
  obtain ⟨w, g, args, P, x, h1, h2, h3, h4⟩ := C82_accepts env root_ok root_compat search_ok c 1 1 (by norm_num) rfl rfl (by decide) (by decide) p h
  refine ⟨p, w, g, args, P, x, h, h3, h4, ?_⟩
  have hx := queries_eq w g p args P x h3
  rw [hx] at h4
  have size : ∀ root hashes, Enough (2 ^ (1 + 1)) root hashes [2, 2] → hashes ≠ [] := by
    intro root hashes he
    have e1 : Merkle.proof_size (⟨2 ^ (1 + 1), root⟩ : Merkle.Commitment Bytes) [2, 2] = Merkle.proof_size (⟨2 ^ (1 + 1), []⟩ : Merkle.Commitment Bytes) [2, 2] := rfl
    have e2 : Merkle.proof_size (⟨2 ^ (1 + 1), []⟩ : Merkle.Commitment Bytes) [2, 2] = .ok 2 := by decide +kernel
    unfold Enough at he
    rw [e1, e2] at he
    rintro rfl
    cases he
  obtain ⟨d, hd, hs⟩ := h3.sized
  have : c.degree = some 1 := by decide +kernel
  rw [this] at hd
  cases hd
  have ne : ∀ {α : Type} {l : List α} {n : Nat}, l.length = n → 0 < n → l ≠ [] := by
    rintro α l n hl hn rfl
    rw [← hl] at hn
    exact absurd hn (by simp)
  have flat : ∀ {l : List (List U256)} {n m : Nat}, l.length = n → 0 < n → (∀ r ∈ l, r.length = m) → 0 < m → l.flatten ≠ [] := by
    intro l n m hl hn hr hm he
    cases l with
    | nil => exact ne hl hn rfl
    | cons a l => exact ne (hr a (by simp)) hm (List.flatten_eq_nil_iff.1 he a (by simp))
  have hargs : 0 < args.length := List.length_pos_of_mem ((h3.args_all (0, 0)).2 ⟨e1, by simp [c], by simp [e1, Occurs]⟩)
  have hw : 0 < Merkle.next_power_of_two 1 := by decide
  refine ⟨⟨ne hs.trace_values.1 hargs, ne hs.constraint_values.1 hw, ne hs.fri.1 (by decide), ne hs.last_layer.1 (by decide), flat hs.trace_rows.1 (by decide) (fun r hr => (hs.trace_rows.2 r hr).1)
    (by decide), size _ _ h4.trace, flat hs.constraint_rows.1 (by decide) (fun r hr => (hs.constraint_rows.2 r hr).1) hw, size _ _ h4.constraint⟩, ?_⟩
  obtain ⟨f, -, hf⟩ := h3.fri
  have hl := hs.fri.1
  have hc := h4.fri
  rw [hx] at hf
  have e : c.fri_layout = [1] := rfl
  rw [e] at hl hf hc
  obtain ⟨l, hl⟩ := List.length_eq_one_iff.1 hl
  rw [hl] at hf hc
  intro l' hl'
  rw [hl] at hl'
  rw [List.mem_singleton.1 hl']
  have one : ∀ J : List Nat, J.Pairwise (· < ·) → (∀ j, j ∈ J ↔ ∃ q ∈ [2, 2], j = q / 2 ^ 1) → J = [1] := by
    intro J h1 h2
    have h2' : ∀ j, j ∈ J ↔ j = 1 := by
      intro j
      rw [h2]
      simp
    match J, h1, h2' with
    | [], _, h => exact absurd ((h 1).2 rfl) (by simp)
    | [a], _, h => rw [(h a).1 (by simp)]
    | a :: a' :: J, h1, h =>
      have e1 := (h a).1 (by simp)
      have e2 := (h a').1 (by simp)
      have := (List.pairwise_cons.1 h1).1 a' (by simp)
      omega
  constructor
  · cases ha : x.folds with
    | nil => rw [ha] at hf; exact hf.elim
    | cons a as =>
      rw [ha] at hf
      obtain ⟨V, J, h1, h2, -, h3, -⟩ := hf
      rw [one J h1 h2] at h3
      intro h0
      rw [h0] at h3
      have := congrArg List.length h3
      rw [List.length_map, List.length_map] at this
      revert this
      decide
  · obtain ⟨J, h1, h2, h3, -⟩ := hc
    rw [one J h1 h2] at h3
    intro h0
    rw [h0] at h3
    have e1 : Merkle.proof_size (⟨2 ^ (1 + 1 - 1), l.root⟩ : Merkle.Commitment Bytes) [1] = Merkle.proof_size (⟨2 ^ (1 + 1 - 1), []⟩ : Merkle.Commitment Bytes) [1] := rfl
    have e2 : Merkle.proof_size (⟨2 ^ (1 + 1 - 1), []⟩ : Merkle.Commitment Bytes) [1] = .ok 1 := by decide +kernel
    unfold Enough at h3
    rw [e1, e2] at h3
    cases h3

example : ∃ p P out, Stark.verify env c p = .ok () ∧ serialize env c p [] = .ok out ∧ Json.Text (proofJson env P) (('{' :: out) ++ ['}']) := by
  obtain ⟨p, w, g, args, P, x, h, h1, h2, h3, h4⟩ := filled
  obtain ⟨out, h5, h6⟩ := C83_json_partial env search_ok c 1 1 (by norm_num) rfl rfl (by decide) (by decide) (Or.inl (by decide)) w g p args P x h1 h2 h3 h4 []
  exact ⟨p, P, out, h, h5, h6⟩

/-- the system, without queries -/
def c0 : Constraints Z := { c with num_queries := 0 }

theorem system_ok0 : SystemOk c0 tr := { system_ok with queries := by decide, layout_ne := Or.inl (by decide), degree := system_ok.degree }

theorem graph_ok0 : GraphOk env o c0 65536 T [28784, 28784, 28784, 28784] := graph_ok

theorem run0 : (match commitPhase env o c0 tr with
    | .ok s => decide (s.1.constraint_coefficients = [28784, 28784, 28784, 28784] ∧ s.1.oods_point = 28784)
    | .error _ => false) = true := by decide +kernel

theorem proved0 : ∃ p, Stark.verify env c0 p = .ok () := by
  have hr := run0
  cases h : commitPhase env o c0 tr with
  | error e => rw [h] at hr; cases hr
  | ok s =>
    rw [h] at hr
    obtain ⟨h1, h2⟩ := of_decide_eq_true hr
    suffices H : ∃ p, prove env o c0 tr = .ok p ∧ Stark.verify env c0 p = .ok () from ⟨_, H.choose_spec.2⟩
    refine C50_complete env root_ok root_compat (by decide +kernel) ?_ o ?_ c0 tr system_ok0 256 (by decide +kernel) 65536 (by decide +kernel) T columns satisfies ?_ s.1 s.2 h
      (by rw [h1]; exact graph_ok0) ?_
    · intro l n z hz
      obtain ⟨h3, h4, -⟩ := List.findIdx?_eq_some_iff_getElem.1 hz
      rw [List.getElem?_eq_getElem h3]
      simpa using h4
    · intro ch n hn
      cases hn
      norm_num
    · intro x hx e he
      have hx := point_ne x hx
      simp only [c0, c, List.mem_cons, List.not_mem_nil, or_false] at he
      rcases he with rfl | rfl
      · rw [show constraintValue c0 65536 T _ e1 = constraintValue c 65536 T _ e1 from rfl, value1, if_neg]
        · simp
        · intro h0
          rw [sub_eq_zero.1 h0] at hx
          revert hx
          decide +kernel
      · rw [show constraintValue c0 65536 T _ e2 = constraintValue c 65536 T _ e2 from rfl, value2, if_neg]
        · simp
        · intro h0
          rw [show x ^ 4 = (x ^ 2) ^ 2 by ring, sub_eq_zero.1 h0] at hx
          revert hx
          decide +kernel
    · rw [h2]
      refine ⟨fun x hx => ⟨fun e he i j hij => ?_, fun d hd => ?_⟩, fun e he => ?_⟩
      · have hx := point_ne x hx
        rintro rfl
        have hj : j = 0 ∨ j = 1 := by
          simp only [c0, c, List.mem_cons, List.not_mem_nil, or_false] at he
          rcases he with rfl | rfl <;> simp [e1, e2, Occurs] at hij <;> omega
        rcases hj with rfl | rfl
        · revert hx; decide +kernel
        · revert hx; decide +kernel
      · have hx := point_ne x hx
        have : c0.degree = some 1 := by decide +kernel
        rw [this] at hd
        cases hd
        rintro rfl
        revert hx
        decide +kernel
      · simp only [c0, c, List.mem_cons, List.not_mem_nil, or_false] at he
        rcases he with rfl | rfl
        · rw [show constraintValue c0 65536 T _ e1 = constraintValue c 65536 T _ e1 from rfl, value1, if_neg (by decide +kernel)]; simp
        · rw [show constraintValue c0 65536 T _ e2 = constraintValue c 65536 T _ e2 from rfl, value2, if_neg (by decide +kernel)]; simp

-- a proof with empty arrays: that of the system without queries
example : ∃ p w g args P x, Accepts env c0 1 1 w g p args P x ∧ P.Counted c0.fri_layout (1 + 1) x.queries ∧ ¬ P.Filled := by
  obtain ⟨p, h⟩ := proved0
  obtain ⟨w, g, args, P, x, h1, h2, h3, h4⟩ := C82_accepts env root_ok root_compat search_ok c0 1 1 (by norm_num) rfl rfl (by decide) (by decide) p h
  refine ⟨p, w, g, args, P, x, h3, h4, fun hf => ?_⟩
  obtain ⟨d, _, hs⟩ := h3.sized
  have := List.length_eq_zero_iff.1 hs.trace_rows.1
  exact hf.trace_rows (by rw [this]; rfl)

end Small
end Props
end OpenZKP
