import Verif.Field.Rand
import Verif.Props.Encoding
import Verif.Props.FieldIso
import Mathlib.Data.Set.Finite.List

/-!
# Random field elements: C91
-/

namespace OpenZKP.Props.FieldRandom
open OpenZKP U256 PF OpenZKP.Props

/-! ## Lemmas -/

theorem finite_U256 : Finite U256 := by
  refine Finite.of_injective (fun x : U256 => (⟨x.toNat, toNat_lt x⟩ : Fin (2 ^ 256))) ?_
  intro x y h
  exact toNat_inj (congrArg Fin.val h)

/-- all sequences of `m` words -/
def Words (m : Nat) : Set (List U256) := {ws | ws.length = m}

theorem words_finite (m : Nat) : (Words m).Finite := by
  have := finite_U256
  exact List.finite_length_eq U256 m

/-- a sampler that consumes words until one is accepted, and whose results are equally likely for one word, has equally likely results for any
number of words -/
theorem counts_equal {α : Type} (f : List U256 → Option α) (h0 : f [] = none) (hs : ∀ w ws, f (w :: ws) = (f [w]).or (f ws)) (S : Set α)
    (n : Nat) (h1 : ∀ v ∈ S, {w | f [w] = some v}.ncard = n) (m : Nat) :
    ∃ N, ∀ v ∈ S, {ws ∈ Words m | f ws = some v}.ncard = N := by
  have := finite_U256
  induction m with
  | zero =>
    refine ⟨0, fun v _ => ?_⟩
    rw [Set.ncard_eq_zero ((words_finite 0).subset fun _ h => h.1)]
    ext ws
    simp only [Words, List.length_eq_zero_iff, Set.mem_setOf_eq, Set.mem_empty_iff_false, iff_false, not_and]
    rintro rfl h
    rw [h0] at h; cases h
  | succ m ih =>
    obtain ⟨N, hN⟩ := ih
    refine ⟨n * (Words m).ncard + {w | f [w] = none}.ncard * N, fun v hv => ?_⟩
    have hinj : Function.Injective fun q : U256 × List U256 => q.1 :: q.2 := by
      intro a b h
      simp only [List.cons.injEq] at h
      exact Prod.ext h.1 h.2
    have hset : {ws ∈ Words (m + 1) | f ws = some v} =
        (fun q : U256 × List U256 => q.1 :: q.2) '' ({w | f [w] = some v} ×ˢ Words m ∪ {w | f [w] = none} ×ˢ {ws ∈ Words m | f ws = some v}) := by
      ext ws
      constructor
      · rintro ⟨hl, he⟩
        cases ws with
        | nil => cases hl
        | cons w ws =>
          have hl' : ws.length = m := by simpa [Words] using hl
          rw [hs] at he
          refine ⟨(w, ws), ?_, rfl⟩
          cases hw : f [w] with
          | none =>
            rw [hw, Option.none_or] at he
            exact Or.inr ⟨hw, hl', he⟩
          | some u =>
            rw [hw, Option.some_or] at he
            cases he
            exact Or.inl ⟨hw, hl'⟩
      · rintro ⟨⟨w, ws⟩, hq, rfl⟩
        rcases hq with ⟨hw, hl⟩ | ⟨hw, hl, he⟩
        · refine ⟨?_, ?_⟩
          · show (w :: ws).length = m + 1
            rw [List.length_cons, show ws.length = m from hl]
          · show f (w :: ws) = some v
            rw [hs, show f [w] = some v from hw]; rfl
        · refine ⟨?_, ?_⟩
          · show (w :: ws).length = m + 1
            rw [List.length_cons, show ws.length = m from hl]
          · show f (w :: ws) = some v
            rw [hs, show f [w] = none from hw, Option.none_or]; exact he
    have hfin : ∀ s : Set U256, s.Finite := fun s => Set.toFinite s
    rw [hset, Set.ncard_image_of_injective _ hinj, Set.ncard_union_eq ?_ ((hfin _).prod (words_finite m))
      ((hfin _).prod ((words_finite m).subset fun _ h => h.1)), Set.ncard_prod, Set.ncard_prod, h1 v hv, hN v hv]
    rw [Set.disjoint_left]
    rintro ⟨w, ws⟩ ⟨h2, -⟩ ⟨h3, -⟩
    have h2 : f [w] = some v := h2
    have h3 : f [w] = none := h3
    rw [h2] at h3; cases h3

theorem sample_eq (P : Params) (h : FieldOK P) (dbg : Bool) (ws : List U256) : sample P dbg ws = (Uniform.new ZERO P.modulus).sample ws := by
  have hp : ZERO.toNat < P.modulus.toNat := h.prime.pos
  have hu := C58_half_open ZERO P.modulus hp
  unfold sample
  induction ws with
  | nil => rw [hu.no_word]; rfl
  | cons w ws ih =>
    rw [hu.step w ws]
    cases hw : (Uniform.new ZERO P.modulus).sample [w] with
    | none => rw [Option.none_or]; exact ih
    | some v =>
      rw [Option.some_or, Option.bind_some, ofMontgomery]
      have hlt : lt v P.modulus = true := by
        rw [lt_iff]; exact (hu.in_range w v hw).2
      simp [hlt]

/-! ## C91 -/

/-- C91: a random field element never trips the assertion of the debug profile, is a reduced field element, and every residue modulo the prime is the
result of equally many sequences of words of the random source, whatever the number of words drawn. -/
theorem C91_uniform (P : Params) (h : FieldOK P) (dbg : Bool) :
    (∀ ws x, sample P dbg ws = some x → Canon P x) ∧
    ∀ m, ∃ N, ∀ r : ZMod P.modulus.toNat, {ws : List U256 | ws.length = m ∧ ∃ x, sample P dbg ws = some x ∧ (nat P x : ZMod P.modulus.toNat) = r}.ncard = N := by
  have hp : ZERO.toNat < P.modulus.toNat := h.prime.pos
  have hu := C58_half_open ZERO P.modulus hp
  have hcanon : ∀ ws x, sample P dbg ws = some x → Canon P x := by
    intro ws x hx
    rw [sample_eq P h] at hx
    induction ws with
    | nil => rw [hu.no_word] at hx; cases hx
    | cons w ws ih =>
      rw [hu.step] at hx
      cases hw : (Uniform.new ZERO P.modulus).sample [w] with
      | none => rw [hw, Option.none_or] at hx; exact ih hx
      | some v => rw [hw, Option.some_or] at hx; cases hx; exact (hu.in_range w _ hw).2
  refine ⟨hcanon, fun m => ?_⟩
  obtain ⟨f, hf, -⟩ := C13_field_iso P h
  obtain ⟨n, -, hn⟩ := hu.uniform
  obtain ⟨N, hN⟩ := counts_equal (sample P dbg) (by rw [sample_eq P h]; exact hu.no_word)
    (fun w ws => by rw [sample_eq P h, sample_eq P h, sample_eq P h]; exact hu.step w ws) {v | Canon P v} n
    (fun v hv => by
      rw [show {w | sample P dbg [w] = some v} = {w | (Uniform.new ZERO P.modulus).sample [w] = some v} by ext w; simp [sample_eq P h]]
      exact hn v (Nat.zero_le _) hv) m
  refine ⟨N, fun r => ?_⟩
  have e : {ws : List U256 | ws.length = m ∧ ∃ x, sample P dbg ws = some x ∧ (nat P x : ZMod P.modulus.toNat) = r} =
      {ws ∈ Words m | sample P dbg ws = some (f.symm r).1} := by
    ext ws
    constructor
    · rintro ⟨h1, x, h2, h3⟩
      refine ⟨h1, ?_⟩
      have : f ⟨x, hcanon ws x h2⟩ = r := (hf _).trans h3
      rw [h2, show f.symm r = ⟨x, hcanon ws x h2⟩ from (Equiv.symm_apply_eq f).2 this.symm]
    · rintro ⟨h1, h2⟩
      exact ⟨h1, _, h2, by rw [← hf (f.symm r), Equiv.apply_symm_apply]⟩
  rw [e]
  exact hN _ (f.symm r).2

/-- C91: each word is accepted with probability at least one half, so the draw ends: of the sequences of `m` words at most the fraction `2^-m` gives no
element. -/
theorem C91_ends (P : Params) (h : FieldOK P) (dbg : Bool) (m : Nat) :
    {ws : List U256 | ws.length = m ∧ sample P dbg ws = none}.ncard * 2 ^ m ≤ (2 ^ 256) ^ m := by
  have hp : ZERO.toNat < P.modulus.toNat := h.prime.pos
  have hu := C58_half_open ZERO P.modulus hp
  have := finite_U256
  have hall : (Set.univ : Set U256).ncard = 2 ^ 256 := by
    have e : (Set.univ : Set U256) = {w : U256 | 0 ≤ w.toNat ∧ w.toNat < 2 ^ 256} := by
      ext w
      exact ⟨fun _ => ⟨Nat.zero_le _, toNat_lt w⟩, fun _ => trivial⟩
    rw [e, ncard_interval 0 (2 ^ 256) (le_refl _), Nat.sub_zero]
  have hrej : {w | sample P dbg [w] = none}.ncard * 2 ≤ 2 ^ 256 := by
    have h1 : {w | sample P dbg [w] = none} = {w | ((Uniform.new ZERO P.modulus).sample [w]).isSome}ᶜ := by
      ext w
      simp [sample_eq P h]
    have h2 := Set.ncard_add_ncard_compl {w | ((Uniform.new ZERO P.modulus).sample [w]).isSome}
    rw [← Set.ncard_univ, hall] at h2
    have h3 := hu.accepts
    rw [h1]
    have h4 : 2 ^ 256 = 2 ^ 255 * 2 := (pow_succ 2 255)
    rw [h4] at h2 ⊢
    generalize 2 ^ 255 = B at h2 h3 ⊢
    omega
  generalize 2 ^ 256 = B at hrej
  have hset : {ws : List U256 | ws.length = m ∧ sample P dbg ws = none} = {ws | ws.length = m ∧ ∀ w ∈ ws, sample P dbg [w] = none} := by
    ext ws
    simp only [Set.mem_setOf_eq, and_congr_right_iff]
    intro _
    clear * - hu h
    induction ws with
    | nil => simp [sample_eq P h, hu.no_word]
    | cons w ws ih =>
      have e : sample P dbg (w :: ws) = (sample P dbg [w]).or (sample P dbg ws) := by
        rw [sample_eq P h, sample_eq P h, sample_eq P h]; exact hu.step w ws
      rw [e, Option.or_eq_none_iff, ih]
      simp
  rw [hset]
  clear hset hall
  induction m with
  | zero =>
    have : {ws : List U256 | ws.length = 0 ∧ ∀ w ∈ ws, sample P dbg [w] = none} = {[]} := by
      ext ws
      simp only [List.length_eq_zero_iff, Set.mem_setOf_eq, Set.mem_singleton_iff, and_iff_left_iff_imp]
      rintro rfl w hw
      simp at hw
    rw [this]
    simp
  | succ m ih =>
    have hinj : Function.Injective fun q : U256 × List U256 => q.1 :: q.2 := by
      intro a b h
      simp only [List.cons.injEq] at h
      exact Prod.ext h.1 h.2
    have e : {ws : List U256 | ws.length = m + 1 ∧ ∀ w ∈ ws, sample P dbg [w] = none} = (fun q : U256 × List U256 => q.1 :: q.2) ''
        ({w | sample P dbg [w] = none} ×ˢ {ws | ws.length = m ∧ ∀ w ∈ ws, sample P dbg [w] = none}) := by
      ext ws
      constructor
      · rintro ⟨h1, h2⟩
        cases ws with
        | nil => cases h1
        | cons w ws =>
          exact ⟨(w, ws), ⟨h2 w List.mem_cons_self, by simpa using h1, fun v hv => h2 v (List.mem_cons_of_mem _ hv)⟩, rfl⟩
      · rintro ⟨⟨w, ws⟩, ⟨h1, h2, h3⟩, rfl⟩
        refine ⟨by simpa using h2, fun v hv => ?_⟩
        rcases List.mem_cons.1 hv with rfl | hv
        · exact h1
        · exact h3 v hv
    rw [e, Set.ncard_image_of_injective _ hinj, Set.ncard_prod, pow_succ, pow_succ]
    calc _ = ({ws : List U256 | ws.length = m ∧ ∀ w ∈ ws, sample P dbg [w] = none}.ncard * 2 ^ m) * ({w | sample P dbg [w] = none}.ncard * 2) := by ring
      _ ≤ _ := Nat.mul_le_mul ih hrej

/-! ## Examples -/

-- both fields meet the hypothesis
example : FieldOK BASE ∧ FieldOK SCALAR := C13_instances

-- a draw: the first word is rejected (its top bits are too large), the second accepted
example : sample BASE true [MAX, ⟨7, 0, 0, 0x0800000000000000⟩] = some ⟨0, 0, 0, 0x0080000000000000⟩ := by decide +kernel

end OpenZKP.Props.FieldRandom
