import Verif.Evm.GenerateLemmas

/-!
# Lemmas on the generator of contracts: what the expressions evaluate to
-/

namespace OpenZKP
namespace Evm
namespace Generate
open Stark PrimeField OpenZKP.Props Polynomial

/-- evaluated in a memory that agrees with `m0` below `B`, this leaves everything below `p` alone, and gives a word for `v` -/
def Sees (p B : Nat) (data : List Nat) (m0 : Mem) (y : Yul) (v : Z) : Prop :=
  ∀ m : Mem, (∀ q < B, m q = m0 q) → (∀ q < p, (eval p data y m).1 q = m q) ∧ (eval p data y m).2 ≤ MODULUS ∧ ((eval p data y m).2 : Z) = v

theorem Sees.mono {p B B' : Nat} {data : List Nat} {m0 m0' : Mem} {y : Yul} {v : Z} (h : Sees p B data m0 y v) (hB : B ≤ B') (hm : ∀ q < B, m0' q = m0 q) : Sees p B' data m0' y v :=
  fun m hq => h m fun q hlt => (hq q (by omega)).trans (hm q hlt)

theorem expmod_spec (p base n : Nat) (m : Mem) (hp : 0 < p) (h0 : m 0 = MODULUS) :
    (∀ q < p, (expmod p base n m).1 q = m q) ∧ (expmod p base n m).2 = modexp base n MODULUS := by
  have h1 : ∀ k : Nat, ¬ (0 : Nat) = p + k := by omega
  have h2 : ¬ (0 : Nat) = p := by omega
  constructor
  · intro q hq
    have h3 : ∀ k : Nat, ¬ q = p + k := by omega
    have h4 : ¬ q = p := by omega
    unfold expmod
    simp only [Mem.store, h3, h4, if_false]
  · unfold expmod
    simp [Mem.store, h1, h2, h0]

section
variable {p B : Nat} {data : List Nat} {m0 : Mem} (hB : 0 < B) (hp : B ≤ p) (h0 : m0 0 = MODULUS)
include hB hp h0

theorem Sees.zero {y : Yul} {v : Z} (h : Sees p B data m0 y v) (m : Mem) (hm : ∀ q < B, m q = m0 q) : (eval p data y m).1 0 = MODULUS := by
  rw [(h m hm).1 0 (by omega), hm 0 hB, h0]

theorem Sees.agree {y : Yul} {v : Z} (h : Sees p B data m0 y v) (m : Mem) (hm : ∀ q < B, m q = m0 q) : ∀ q < B, (eval p data y m).1 q = m0 q := fun q hq => by
  rw [(h m hm).1 q (by omega), hm q hq]

theorem Sees.addmod {a b : Yul} {v w : Z} (ha : Sees p B data m0 a v) (hb : Sees p B data m0 b w) : Sees p B data m0 (.addmod a b) (v + w) := by
  intro m hm
  have hb' := hb m hm
  have ha' := ha _ (hb.agree hB hp h0 m hm)
  unfold eval
  simp only
  refine ⟨fun q hq => (ha'.1 q hq).trans (hb'.1 q hq), ?_⟩
  rw [hm 0 hB, h0]
  refine ⟨(addmod_lt _ _).le, ?_⟩
  rw [addmod_cast, ha'.2.2, hb'.2.2]

theorem Sees.mulmod {a b : Yul} {v w : Z} (ha : Sees p B data m0 a v) (hb : Sees p B data m0 b w) : Sees p B data m0 (.mulmod a b) (v * w) := by
  intro m hm
  have hb' := hb m hm
  have ha' := ha _ (hb.agree hB hp h0 m hm)
  unfold eval
  simp only
  refine ⟨fun q hq => (ha'.1 q hq).trans (hb'.1 q hq), ?_⟩
  rw [hm 0 hB, h0]
  refine ⟨(mulmod_lt _ _).le, ?_⟩
  rw [mulmod_cast, ha'.2.2, hb'.2.2]

theorem Sees.sub {a : Yul} {v : Z} (ha : Sees p B data m0 a v) : Sees p B data m0 (.sub a) (-v) := by
  intro m hm
  have ha' := ha m hm
  have hz := ha.zero hB hp h0 m hm
  unfold eval
  simp only
  refine ⟨ha'.1, ?_⟩
  rw [hz, wsub_le _ _ (by have := modulus_lt; omega) ha'.2.1]
  refine ⟨Nat.sub_le _ _, ?_⟩
  rw [Nat.cast_sub ha'.2.1, ha'.2.2, ZMod.natCast_self, zero_sub]

theorem small_cast (x n : Nat) : ∀ r : Nat, r ≤ MODULUS → (List.range n).foldl (fun result _ => Evm.mulmod result x MODULUS) r ≤ MODULUS ∧
    (((List.range n).foldl (fun result _ => Evm.mulmod result x MODULUS) r : Nat) : Z) = r * (x : Z) ^ n := by
  clear hB hp h0
  intro r hr
  induction n with
  | zero => simp [hr]
  | succ n ih =>
    rw [List.range_succ, List.foldl_append, List.foldl_cons, List.foldl_nil]
    refine ⟨(mulmod_lt _ _).le, ?_⟩
    rw [mulmod_cast, ih.2, pow_succ]
    ring

theorem Sees.lit (n : Nat) (hn : n ≤ MODULUS) : Sees p B data m0 (.lit n) (n : Z) := fun m hm => ⟨fun q hq => rfl, hn, rfl⟩

theorem Sees.power {a y : Yul} {v : Z} (k : Nat) (oa : Option Yul) (hoa : ∀ a, oa = some a → Sees p B data m0 a v) (hy : encodePower k oa = some y) : Sees p B data m0 y (v ^ k) := by
  unfold encodePower at hy
  split at hy
  · next h => cases hy; subst h; rw [pow_zero]; simpa using Sees.lit hB hp h0 1 modulus_pos
  split at hy
  · next h => subst h; rw [pow_one]; exact hoa y hy
  split at hy
  · next h =>
    subst h
    obtain ⟨a, ha, rfl⟩ := Option.map_eq_some_iff.1 hy
    intro m hm
    have ha' := hoa a ha m hm
    have hz := (hoa a ha).zero hB hp h0 m hm
    unfold eval
    simp only
    refine ⟨ha'.1, ?_⟩
    rw [hz]
    refine ⟨(mulmod_lt _ _).le, ?_⟩
    rw [mulmod_cast, ha'.2.2]
    ring
  split at hy
  · next h =>
    subst h
    obtain ⟨a, ha, rfl⟩ := Option.map_eq_some_iff.1 hy
    intro m hm
    have ha' := hoa a ha m hm
    have hz := (hoa a ha).zero hB hp h0 m hm
    unfold eval
    simp only
    refine ⟨ha'.1, ?_⟩
    rw [hz]
    refine ⟨(mulmod_lt _ _).le, ?_⟩
    rw [mulmod_cast, mulmod_cast, ha'.2.2]
    ring
  split at hy
  · next h =>
    subst h
    obtain ⟨a, ha, rfl⟩ := Option.map_eq_some_iff.1 hy
    intro m hm
    have ha' := hoa a ha m hm
    have hz := (hoa a ha).zero hB hp h0 m hm
    unfold eval
    simp only
    refine ⟨ha'.1, ?_⟩
    rw [hz]
    refine ⟨(mulmod_lt _ _).le, ?_⟩
    rw [mulmod_cast, mulmod_cast, ha'.2.2]
    ring
  split at hy
  · obtain ⟨a, ha, rfl⟩ := Option.map_eq_some_iff.1 hy
    intro m hm
    have ha' := hoa a ha m hm
    have hz := (hoa a ha).zero hB hp h0 m hm
    unfold eval
    simp only
    refine ⟨ha'.1, ?_⟩
    rw [hz]
    have := small_cast hB hp h0 (eval p data a m).2 k 1 modulus_pos
    refine ⟨this.1, ?_⟩
    rw [this.2, ha'.2.2, Nat.cast_one, one_mul]
  · obtain ⟨a, ha, rfl⟩ := Option.map_eq_some_iff.1 hy
    intro m hm
    have ha' := hoa a ha m hm
    have hz := (hoa a ha).zero hB hp h0 m hm
    unfold eval
    simp only
    have := expmod_spec p (eval p data a m).2 k _ (by omega) hz
    refine ⟨fun q hq => (this.1 q hq).trans (ha'.1 q hq), ?_⟩
    rw [this.2]
    refine ⟨(modexp_lt _ _).le, ?_⟩
    rw [modexp_cast, ha'.2.2]

/-- the code written for an expression evaluates to its value, if what the map has for expressions does -/
theorem encode_sound (claims : Nat → Option Z[X]) (x : Z) (trace : Nat → Int → Option Z) (key : E → Nat) (mp : List (E × Yul)) (T : E → Prop) (hT : ∀ e f, T e → Part e f → T f)
    (hmp : ∀ e v y, T e → claimValue claims x trace e = some v → mapGet key e mp = some y → Sees p B data m0 y v) (e : E) :
    (∀ v y, T e → claimValue claims x trace e = some v → encode key mp e none = some y → Sees p B data m0 y v) ∧
    (∀ k v y, T (.Exp e k) → claimValue claims x trace e = some v → encode key mp e (some k) = some y → Sees p B data m0 y (v ^ k)) := by
  have orelse : ∀ (e : E) (o : Option Yul) (v : Z) (y : Yul), T e → claimValue claims x trace e = some v → (∀ y, o = some y → Sees p B data m0 y v) → orElse key mp e o = some y →
      Sees p B data m0 y v := by
    intro e o v y hTe hv ho hy
    unfold orElse at hy
    split at hy
    · next s hs => cases hy; exact hmp e v _ hTe hv hs
    · exact ho y hy
  have both : ∀ (e : E) (o : Option Yul), (∀ k, encode key mp e k = raise (orElse key mp e o) k) → (∀ v y, T e → claimValue claims x trace e = some v → o = some y → Sees p B data m0 y v) →
      (∀ v y, T e → claimValue claims x trace e = some v → encode key mp e none = some y → Sees p B data m0 y v) ∧
      (∀ k v y, T (.Exp e k) → claimValue claims x trace e = some v → encode key mp e (some k) = some y → Sees p B data m0 y (v ^ k)) := by
    intro e o he ho
    constructor
    · intro v y hTe hv hy
      rw [he] at hy
      exact orelse e o v y hTe hv (fun y h => ho v y hTe hv h) hy
    · intro k v y hTe hv hy
      rw [he] at hy
      have hTe' := hT _ _ hTe Part.self.exp
      exact Sees.power hB hp h0 (a := y) k _ (fun a ha => orelse e o v a hTe' hv (fun y h => ho v y hTe' hv h) ha) hy
  induction e with
  | X => exact both _ none (fun k => by rw [encode]) (by simp)
  | Constant c =>
    refine both _ (some (.lit c.val)) (fun k => by rw [encode]) ?_
    intro v y _ hv hy
    cases hy
    simp only [claimValue, Option.some.injEq] at hv
    subst hv
    have := Sees.lit (data := data) hB hp h0 c.val (ZMod.val_lt c).le
    rwa [ZMod.natCast_zmod_val] at this
  | Trace i j => exact both _ none (fun k => by rw [encode]) (by simp)
  | Polynomial q a ih => exact both _ none (fun k => by rw [encode]) (by simp)
  | ClaimPolynomial i n a name ih => exact both _ none (fun k => by rw [encode]) (by simp)
  | Inv a ih => exact both _ none (fun k => by rw [encode]) (by simp)
  | Neg a ih =>
    refine both _ _ (fun k => by rw [encode]) ?_
    intro v y hTe hv hy
    obtain ⟨s, hs, rfl⟩ := Option.map_eq_some_iff.1 hy
    simp only [claimValue] at hv
    obtain ⟨w, hw, rfl⟩ := Option.map_eq_some_iff.1 hv
    exact Sees.sub hB hp h0 (ih.1 w s (hT _ _ hTe Part.self.neg) hw hs)
  | Add a b iha ihb =>
    refine both _ _ (fun k => by rw [encode]) ?_
    intro v y hTe hv hy
    obtain ⟨s, hs, hy⟩ := Option.bind_eq_some_iff.1 hy
    obtain ⟨t, ht, rfl⟩ := Option.map_eq_some_iff.1 hy
    simp only [claimValue] at hv
    split at hv
    · next u w hu hw =>
      cases hv
      exact Sees.addmod hB hp h0 (iha.1 u s (hT _ _ hTe Part.self.addLeft) hu hs) (ihb.1 w t (hT _ _ hTe Part.self.addRight) hw ht)
    · cases hv
  | Mul a b iha ihb =>
    refine both _ _ (fun k => by rw [encode]) ?_
    intro v y hTe hv hy
    obtain ⟨s, hs, hy⟩ := Option.bind_eq_some_iff.1 hy
    obtain ⟨t, ht, rfl⟩ := Option.map_eq_some_iff.1 hy
    simp only [claimValue] at hv
    split at hv
    · next u w hu hw =>
      cases hv
      exact Sees.mulmod hB hp h0 (iha.1 u s (hT _ _ hTe Part.self.mulLeft) hu hs) (ihb.1 w t (hT _ _ hTe Part.self.mulRight) hw ht)
    · cases hv
  | Exp a f ih =>
    constructor
    · intro v y hTe hv hy
      rw [encode] at hy
      have hv' := hv
      simp only [claimValue] at hv'
      obtain ⟨w, hw, rfl⟩ := Option.map_eq_some_iff.1 hv'
      exact orelse _ _ _ y hTe hv (fun y h => ih.2 f w y hTe hw h) hy
    · intro k v y hTe hv hy
      rw [encode] at hy
      split at hy
      · simp only [claimValue] at hv
        obtain ⟨w, hw, rfl⟩ := Option.map_eq_some_iff.1 hv
        have hTe' := hT _ _ hTe Part.self.contract
        rw [← pow_mul, mul_comm]
        exact orelse (.Exp a (k * f)) _ _ y hTe' (by simp only [claimValue]; rw [hw, Option.map_some]) (fun y h => ih.2 _ w y hTe' hw h) hy
      · cases hy

end

/-- storing the values of expressions in consecutive words -/
theorem storeAll_spec {p B : Nat} {data : List Nat} {m0 : Mem} (hp : B ≤ p) :
    ∀ (l : List (Nat × Yul)) (s : Nat) (m : Mem) (v : Nat → Z), (∀ i t, l[i]? = some t → t.1 = (s + i) * 32 ∧ Sees p B data m0 t.2 (v i)) → (s + l.length) * 32 ≤ p → B ≤ s * 32 →
      (∀ q < B, m q = m0 q) →
      (∀ q < s * 32, storeAll p data l m q = m q) ∧
        ∀ i < l.length, storeAll p data l m ((s + i) * 32) ≤ MODULUS ∧ (storeAll p data l m ((s + i) * 32) : Z) = v i := by
  intro l
  induction l with
  | nil => intro s m v _ _ _ _; exact ⟨fun q hq => rfl, fun i hi => absurd hi (by simp)⟩
  | cons t l ih =>
    intro s m v hl hlen hs hm
    obtain ⟨loc, y⟩ := t
    obtain ⟨h1, h2⟩ := hl 0 _ rfl
    have h1 : loc = s * 32 := by simpa using h1
    subst h1
    have h3 := h2 m hm
    rw [List.length_cons] at hlen
    have key : ∀ q < s * 32, ((eval p data y m).1.store (s * 32) (eval p data y m).2) q = m q := by
      intro q hq
      unfold Mem.store
      rw [if_neg (by omega)]
      exact h3.1 q (by omega)
    obtain ⟨h4, h5⟩ := ih (s + 1) ((eval p data y m).1.store (s * 32) (eval p data y m).2) (fun i => v (i + 1))
      (fun i t ht => by
        have := hl (i + 1) t (by simpa using ht)
        refine ⟨by rw [this.1]; ring, this.2⟩) (by omega) (by omega)
      (fun q hq => (key q (by omega)).trans (hm q hq))
    unfold storeAll
    simp only
    refine ⟨fun q hq => (h4 q (by omega)).trans (key q hq), ?_⟩
    intro i hi
    cases i with
    | zero =>
      rw [Nat.add_zero, h4 (s * 32) (by omega)]
      unfold Mem.store
      rw [if_pos rfl]
      exact h3.2
    | succ i =>
      have := h5 i (by rw [List.length_cons] at hi; omega)
      rw [show s + (i + 1) = s + 1 + i by ring]
      exact this

/-! ## Batch inversion -/

/-- the product of the first values -/
noncomputable def prodTo (V : Nat → Z) (n : Nat) : Z := ∏ i ∈ Finset.range n, V i

theorem productLoop_spec (start n : Nat) (V : Nat → Z) (hs : 0 < start) :
    ∀ (k i gas : Nat) (m : Mem) (prod : Nat), i + k = n → k < gas → m 0 = MODULUS → (∀ j < n, (m ((start + n + j) * 32) : Z) = V j) → (prod : Z) = prodTo V i →
      (∀ j < i, (m ((start + j) * 32) : Z) = prodTo V j) →
      ∃ m' prod', productLoop ((start + n) * 32) (n * 32) gas ((start + i) * 32) m prod = some (m', prod') ∧ (∀ q, q < start * 32 ∨ (start + n) * 32 ≤ q → m' q = m q) ∧
        (∀ j < n, (m' ((start + j) * 32) : Z) = prodTo V j) ∧ (prod' : Z) = prodTo V n := by
  intro k
  induction k with
  | zero =>
    intro i gas m prod hi hg h0 hV hprod hpart
    obtain ⟨gas, rfl⟩ : ∃ g, gas = g + 1 := ⟨gas - 1, by omega⟩
    have hi : i = n := by omega
    subst hi
    refine ⟨m, prod, ?_, fun _ _ => rfl, hpart, hprod⟩
    unfold productLoop
    rw [if_neg (lt_irrefl _)]
  | succ k ih =>
    intro i gas m prod hi hg h0 hV hprod hpart
    obtain ⟨gas, rfl⟩ : ∃ g, gas = g + 1 := ⟨gas - 1, by omega⟩
    have e1 : (start + i) * 32 + n * 32 = (start + n + i) * 32 := by ring
    have h00 : (m.store ((start + i) * 32) prod) 0 = MODULUS := by
      unfold Mem.store
      rw [if_neg (by omega), h0]
    have hkeep : ∀ j, (m.store ((start + i) * 32) prod) ((start + n + j) * 32) = m ((start + n + j) * 32) := by
      intro j
      unfold Mem.store
      rw [if_neg (by omega)]
    obtain ⟨m', prod', h1, h2, h3, h4⟩ := ih (i + 1) gas (m.store ((start + i) * 32) prod)
      (Evm.mulmod prod ((m.store ((start + i) * 32) prod) ((start + i) * 32 + n * 32)) ((m.store ((start + i) * 32) prod) 0)) (by omega) (by omega) h00
      (fun j hj => by rw [hkeep, hV j hj])
      (by
        rw [h00, mulmod_cast, e1, hkeep, hV i (by omega), hprod]
        unfold prodTo
        rw [Finset.prod_range_succ])
      (fun j hj => by
        unfold Mem.store
        split
        · next hq =>
          obtain rfl : j = i := by omega
          exact hprod
        · next hq =>
          exact hpart j (by
            have : j ≠ i := fun h => hq (by rw [h])
            omega))
    refine ⟨m', prod', ?_, ?_, h3, h4⟩
    · unfold productLoop
      rw [if_pos (by omega)]
      simp only
      rw [show (start + i) * 32 + 0x20 = (start + (i + 1)) * 32 by ring]
      exact h1
    · intro q hq
      rw [h2 q hq]
      unfold Mem.store
      rw [if_neg (by omega)]

theorem inverseLoop_spec (start n : Nat) (V : Nat → Z) (hs : 0 < start) (hne : ∀ j < n, V j ≠ 0) :
    ∀ (i gas : Nat) (m : Mem) (inv : Nat), i ≤ n → i < gas → m 0 = MODULUS → (∀ j < n, (m ((start + n + j) * 32) : Z) = V j) → (inv : Z) = (prodTo V i)⁻¹ →
      (∀ j < i, (m ((start + j) * 32) : Z) = prodTo V j) →
      ∃ m', inverseLoop (start * 32) (n * 32) gas ((start + i) * 32) m inv = some m' ∧ (∀ q, q < start * 32 ∨ (start + i) * 32 ≤ q → m' q = m q) ∧
        ∀ j < i, m' ((start + j) * 32) ≤ MODULUS ∧ (m' ((start + j) * 32) : Z) = (V j)⁻¹ := by
  intro i
  induction i with
  | zero =>
    intro gas m inv hi hg h0 hV hinv hpart
    obtain ⟨gas, rfl⟩ : ∃ g, gas = g + 1 := ⟨gas - 1, by omega⟩
    refine ⟨m, ?_, fun _ _ => rfl, fun j hj => absurd hj (by omega)⟩
    unfold inverseLoop
    rw [if_neg (by omega)]
  | succ i ih =>
    intro gas m inv hi hg h0 hV hinv hpart
    obtain ⟨gas, rfl⟩ : ∃ g, gas = g + 1 := ⟨gas - 1, by omega⟩
    have e0 : (start + (i + 1)) * 32 - 0x20 = (start + i) * 32 := by omega
    have e1 : (start + i) * 32 + n * 32 = (start + n + i) * 32 := by ring
    set x := Evm.mulmod (m ((start + i) * 32)) inv (m 0) with hx
    have hxv : (x : Z) = (V i)⁻¹ := by
      rw [hx, h0, mulmod_cast, hpart i (by omega), hinv]
      unfold prodTo
      rw [Finset.prod_range_succ, mul_inv, ← mul_assoc, mul_inv_cancel₀, one_mul]
      exact Finset.prod_ne_zero_iff.2 fun j hj => hne j (by rw [Finset.mem_range] at hj; omega)
    have hxl : x ≤ MODULUS := by rw [hx, h0]; exact (mulmod_lt _ _).le
    have h00 : (m.store ((start + i) * 32) x) 0 = MODULUS := by
      unfold Mem.store
      rw [if_neg (by omega), h0]
    have hkeep : ∀ j, (m.store ((start + i) * 32) x) ((start + n + j) * 32) = m ((start + n + j) * 32) := by
      intro j
      unfold Mem.store
      rw [if_neg (by omega)]
    obtain ⟨m', h1, h2, h3⟩ := ih gas (m.store ((start + i) * 32) x) (Evm.mulmod inv ((m.store ((start + i) * 32) x) ((start + i) * 32 + n * 32)) ((m.store ((start + i) * 32) x) 0))
      (by omega) (by omega) h00 (fun j hj => by rw [hkeep, hV j hj])
      (by
        rw [h00, mulmod_cast, e1, hkeep, hV i (by omega), hinv]
        unfold prodTo
        rw [Finset.prod_range_succ, mul_inv, mul_assoc, inv_mul_cancel₀ (hne i (by omega)), mul_one])
      (fun j hj => by
        unfold Mem.store
        rw [if_neg (by omega)]
        exact hpart j (by omega))
    refine ⟨m', ?_, ?_, ?_⟩
    · unfold inverseLoop
      rw [if_pos (by omega)]
      simp only
      rw [e0, ← hx]
      exact h1
    · intro q hq
      rw [h2 q (by omega)]
      unfold Mem.store
      rw [if_neg (by omega)]
    · intro j hj
      by_cases hji : j = i
      · subst hji
        rw [h2 _ (by omega)]
        unfold Mem.store
        rw [if_pos rfl]
        exact ⟨hxl, hxv⟩
      · exact h3 j (by omega)

/-! ## The sum over the constraints -/

theorem terms_spec {p B : Nat} {data : List Nat} {m0 : Mem} (hB : 0 < B) (hp : B ≤ p) (h0 : m0 0 = MODULUS) :
    ∀ (cs : List ConstraintContext) (m : Mem) (r : Nat) (v a : Nat → Z) (loc : Nat), (∀ q < B, m q = m0 q) → r < MODULUS →
      (∀ i c, cs[i]? = some c → Sees p B data m0 c.expression (v i) ∧ Sees p B data m0 c.degree_adjustment_location (a i) ∧
        load data c.first_coefficient_location < MODULUS ∧ c.first_coefficient_location = (loc + 2 * i) * 32 ∧ c.second_coefficient_location = (loc + 2 * i + 1) * 32) →
      (cs.foldl (fun s t => addTerm p data t s) (m, r)).2 < MODULUS ∧
        ((cs.foldl (fun s t => addTerm p data t s) (m, r)).2 : Z) = r + ∑ i ∈ Finset.range cs.length, v i * (load data ((loc + 2 * i) * 32) + load data ((loc + 2 * i + 1) * 32) * a i) := by
  intro cs
  induction cs with
  | nil => intro m r v a loc _ hr _; exact ⟨hr, by simp⟩
  | cons c cs ih =>
    intro m r v a loc hm hr hcs
    obtain ⟨h1, h2, h3, h4, h5⟩ := hcs 0 c rfl
    have e1 := h1 m hm
    have g1 := h1.agree hB hp h0 m hm
    have e2 := h2 _ g1
    have g2 := h2.agree hB hp h0 _ g1
    have hz : (eval p data c.degree_adjustment_location (eval p data c.expression m).1).1 0 = MODULUS := (g2 0 hB).trans h0
    rw [List.foldl_cons]
    have hstep : addTerm p data c (m, r) = ((eval p data c.degree_adjustment_location (eval p data c.expression m).1).1,
        Evm.addmod r (Evm.mulmod (eval p data c.expression m).2 (wadd (load data c.first_coefficient_location) (Evm.mulmod (load data c.second_coefficient_location)
          (eval p data c.degree_adjustment_location (eval p data c.expression m).1).2 MODULUS)) MODULUS) MODULUS) := by
      unfold addTerm
      simp only
      rw [hz]
    rw [hstep]
    obtain ⟨h6, h7⟩ := ih (eval p data c.degree_adjustment_location (eval p data c.expression m).1).1
      (Evm.addmod r (Evm.mulmod (eval p data c.expression m).2 (wadd (load data c.first_coefficient_location) (Evm.mulmod (load data c.second_coefficient_location)
          (eval p data c.degree_adjustment_location (eval p data c.expression m).1).2 MODULUS)) MODULUS) MODULUS)
      (fun i => v (i + 1)) (fun i => a (i + 1)) (loc + 2) g2 (addmod_lt _ _)
      (fun i c' hc' => by
        obtain ⟨k1, k2, k3, k4, k5⟩ := hcs (i + 1) c' (by simpa using hc')
        exact ⟨k1, k2, k3, by rw [k4]; ring, by rw [k5]; ring⟩)
    refine ⟨h6, ?_⟩
    rw [h7, addmod_cast, mulmod_cast, wadd_lt _ _ (by
      have := modulus_lt
      have := mulmod_lt (load data c.second_coefficient_location) (eval p data c.degree_adjustment_location (eval p data c.expression m).1).2
      omega), Nat.cast_add, mulmod_cast, e1.2.2, e2.2.2, List.length_cons, Finset.sum_range_succ', h4, h5]
    simp only [Nat.mul_zero, Nat.add_zero]
    have : ∀ i, loc + 2 + 2 * i = loc + 2 * (i + 1) := fun i => by ring
    simp only [this]
    ring

end Generate
end Evm
end OpenZKP
