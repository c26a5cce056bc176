import Verif.Evm.DefaultCsLemmas
import Verif.Evm.Montgomery
import Verif.Evm.Recurrence

/-!
# C77: the contract combines the opened values as the protocol does
-/

namespace OpenZKP
namespace Props
namespace EvmDefaultCs
open Evm Evm.PrimeField Evm.Fri Evm.DefaultCs FFT Stark Stark.Accept

/-- the layout of the contract describes the trace cells `args` (column, offset) of the constraints, in this order: `layout_rows` are the offsets that occur (as powers of the
generator `g` of the trace, since an offset may be negative), `layout_col_major` has for each cell the places of its column and of its offset, in bytes -/
structure Describes (s : System) (args : List (Nat × Int)) (g : Z) : Prop where
  offsets : s.layout_rows.length = s.num_offsets
  few : s.num_offsets < 255
  cells : ∀ (k : Nat) (a : Nat × Int), args[k]? = some a → ∃ t r : Nat, s.layout_col_major[2 * k]? = some (32 * a.1) ∧ s.layout_col_major[2 * k + 1]? = some (32 * t) ∧
    s.layout_rows[t]? = some r ∧ g ^ r = g ^ a.2 ∧ a.1 < s.num_columns

/-- the generator of the domain of `2^m` points -/
def gen (m : Nat) : Z := (3 : Z) ^ ((MODULUS - 1) / 2 ^ m)

/-- a point of the evaluation domain: the one of query `q` -/
def at_query (m q : Nat) : Z := 3 * gen m ^ rev m q

/-- the opened row of query `i` -/
def row (width : Nat) (values : List Nat) (i : Nat) : List Z := (List.range width).map fun c => mont (values.getD (i * width + c) 0)

theorem row_getD (width : Nat) (values : List Nat) (i c : Nat) (h : c < width) : (row width values i).getD c 0 = mont (values.getD (i * width + c) 0) := by
  simp [row, List.getD_eq_getElem?_getD, h]

theorem neg_cast (b : Nat) (hb : b ≤ MODULUS) : ((wsub MODULUS b : Nat) : Z) = - (b : Z) := by
  rw [wsub_le _ _ (by have := modulus_lt; omega) hb, Nat.cast_sub hb, ZMod.natCast_self, zero_sub]

theorem denominators_cast (s : System) (eval : EvalX) (m p q : Nat) (hm : m < 256) (he : init_eval m = some eval) :
    (∀ t r : Nat, s.layout_rows[t]? = some r → (((denominators s eval m (from_montgomery p) q).getD t 0 : Nat) : Z) = at_query m q - (gen m ^ s.blowup) ^ r * mont p) ∧
    (((denominators s eval m (from_montgomery p) q).getD s.layout_rows.length 0 : Nat) : Z) = at_query m q - mont p ^ s.constraint_degree := by
  obtain ⟨w, hw, rfl⟩ := Option.map_eq_some_iff.1 he
  have hw3 := ((EvmField.C72_roots m 0 hm (by norm_num)).1 w hw).2.2
  have hx : ((fmul (lookup ⟨w, m, 2 ^ m % 2 ^ 64⟩ (Utils.bit_reverse q m)) GENERATOR : Nat) : Z) = at_query m q := by
    unfold fmul lookup fpow expmod
    rw [mulmod_cast, modexp_cast, hw3, (isBitRev_iff _ _ _).1 (EvmUtils.C73_bit_reverse q m hm), mul_comm, ← gen, at_query]
    exact congrArg (· * gen m ^ rev m q) (show ((GENERATOR : Nat) : Z) = 3 from rfl)
  refine ⟨?_, ?_⟩
  · intro t r ht
    unfold denominators
    have hlt : t < s.layout_rows.length := (List.getElem?_eq_some_iff.1 ht).1
    rw [List.getD_eq_getElem?_getD, List.getElem?_append_left (by simpa using hlt), List.getElem?_map, ht, Option.map_some, Option.getD_some]
    rw [addmod_cast, hx, neg_cast _ (mulmod_lt _ _).le, mulmod_cast, from_montgomery_cast]
    unfold fpow expmod
    rw [modexp_cast, modexp_cast, hw3, ← gen]
    generalize gen m = G
    generalize mont p = M
    generalize at_query m q = Y
    ring
  · unfold denominators
    rw [List.getD_eq_getElem?_getD, List.getElem?_append_right (by simp)]
    rw [List.length_map, Nat.sub_self, List.getElem?_cons_zero, Option.getD_some]
    have : fpow (from_montgomery p) s.constraint_degree ≤ MODULUS := (modexp_lt _ _).le
    rw [fsub_cast _ _ this, hx]
    unfold fpow expmod
    rw [modexp_cast, from_montgomery_cast]

section
variable (s : System) (b : Behind) (data : Data) (eval : EvalX) (oods_coefficients queries : List Nat) (oods_point m : Nat)

/-- the arrays are as long as they should be -/
structure Lengths : Prop where
  coefficients : data.trace_oods_values.length + s.constraint_degree ≤ oods_coefficients.length
  trace_values : queries.length * s.num_columns ≤ data.trace_values.length
  constraint_values : queries.length * s.constraint_degree ≤ data.constraint_values.length
  constraint_oods_values : s.constraint_degree ≤ data.constraint_oods_values.length

theorem points_cast (args : List (Nat × Int)) (hlog : data.log_trace_length + 4 = m) (hm : m < 256) (he : init_eval m = some eval)
    (hd : Describes s args (gen m ^ s.blowup)) (hargs : data.trace_oods_values.length = args.length) (hlen : Lengths s data oods_coefficients queries) :
    ∃ inverses, oods_prepare_inverses s queries eval oods_point m = some inverses ∧ ∃ results, get_polynomial_points s b data eval oods_coefficients queries oods_point = some results ∧
      results.length = queries.length ∧ (∀ v ∈ results, v < MODULUS) ∧ ∀ (i q : Nat), queries[i]? = some q → ∃ places : Nat → Nat, (∀ k < args.length, places k < s.num_offsets ∧
        ∃ r, s.layout_rows[places k]? = some r ∧ (gen m ^ s.blowup) ^ r = (gen m ^ s.blowup) ^ (args.getD k (0, 0)).2 ∧ (args.getD k (0, 0)).1 < s.num_columns) ∧
      ((results.getD i 0 : Nat) : Z) = (∑ k ∈ Finset.range args.length,
          ((data.trace_values.getD (i * s.num_columns + (args.getD k (0, 0)).1) 0 : Nat) + ((wsub MODULUS (data.trace_oods_values.getD k 0) : Nat) : Z)) *
            ((inverses.getD (i * (s.num_offsets + 1) + places k) 0 : Nat) : Z) * mont (oods_coefficients.getD k 0)) +
        ∑ j ∈ Finset.range s.constraint_degree, ((data.constraint_values.getD (i * s.constraint_degree + j) 0 : Nat) + ((wsub MODULUS (data.constraint_oods_values.getD j 0) : Nat) : Z)) *
            ((inverses.getD (i * (s.num_offsets + 1) + s.num_offsets) 0 : Nat) : Z) * mont (oods_coefficients.getD (args.length + j) 0) := by
  have hst : s.stride = s.num_offsets + 1 := Nat.mod_eq_of_lt (by have := hd.few; omega)
  obtain ⟨inverses, h1, h2, h3, -⟩ := inverses_eq s eval m oods_point queries hd.offsets hd.few
  refine ⟨inverses, h1, ?_⟩
  unfold get_polynomial_points
  rw [Nat.mod_eq_of_lt (by omega : data.log_trace_length + 4 < 256), hlog, h1, Option.bind_some]
  dsimp only
  rw [hst]
  have hin : ∀ i < queries.length, ∀ t < s.num_offsets + 1, inverses[i * (s.num_offsets + 1) + t]? = some (inverses.getD (i * (s.num_offsets + 1) + t) 0) := by
    intro i hi t ht
    have : i * (s.num_offsets + 1) + t < inverses.length := by rw [h2]; nlinarith
    rw [List.getD_eq_getElem?_getD, List.getElem?_eq_getElem this, Option.getD_some]
  rw [mapM_range _ _ queries.length (fun i hi => by
    rw [hin i hi _ (Nat.lt_succ_self _), Option.bind_some]
    exact constraintTerms_eq s data _ _ i _ (by rw [List.length_map]; exact hlen.coefficients) (by have := hlen.constraint_values; nlinarith)
      hlen.constraint_oods_values)]
  refine ⟨_, rfl, by simp, ?_, ?_⟩
  · intro v hv
    obtain ⟨i, -, rfl⟩ := List.mem_map.1 hv
    refine foldl_addmod_lt _ _ _ ?_
    unfold oods_row_adjustment
    exact foldl_addmod_lt _ _ _ modulus_pos
  · intro i q hq
    have hi : i < queries.length := (List.getElem?_eq_some_iff.1 hq).1
    have hp : ∀ k, ∃ t, k < args.length → s.layout_col_major[2 * k]? = some (32 * (args.getD k (0, 0)).1) ∧ s.layout_col_major[2 * k + 1]? = some (32 * t) ∧ t < s.num_offsets ∧
        ∃ r, s.layout_rows[t]? = some r ∧ (gen m ^ s.blowup) ^ r = (gen m ^ s.blowup) ^ (args.getD k (0, 0)).2 ∧ (args.getD k (0, 0)).1 < s.num_columns := by
      intro k
      by_cases hk : k < args.length
      · obtain ⟨t, r, e1, e2, e3, e4, e5⟩ := hd.cells k args[k] (List.getElem?_eq_getElem hk)
        refine ⟨t, fun _ => ?_⟩
        rw [List.getD_eq_getElem?_getD, List.getElem?_eq_getElem hk, Option.getD_some]
        exact ⟨e1, e2, by rw [← hd.offsets]; exact (List.getElem?_eq_some_iff.1 e3).1, r, e3, e4, e5⟩
      · exact ⟨0, fun h => absurd h hk⟩
    choose places hplaces using hp
    refine ⟨places, fun k hk => ⟨(hplaces k hk).2.2.1, (hplaces k hk).2.2.2⟩, ?_⟩
    rw [List.getD_eq_getElem?_getD, List.getElem?_map, List.getElem?_range hi, Option.map_some, Option.getD_some, foldl_addmod]
    have hcoef : ∀ k, k < oods_coefficients.length → ((((List.map (fun c => mulmod c MONTGOMERY_R_INV MODULUS) oods_coefficients).getD k 0) : Nat) : Z) = mont (oods_coefficients.getD k 0) := by
      intro k hk
      rw [List.getD_eq_getElem?_getD, List.getElem?_map, List.getElem?_eq_getElem hk, Option.map_some, Option.getD_some, List.getD_eq_getElem?_getD, List.getElem?_eq_getElem hk,
        Option.getD_some]
      exact from_montgomery_cast _
    congr 1
    · unfold oods_row_adjustment
      rw [foldl_addmod, Nat.cast_zero, zero_add, hargs]
      refine Finset.sum_congr rfl fun k hk => ?_
      have hk := Finset.mem_range.1 hk
      obtain ⟨e1, e2, e3, r, e4, e5, e6⟩ := hplaces k hk
      have hrd : ∀ (l : List Nat) (f : Nat → Nat) (n v : Nat), l[n]? = some v → DefaultCs.read l f n = v := by
        intro l f n v h
        unfold DefaultCs.read
        rw [List.getD_eq_getElem?_getD, h, Option.getD_some]
      have hrl : ∀ (l : List Nat) (f : Nat → Nat) (n : Nat), n < l.length → DefaultCs.read l f n = l.getD n 0 := by
        intro l f n h
        unfold DefaultCs.read
        rw [List.getD_eq_getElem?_getD, List.getD_eq_getElem?_getD, List.getElem?_eq_getElem h, Option.getD_some, Option.getD_some]
      rw [hrd _ _ _ _ e1, hrd _ _ _ _ e2, Nat.mul_div_cancel_left _ (by norm_num), Nat.mul_div_cancel_left _ (by norm_num), hst, Nat.mul_comm s.num_columns, Nat.mul_comm (s.num_offsets + 1)]
      rw [mulmod_cast, mulmod_cast, addmod_cast, hrl _ _ _ (by have := hlen.trace_values; nlinarith), hrl inverses _ _ (by rw [h2]; nlinarith),
        hrl _ _ k (by rw [List.length_map]; have := hlen.coefficients; omega), hcoef k (by have := hlen.coefficients; omega)]
    · refine Finset.sum_congr rfl fun j hj => ?_
      have hj := Finset.mem_range.1 hj
      rw [mulmod_cast, mulmod_cast, addmod_cast, hargs, hcoef _ (by have := hlen.coefficients; omega)]

/-- C77 (partial: the words of the claimed values must be reduced, the arrays long enough, the blowup 16, and no denominator zero): the points the contract computes are those of
the protocol (`deep`, see `Accepts`), as reduced words. -/
theorem C77_points_partial (env : Env Z) (hc : env.codec = montgomery) (args : List (Nat × Int)) (P : Contents) (x : Challenges Z)
    (hlog : data.log_trace_length + 4 = m) (hm : m < 256) (he : init_eval m = some eval)
    (hd : Describes s args (gen m ^ s.blowup)) (hargs : data.trace_oods_values.length = args.length) (hlen : Lengths s data oods_coefficients queries) (hdeg : data.constraint_oods_values.length = s.constraint_degree)
    (hr1 : ∀ v ∈ data.trace_oods_values, v < MODULUS) (hr2 : ∀ v ∈ data.constraint_oods_values, v < MODULUS)
    (hP1 : P.trace_values = data.trace_oods_values.map word) (hP2 : P.constraint_values = data.constraint_oods_values.map word)
    (hx1 : x.oods = oods_coefficients.map mont) (hx2 : x.point = mont oods_point)
    (hz : ∀ q ∈ queries, (∀ r ∈ s.layout_rows, at_query m q ≠ (gen m ^ s.blowup) ^ r * x.point) ∧ at_query m q ≠ x.point ^ s.constraint_degree) :
    ∃ results, get_polynomial_points s b data eval oods_coefficients queries oods_point = some results ∧ results.length = queries.length ∧ (∀ v ∈ results, v < MODULUS) ∧
      ∀ (i q : Nat), queries[i]? = some q → mont (results.getD i 0) =
        deep env (gen m ^ s.blowup) args P x (row s.num_columns data.trace_values i) (row s.constraint_degree data.constraint_values i) (at_query m q) := by
  obtain ⟨inverses, h1, results, h2, h3, h4, h5⟩ := points_cast s b data eval oods_coefficients queries oods_point m args hlog hm he hd hargs hlen
  refine ⟨results, h2, h3, h4, fun i q hq => ?_⟩
  have hi : i < queries.length := (List.getElem?_eq_some_iff.1 hq).1
  obtain ⟨places, hp, h6⟩ := h5 i q hq
  obtain ⟨inv', g1, g2, g3, g4, -⟩ := inverses_eq s eval m oods_point queries hd.offsets hd.few
  obtain rfl : inv' = inverses := Option.some.inj (g1.symm.trans h1)
  have hnz : ∀ q ∈ queries, ∀ d ∈ denominators s eval m (from_montgomery oods_point) q, (d : Z) ≠ 0 := by
    intro q hq d hdm
    obtain ⟨t, ht, rfl⟩ := List.mem_iff_getElem.1 hdm
    have hl := denominators_length s eval m (from_montgomery oods_point) q
    obtain ⟨c1, c2⟩ := denominators_cast s eval m oods_point q hm he
    have hget : (denominators s eval m (from_montgomery oods_point) q)[t] = (denominators s eval m (from_montgomery oods_point) q).getD t 0 := by
      rw [List.getD_eq_getElem?_getD, List.getElem?_eq_getElem ht, Option.getD_some]
    rw [hget]
    rcases Nat.lt_or_ge t s.layout_rows.length with h | h
    · rw [c1 t _ (List.getElem?_eq_getElem h), ← hx2]
      exact sub_ne_zero.2 ((hz q hq).1 _ (List.getElem_mem h))
    · obtain rfl : t = s.layout_rows.length := by omega
      rw [c2, ← hx2]
      exact sub_ne_zero.2 (hz q hq).2
  have hval : ∀ (l : List Nat) (k : Nat), (∀ v ∈ l, v < MODULUS) → k < l.length → env.codec.val ((l.map word).getD k ⟨0, 0, 0, 0⟩) = mont (l.getD k 0) := by
    intro l k hl hk
    have e1 : (l.map word).getD k ⟨0, 0, 0, 0⟩ = word (l.getD k 0) := by simp [List.getD_eq_getElem?_getD, hk]
    have e2 : l.getD k 0 < MODULUS := by
      rw [List.getD_eq_getElem?_getD, List.getElem?_eq_getElem hk, Option.getD_some]
      exact hl _ (List.getElem_mem hk)
    exact (congrArg env.codec.val e1).trans (hc ▸ val_word _ e2)
  have hoods : ∀ k, x.oods.getD k 0 = mont (oods_coefficients.getD k 0) := by
    intro k
    rw [hx1, List.getD_eq_getElem?_getD, List.getD_eq_getElem?_getD, List.getElem?_map]
    cases oods_coefficients[k]? with
    | none => unfold mont; simp
    | some v => rfl
  have hneg : ∀ (l : List Nat) (k : Nat), (∀ v ∈ l, v < MODULUS) → k < l.length → ((wsub MODULUS (l.getD k 0) : Nat) : Z) = - ((l.getD k 0 : Nat) : Z) := by
    intro l k hl hk
    have e2 : l.getD k 0 < MODULUS := by
      rw [List.getD_eq_getElem?_getD, List.getElem?_eq_getElem hk, Option.getD_some]
      exact hl _ (List.getElem_mem hk)
    exact neg_cast _ e2.le
  obtain ⟨c1, c2⟩ := denominators_cast s eval m oods_point q hm he
  have hPl : P.constraint_values.length = s.constraint_degree := by rw [hP2, List.length_map, hdeg]
  show ((results.getD i 0 : Nat) : Z) * ((2 : Z) ^ 256)⁻¹ = _
  rw [h6, add_mul]
  unfold deep
  rw [hPl, Finset.sum_mul, Finset.sum_mul]
  congr 1
  · refine Finset.sum_congr rfl fun k hk => ?_
    have hk := Finset.mem_range.1 hk
    obtain ⟨p1, r, p2, p3, p4⟩ := hp k hk
    rw [hoods, row_getD _ _ _ _ p4, hP1, hval _ _ hr1 (by omega), hneg _ _ hr1 (by omega), g4 hnz i q _ hq (by omega), c1 _ r p2, p3, hx2, div_eq_mul_inv]
    unfold mont
    generalize ((2 : Z) ^ 256)⁻¹ = R
    ring
  · refine Finset.sum_congr rfl fun j hj => ?_
    have hj := Finset.mem_range.1 hj
    rw [hoods, row_getD _ _ _ _ hj, hP2, hval _ _ hr2 (by have := hlen.constraint_oods_values; omega), hneg _ _ hr2 (by have := hlen.constraint_oods_values; omega),
      g4 hnz i q _ hq (by omega), ← hd.offsets, c2, hx2, div_eq_mul_inv]
    unfold mont
    generalize ((2 : Z) ^ 256)⁻¹ = R
    ring

/-- C77 is violated: if one denominator is zero (the out-of-domain point belongs to a query, or one of the offsets of it does) every point the contract computes is zero, for every query and whatever
values were opened. -/
theorem C77_violated (args : List (Nat × Int)) (hlog : data.log_trace_length + 4 = m) (hm : m < 256) (he : init_eval m = some eval)
    (hd : Describes s args (gen m ^ s.blowup)) (hargs : data.trace_oods_values.length = args.length) (hlen : Lengths s data oods_coefficients queries)
    (hz : ∃ q ∈ queries, (∃ r ∈ s.layout_rows, at_query m q = (gen m ^ s.blowup) ^ r * mont oods_point) ∨ at_query m q = mont oods_point ^ s.constraint_degree) :
    get_polynomial_points s b data eval oods_coefficients queries oods_point = some (List.replicate queries.length 0) := by
  obtain ⟨inverses, h1, results, h2, h3, h4, h5⟩ := points_cast s b data eval oods_coefficients queries oods_point m args hlog hm he hd hargs hlen
  obtain ⟨inv', g1, g2, g3, -, g5⟩ := inverses_eq s eval m oods_point queries hd.offsets hd.few
  obtain rfl : inv' = inverses := Option.some.inj (g1.symm.trans h1)
  have hzero : ∀ v ∈ inv', v = 0 := by
    refine g5 ?_
    obtain ⟨q, hq, hq2⟩ := hz
    obtain ⟨c1, c2⟩ := denominators_cast s eval m oods_point q hm he
    have hl := denominators_length s eval m (from_montgomery oods_point) q
    have hget : ∀ t < s.layout_rows.length + 1, (denominators s eval m (from_montgomery oods_point) q).getD t 0 ∈ denominators s eval m (from_montgomery oods_point) q := by
      intro t ht
      rw [List.getD_eq_getElem?_getD, List.getElem?_eq_getElem (by omega), Option.getD_some]
      exact List.getElem_mem _
    refine ⟨q, hq, ?_⟩
    rcases hq2 with ⟨r, hr, e⟩ | e
    · obtain ⟨t, ht, rfl⟩ := List.mem_iff_getElem.1 hr
      exact ⟨_, hget t (by omega), by rw [c1 t _ (List.getElem?_eq_getElem ht), sub_eq_zero]; exact e⟩
    · exact ⟨_, hget _ (Nat.lt_succ_self _), by rw [c2, sub_eq_zero]; exact e⟩
  have hinv : ∀ n, ((inv'.getD n 0 : Nat) : Z) = 0 := by
    intro n
    rw [List.getD_eq_getElem?_getD]
    cases h : inv'[n]? with
    | none => simp
    | some v => rw [Option.getD_some, hzero v (List.mem_of_getElem? h), Nat.cast_zero]
  rw [h2]
  congr 1
  refine List.eq_replicate_iff.2 ⟨h3, fun v hv => ?_⟩
  obtain ⟨i, hi, rfl⟩ := List.mem_iff_getElem.1 hv
  obtain ⟨places, -, h6⟩ := h5 i queries[i] (List.getElem?_eq_getElem (by omega))
  refine cast_inj (h4 _ hv) modulus_pos ?_
  rw [List.getD_eq_getElem?_getD, List.getElem?_eq_getElem hi, Option.getD_some] at h6
  rw [h6, Nat.cast_zero]
  simp only [hinv, mul_zero, zero_mul, Finset.sum_const_zero, add_zero]

end

/-- C77: the default layout of the layers is the one of the prover in Rust. -/
theorem C77_layout (k : Nat) (hk : k < 64) : DefaultCs.default_fri_layout k = Stark.default_fri_layout (2 ^ k) := by
  revert hk k
  decide +kernel

/-- C77: the layout of the contract `Recurrence` describes the four cells of its constraints. -/
theorem C77_recurrence (g : Z) : Describes Recurrence.system [(0, 0), (0, 1), (1, 0), (1, 1)] g where
  offsets := rfl
  few := by decide
  cells k a h := by
    match k, h with
    | 0, h => obtain rfl := Option.some.inj h; exact ⟨0, 0, rfl, rfl, rfl, by simp, by decide⟩
    | 1, h => obtain rfl := Option.some.inj h; exact ⟨1, 1, rfl, rfl, rfl, by simp, by decide⟩
    | 2, h => obtain rfl := Option.some.inj h; exact ⟨0, 0, rfl, rfl, rfl, by simp, by decide⟩
    | 3, h => obtain rfl := Option.some.inj h; exact ⟨1, 1, rfl, rfl, rfl, by simp, by decide⟩
    | k + 4, h => simp at h

-- concrete cases: a trace of one row, the query 0 (the point 3), and the out-of-domain points 0 and 3
namespace Example

def data : Data := ⟨[10, 20], [30, 40], [1, 2, 3, 4], [5, 6], 0⟩
def nothing : Behind := ⟨fun _ => 0, fun _ => 0, fun _ => 0, fun _ => 0⟩

theorem domain : ∃ eval, init_eval 4 = some eval := by
  have h := (EvmField.C72_roots 4 0 (by norm_num) (by norm_num)).2.1
  unfold init_eval
  cases e : generator_power 4 with
  | none => exact absurd (by decide +kernel) (h.1 e)
  | some g => exact ⟨_, rfl⟩

theorem lengths : Lengths Recurrence.system data [7, 7, 7, 7, 8, 8] [0] := ⟨by decide, by decide, by decide, by decide⟩

theorem start : at_query 4 0 = 3 := by
  unfold at_query
  rw [show rev 4 0 = 0 by decide, pow_zero, mul_one]

theorem three : (3 : Z) ≠ 0 := by
  intro h
  have := cast_inj (a := 3) (b := 0) (by decide +kernel) (by decide +kernel) (by exact_mod_cast h)
  omega

example (env : Env Z) (hc : env.codec = montgomery) (P : Contents) : ∃ eval results, init_eval 4 = some eval ∧
    get_polynomial_points Recurrence.system nothing data eval [7, 7, 7, 7, 8, 8] [0] 0 = some results ∧ mont (results.getD 0 0) =
      deep env (gen 4 ^ 16) [(0, 0), (0, 1), (1, 0), (1, 1)] { P with trace_values := data.trace_oods_values.map word, constraint_values := data.constraint_oods_values.map word }
        ⟨[], mont 0, [7, 7, 7, 7, 8, 8].map mont, [], [0]⟩ (row 2 data.trace_values 0) (row 2 data.constraint_values 0) (at_query 4 0) := by
  obtain ⟨eval, he⟩ := domain
  have hz : (mont 0 : Z) = 0 := by unfold mont; simp
  obtain ⟨r, h1, -, -, h2⟩ := C77_points_partial Recurrence.system nothing data eval [7, 7, 7, 7, 8, 8] [0] 0 4 env hc [(0, 0), (0, 1), (1, 0), (1, 1)]
    { P with trace_values := data.trace_oods_values.map word, constraint_values := data.constraint_oods_values.map word } ⟨[], mont 0, [7, 7, 7, 7, 8, 8].map mont, [], [0]⟩
    rfl (by norm_num) he (C77_recurrence _) rfl lengths rfl (by decide +kernel) (by decide +kernel) rfl rfl rfl rfl (by
      intro q hq
      obtain rfl : q = 0 := by simpa using hq
      rw [start]
      refine ⟨fun r _ => ?_, ?_⟩
      · show (3 : Z) ≠ _ * mont 0
        rw [hz, mul_zero]
        exact three
      · show (3 : Z) ≠ mont 0 ^ 2
        rw [hz, zero_pow (by norm_num)]
        exact three)
  exact ⟨eval, r, he, h1, h2 0 0 rfl⟩

example : ∃ eval, init_eval 4 = some eval ∧ get_polynomial_points Recurrence.system nothing data eval [7, 7, 7, 7, 8, 8] [0] (repNat 3) = some [0] := by
  obtain ⟨eval, he⟩ := domain
  refine ⟨eval, he, C77_violated Recurrence.system nothing data eval [7, 7, 7, 7, 8, 8] [0] (repNat 3) 4 [(0, 0), (0, 1), (1, 0), (1, 1)] rfl (by norm_num) he (C77_recurrence _) rfl lengths
    ⟨0, by simp, Or.inl ⟨0, by simp [Recurrence.system], ?_⟩⟩⟩
  rw [start, mont_repNat, pow_zero, one_mul]

example : DefaultCs.default_fri_layout 8 = [3, 3, 2] ∧ DefaultCs.default_fri_layout 14 = [3, 3] := by decide

end Example

end EvmDefaultCs
end Props
end OpenZKP
