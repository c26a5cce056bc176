import Verif.Evm.RecurrenceLemmas
import Verif.Props.Recurrence
import Verif.Props.EvmField
import Verif.Props.EvmUtils

/-!
# C78: the contract `Recurrence` checks the system `Recurrance` of Rust
-/

namespace OpenZKP
namespace Props
namespace EvmRecurrence
open Evm Evm.PrimeField Evm.Fri Evm.DefaultCs FFT Stark Stark.Accept EvmDefaultCs Merkle

/-- the cells of the constraints -/
abbrev cells : List (Nat × Int) := [(0, 0), (0, 1), (1, 0), (1, 1)]

/-! ## Lemmas -/

theorem rows_log (index : Nat) (h : index < 2 ^ 63) : next_power_of_two (index + 1) = 2 ^ ((Utils.num_bits index + 1) % 256) := by
  rcases Nat.eq_zero_or_pos index with rfl | h0
  · decide
  rw [Utils.num_bits_eq index h0 (by omega)]
  have hlog : Nat.log2 index < 63 := (Nat.log2_lt (by omega)).2 h
  rw [Nat.mod_eq_of_lt (by omega)]
  unfold next_power_of_two
  rw [if_neg (by omega), Nat.add_sub_cancel]

theorem usizeBytes_eq (n : Nat) : Examples.usizeBytes n = to_be_bytes 8 n := by
  simp only [Examples.usizeBytes, List.range, List.range.loop, List.map_cons, List.map_nil, to_be_bytes, List.nil_append, List.cons_append, Nat.div_div_eq_div_mul]
  norm_num

theorem dvd_modulus (m : Nat) (hm : m ≤ 192) : 2 ^ m ∣ MODULUS - 1 := (Nat.pow_dvd_pow 2 hm).trans (by decide +kernel)

theorem gen_eq (k : Nat) (hk : k + 4 ≤ 192) : gen (k + 4) ^ 16 = gen k ∧ gen k ^ 2 ^ k = 1 := by
  refine ⟨?_, (rootAt_three k (dvd_modulus k (by omega))).pow_eq_one⟩
  unfold gen
  rw [← pow_mul]
  congr 1
  obtain ⟨c, hc⟩ := dvd_modulus (k + 4) hk
  rw [hc]
  generalize c = c
  rw [Nat.mul_div_cancel_left _ (Nat.two_pow_pos _), pow_add, Nat.mul_assoc, Nat.mul_div_cancel_left _ (Nat.two_pow_pos _)]
  omega

theorem gen256 : ((Recurrence.GENERATOR256 : Nat) : Z) = gen 8 := by
  have h : ((3 : Nat) : Z) ^ ((MODULUS - 1) / 2 ^ 8) = _ := powMod_zmod (m := MODULUS) (fuel := 256) (b := 3) (e := (MODULUS - 1) / 2 ^ 8) (by decide +kernel)
  rw [show powMod MODULUS 256 3 ((MODULUS - 1) / 2 ^ 8) = Recurrence.GENERATOR256 by decide +kernel] at h
  unfold gen
  rw [← h]
  norm_num

theorem init_some (m : Nat) (hm : m ≤ 192) : ∃ eval, init_eval m = some eval ∧ (eval.eval_domain_generator : Z) = gen m := by
  obtain ⟨h1, h2, -⟩ := EvmField.C72_roots m 0 (by omega) (by norm_num)
  unfold init_eval
  cases e : generator_power m with
  | none => exact absurd (dvd_modulus m hm) (h2.1 e)
  | some g => exact ⟨_, rfl, (h1 g e).2.2⟩

/-- the values of the four constraints at a point -/
def parts {F : Type} [Field F] (z g : F) (n index : Nat) (value : F) (t : Nat → F) : List F :=
  [(t 1 - t 2 ^ 2) * ((z - g ^ (n - 1)) * (z ^ n - 1)⁻¹), (t 3 - t 0 - t 2) * ((z - g ^ (n - 1)) * (z ^ n - 1)⁻¹), (t 0 - 1) * (z - g ^ n)⁻¹, (t 0 - value) * (z - g ^ index)⁻¹]

theorem parts_value {F : Type} [Field F] [DecidableEq F] (claims : Nat → Option (Polynomial F)) (z g : F) (n index : Nat) (value : F) (t : Nat → F) (tr : Nat → Int → Option F)
    (h00 : tr 0 0 = some (t 0)) (h01 : tr 0 1 = some (t 1)) (h10 : tr 1 0 = some (t 2)) (h11 : tr 1 1 = some (t 3))
    (hg : g ^ n = 1) (hz : z ^ n ≠ 1) (vs : List F) :
    List.Forall₂ (fun e v => claimValue claims z tr e = some v) (Examples.Recurrence.expressions g n index value 2) vs ↔ vs = parts z g n index value t := by
  have h1 : ∀ j, z - g ^ j ≠ 0 := by
    intro j h
    rw [sub_eq_zero] at h
    apply hz
    rw [h, ← pow_mul, Nat.mul_comm, pow_mul, hg, one_pow]
  have h2 : z ^ n - 1 ≠ 0 := sub_ne_zero.2 hz
  have key : List.Forall₂ (fun e v => claimValue claims z tr e = some v) (Examples.Recurrence.expressions g n index value 2) (parts z g n index value t) := by
    unfold Examples.Recurrence.expressions parts
    refine .cons ?_ (.cons ?_ (.cons ?_ (.cons ?_ .nil))) <;>
      simp only [claimValue, Examples.every_row, Examples.on_row, Expr.sub, Expr.add, Expr.neg, Expr.mul, Expr.div, Expr.inv, Expr.pow, Option.map_some, h00, h01, h10, h11,
        ← sub_eq_add_neg, if_neg h2, if_neg (h1 _)]
  constructor
  · intro h
    have : ∀ (es : List (Expr F)) (a b : List F), List.Forall₂ (fun e v => claimValue claims z tr e = some v) es a → List.Forall₂ (fun e v => claimValue claims z tr e = some v) es b → a = b := by
      intro es
      induction es with
      | nil => intro a b ha hb; cases ha; cases hb; rfl
      | cons e es ih =>
        intro a b ha hb
        cases ha with
        | cons ha ha' => cases hb with
          | cons hb hb' => rw [ih _ _ ha' hb', Option.some.inj (ha.symm.trans hb)]
    exact this _ _ _ h key
  · rintro rfl
    exact key

theorem adjustments (g : Z) (n index : Nat) (value : Z) (hn : 0 < n) :
    (∀ e ∈ Examples.Recurrence.expressions g n index value 2, (e.degree (n - 1)).1 ≤ 2 * n - 1 + (e.degree (n - 1)).2) ∧
    (Examples.Recurrence.expressions g n index value 2).map (adjustment n (2 * n - 1)) = [n, 2 * n - 1, n + 1, n + 1] := by
  have hd : (Examples.Recurrence.expressions g n index value 2).map (fun e => e.degree (n - 1)) = [(2 * (n - 1) + 1, n), (n - 1 + 1, n), (n - 1, 1), (n - 1, 1)] := by
    simp [Examples.Recurrence.expressions, Expr.degree, Expr.degree_impl, Examples.every_row, Examples.on_row, Expr.sub, Expr.add, Expr.neg, Expr.mul, Expr.div, Expr.inv, Expr.pow]
    omega
  constructor
  · intro e he
    have : e.degree (n - 1) ∈ [(2 * (n - 1) + 1, n), (n - 1 + 1, n), (n - 1, 1), (n - 1, 1)] := by
      rw [← hd]
      exact List.mem_map_of_mem he
    generalize e.degree (n - 1) = x at this
    simp only [List.mem_cons, List.not_mem_nil, or_false] at this
    rcases this with rfl | rfl | rfl | rfl <;> dsimp only <;> omega
  · have : ∀ es : List (Expr Z), es.map (adjustment n (2 * n - 1)) = (es.map fun e => e.degree (n - 1)).map fun x => 2 * n - 1 + x.2 - x.1 := by
      intro es
      rw [List.map_map]
      rfl
    rw [this, hd]
    simp only [List.map_cons, List.map_nil, List.cons.injEq, and_true]
    omega

theorem init_layout (K : Keccak) (input : Recurrence.PublicInput) :
    (Recurrence.initalize_system K input).1.fri_layout = DefaultCs.default_fri_layout ((Utils.num_bits input.index + 1) % 256) := by
  rw [Recurrence.initalize_system]

/-! ## C78 -/

/-- C78 (partial: not the number of queries and the proof of work): the contract derives from a claim the parameters, the layout of FRI and the state of the coin that the verifier in Rust
derives from it. -/
theorem C78_parameters_partial (K : Keccak) (root : Nat → Option Z) (rep : Z → U256) (index : Nat) (hindex : index < 2 ^ 63) (v : Z) (c : Constraints Z)
    (hc : Examples.Recurrence.constraints root rep index v 2 = some c) :
    let s := Recurrence.initalize_system K ⟨(rep v).toNat, index⟩
    c.trace_nrows = 2 ^ s.1.log_trace_length ∧ c.trace_ncolumns = s.1.number_of_columns ∧ c.expressions.length = s.1.number_of_constraints ∧ c.blowup = 2 ^ s.1.log_blowup ∧
      c.degree = some s.1.constraint_degree ∧ c.fri_layout = s.1.fri_layout ∧ s.2 = ⟨K.hash c.channel_seed, 0⟩ := by
  intro s
  obtain ⟨g, -, hsys, -, hd, -, hes⟩ := rec_system root rep index v 2 c hc
  obtain ⟨-, hcc⟩ := Examples.system_some _ _ _ _ _ _ hsys
  have hrows := rows_log index hindex
  have hlog : (Utils.num_bits index + 1) % 256 < 64 := by
    have : next_power_of_two (index + 1) ≤ 2 ^ 63 := by
      obtain ⟨e, he, h1, -⟩ := next_power_of_two_spec (index + 1) 63 (by omega)
      rw [h1]
      exact Nat.pow_le_pow_right (by norm_num) he
    rw [hrows] at this
    have := (Nat.pow_le_pow_iff_right (by norm_num : 1 < 2)).1 this
    omega
  refine ⟨by rw [hcc]; exact hrows, by rw [hcc]; rfl, by rw [hes]; rfl, by rw [hcc]; rfl, hd, ?_, ?_⟩
  · have e1 : c.fri_layout = Stark.default_fri_layout (next_power_of_two (index + 1)) := by rw [hcc]
    have e2 := init_layout K ⟨(rep v).toNat, index⟩
    rw [e1, e2, hrows, C77_layout _ hlog]
  · rw [hcc]
    show (⟨K.hash (to_be_bytes 8 index ++ bytes32 (rep v).toNat ++ to_be_bytes 8 2), 0⟩ : Coin) = ⟨K.hash (Examples.Recurrence.seed rep index v 2), 0⟩
    congr 2
    unfold Examples.Recurrence.seed Examples.elementBytes
    rw [if_pos (by norm_num), bytes32_toNat, List.append_assoc, usizeBytes_eq, usizeBytes_eq, List.append_assoc]

/-- C78: the combination of constraints the contract computes at the out-of-domain point is the one of the protocol: the out-of-domain equation of the protocol holds if and only if it has the
value of the committed polynomial. -/
theorem C78_calculations_partial (env : Env Z) (hcodec : env.codec = montgomery) (rep : Z → U256) (b : Behind) (data : Data) (input : Recurrence.PublicInput) (queries : List Nat) (p : Nat)
    (coefficients oods : List Nat) (k : Nat) (hlog : data.log_trace_length = k) (hk : k + 4 ≤ 192) (c : Constraints Z)
    (hsys : Examples.Recurrence.constraints env.root rep input.index (mont input.value) 2 = some c) (hrows : c.trace_nrows = 2 ^ k) (hroot : env.root (2 ^ k) = some (gen k))
    (P : Contents) (x : Challenges Z) (hP : P.trace_values = data.trace_oods_values.map word) (hx1 : x.coefficients = coefficients.map mont) (hx2 : x.point = mont p)
    (ht : data.trace_oods_values.length = 4) (ht' : ∀ v ∈ data.trace_oods_values, v < MODULUS) (hcf : coefficients.length = 8) (hcf' : ∀ v ∈ coefficients, v < MODULUS)
    (hv : input.value < MODULUS) (hpoint : x.point ^ 2 ^ k ≠ 1) (points : List Nat) (r : Nat)
    (h : Recurrence.constraint_calculations b data input queries p coefficients oods = some (points, r)) :
    OutOfDomainOk env c cells P x ↔ mont r = ∑ j ∈ Finset.range P.constraint_values.length, env.codec.val (P.constraint_values.getD j ⟨0, 0, 0, 0⟩) * x.point ^ j := by
  obtain ⟨g, hg, hs, -, hd, -, hes⟩ := rec_system env.root rep input.index _ 2 c hsys
  obtain ⟨-, hcc⟩ := Examples.system_some _ _ _ _ _ _ hs
  have hn : next_power_of_two (input.index + 1) = 2 ^ k := by rw [← hrows, hcc]
  rw [hn] at hg hes
  have : g = gen k := Option.some.inj (hg.symm.trans hroot)
  subst this
  obtain ⟨c0, c1, c2, c3, c4, c5, c6, c7, rfl⟩ : ∃ c0 c1 c2 c3 c4 c5 c6 c7, coefficients = [c0, c1, c2, c3, c4, c5, c6, c7] := by
    match coefficients, hcf with
    | [c0, c1, c2, c3, c4, c5, c6, c7], _ => exact ⟨_, _, _, _, _, _, _, _, rfl⟩
  obtain ⟨t0, t1, t2, t3, hts⟩ : ∃ t0 t1 t2 t3, data.trace_oods_values = [t0, t1, t2, t3] := by
    match data.trace_oods_values, ht with
    | [t0, t1, t2, t3], _ => exact ⟨_, _, _, _, rfl⟩
  rw [hts] at hP ht'
  simp only [List.forall_mem_cons, List.not_mem_nil, false_imp_iff, implies_true, and_true] at ht' hcf'
  obtain ⟨a0, a1, a2, a3⟩ := ht'
  obtain ⟨b0, b1, b2, b3, b4, b5, b6, b7⟩ := hcf'
  obtain ⟨eval, he, hgen⟩ := init_some (k + 4) hk
  obtain ⟨hg16, hg1⟩ := gen_eq k (by omega)
  have hr : mont r = Recurrence.combined (mont p) (gen k) (2 ^ k) input.index (mont input.value) (fun i => mont ([c0, c1, c2, c3, c4, c5, c6, c7].getD i 0)) (fun i => mont ([t0, t1, t2, t3].getD i 0)) := by
    unfold Recurrence.constraint_calculations at h
    rw [hlog, Nat.mod_eq_of_lt (by omega), he, Option.bind_some] at h
    obtain ⟨pts, -, h⟩ := Option.bind_eq_some_iff.1 h
    obtain ⟨r', hev, hr⟩ := Option.map_eq_some_iff.1 h
    cases hr
    rw [hts] at hev
    split at hev
    · rename_i hcond
      obtain ⟨rfl, hi⟩ := hcond
      obtain ⟨r', h1, -, h2⟩ := Recurrence.evaluate256_cast p c0 c1 c2 c3 c4 c5 c6 c7 input.value t0 t1 t2 t3 b0 b2 b4 b6 (by rw [← hx2]; exact hpoint) (by rw [gen256]; exact hg1) input.index
      obtain rfl : r' = r := Option.some.inj (h1.symm.trans hev)
      rw [h2, gen256, hi]
      rfl
    · obtain ⟨r', h1, -, h2⟩ := Recurrence.evaluate_cast p c0 c1 c2 c3 c4 c5 c6 c7 [] input eval k (by omega) t0 t1 t2 t3 [] hv a0 a2
      obtain rfl : r' = r := Option.some.inj (h1.symm.trans hev)
      rw [h2, hgen, hg16]
  have hval : ∀ v, v < MODULUS → env.codec.val (word v) = mont v := by
    intro v hv
    rw [hcodec]
    exact val_word v hv
  have hcell : claimedCell env cells P 0 0 = some (mont t0) ∧ claimedCell env cells P 0 1 = some (mont t1) ∧ claimedCell env cells P 1 0 = some (mont t2) ∧
      claimedCell env cells P 1 1 = some (mont t3) := by
    unfold claimedCell
    rw [hP]
    simp only [List.map_cons, List.map_nil, hval _ a0, hval _ a1, hval _ a2, hval _ a3]
    exact ⟨rfl, rfl, rfl, rfl⟩
  obtain ⟨w1, w2, w3, w4⟩ := hcell
  have hpos : 0 < 2 ^ k := Nat.two_pow_pos _
  obtain ⟨hdeg, hadj⟩ := adjustments (gen k) (2 ^ k) input.index (mont input.value) hpos
  have hvalues := parts_value (fun i => (c.claim_polynomials[i]?).map toPoly) x.point (gen k) (2 ^ k) input.index (mont input.value) (fun i => mont ([t0, t1, t2, t3].getD i 0))
    (claimedCell env cells P) w1 w2 w3 w4 hg1 hpoint
  have hsum : ∑ i ∈ Finset.range c.expressions.length, (x.coefficients.getD (2 * i) 0 + x.coefficients.getD (2 * i + 1) 0 *
      x.point ^ adjustment c.trace_nrows (2 * c.trace_nrows - 1) (c.expressions.getD i .X)) *
      (parts x.point (gen k) (2 ^ k) input.index (mont input.value) (fun i => mont ([t0, t1, t2, t3].getD i 0))).getD i 0 = mont r := by
    have hlen : c.expressions.length = 4 := by rw [hes]; rfl
    have ha : ∀ i, (c.expressions.map (adjustment (2 ^ k) (2 * 2 ^ k - 1))).getD i 0 = [2 ^ k, 2 * 2 ^ k - 1, 2 ^ k + 1, 2 ^ k + 1].getD i 0 := by
      intro i
      rw [hes, hadj]
    have ha' : ∀ i < 4, adjustment (2 ^ k) (2 * 2 ^ k - 1) (c.expressions.getD i .X) = [2 ^ k, 2 * 2 ^ k - 1, 2 ^ k + 1, 2 ^ k + 1].getD i 0 := by
      intro i hi
      rw [← ha i, List.getD_eq_getElem?_getD, List.getD_eq_getElem?_getD, List.getElem?_map, List.getElem?_eq_getElem (by omega), Option.map_some, Option.getD_some, Option.getD_some]
    rw [hr, hlen, hrows, hx1, ← hx2]
    rw [Finset.sum_range_succ, Finset.sum_range_succ, Finset.sum_range_succ, Finset.sum_range_succ, Finset.sum_range_zero, zero_add]
    rw [ha' 0 (by norm_num), ha' 1 (by norm_num), ha' 2 (by norm_num), ha' 3 (by norm_num)]
    rfl
  constructor
  · rintro ⟨d, vs, hd', -, hvs, hsum'⟩
    rw [hd] at hd'
    cases hd'
    rw [hes] at hvs
    rw [hvalues] at hvs
    rw [← hsum', hvs]
    exact hsum.symm
  · intro heq
    refine ⟨2, parts x.point (gen k) (2 ^ k) input.index (mont input.value) (fun i => mont ([t0, t1, t2, t3].getD i 0)), hd, ?_, ?_, ?_⟩
    · rw [hes, hrows]; exact hdeg
    · rw [hes]; exact (hvalues _).2 rfl
    · rw [hsum, heq]

/-- C78 is violated: the contract asks for other numbers of queries and bits of work than the system in Rust, so that no proof of `prove` for the claim is one for the contract. -/
theorem C78_violated (K : Keccak) (root : Nat → Option Z) (rep : Z → U256) (index : Nat) (v : Z) (c : Constraints Z)
    (hc : Examples.Recurrence.constraints root rep index v 2 = some c) (input : Recurrence.PublicInput) :
    c.num_queries = 45 ∧ (Recurrence.initalize_system K input).1.number_of_queries = 20 ∧ c.pow_bits = 0 ∧ (Recurrence.initalize_system K input).1.pow_bits = 10 := by
  obtain ⟨g, -, hsys, -⟩ := rec_system root rep index v 2 c hc
  obtain ⟨-, hcc⟩ := Examples.system_some _ _ _ _ _ _ hsys
  exact ⟨by rw [hcc], rfl, by rw [hcc], rfl⟩

-- a concrete case: the claim for index 3, with four rows
namespace Example

/-- the roots of the field -/
def root (n : Nat) : Option Z := some (gen (Nat.log2 n))

theorem system (rep : Z → U256) (v : Z) : ∃ c, Examples.Recurrence.constraints root rep 3 v 2 = some c ∧ c.trace_nrows = 2 ^ 2 := ⟨_, rfl, show next_power_of_two (3 + 1) = 2 ^ 2 by decide⟩

example (K : Keccak) (rep : Z → U256) (v : Z) : ∃ c, Examples.Recurrence.constraints root rep 3 v 2 = some c ∧
    c.trace_nrows = 2 ^ (Recurrence.initalize_system K ⟨(rep v).toNat, 3⟩).1.log_trace_length := by
  obtain ⟨c, hc, -⟩ := system rep v
  exact ⟨c, hc, (C78_parameters_partial K root rep 3 (by norm_num) v c hc).1⟩

example (env : Env Z) (hcodec : env.codec = montgomery) (hroot : env.root = root) (P : Contents) (rep : Z → U256) :
    ∃ c points r, Examples.Recurrence.constraints env.root rep 3 (mont 5) 2 = some c ∧
      Recurrence.constraint_calculations EvmDefaultCs.Example.nothing ⟨[], [], [1, 2, 3, 4], [5, 6], 2⟩ ⟨5, 3⟩ [] (repNat 2) [1, 2, 3, 4, 5, 6, 7, 8] [7, 7, 7, 7, 8, 8] = some (points, r) ∧
      (OutOfDomainOk env c cells { P with trace_values := [1, 2, 3, 4].map word } ⟨[1, 2, 3, 4, 5, 6, 7, 8].map mont, 2, [], [], []⟩ ↔
        mont r = ∑ j ∈ Finset.range P.constraint_values.length, env.codec.val (P.constraint_values.getD j ⟨0, 0, 0, 0⟩) * 2 ^ j) := by
  obtain ⟨c, hc, hrows⟩ := system rep (mont 5)
  rw [← hroot] at hc
  obtain ⟨eval, he, -⟩ := init_some 6 (by norm_num)
  obtain ⟨-, -, points, hp, -⟩ := points_cast Recurrence.system EvmDefaultCs.Example.nothing ⟨[], [], [1, 2, 3, 4], [5, 6], 2⟩ eval [7, 7, 7, 7, 8, 8] [] (repNat 2) 6 cells rfl
    (by norm_num) he (C77_recurrence _) rfl ⟨by decide, by decide, by decide, by decide⟩
  obtain ⟨r, hr, -⟩ := Recurrence.evaluate_cast (repNat 2) 1 2 3 4 5 6 7 8 [] ⟨5, 3⟩ eval 2 (by norm_num) 1 2 3 4 [] (by decide +kernel) (by decide +kernel) (by decide +kernel)
  have hcalc : Recurrence.constraint_calculations EvmDefaultCs.Example.nothing ⟨[], [], [1, 2, 3, 4], [5, 6], 2⟩ ⟨5, 3⟩ [] (repNat 2) [1, 2, 3, 4, 5, 6, 7, 8] [7, 7, 7, 7, 8, 8] =
      some (points, r) := by
    unfold Recurrence.constraint_calculations
    rw [show (2 + 4) % 256 = 6 from rfl, he, Option.bind_some, hp, Option.bind_some, if_neg (by norm_num), hr]
    rfl
  refine ⟨c, points, r, hc, hcalc, ?_⟩
  refine C78_calculations_partial env hcodec rep EvmDefaultCs.Example.nothing ⟨[], [], [1, 2, 3, 4], [5, 6], 2⟩ ⟨5, 3⟩ [] (repNat 2) [1, 2, 3, 4, 5, 6, 7, 8] [7, 7, 7, 7, 8, 8] 2 rfl (by norm_num) c
    hc hrows (by rw [hroot]; unfold root; rw [show Nat.log2 (2 ^ 2) = 2 by decide]) _ ⟨[1, 2, 3, 4, 5, 6, 7, 8].map mont, 2, [], [], []⟩ rfl rfl (mont_repNat 2).symm rfl (by decide +kernel) rfl
    (by decide +kernel) (by decide +kernel) ?_ points r hcalc
  show (2 : Z) ^ 2 ^ 2 ≠ 1
  intro h
  have := cast_inj (a := 16) (b := 1) (by decide +kernel) (by decide +kernel) (by push_cast; rw [← h]; norm_num)
  omega

end Example

end EvmRecurrence
end Props
end OpenZKP
