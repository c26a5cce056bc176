import Verif.Props.Examples

/-!
# Runs of the examples over the field of 65537 elements

Used to show that the hypotheses of the theorems about the examples can be met.  The hash is constant, all drawn elements are 28784.
-/

namespace OpenZKP
namespace Examples
namespace Run
open Stark FFT Polynomial Props Stark.Accept
open OpenZKP.Props.Small (Z K rep_toNat)
open Merkle (bind_ok_inv map_ok_inv next_power_of_two)
open OpenZKP.Props.Size (draws draw h0 randomField_eq)

/-- roots of unity of all orders that divide 65536 -/
def root (n : Nat) : Option Z := if n ∣ 65536 then some (3 ^ (65536 / n)) else none

theorem order3 : orderOf (3 : Z) = 65536 :=
  orderOf_eq_prime_pow (p := 2) (n := 15)
    (by rw [show 2 ^ 15 = 256 * 128 by norm_num, pow_mul, show (3 : Z) ^ 256 = 282 by decide +kernel]; decide +kernel)
    (by rw [show 2 ^ (15 + 1) = 256 * 256 by norm_num, pow_mul, show (3 : Z) ^ 256 = 282 by decide +kernel]; decide +kernel)

theorem root_ok : RootFn root := by
  intro n w hn _ h
  unfold root at h
  split at h
  · rename_i hd
    cases h
    rw [orderOf_pow_of_dvd (by have := Nat.div_pos (Nat.le_of_dvd (by norm_num) hd) hn; omega) (by rw [order3]; exact Nat.div_dvd_of_dvd hd), order3, Nat.div_div_self hd (by norm_num)]
  · cases h

theorem root16 : root (2 ^ 4) = some 64 := by
  unfold root
  rw [if_pos (by norm_num), show 65536 / 2 ^ 4 = 64 * 64 by norm_num, pow_mul, show (3 : Z) ^ 64 = 19139 by decide +kernel]
  decide +kernel

theorem root_compat : RootCompat root := by
  intro a b w _ h
  unfold root at *
  split at h
  · rename_i hd
    cases h
    have h1 : 2 ^ a ∣ 65536 := dvd_trans (pow_dvd_pow 2 (by omega)) hd
    rw [if_pos h1, ← pow_mul]
    congr 2
    obtain ⟨m, hm⟩ := hd
    rw [hm, Nat.mul_div_cancel_left _ (Nat.two_pow_pos _), pow_add, mul_assoc, Nat.mul_div_cancel_left _ (Nat.two_pow_pos _), mul_comm]
  · cases h

def env : Env Z :=
  ⟨K, ⟨fun x => ⟨UInt64.ofNat x.val, 0, 0, 0⟩, fun u => (u.toNat : Z), fun x => by
      rw [rep_toNat]
      exact lt_trans (ZMod.val_lt x) (by decide +kernel),
    fun x => by rw [rep_toNat]; exact ZMod.natCast_zmod_val x⟩, root, 3, fun l n => l.findIdx? (· = n)⟩

def o : Oracles Z := ⟨fun _ _ => 77, fun s i j => s ^ 2 * 9 + (i * 157 + j * 1031) ^ 3, fun _ => some 0⟩
def rep (x : Z) : U256 := ⟨UInt64.ofNat x.val, 0, 0, 0⟩

theorem search_some (l : List Nat) (n z : Nat) (hz : env.search l n = some z) : l[z]? = some n := by
  obtain ⟨h3, h4, -⟩ := List.findIdx?_eq_some_iff_getElem.1 hz
  rw [List.getElem?_eq_getElem h3]
  simpa using h4

theorem search_ok : SearchOk env.search := by
  intro l n _
  refine ⟨fun z hz => search_some l n z hz, fun h hn => ?_⟩
  have := List.findIdx?_eq_none_iff.1 h n hn
  simp at this

theorem gen_ne : env.generator ≠ 0 := by decide +kernel

section
variable {F : Type} [Field F] [DecidableEq F]

def normExp (k : Nat) : Expr F → Expr F
  | .Constant a => .Constant (a ^ k)
  | .Exp a m => .Exp a (m * k)
  | a => if k = 1 then a else .Exp a k

def normNeg : Expr F → Expr F
  | .Constant a => .Constant (-a)
  | a => .Neg a

def normMul (a b : Expr F) : Expr F := if a = .Constant 1 then b else .Mul a b

/-- constants multiplied out -/
def norm : Expr F → Expr F
  | .Exp a k => normExp k (norm a)
  | .Neg a => normNeg (norm a)
  | .Mul a b => normMul (norm a) (norm b)
  | .Add a b => .Add (norm a) (norm b)
  | .Inv a => .Inv (norm a)
  | .Polynomial p a => .Polynomial p (norm a)
  | .X => .X
  | .Constant a => .Constant a
  | .Trace i j => .Trace i j
  | .ClaimPolynomial i n a s => .ClaimPolynomial i n a s

theorem normExp_evaluate (x : F) (tr : Nat → Int → Option F) (k : Nat) (e : Expr F) : (normExp k e).evaluate x tr = (Expr.Exp e k).evaluate x tr := by
  unfold normExp
  split
  · simp [Expr.evaluate]
  · simp [Expr.evaluate, pow_mul, Function.comp_def]
  · split
    · rename_i h
      subst h
      simp [Expr.evaluate]
    · rfl

theorem norm_evaluate (x : F) (tr : Nat → Int → Option F) (e : Expr F) : (norm e).evaluate x tr = e.evaluate x tr := by
  induction e with
  | X => rfl
  | Constant c => rfl
  | Trace i j => rfl
  | ClaimPolynomial i n a s _ => rfl
  | Polynomial p a ih => simp only [norm, Expr.evaluate, ih]
  | Inv a ih => simp only [norm, Expr.evaluate, ih]
  | Neg a ih =>
    rw [norm, Expr.evaluate, ← ih]
    unfold normNeg
    split
    · simp_all [Expr.evaluate]
    · rfl
  | Exp a k ih => rw [norm, normExp_evaluate, Expr.evaluate, Expr.evaluate, ih]
  | Add a b iha ihb => simp only [norm, Expr.evaluate, iha, ihb]
  | Mul a b iha ihb =>
    rw [norm, Expr.evaluate, ← iha, ← ihb]
    unfold normMul
    split
    · rename_i h
      rw [h]
      simp [Expr.evaluate]
    · rfl

end

/-- no two different subexpressions have the same mark -/
def MarksOk (E : Expr Z) : Prop :=
  ∀ p ∈ (Expr.Constant 0 :: Expr.Constant 1 :: subexpressions E).map fun a => (mark 77 o.traceHash a, norm a),
    ∀ p' ∈ (Expr.Constant 0 :: Expr.Constant 1 :: subexpressions E).map fun a => (mark 77 o.traceHash a, norm a), p.1 = p'.1 → p.2 = p'.2

instance (E : Expr Z) : Decidable (MarksOk E) := by unfold MarksOk; infer_instance

/-- what is to be computed for a system -/
structure Computed (c : Constraints Z) (k d : Nat) (E : Expr Z) : Prop where
  combine : c.combine (List.replicate (2 * c.expressions.length) 28784) = some E
  claims : E.substitute_claim [] = some E
  mark : Props.mark 77 o.traceHash E ≠ none
  marks : MarksOk E
  degree_pos : 0 < d
  degrees : ∀ e ∈ c.expressions, (e.degree (2 ^ k - 1)).1 < d * 2 ^ k + (e.degree (2 ^ k - 1)).2
  constraints : 2 * c.expressions.length < 2 ^ 32
  arguments : ((c.substitute.bind (fun c' => c'.trace_arguments)).map fun l => decide (l.length + next_power_of_two d < 2 ^ 32)) = some true
  points : (28784 : Z) ^ 2 ^ k ≠ 1 ∧ (28784 : Z) ^ 2 ^ (k + 4) ≠ 3 ^ 2 ^ (k + 4) ∧ ((28784 : Z) ^ next_power_of_two d) ^ 2 ^ (k + 4) ≠ 3 ^ 2 ^ (k + 4) ∧ (3 : Z) ^ 2 ^ (k + 4) ≠ 1

variable {c : Constraints Z} {k d columns : Nat} {E : Expr Z} {g : Z} {qs : List (Expr Z × Expr Z)}

theorem parts (hs : SystemIs root c k columns g qs d) : c.trace_nrows = 2 ^ k ∧ c.blowup = 16 ∧ c.pow_bits = 0 ∧ c.claim_polynomials = [] := by
  obtain ⟨seed, es, h, -⟩ := hs.built
  obtain ⟨-, hc⟩ := system_some _ _ _ _ _ _ h
  rw [hc]
  exact ⟨rfl, rfl, rfl, rfl⟩

theorem run_ok (hs : SystemIs root c k columns g qs d) (h : Computed c k d E) : RunOk env o c where
  draws := draws
  size := by
    rw [(parts hs).1, (parts hs).2.1]
    have := Nat.two_pow_pos k
    omega
  degree := by
    intro d' hd
    rw [hs.degree.1] at hd
    cases hd
    rw [(parts hs).1]
    exact ⟨h.degree_pos, h.degrees⟩
  pow_bits := by rw [(parts hs).2.2.1]; norm_num
  constraints := h.constraints
  arguments := by
    intro c' args d' h1 h2 h3
    rw [hs.degree.1] at h3
    cases h3
    have := h.arguments
    rw [h1, Option.bind_some, h2, Option.map_some] at this
    exact of_decide_eq_true (Option.some.inj this)
  nonce := by
    intro ch n h
    cases h
    norm_num
  solve := by
    intro seed ch h
    refine ⟨0, rfl, ?_⟩
    unfold with_difficulty at h
    rw [(parts hs).2.2.1, if_pos (by decide)] at h
    cases h
    unfold Challenge.verify
    obtain ⟨u, _, h1, -⟩ := draw
    rw [show ∀ x, env.K.hash x = h0 from fun _ => rfl, h1]
    exact decide_eq_true (Nat.zero_le _)

theorem graph_ok (hs : SystemIs root c k columns g qs d) (h : Computed c k d E) (T : Nat → Z[X]) (g : Z) :
    GraphOk env o c g T (List.replicate (2 * c.expressions.length) 28784) := by
  intro d E0 E' _ hE hE'
  rw [h.combine] at hE
  cases hE
  rw [(parts hs).2.2.2, h.claims] at hE'
  cases hE'
  refine ⟨h.mark, ?_⟩
  intro a ha a' ha' hm x _
  have := h.marks _ (List.mem_map_of_mem ha) _ (List.mem_map_of_mem ha') hm
  rw [← norm_evaluate, show norm a = norm a' from this, norm_evaluate]

theorem point_ne (hs : SystemIs root c k columns g qs d) (x : Z) (h : EvalPoint env c x) : x ^ 2 ^ (k + 4) = 3 ^ 2 ^ (k + 4) := by
  obtain ⟨y, h1, rfl⟩ := h
  rw [(parts hs).1, (parts hs).2.1, show 2 ^ k * 16 = 2 ^ (k + 4) by rw [pow_add]; norm_num] at h1
  show (3 * y) ^ 2 ^ (k + 4) = _
  rw [mul_pow, h1, mul_one]

theorem oods_point (t : TraceTable Z) (s : Committed Z) (ch : ProverChannel) (h : commitPhase env o c t = .ok (s, ch)) : s.oods_point = 28784 := by
  unfold commitPhase at h
  obtain ⟨_, _, h⟩ := bind_ok_inv h
  obtain ⟨_, _, h⟩ := bind_ok_inv h
  obtain ⟨_, _, h⟩ := bind_ok_inv h
  obtain ⟨_, _, h⟩ := bind_ok_inv h
  obtain ⟨_, _, h⟩ := bind_ok_inv h
  obtain ⟨_, _, h⟩ := bind_ok_inv h
  obtain ⟨oods, ho, h⟩ := bind_ok_inv h
  obtain ⟨_, _, h⟩ := bind_ok_inv h
  obtain ⟨_, _, h⟩ := bind_ok_inv h
  obtain ⟨_, _, h⟩ := bind_ok_inv h
  obtain ⟨_, _, h⟩ := bind_ok_inv h
  obtain ⟨_, _, h⟩ := bind_ok_inv h
  split at h
  · cases h
  obtain ⟨_, _, h⟩ := bind_ok_inv h
  obtain ⟨_, _, h⟩ := map_ok_inv h
  cases h
  have ho := pPanic_inv ho
  unfold oods_combine at ho
  obtain ⟨_, _, ho⟩ := Option.bind_eq_some_iff.1 ho
  obtain ⟨r, hr, ho⟩ := Option.bind_eq_some_iff.1 ho
  obtain ⟨_, _, ho⟩ := Option.bind_eq_some_iff.1 ho
  obtain ⟨_, _, ho⟩ := Option.bind_eq_some_iff.1 ho
  obtain ⟨_, _, ho⟩ := Option.bind_eq_some_iff.1 ho
  obtain ⟨_, _, ho⟩ := Option.bind_eq_some_iff.1 ho
  obtain ⟨_, _, ho⟩ := Option.map_eq_some_iff.1 ho
  rw [← ho]
  dsimp only
  unfold ProverChannel.getField at hr
  obtain ⟨v, hv, hall⟩ := randomField_eq
  rw [show env.K = K from rfl, hall] at hr
  obtain ⟨_, h1, h2⟩ := Option.map_eq_some_iff.1 hr
  obtain ⟨_, _, h3⟩ := Option.map_eq_some_iff.1 h1
  rw [← h2, ← h3]
  show (v.toNat : Z) = 28784
  rw [← ZMod.natCast_mod, hv]
  rfl

theorem drawn (t : TraceTable Z) (co : List Z) (h : DrawnCoefficients env c t co) : co = List.replicate (2 * c.expressions.length) 28784 := by
  obtain ⟨polys, r, ch, -, -, h⟩ := h
  obtain ⟨v, hv, hall⟩ := randomField_eq
  have key : ∀ n c' l c'', PublicCoin.randomFields K n c' = some (l, c'') → l = List.replicate n v := by
    intro n
    induction n with
    | zero => intro c' l c'' h; cases h; rfl
    | succ n ih =>
      intro c' l c'' h
      unfold PublicCoin.randomFields at h
      simp only [hall, Option.bind_eq_some_iff, Option.map_eq_some_iff] at h
      obtain ⟨a, ⟨_, _, rfl⟩, b, hb, hl⟩ := h
      cases hl
      rw [ih _ _ _ hb, List.replicate_succ]
  unfold ProverChannel.getFields at h
  obtain ⟨l, h1, h2⟩ := Option.map_eq_some_iff.1 h
  have h3 := key _ _ l.1 l.2 h1
  have h4 := congrArg Prod.fst h2
  dsimp only at h4
  have : env.codec.val v = 28784 := by
    show (v.toNat : Z) = 28784
    rw [← ZMod.natCast_mod, hv]
    rfl
  rw [← h4, h3, List.map_replicate, this]

theorem out_of_domain (hs : SystemIs root c k columns g qs d) (h : Computed c k d E) (T : Nat → Z[X]) : OutOfDomain env c g T 28784 := by
  obtain ⟨p1, p2, p3, p4⟩ := h.points
  refine ⟨fun x hx => ⟨fun e he i j hij => ?_, fun d' hd => ?_⟩, ?_⟩
  · have hx := point_ne hs x hx
    rintro rfl
    have h4 : (g ^ j) ^ 2 ^ (k + 4) = 1 := by
      rw [← zpow_natCast, ← zpow_mul, mul_comm, zpow_mul, zpow_natCast, pow_add, pow_mul, ← hs.order, pow_orderOf_eq_one, one_pow, one_zpow]
    rw [mul_pow, h4, mul_one] at hx
    exact p2 hx
  · have hx := point_ne hs x hx
    rw [hs.degree.1] at hd
    cases hd
    rintro rfl
    exact p3 hx
  · exact defined c _ hs.quotients g T 28784 fun q hq => (hs.zeros q hq).1.2 28784 p1

/-- the table is proved and the proof accepted -/
theorem proved (hs : SystemIs root c k columns g qs d) (h : Computed c k d E) (hk : k + 4 ≤ 16) (hk1 : 0 < k)
    (t : TraceTable Z) (ht : TableOk t) (hlen : t.trace_length = 2 ^ k) (hcols : t.num_columns = columns)
    (hhold : Hold g (2 ^ k) (fun r i => (t.get r i).getD 0) qs) : ∃ p, Stark.verify env c p = .ok () := by
  obtain ⟨seed, es, hsys, hocc⟩ := hs.built
  obtain ⟨ps, i1, i2, i3⟩ := C46_interpolate root root_ok t ht k hs.size hlen g (by
    unfold TraceTable.generator
    rw [hlen]
    exact hs.generator)
  have hw : env.root (2 ^ k * 16) = some (3 ^ (65536 / (2 ^ k * 16))) := if_pos (by
    rw [show 2 ^ k * 16 = 2 ^ (k + 4) by rw [pow_add]; norm_num]
    exact pow_dvd_pow 2 (n := 16) hk)
  obtain ⟨p, -, hp⟩ := provable env root_ok root_compat gen_ne search_some o k _ columns (by omega) hk1 rfl hs.columns_pos seed es c hsys (run_ok hs h) qs hs.quotients g
    hs.generator (fun q hq => (hs.zeros q hq).1) d hs.degree.1 hs.degree.2 t ht hlen hcols hocc hhold _ hw (by
      intro x hx h0
      have hx := point_ne hs x hx
      rw [pow_add, pow_mul, h0, one_pow] at hx
      exact h.points.2.2.2 (by rw [pow_add]; exact hx.symm)) (fun j => toPoly (ps.getD j [])) (by
    intro j hj
    obtain ⟨q, q1, q2, q3⟩ := i3 j hj
    have : ps.getD j [] = q := by rw [List.getD, q1]; rfl
    simp only [this]
    refine ⟨?_, ?_⟩
    · have := toPoly_degree_lt q
      rw [q2] at this
      rw [hlen]
      exact this
    · intro i hi
      rw [hlen] at hi
      exact q3 i hi) (fun co hco => by rw [drawn t co hco]; exact graph_ok hs h _ _) (fun s ch hh => by rw [oods_point t s ch hh]; exact out_of_domain hs h _)
  exact ⟨p, hp⟩

end Run
end Examples
end OpenZKP
