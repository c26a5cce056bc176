import Verif.Props.PedersenMerkle
import Verif.Examples.PedersenConcrete

/-!
# The example pedersen_merkle with its constants: C84
-/

namespace OpenZKP
namespace Props
namespace PedersenMerkle
open Stark FFT Polynomial Examples Examples.Pedersen EC Stark.Accept WeierstrassCurve.Affine

/-- the sum of two points, with the slope -/
def sumOk (q r s : Nat × Nat) (m : Nat) : Bool :=
  onCurve q && onCurve r && onCurve s && decide (q.1 % P ≠ r.1 % P) && decide ((m * q.1 + r.2) % P = (m * r.1 + q.2) % P) && decide ((s.1 + q.1 + r.1) % P = m * m % P) &&
    decide ((s.2 + q.2 + m * s.1) % P = m * q.1 % P)

theorem cast_ne {a b : Nat} (h : a % P ≠ b % P) : (a : Fp) ≠ b := by
  intro e
  rw [ZMod.natCast_eq_natCast_iff'] at e
  have hP : P = PF.BASE.modulus.toNat := base_modulus.symm
  rw [hP] at h
  exact h e

theorem point_add (q r s : Nat × Nat) (m : Nat) (h : sumOk q r s m = true) : point q + point r = point s ∧ point q ≠ point r ∧ point q ≠ -point r := by
  unfold sumOk at h
  simp only [Bool.and_eq_true, decide_eq_true_eq] at h
  obtain ⟨⟨⟨⟨⟨⟨h1, h2⟩, h3⟩, h4⟩, h5⟩, h6⟩, h7⟩ := h
  have h4 := cast_ne h4
  have key : ∀ a b : Nat, a % P = b % P → ((a : Nat) : Fp) = b := fun a b e => by rw [← cast_mod a, e, cast_mod]
  have h5 := key _ _ h5
  have h6 := key _ _ h6
  have h7 := key _ _ h7
  push_cast at h5 h6 h7
  obtain ⟨n1, e1⟩ := ofPoint_some (ofPoint_point q h1)
  obtain ⟨n2, e2⟩ := ofPoint_some (ofPoint_point r h2)
  refine ⟨ofPoint_inj ?_, ?_, ?_⟩
  · rw [e1, e2, add_coords n1 n2 h4 (m : Fp) (by linear_combination h5), ofPoint_point s h3]
    have : (m : Fp) * m - q.1 - r.1 = s.1 := by linear_combination -h6
    rw [this]
    congr 1
    linear_combination -h7
  · rw [e1, e2]
    intro e
    injection e with e _
    exact h4 e
  · rw [e1, e2, Point.neg_some]
    intro e
    injection e with e _
    exact h4 e

/-- the sums for the left input 2^251 + 17 * 2^192 + 1 and the right input 0 -/
def S1 : Nat × Nat := (0x053ac02c0a5f157d132f278536382bb6a5d97470d2200b3bf4ae9f313627ba19, 0x0474a9037f8a03cfbf90f7f5b72df656b5f5dd92c2deeec945d79139ad364efc)
def S2 : Nat × Nat := (0x0394e606acb2c01baee89b97b7c2507c99827c56958c809bc8fcae9967303e75, 0x02111ea8b1b0d8855efc04d047439d775912e495f28f91d8073168dab4c3a1aa)
def S3 : Nat × Nat := (0x051e4d5096873ded82e288a71e20ef4581a9632aa0ccdb8b5435959048dcfca4, 0x06fa86706256575b241f778e01e84efdcb211b18bac5e3297f24540da0b42a3a)
def S4 : Nat × Nat := (0x01efda68d69768c91731542c5fd1b4870398d3327da3d35c845a6dbca9710217, 0x02c4f02f65cb8517c6f6ec7c5796a19b03b13eaa31b71bdc2229f2248331ef65)

theorem sum1 : sumOk SHIFT_POINT (POINTS.getD 1 (0, 0)) S1 0x01b8bb2c01a1df15128a175293abe979da5a96f4aad6d89f9e943f2dbd276655 = true := by decide +kernel
theorem sum2 : sumOk S1 (POINTS.getD 193 (0, 0)) S2 0x032a2ce83ae28acd13af9e1b93af0e0200e178ff6f385cbe65d248488652eebd = true := by decide +kernel
theorem sum3 : sumOk S2 (POINTS.getD 197 (0, 0)) S3 0x00e21f4efbeca399df716147e584a4e6dbc17cbd47ae849657465a3394d37f96 = true := by decide +kernel
theorem sum4 : sumOk S3 (POINTS.getD 252 (0, 0)) S4 0x03fbc106d062f9cc872b6adc653336dc7e4f3cd1478ab066466fe78f996ef111 = true := by decide +kernel

theorem bits_P : ((List.range 252).all fun i => decide (P.testBit i = decide (i = 0 ∨ i = 192 ∨ i = 196 ∨ i = 251))) = true := by decide +kernel

theorem testBit_P (i : Nat) (hi : i < 252) : P.testBit i = true ↔ i = 0 ∨ i = 192 ∨ i = 196 ∨ i = 251 := by
  rw [of_decide_eq_true (List.all_eq_true.1 bits_P i (List.mem_range.2 hi)), decide_eq_true_eq]

/-- the sums on the way -/
theorem sums_P : partialSum bases P 0 0 = point SHIFT_POINT ∧ partialSum bases P 0 192 = point S1 ∧ partialSum bases P 0 196 = point S2 ∧ partialSum bases P 0 251 = point S3 ∧
    partialSum bases P 0 252 = point S4 := by
  have hstep : ∀ n, partialSum bases P 0 (n + 1) = partialSum bases P 0 n + if P.testBit n then bases.left n else 0 := by
    intro n
    unfold partialSum
    rw [Finset.sum_range_succ]
    simp [add_assoc]
  have hconst : ∀ m k, (∀ i, m ≤ i → i < m + k → P.testBit i = false) → partialSum bases P 0 (m + k) = partialSum bases P 0 m := by
    intro m k
    induction k with
    | zero => intro _; rfl
    | succ k ih =>
      intro h
      rw [← add_assoc, hstep, h (m + k) (by omega) (by omega), ih fun i h1 h2 => h i h1 (by omega)]
      simp
  have hoff : ∀ i, i < 252 → ¬ (i = 0 ∨ i = 192 ∨ i = 196 ∨ i = 251) → P.testBit i = false := by
    intro i hi hn
    rw [← testBit_P i hi] at hn
    simpa using hn
  have e0 : partialSum bases P 0 0 = point SHIFT_POINT := by
    unfold partialSum
    simp [bases]
  have e1 : partialSum bases P 0 1 = point S1 := by
    rw [hstep 0, if_pos ((testBit_P 0 (by norm_num)).2 (by norm_num)), e0]
    exact (point_add _ _ _ _ sum1).1
  have e192 : partialSum bases P 0 192 = point S1 := by
    rw [show 192 = 1 + 191 from rfl, hconst 1 191 fun i h1 h2 => hoff i (by omega) (by omega), e1]
  have e193 : partialSum bases P 0 193 = point S2 := by
    rw [hstep 192, if_pos ((testBit_P 192 (by norm_num)).2 (by norm_num)), e192]
    exact (point_add _ _ _ _ sum2).1
  have e196 : partialSum bases P 0 196 = point S2 := by
    rw [show 196 = 193 + 3 from rfl, hconst 193 3 fun i h1 h2 => hoff i (by omega) (by omega), e193]
  have e197 : partialSum bases P 0 197 = point S3 := by
    rw [hstep 196, if_pos ((testBit_P 196 (by norm_num)).2 (by norm_num)), e196]
    exact (point_add _ _ _ _ sum3).1
  have e251 : partialSum bases P 0 251 = point S3 := by
    rw [show 251 = 197 + 54 from rfl, hconst 197 54 fun i h1 h2 => hoff i (by omega) (by omega), e197]
  refine ⟨e0, e192, e196, e251, ?_⟩
  rw [hstep 251, if_pos ((testBit_P 251 (by norm_num)).2 (by norm_num)), e251]
  exact (point_add _ _ _ _ sum4).1

theorem regular_P : ¬ Doubles bases P 0 ∧ ¬ Cancels bases P 0 := by
  obtain ⟨e0, e192, e196, e251, -⟩ := sums_P
  have key : ∀ i < 252, P.testBit i = true → partialSum bases P 0 i ≠ bases.left i ∧ partialSum bases P 0 i ≠ -bases.left i := by
    intro i hi hb
    rcases (testBit_P i hi).1 hb with rfl | rfl | rfl | rfl
    · rw [e0]; exact (point_add _ _ _ _ sum1).2
    · rw [e192]; exact (point_add _ _ _ _ sum2).2
    · rw [e196]; exact (point_add _ _ _ _ sum3).2
    · rw [e251]; exact (point_add _ _ _ _ sum4).2
  constructor
  · rintro ⟨i, hi, ⟨hb, e⟩ | ⟨hb, -⟩⟩
    · exact (key i hi hb).1 e
    · simp at hb
  · rintro ⟨i, hi, ⟨hb, e⟩ | ⟨hb, -⟩⟩
    · exact (key i hi hb).2 e
    · simp at hb

theorem root_256 : baseRoot 256 = some OMEGA := by decide +kernel

/-- C84: the constants of the example are points of the curve, and the periodic columns take their coordinates in the rows of the loop; the component and its systems exist for
paths of any length that is a power of two. -/
theorem C84_constants (dbg : Bool) (h : Nat) (hh : h + 8 < 64) : TablesHold tables OMEGA bases ∧ baseRoot 256 = some OMEGA ∧
    Conversions (fun x : Fp => toUint x) (fun u => ((u.toNat : Nat) : Fp)) ∧
    ∃ g comp, baseRoot (2 ^ (h + 8)) = some g ∧ MerkleTree dbg baseRoot (fun x : Fp => toUint x) (fun u => ((u.toNat : Nat) : Fp)) tables (2 ^ h) = some comp ∧
      ∀ claim, ∃ c, comp.system baseRoot claim = some c := by
  obtain ⟨g, hg⟩ := C20_base_field.2 (h + 8) hh
  obtain ⟨comp, h1, h2⟩ := system_exists baseRoot dbg (fun x : Fp => toUint x) (fun u => ((u.toNat : Nat) : Fp)) tables _ _ rfl (by decide +kernel) OMEGA root_256 h g hg
  exact ⟨tables_hold, root_256, conversions, g, comp, hg, h1, h2⟩

theorem hash_zero : merkle_hash (fun x : Fp => toUint x) tables 0 0 = some ((SHIFT_POINT.1 : Nat) : Fp) := by
  have h0 : (toUint (0 : Fp)).toNat = 0 := by decide +kernel
  refine merkle_hash_eq two_ne _ _ conversions tables OMEGA bases tables_hold 0 0 ?_ _ (SHIFT_POINT.2 : Nat) ?_
  · beta_reduce
    rw [h0]
    rintro ⟨i, -, ⟨hb, -⟩ | ⟨hb, -⟩⟩ <;> simp at hb
  · beta_reduce
    rw [h0]
    have : pedersen bases 0 0 = point SHIFT_POINT := by
      unfold pedersen partialSum
      simp [bases]
    rw [this]
    exact ofPoint_point _ shift_on

/-- C84 does not hold in full, for the constants of the example: the inputs of a layer are integers below `2^252`, and some residues have two of them. For the leaf 0 with the sibling 0
there is a trace that the library checks and proves, for a root that is not the hash of the two. -/
theorem C84_violated (dbg : Bool) : ∃ comp c claim, MerkleTree dbg baseRoot (fun x : Fp => toUint x) (fun u => ((u.toNat : Nat) : Fp)) tables (2 ^ 0) = some comp ∧
    comp.system baseRoot claim = some c ∧ claim.leaf = 0 ∧ ∀ env : Env Fp, env.root = baseRoot → env.generator ≠ 0 →
      (∀ l n z, env.search l n = some z → l[z]? = some n) → ∀ o, ∃ t : TraceTable Fp, TraceTable.check_constraints env.root c t = some (.ok ()) ∧
        Provable env o c 8 OMEGA t ∧ ¬ HasPath (merkle_hash (fun x : Fp => toUint x) tables) (2 ^ 0) claim.leaf claim.root fun r i => (t.get r i).getD 0 := by
  obtain ⟨-, -, -, g, comp, hg, h1, h2⟩ := C84_constants dbg 0 (by norm_num)
  have hg : g = OMEGA := Option.some.inj (hg.symm.trans root_256)
  subst hg
  obtain ⟨c, hc⟩ := h2 ⟨1, 0, (S4.1 : Nat)⟩
  refine ⟨comp, c, _, h1, hc, rfl, fun env henv hgen hsearch o => ?_⟩
  have hPz : ((P : Nat) : Fp) = 0 := by
    have := cast_mod P
    rw [Nat.mod_self] at this
    rw [← this, Nat.cast_zero]
  obtain ⟨t, t1, t2, -, t4⟩ := C84_table env (by rw [henv]; exact C20_base_field.1) (by rw [henv]; exact C38_base_field) hgen hsearch o dbg _ _ tables OMEGA (by rw [henv]; exact root_256) bases
    tables_hold 0 (by norm_num) comp (by rw [henv]; exact h1) ⟨1, 0, (S4.1 : Nat)⟩ c (by rw [henv]; exact hc) OMEGA (by rw [henv]; exact root_256) (fun _ => P) (fun _ => 0)
    (fun _ _ => by unfold P; norm_num) (fun _ _ => by norm_num) (fun _ _ => regular_P.1) (fun _ _ => regular_P.2) (fun b => if b = 0 then 0 else ((S4.1 : Nat) : Fp))
    (fun b _ => ⟨(S4.2 : Nat), by
      rw [if_neg (by omega), ← ofPoint_point S4 (by decide +kernel), ← sums_P.2.2.2.2]
      rfl⟩) (if_pos rfl) (if_neg (by norm_num)) (fun b hb => Or.inl (by rw [if_pos (by omega), hPz]))
  refine ⟨t, t1, t2, ?_⟩
  obtain ⟨⟨-, e0, -⟩, ⟨-, e4, -⟩⟩ := t4 0 (by norm_num)
  rw [hPz] at e0
  rw [Nat.cast_zero] at e4
  rintro ⟨path, p1, p2, p3⟩
  obtain ⟨node, rfl⟩ := List.length_eq_one_iff.1 p1
  have hn := p2 0 node rfl
  have hz : node.2 = 0 := by
    rw [hn]
    split
    · exact e0.symm
    · exact e4.symm
  have : stepUp (merkle_hash (fun x : Fp => toUint x) tables) 0 node = merkle_hash (fun x : Fp => toUint x) tables 0 0 := by
    unfold stepUp
    rw [hz]
    split <;> rfl
  rw [List.foldlM_cons, this, hash_zero] at p3
  have p3 : some ((SHIFT_POINT.1 : Nat) : Fp) = some ((S4.1 : Nat) : Fp) := p3
  exact cast_ne (by decide +kernel) (Option.some.inj p3)

-- the base field with any hash function is such an environment
example (K : Keccak) : ∃ env : Env Fp, env.K = K ∧ env.root = baseRoot ∧ env.generator ≠ 0 ∧ ∀ l n z, env.search l n = some z → l[z]? = some n := by
  have hm : PF.BASE.modulus.toNat ≤ 2 ^ 256 := by rw [base_modulus]; norm_num
  refine ⟨⟨K, ⟨fun x => toUint x, fun u => (u.toNat : Nat), fun x => ?_, fun x => conversions.cast x⟩, baseRoot, 3, fun l n => l.findIdx? (· = n)⟩, rfl, rfl, ?_, ?_⟩
  · rw [toUint_toNat hm]
    exact ZMod.val_lt x
  · exact small_ne 3 (by norm_num) (by norm_num)
  · intro l n z hz
    obtain ⟨h3, h4, -⟩ := List.findIdx?_eq_some_iff_getElem.1 hz
    rw [List.getElem?_eq_getElem h3]
    simpa using h4

end PedersenMerkle
end Props
end OpenZKP
