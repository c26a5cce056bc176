import Verif.FFT.Par
import Verif.FFT.RadixSqrt
import Verif.Par.Frame

/-! # The tasks of the parallel Fourier transform compute what the sequential model computes -/

namespace OpenZKP.FFT
open Par

variable {A F : Type} [CommRing F] [DecidableEq A]

/-- run alone, the program changes the slice at `addr` by `f`, without a panic -/
def Does (addr : Nat → A) (p : Prog A F Unit) (f : Slice F → Slice F) : Prop :=
  ∀ m : A → F, ∃ m', p.run m = some ((), m') ∧ (fun j => m' (addr j)) = f fun j => m (addr j)

theorem does_pure (addr : Nat → A) : Does addr (.pure () : Prog A F Unit) id := fun m => ⟨m, rfl, rfl⟩

theorem does_bind {addr : Nat → A} {p : Prog A F Unit} {q : Unit → Prog A F Unit} {f g : Slice F → Slice F} (hp : Does addr p f) (hq : Does addr (q ()) g) :
    Does addr (p.bind q) fun v => g (f v) := by
  intro m
  obtain ⟨m1, h1, e1⟩ := hp m
  obtain ⟨m2, h2, e2⟩ := hq m1
  refine ⟨m2, ?_, by rw [e2, e1]⟩
  rw [Prog.run_bind, h1]
  exact h2

theorem does_loop {addr : Nat → A} {ι : Type} (body : Unit → ι → Prog A F Unit) (f : Slice F → ι → Slice F) (l : List ι)
    (h : ∀ i ∈ l, Does addr (body () i) fun v => f v i) : Does addr (Prog.loop body l ()) fun v => l.foldl f v := by
  induction l with
  | nil => exact does_pure addr
  | cons i l ih =>
    exact does_bind (h i (List.mem_cons_self ..)) (ih fun j hj => h j (List.mem_cons_of_mem _ hj))

theorem run_get (addr : Nat → A) (len j : Nat) (hj : j < len) (m : A → F) : (Prog.get addr len j).run m = some (m (addr j), m) := by
  unfold Prog.get; rw [if_pos hj]; rfl

theorem run_set (addr : Nat → A) (len j : Nat) (hj : j < len) (x : F) (m : A → F) :
    (Prog.set addr len j x).run m = some ((), fun a => if a = addr j then x else m a) := by
  unfold Prog.set; rw [if_pos hj]; rfl

theorem slice_set (addr : Nat → A) (hinj : Function.Injective addr) (m : A → F) (i : Nat) (x : F) :
    (fun j => (fun a => if a = addr i then x else m a) (addr j)) = set (fun j => m (addr j)) i x := by
  funext j
  unfold set
  by_cases h : j = i
  · subst h; simp
  · have : addr j ≠ addr i := fun e => h (hinj e)
    simp [h, this]

theorem does_radix_2 (addr : Nat → A) (hinj : Function.Injective addr) (len stride i : Nat) (h : i + stride < len) :
    Does addr (radix_2P (F := F) addr len stride i) fun v => radix_2 stride v i := by
  intro m
  unfold radix_2P
  simp only [Prog.run_bind, run_get addr len _ (show i < len by omega), run_get addr len _ h, Option.bind_some, run_set addr len _ (show i < len by omega),
    run_set addr len _ h]
  refine ⟨_, rfl, ?_⟩
  funext j
  simp only [hinj.eq_iff, radix_2, set]

theorem does_radix_2_twiddle (addr : Nat → A) (hinj : Function.Injective addr) (len : Nat) (t : F) (stride i : Nat) (h : i + stride < len) :
    Does addr (radix_2_twiddleP addr len t stride i) fun v => radix_2_twiddle t stride v i := by
  intro m
  unfold radix_2_twiddleP
  simp only [Prog.run_bind, run_get addr len _ (show i < len by omega), run_get addr len _ h, Option.bind_some, run_set addr len _ (show i < len by omega),
    run_set addr len _ h]
  refine ⟨_, rfl, ?_⟩
  funext j
  simp only [hinj.eq_iff, radix_2_twiddle, set]

theorem does_recursive (addr : Nat → A) (hinj : Function.Injective addr) (len : Nat) (tw : Slice F) (twLen : Nat) : ∀ (fuel k o c s : Nat), 0 < s →
    len = 2 ^ k * s → o + c ≤ s → Does addr (fft_vec_recursiveP addr len tw twLen fuel o c s) fun v => fft_vec_recursive len tw twLen fuel v o c s := by
  intro fuel
  induction fuel with
  | zero => intro k o c s _ _ _; exact does_pure addr
  | succ fuel ih =>
    intro k o c s hs hlen hoc
    unfold fft_vec_recursiveP fft_vec_recursive
    dsimp only
    have hsize : len / s = 2 ^ k := by rw [hlen, Nat.mul_div_cancel _ hs]
    by_cases h : len / s > 1
    · rw [if_pos h]
      simp only [if_pos h]
      obtain ⟨k, rfl⟩ : ∃ n, k = n + 1 := by
        cases k with
        | zero => rw [hsize, pow_zero] at h; omega
        | succ k => exact ⟨k, rfl⟩
      have hlen2 : len = 2 ^ k * (2 * s) := by rw [hlen, pow_succ]; ring
      -- the recursive calls
      have hrec : Does addr (if s = c ∧ c < 128 then fft_vec_recursiveP addr len tw twLen fuel o (2 * c) (2 * s)
          else (fft_vec_recursiveP addr len tw twLen fuel o c (2 * s)).bind fun _ => fft_vec_recursiveP addr len tw twLen fuel (o + s) c (2 * s))
          (fun v => if s = c ∧ c < 128 then fft_vec_recursive len tw twLen fuel v o (2 * c) (2 * s)
            else fft_vec_recursive len tw twLen fuel (fft_vec_recursive len tw twLen fuel v o c (2 * s)) (o + s) c (2 * s)) := by
        by_cases h2 : s = c ∧ c < 128
        · simp only [if_pos h2]
          exact ih k o (2 * c) (2 * s) (by omega) hlen2 (by omega)
        · simp only [if_neg h2]
          exact does_bind (q := fun _ => fft_vec_recursiveP addr len tw twLen fuel (o + s) c (2 * s))
            (g := fun v => fft_vec_recursive len tw twLen fuel v (o + s) c (2 * s)) (ih k o c (2 * s) (by omega) hlen2 (by omega)) (ih k (o + s) c (2 * s) (by omega) hlen2 (by omega))
      refine does_bind (g := fun v => outer tw twLen (len / s) o c s v) hrec ?_
      have hpk := Nat.two_pow_pos k
      have h2s : 2 * s ≤ len := by rw [hlen2]; exact Nat.le_mul_of_pos_left _ hpk
      unfold outerP outer
      refine does_bind (f := fun v => outerFirst o c s v)
        (g := fun v => ((List.range (blocks (len / s) s twLen)).drop 1).foldl (outerStep tw o c s) v) ?_ ?_
      · unfold outerFirst
        refine does_loop _ (radix_2 s) _ ?_
        intro i hi
        rw [List.mem_range'_1] at hi
        exact does_radix_2 addr hinj len s i (by omega)
      · refine does_loop _ (outerStep tw o c s) _ ?_
        intro b hb
        have hb := List.mem_range.1 (List.drop_subset _ _ hb)
        have hb2 : b < 2 ^ k := by
          unfold blocks at hb
          have hb := lt_of_lt_of_le hb (min_le_left _ _)
          have e : len / s * s = 2 ^ k * (2 * s) := by rw [hsize, ← hlen, hlen2]
          rw [e, Nat.lt_div_iff_mul_lt (by omega)] at hb
          have : b * (2 * s) < 2 ^ k * (2 * s) := by
            omega
          exact Nat.lt_of_mul_lt_mul_right this
        unfold outerStep
        refine does_loop _ (radix_2_twiddle (tw b) s) _ ?_
        intro i hi
        rw [List.mem_range'_1] at hi
        refine does_radix_2_twiddle addr hinj len (tw b) s i ?_
        have : (b + 1) * (2 * s) ≤ 2 ^ k * (2 * s) := Nat.mul_le_mul_right _ hb2
        have e3 : (b + 1) * (2 * s) = 2 * s * b + 2 * s := by ring
        omega
    · rw [if_neg h]
      simp only [if_neg h]
      exact does_pure addr

theorem does_twiddleRow (addr : Nat → A) (hinj : Function.Injective addr) (len : Nat) (t : F) : Does addr (twiddleRowP addr len t) fun v => twiddleRow len t v := by
  have key : ∀ (l : List Nat) (c : F) (m : A → F), (∀ i ∈ l, i < len) →
      ∃ m', (Prog.loop (fun c i => (Prog.get addr len i).bind fun x => (Prog.set addr len i (x * c)).bind fun _ => .pure (c * t)) l c).run m =
          some ((l.foldl (fun (s : Slice F × F) i => (set s.1 i (s.1 i * s.2), s.2 * t)) (fun j => m (addr j), c)).2, m') ∧
        (fun j => m' (addr j)) = (l.foldl (fun (s : Slice F × F) i => (set s.1 i (s.1 i * s.2), s.2 * t)) (fun j => m (addr j), c)).1 := by
    intro l
    induction l with
    | nil => intro c m _; exact ⟨m, rfl, rfl⟩
    | cons i l ih =>
      intro c m h
      have hi := h i (List.mem_cons_self ..)
      unfold Prog.loop
      obtain ⟨m', h1, h2⟩ := ih (c * t) (fun a => if a = addr i then m (addr i) * c else m a) fun j hj => h j (List.mem_cons_of_mem _ hj)
      rw [slice_set addr hinj] at h1 h2
      refine ⟨m', ?_, h2⟩
      simp only [Prog.run_bind, run_get addr len _ hi, run_set addr len _ hi, Option.bind_some, Prog.run]
      exact h1
  intro m
  obtain ⟨m', h1, h2⟩ := key (List.range' 1 (len - 1)) t m (fun i hi => by rw [List.mem_range'_1] at hi; omega)
  refine ⟨m', ?_, h2⟩
  unfold twiddleRowP
  rw [Prog.run_bind, h1]; rfl

/-! ## Footprints -/

section uses
variable {W R : A → Prop}
omit [DecidableEq A]

theorem uses_radix_2 (addr : Nat → A) (len stride i : Nat) (h : ∀ j < len, W (addr j)) : (radix_2P (F := F) addr len stride i).Uses W R := by
  unfold radix_2P
  have g := fun j => Prog.uses_get (α := F) (R := R) addr len j fun j hj => Or.inl (h j hj)
  have s := fun j x => Prog.uses_set (α := F) (R := R) addr len j x h
  exact Prog.uses_bind _ _ (g _) fun _ => Prog.uses_bind _ _ (g _) fun _ => Prog.uses_bind _ _ (s _ _) fun _ => Prog.uses_bind _ _ (g _) fun _ => s _ _

theorem uses_radix_2_twiddle (addr : Nat → A) (len : Nat) (t : F) (stride i : Nat) (h : ∀ j < len, W (addr j)) : (radix_2_twiddleP addr len t stride i).Uses W R := by
  unfold radix_2_twiddleP
  have g := fun j => Prog.uses_get (α := F) (R := R) addr len j fun j hj => Or.inl (h j hj)
  have s := fun j x => Prog.uses_set (α := F) (R := R) addr len j x h
  exact Prog.uses_bind _ _ (g _) fun _ => Prog.uses_bind _ _ (g _) fun _ => Prog.uses_bind _ _ (s _ _) fun _ => Prog.uses_bind _ _ (g _) fun _ =>
    Prog.uses_bind _ _ (s _ _) fun _ => Prog.uses_bind _ _ (g _) fun _ => s _ _

theorem uses_recursive (addr : Nat → A) (len : Nat) (tw : Slice F) (twLen : Nat) (h : ∀ j < len, W (addr j)) : ∀ (fuel o c s : Nat),
    (fft_vec_recursiveP addr len tw twLen fuel o c s).Uses W R := by
  intro fuel
  induction fuel with
  | zero => intro o c s; trivial
  | succ fuel ih =>
    intro o c s
    unfold fft_vec_recursiveP
    dsimp only
    split
    · refine Prog.uses_bind _ _ ?_ fun _ => Prog.uses_bind _ _ (Prog.uses_loop _ (fun _ _ => uses_radix_2 addr len _ _ h) _ _) fun _ =>
        Prog.uses_loop _ (fun _ _ => Prog.uses_loop _ (fun _ _ => uses_radix_2_twiddle addr len _ _ _ h) _ _) _ _
      split
      · exact ih _ _ _
      · exact Prog.uses_bind _ _ (ih _ _ _) fun _ => ih _ _ _
    · trivial

theorem uses_twiddleRow (addr : Nat → A) (len : Nat) (t : F) (h : ∀ j < len, W (addr j)) : (twiddleRowP addr len t).Uses W R := by
  unfold twiddleRowP
  refine Prog.uses_bind _ _ (Prog.uses_loop _ (fun _ _ => ?_) _ _) fun _ => trivial
  exact Prog.uses_bind _ _ (Prog.uses_get _ _ _ fun j hj => Or.inl (h j hj)) fun _ => Prog.uses_bind _ _ (Prog.uses_set _ _ _ _ h) fun _ => trivial

end uses

/-! ## Loops over chunks -/

theorem chunkAddr_inj (size i : Nat) : Function.Injective (chunkAddr size i) := by
  intro a b h; unfold chunkAddr at h; omega

/-- the cells of chunk `i` -/
def ChunkCells (len size i a : Nat) : Prop := ∃ j < chunkLen len size i, a = chunkAddr size i j

theorem chunkCells_iff (len size : Nat) (hs : 0 < size) (i a : Nat) : ChunkCells len size i a ↔ a < len ∧ a / size = i := by
  unfold ChunkCells chunkLen chunkAddr
  constructor
  · rintro ⟨j, hj, rfl⟩
    have h1 := lt_of_lt_of_le hj (min_le_left _ _)
    have h2 := lt_of_lt_of_le hj (min_le_right _ _)
    refine ⟨by omega, ?_⟩
    rw [Nat.mul_comm, Nat.mul_add_div hs, Nat.div_eq_of_lt h1, Nat.add_zero]
  · rintro ⟨h1, rfl⟩
    have := Nat.div_add_mod' a size
    have h2 := Nat.mod_lt a hs
    exact ⟨a % size, by rw [Nat.lt_min]; omega, by omega⟩

theorem chunk_lt (len size : Nat) (hs : 0 < size) (a : Nat) (ha : a < len) : a / size < numChunks len size := by
  unfold numChunks
  rw [Nat.lt_div_iff_mul_lt hs]
  have := Nat.div_add_mod' a size
  omega

/-- a parallel loop over the chunks of a slice, each task changing its own chunk by `f i`, changes them all -/
theorem always_chunks (len size : Nat) (hs : 0 < size) (body : Nat → Prog Nat F Unit) (f : Nat → Slice F → Slice F) (v : Slice F)
    (huses : ∀ i < numChunks len size, (body i).Uses (ChunkCells len size i) fun _ => False)
    (hdoes : ∀ i < numChunks len size, Does (chunkAddr size i) (body i) (f i)) : Always (numChunks len size) body v (chunks len size f v) := by
  refine always_of_disjoint _ body (ChunkCells len size) (fun _ => False) v _ ?_ (fun _ _ h => h.elim) huses ?_ ?_
  · intro i j hij a h1 h2
    rw [chunkCells_iff _ _ hs] at h1 h2
    exact hij (h1.2.symm.trans h2.2)
  · intro i hi
    obtain ⟨m', h1, h2⟩ := hdoes i hi v
    refine ⟨m', h1, fun a ha => ?_⟩
    rw [chunkCells_iff _ _ hs] at ha
    obtain ⟨ha, rfl⟩ := ha
    have h3 := congrFun h2 (a % size)
    have e : chunkAddr size (a / size) (a % size) = a := Nat.div_add_mod' a size
    rw [e] at h3
    unfold chunks
    rw [if_pos ha, h3]
    rfl
  · intro a ha
    unfold chunks
    rw [if_neg]
    intro h
    exact ha (a / size) (chunk_lt len size hs a h) ((chunkCells_iff _ _ hs _ _).2 ⟨h, rfl⟩)

theorem chunkLen_full (n size i : Nat) (hs : 0 < size) (hi : i < numChunks (n * size) size) : chunkLen (n * size) size i = size := by
  have hi2 : i < n := by
    unfold numChunks at hi
    rw [Nat.lt_div_iff_mul_lt hs] at hi
    have : i * size < n * size := by omega
    exact Nat.lt_of_mul_lt_mul_right this
  unfold chunkLen
  apply min_eq_left
  have : (i + 1) * size ≤ n * size := Nat.mul_le_mul_right _ hi2
  have e : (i + 1) * size = i * size + size := by ring
  omega

/-- every execution of the parallel `radix_sqrt` ends in the result of the sequential model -/
theorem radix_sqrt_always (K : Nat) (hK : K < 64) (root : F) (v r : Slice F) (hr : radix_sqrt (2 ^ K) v root = some r) : RadixSqrtAlways (2 ^ K) v root r := by
  unfold radix_sqrt at hr
  unfold RadixSqrtAlways
  by_cases h1 : 2 ^ K ≤ 1
  · rw [if_pos h1] at hr ⊢
    exact (Option.some.inj hr).symm
  · rw [if_neg h1] at hr ⊢
    dsimp only at hr ⊢
    rw [ctz_pow K hK] at hr ⊢
    obtain ⟨ki, hki⟩ : ∃ ki, ki = K / 2 := ⟨_, rfl⟩
    obtain ⟨ko, hko⟩ : ∃ ko, ko = K - ki := ⟨_, rfl⟩
    obtain ⟨st, hst⟩ : ∃ st, st = ko - ki := ⟨_, rfl⟩
    have hlen : 2 ^ K = 2 ^ ki * 2 ^ ko := by rw [← pow_add]; congr 1; omega
    have houter : 2 ^ K / 2 ^ ki = 2 ^ ko := by rw [hlen, Nat.mul_div_cancel_left _ (Nat.two_pow_pos _)]
    have hos : 2 ^ ko = 2 ^ ki * 2 ^ st := by rw [← pow_add]; congr 1; omega
    have hstretch : 2 ^ ko / 2 ^ ki = 2 ^ st := by rw [hos, Nat.mul_div_cancel_left _ (Nat.two_pow_pos _)]
    rw [← hki, houter, hstretch] at hr ⊢
    obtain ⟨v1, e1, hr⟩ := Option.bind_eq_some_iff.1 hr
    obtain ⟨v3, e3, hr⟩ := Option.map_eq_some_iff.1 hr
    refine ⟨v1, _, v3, e1, ?_, e3, ?_⟩
    · refine always_chunks _ _ (Nat.two_pow_pos ko) _ _ v1 ?_ ?_
      · intro i _
        exact uses_recursive _ _ _ _ (fun j hj => ⟨j, hj, rfl⟩) _ _ _ _
      · intro i hi
        unfold innerTask
        have hc : chunkLen (2 ^ K) (2 ^ ko) i = 2 ^ ko := by
          rw [hlen] at hi ⊢
          exact chunkLen_full _ _ i (Nat.two_pow_pos ko) hi
        rw [hc]
        exact does_recursive _ (chunkAddr_inj _ _) _ _ _ _ ki 0 (2 ^ st) (2 ^ st) (Nat.two_pow_pos st) hos (by omega)
    · rw [← hr]
      refine always_chunks _ _ (Nat.two_pow_pos ko) _ _ v3 ?_ ?_
      · intro i _
        unfold outerTask
        refine Prog.uses_bind _ _ ?_ fun _ => uses_recursive _ _ _ _ (fun j hj => ⟨j, hj, rfl⟩) _ _ _ _
        split
        · exact uses_twiddleRow _ _ _ fun j hj => ⟨j, hj, rfl⟩
        · trivial
      · intro i hi
        unfold outerTask outerRow
        have hc : chunkLen (2 ^ K) (2 ^ ko) i = 2 ^ ko := by
          rw [hlen] at hi ⊢
          exact chunkLen_full _ _ i (Nat.two_pow_pos ko) hi
        rw [hc]
        refine does_bind (f := fun v => if i > 0 then twiddleRow (2 ^ ko) (root ^ permute_index (2 ^ ki) i) v else v)
          (g := fun v => fft_vec_recursive (2 ^ ko) (get_twiddles (root ^ 2 ^ ki) (2 ^ ko)) (2 ^ ko / 2) (2 ^ ko) v 0 1 1) ?_ ?_
        · split
          · exact does_twiddleRow _ (chunkAddr_inj _ _) _ _
          · exact does_pure _
        · exact does_recursive _ (chunkAddr_inj _ _) _ _ _ _ ko 0 1 1 (by norm_num) (by ring) (by norm_num)

theorem radix_sqrt_always_unique {length : Nat} {root : F} {v r r' : Slice F} (h : RadixSqrtAlways length v root r) (h' : RadixSqrtAlways length v root r') : r = r' := by
  unfold RadixSqrtAlways at h h'
  split at h
  · next hl => rw [if_pos hl] at h'; rw [h, h']
  · next hl =>
    rw [if_neg hl] at h'
    obtain ⟨v1, v2, v3, a1, a2, a3, a4⟩ := h
    obtain ⟨w1, w2, w3, b1, b2, b3, b4⟩ := h'
    rw [a1] at b1; cases b1
    cases always_unique a2 b2
    rw [a3] at b3; cases b3
    exact always_unique a4 b4

/-- `clone_shifted` -/
theorem clone_always (dstLen sourceLen chunk : Nat) (hc : 0 < chunk) (cofactor : F) (m : Nat ⊕ Nat → F) :
    Always (cloneTasks dstLen sourceLen chunk) (cloneTask dstLen sourceLen chunk cofactor) m (fun
      | .inl i => if i < min dstLen sourceLen then m (.inr i) * cofactor ^ i else m (.inl i)
      | .inr i => m (.inr i)) := by
  -- the cells task `i` writes
  have hmin : ∀ i j, j < min (chunkLen dstLen chunk i) (chunkLen sourceLen chunk i) ↔ j < chunk ∧ i * chunk + j < min dstLen sourceLen := by
    intro i j; unfold chunkLen; simp only [Nat.lt_min]; omega
  let W : Nat → Nat ⊕ Nat → Prop := fun i a => ∃ j, j < chunkLen dstLen chunk i ∧ a = .inl (chunkAddr chunk i j)
  have hW : ∀ i x, W i (.inl x) → x / chunk = i := by
    rintro i x ⟨j, hj, e⟩
    cases e
    have h1 := lt_of_lt_of_le hj (min_le_left _ _)
    unfold chunkAddr
    rw [Nat.mul_comm, Nat.mul_add_div hc, Nat.div_eq_of_lt h1, Nat.add_zero]
  let body : Nat → F → Nat → Prog (Nat ⊕ Nat) F F := fun i c j =>
    (Prog.get (fun j => .inr (chunkAddr chunk i j)) (chunkLen sourceLen chunk i) j).bind fun x =>
    (Prog.set (fun j => .inl (chunkAddr chunk i j)) (chunkLen dstLen chunk i) j (x * c)).bind fun _ => .pure (c * cofactor)
  -- the loop run alone
  have key : ∀ i n, n ≤ min (chunkLen dstLen chunk i) (chunkLen sourceLen chunk i) → ∀ (s : Nat) (c : F) (m' : Nat ⊕ Nat → F), s + n ≤ min (chunkLen dstLen chunk i) (chunkLen sourceLen chunk i) →
      ∃ m'' c', (Prog.loop (body i) (List.range' s n) c).run m' = some (c', m'') ∧
        (∀ x, m'' (.inr x) = m' (.inr x)) ∧
        (∀ x, m'' (.inl x) = if i * chunk + s ≤ x ∧ x < i * chunk + s + n then m' (.inr x) * (c * cofactor ^ (x - (i * chunk + s))) else m' (.inl x)) := by
    intro i n
    induction n with
    | zero =>
      intro _ s c m' _
      refine ⟨m', c, rfl, fun _ => rfl, fun x => ?_⟩
      rw [if_neg (by omega)]
    | succ n ih =>
      intro hn s c m' hs
      obtain ⟨hd, hso⟩ := Nat.lt_min.1 (show s < min (chunkLen dstLen chunk i) (chunkLen sourceLen chunk i) by omega)
      obtain ⟨m'', c', h1, h2, h3⟩ := ih (by omega) (s + 1) (c * cofactor)
        (fun a => if a = .inl (chunkAddr chunk i s) then m' (.inr (chunkAddr chunk i s)) * c else m' a) (by omega)
      refine ⟨m'', c', ?_, fun x => by rw [h2]; simp, fun x => ?_⟩
      · rw [List.range'_succ]
        unfold Prog.loop
        rw [Prog.run_bind]
        show (((Prog.get _ _ s).bind _).run m').bind _ = _
        simp only [Prog.run_bind, run_get (fun j => (Sum.inr (chunkAddr chunk i j) : Nat ⊕ Nat)) _ _ hso, Option.bind_some,
          run_set (fun j => (Sum.inl (chunkAddr chunk i j) : Nat ⊕ Nat)) _ _ hd, Prog.run]
        exact h1
      · rw [h3]
        simp only [reduceCtorEq, if_false, Sum.inl.injEq]
        unfold chunkAddr
        by_cases hx : x = i * chunk + s
        · subst hx
          rw [if_neg (by omega), if_pos rfl, if_pos (by omega), Nat.sub_self, pow_zero, mul_one]
        · rw [if_neg hx]
          by_cases hx2 : i * chunk + s ≤ x ∧ x < i * chunk + s + (n + 1)
          · rw [if_pos hx2, if_pos (by omega)]
            obtain ⟨d, hd⟩ : ∃ d, x = i * chunk + (s + 1) + d := ⟨x - (i * chunk + (s + 1)), by omega⟩
            rw [show x - (i * chunk + (s + 1)) = d by omega, show x - (i * chunk + s) = d + 1 by omega, pow_succ]
            ring
          · rw [if_neg hx2, if_neg (by omega)]
  refine always_of_disjoint _ _ W (fun a => ∃ x, a = .inr x) m _ ?_ ?_ ?_ ?_ ?_
  · rintro i j hij (a | a) h1 h2
    · exact hij ((hW i a h1).symm.trans (hW j a h2))
    · obtain ⟨_, _, e⟩ := h1; cases e
  · rintro i a ⟨x, rfl⟩ ⟨_, _, e⟩; cases e
  · -- the accesses of a task
    intro i hi
    unfold cloneTask
    refine Prog.uses_bind _ _ (Prog.uses_loop _ (fun _ _ => ?_) _ _) fun _ => trivial
    exact Prog.uses_bind _ _ (Prog.uses_get _ _ _ fun j _ => Or.inr ⟨_, rfl⟩) fun _ => Prog.uses_bind _ _ (Prog.uses_set _ _ _ _ fun j hj => ⟨j, hj, rfl⟩) fun _ => trivial
  · intro i hi
    obtain ⟨m'', c', h1, h2, h3⟩ := key i _ le_rfl 0 (cofactor ^ (i * chunk)) m (by omega)
    refine ⟨m'', ?_, ?_⟩
    · unfold cloneTask
      rw [Prog.run_bind, List.range_eq_range']
      have : (Prog.loop (body i) (List.range' 0 (min (chunkLen dstLen chunk i) (chunkLen sourceLen chunk i))) (cofactor ^ (i * chunk))).run m = _ := h1
      rw [show (Prog.loop _ (List.range' 0 (min (chunkLen dstLen chunk i) (chunkLen sourceLen chunk i))) (cofactor ^ (i * chunk))).run m = some (c', m'') from h1]
      rfl
    · rintro (a | a) ⟨j, hj, e⟩
      · cases e
        rw [h3]
        unfold chunkAddr
        dsimp only
        have hjc := lt_of_lt_of_le hj (min_le_left _ _)
        by_cases hlt : i * chunk + j < min dstLen sourceLen
        · have := (hmin i j).2 ⟨hjc, hlt⟩
          rw [if_pos (by omega), if_pos hlt, ← pow_add]
          congr 2; omega
        · rw [if_neg hlt, if_neg]
          rintro ⟨_, h5⟩
          exact hlt ((hmin i j).1 (by omega)).2
      · cases e
  · rintro (a | a) ha
    · dsimp only
      rw [if_neg]
      intro h
      obtain ⟨h1, h2⟩ := Nat.lt_min.1 h
      refine ha (a / chunk) ?_ ⟨a % chunk, ?_, ?_⟩
      · unfold cloneTasks
        rw [Nat.lt_min]
        exact ⟨chunk_lt _ _ hc _ h1, chunk_lt _ _ hc _ h2⟩
      · exact (Nat.lt_min.1 ((hmin _ _).2 ⟨Nat.mod_lt _ hc, by rw [Nat.div_add_mod']; exact h⟩)).1
      · unfold chunkAddr
        rw [Nat.div_add_mod']
    · rfl

end OpenZKP.FFT
