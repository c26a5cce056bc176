import Verif.U256.Basic
import Verif.Field.Generic

/-!
# Elliptic curve (model)

Models `/repo/algebra/elliptic-curve/src/{curve,jacobian,wnaf}.rs`.  The coordinates live in an arbitrary
field `F` (the Rust type `FieldElement` is such a field, `C13_field_iso`); scalars are the 256-bit integers
`scalar.to_uint()`.  `none` is a panic.
-/

namespace OpenZKP
namespace EC

/-- `enum Affine` — curve.rs:16-22 -/
inductive Affine (F : Type) where
  | Zero : Affine F
  | Point (x y : F) : Affine F
deriving DecidableEq

/-- `struct Jacobian` — jacobian.rs:15-21 -/
structure Jacobian (F : Type) where
  x : F
  y : F
  z : F
deriving DecidableEq

section
variable {F : Type} [Field F] [DecidableEq F]

/-- Field division (`ops.rs`): panics when the divisor is zero. -/
def fdiv (a b : F) : Option F := if b = 0 then none else some (a / b)

namespace Affine

/-- `is_on_curve` — curve.rs:59-64; `beta` is the constant `BETA` -/
def is_on_curve (beta : F) : Affine F → Bool
  | Zero => true
  | Point x y => y * y == x * x * x + x + beta

/-- `double` (and `double_assign`) — curve.rs:66-85 -/
def double : Affine F → Option (Affine F)
  | Zero => some Zero
  | Point x y =>
    if y = 0 then some Zero
    else
      (fdiv ((x + x + x) * x + 1) (y + y)).map fun m =>
        let nx := m * m - x - x
        let ny := m * (x - nx) - y
        Point nx ny

/-- `neg` and `neg_assign` — curve.rs:87-92, 101-115 -/
def neg : Affine F → Affine F
  | Zero => Zero
  | Point x y => Point x (-y)

/-- `add_assign` — curve.rs:117-142 -/
def add (a b : Affine F) : Option (Affine F) :=
  match a with
  | Zero => some b
  | Point ax ay =>
    match b with
    | Zero => some (Point ax ay)
    | Point bx bY =>
      if ax = bx then
        if ay = bY then double (Point ax ay) else some Zero
      else
        (fdiv (ay - bY) (ax - bx)).map fun m =>
          let x := m * m - ax - bx
          Point x (m * (ax - x) - ay)

/-- `sub_assign` — curve.rs:148-154 -/
def sub (a b : Affine F) : Option (Affine F) := add a (neg b)

end Affine

namespace Jacobian

/-- `Jacobian::ZERO` — jacobian.rs:24-28 -/
def ZERO : Jacobian F := ⟨1, 1, 0⟩

/-- `double_assign` — jacobian.rs:36-52 -/
def double (p : Jacobian F) : Jacobian F :=
  if p.y = 0 then ZERO
  else
    let xx := p.x * p.x
    let yy := p.y * p.y
    let yyyy := yy * yy
    let zz := p.z * p.z
    let s' := (p.x + yy) * (p.x + yy) - xx - yyyy
    let s := s' + s'
    let m := (xx + xx + xx) + zz * zz
    let z := (p.y + p.z) * (p.y + p.z) - yy - zz
    let x := m * m - (s + s)
    let y2 := yyyy + yyyy
    let y4 := y2 + y2
    let y := m * (s - x) - (y4 + y4)
    ⟨x, y, z⟩

/-- `neg_assign`, `neg` — jacobian.rs:54-56, 125-133 -/
def neg (p : Jacobian F) : Jacobian F := ⟨p.x, -p.y, p.z⟩

/-- `From<&Affine>`, `From<Affine>` — jacobian.rs:79-107 -/
def ofAffine : Affine F → Jacobian F
  | .Zero => ZERO
  | .Point x y => ⟨x, y, 1⟩

/-- `From<&Jacobian> for Affine` — jacobian.rs:109-123 -/
def toAffine (p : Jacobian F) : Affine F :=
  match finv p.z with
  | none => .Zero
  | some zi =>
    let zi2 := zi * zi
    let zi3 := zi * zi2
    .Point (p.x * zi2) (p.y * zi3)

/-- `is_on_curve` — jacobian.rs:30-34 -/
def is_on_curve (beta : F) (p : Jacobian F) : Bool := Affine.is_on_curve beta (toAffine p)

/-- `PartialEq` — jacobian.rs:66-71 -/
def eq (p q : Jacobian F) : Bool := toAffine p == toAffine q

/-- `AddAssign<&Jacobian>` — jacobian.rs:135-173 -/
def add (p q : Jacobian F) : Jacobian F :=
  if q.z = 0 then p
  else if p.z = 0 then q
  else
    let z1z1 := p.z * p.z
    let z2z2 := q.z * q.z
    let u1 := p.x * z2z2
    let u2 := q.x * z1z1
    let s1 := p.y * q.z * z2z2
    let s2 := q.y * p.z * z1z1
    if u1 = u2 then
      if s1 = s2 then double p else ZERO
    else
      let h := u2 - u1
      let i := (h + h) * (h + h)
      let j := h * i
      let r := (s2 - s1) + (s2 - s1)
      let v := u1 * i
      let x := r * r - j - (v + v)
      let y := r * (v - x) - (s1 * j + s1 * j)
      let z := ((p.z + q.z) * (p.z + q.z) - z1z1 - z2z2) * h
      ⟨x, y, z⟩

/-- `SubAssign<&Jacobian>` — curve.rs:148-154 -/
def sub (p q : Jacobian F) : Jacobian F := add p (neg q)

/-- `AddAssign<&Affine>` — jacobian.rs:175-214.  Note `self.x == s2` (jacobian.rs:196). -/
def addMixed (p : Jacobian F) (q : Affine F) : Jacobian F :=
  match q with
  | .Zero => p
  | .Point x y =>
    if p.z = 0 then ⟨x, y, 1⟩
    else
      let z1z1 := p.z * p.z
      let u2 := x * z1z1
      let s2 := y * p.z * z1z1
      if p.x = u2 then
        if p.x = s2 then double p else ZERO
      else
        let h := u2 - p.x
        let hh := h * h
        let i := (hh + hh) + (hh + hh)
        let j := h * i
        let r := (s2 - p.y) + (s2 - p.y)
        let v := p.x * i
        let x3 := r * r - j - (v + v)
        let y3 := r * (v - x3) - (p.y * j + p.y * j)
        let z3 := (p.z + h) * (p.z + h) - z1z1 - hh
        ⟨x3, y3, z3⟩

/-- `SubAssign<&Affine>` — jacobian.rs:227-231 -/
def subMixed (p : Jacobian F) (q : Affine F) : Jacobian F := addMixed p (Affine.neg q)

end Jacobian

/-! ## Double-and-add -/

/-- body of the loop of `Mul<&ScalarFieldElement>` — curve.rs:165-170, Affine instance -/
def affineMulStep (p : Affine F) (bits : U256) (r : Option (Affine F)) (i : Nat) : Option (Affine F) :=
  r.bind fun r => (Affine.double r).bind fun r => if U256.bit bits i then Affine.add r p else some r

/-- `Mul<&ScalarFieldElement> for &Affine` — curve.rs:156-178; `bits` is `scalar.to_uint()` -/
def affineMul (p : Affine F) (bits : U256) : Option (Affine F) :=
  match U256.most_significant_bit bits with
  | some position => (List.range position).reverse.foldl (affineMulStep p bits) (some p)
  | none => some Affine.Zero

/-- `Mul<&ScalarFieldElement> for &Jacobian` — curve.rs:156-178 -/
def jacobianMul (p : Jacobian F) (bits : U256) : Jacobian F :=
  match U256.most_significant_bit bits with
  | some position =>
    (List.range position).reverse.foldl
      (fun r i => if U256.bit bits i then Jacobian.add (Jacobian.double r) p else Jacobian.double r) p
  | none => Jacobian.ZERO

/-! ## wNAF -/

/-- One iteration of the loop of `non_adjacent_form` once `scalar` is odd — wnaf.rs:97-110.  Returns the new
scalar and the digit.  Digits are `i16` in the code; the model uses integers, which agree for windows up to
14 bits. -/
def nafStep (window : Nat) (scalar : U256) : U256 × Int :=
  let mask : UInt64 := UInt64.ofNat (2 ^ window - 1)
  let n : Int := ((scalar.l0 &&& mask).toNat : Int)
  let scalar := U256.shr scalar window
  if n ≥ 2 ^ (window - 1) then (U256.add scalar U256.ONE, n - 2 ^ window) else (scalar, n)

/-- The loop of `non_adjacent_form` — wnaf.rs:84-111.  `snaf` is the array of 257 digits; storing outside it
panics (`none`).  `fuel` bounds the number of iterations (`none` when it runs out). -/
def nafLoop (window : Nat) : Nat → U256 → Nat → (Nat → Int) → Option (Nat → Int)
  | 0, _, _, _ => none
  | fuel + 1, scalar, i, snaf =>
    if U256.trailing_zeros scalar = 256 then some snaf
    else
      let shift := U256.trailing_zeros scalar
      let scalar := if shift = 0 then scalar else U256.shr scalar shift
      let i := if shift = 0 then i else i + shift
      if i < 257 then
        nafLoop window fuel (nafStep window scalar).1 (i + window)
          (fun j => if j = i then (nafStep window scalar).2 else snaf j)
      else none

/-- `non_adjacent_form` — wnaf.rs:78-112; `scalar` is `scalar.to_uint()` -/
def non_adjacent_form (scalar : U256) (window : Nat) : Option (Nat → Int) :=
  nafLoop window 258 scalar 0 (fun _ => 0)

/-- the loop `naf[i] = &naf[i - 1] + &p2` of `window_table` — wnaf.rs:17-19 -/
def tableLoop (p2 : Jacobian F) : Nat → Jacobian F → List (Jacobian F)
  | 0, _ => []
  | n + 1, p => p :: tableLoop p2 n (Jacobian.add p p2)

/-- `window_table` — wnaf.rs:12-21, for a table of length `n` -/
def window_table (p : Affine F) (n : Nat) : List (Jacobian F) :=
  tableLoop (Jacobian.double (Jacobian.ofAffine p)) n (Jacobian.ofAffine p)

/-- the loop of `window_table_affine` — wnaf.rs:28-30 -/
def tableLoopAffine (p2 : Affine F) : Nat → Affine F → Option (List (Affine F))
  | 0, _ => some []
  | 1, p => some [p]
  | n + 1, p => (Affine.add p p2).bind fun q => (tableLoopAffine p2 n q).map (p :: ·)

/-- `window_table_affine` — wnaf.rs:23-31 -/
def window_table_affine (p : Affine F) (n : Nat) : Option (List (Affine F)) :=
  (Affine.double p).bind fun p2 => tableLoopAffine p2 n p

/-- first loop of `batch_convert` — wnaf.rs:42-47: the running products before each element, and the total -/
def accumulate : List (Jacobian F) → F → List F × F
  | [], acc => ([], acc)
  | jac :: r, acc => let (vs, t) := accumulate r (acc * jac.z); (acc :: vs, t)

/-- last loop of `batch_convert` — wnaf.rs:54-68, which runs from the last element to the first: returns the
final accumulator and the affine points -/
def convertLoop : List (Jacobian F) → List F → F → F × List (Affine F)
  | jac :: js, val :: vs, acc =>
    let (acc, affs) := convertLoop js vs acc
    let zi := acc * val
    let zi2 := zi * zi
    let zi3 := zi * zi2
    (acc * jac.z, .Point (jac.x * zi2) (jac.y * zi3) :: affs)
  | _, _, acc => (acc, [])

/-- `batch_convert` — wnaf.rs:34-69 -/
def batch_convert (jacobians : List (Jacobian F)) : Option (List (Affine F)) :=
  let (vals, acc) := accumulate jacobians 1
  (finv acc).map fun acc => (convertLoop jacobians vals acc).2

/-- the digit dispatch of `mul` — wnaf.rs:136-140: `r += table[d >> 1]` for `d > 0`, `r -= table[-d >> 1]`
for `d < 0` -/
def applyDigit (table : List (Jacobian F)) (d : Int) (r : Jacobian F) : Option (Jacobian F) :=
  if d > 0 then table[(d / 2).toNat]?.map fun t => Jacobian.add r t
  else if d < 0 then table[(-d / 2).toNat]?.map fun t => Jacobian.sub r t
  else some r

/-- the same with a table of affine points — wnaf.rs:201-205 -/
def applyDigitMixed (table : List (Affine F)) (d : Int) (r : Jacobian F) : Option (Jacobian F) :=
  if d > 0 then table[(d / 2).toNat]?.map fun t => Jacobian.addMixed r t
  else if d < 0 then table[(-d / 2).toNat]?.map fun t => Jacobian.subMixed r t
  else some r

/-- `mul` — wnaf.rs:121-142 -/
def mul (p : Affine F) (scalar : U256) : Option (Jacobian F) :=
  let table := window_table p 8
  (non_adjacent_form scalar 5).bind fun snaf =>
  (List.range 257).reverse.foldl
    (fun r i => r.bind fun r => applyDigit table (snaf i) (Jacobian.double r)) (some Jacobian.ZERO)

/-- the digit dispatch for `a` in `double_mul` — wnaf.rs:172-176: the second test looks at the digit of `b` -/
def applyDigitA (table : List (Jacobian F)) (da db : Int) (r : Jacobian F) : Option (Jacobian F) :=
  if da > 0 then table[(da / 2).toNat]?.map fun t => Jacobian.add r t
  else if db < 0 then table[(-da / 2).toNat]?.map fun t => Jacobian.sub r t
  else some r

/-- `double_mul` — wnaf.rs:149-184 -/
def double_mul (pa : Affine F) (sa : U256) (pb : Affine F) (sb : U256) : Option (Jacobian F) :=
  let ta := window_table pa 8
  let tb := window_table pb 8
  (non_adjacent_form sa 5).bind fun na =>
  (non_adjacent_form sb 5).bind fun nb =>
  (List.range 257).reverse.foldl
    (fun r i => r.bind fun r => (applyDigitA ta (na i) (nb i) (Jacobian.double r)).bind fun r =>
      applyDigit tb (nb i) r) (some Jacobian.ZERO)

/-- `base_mul` — wnaf.rs:191-208 -/
def base_mul (table : List (Affine F)) (scalar : U256) : Option (Jacobian F) :=
  (non_adjacent_form scalar 7).bind fun snaf =>
  (List.range 257).reverse.foldl
    (fun r i => r.bind fun r => applyDigitMixed table (snaf i) (Jacobian.double r)) (some Jacobian.ZERO)

/-- `double_base_mul` — wnaf.rs:217-257 -/
def double_base_mul (ta : List (Affine F)) (sa : U256) (pb : Affine F) (sb : U256) : Option (Jacobian F) :=
  (batch_convert (window_table pb 8)).bind fun tb =>
  (non_adjacent_form sa 7).bind fun na =>
  (non_adjacent_form sb 5).bind fun nb =>
  (List.range 257).reverse.foldl
    (fun r i => r.bind fun r => (applyDigitMixed ta (na i) (Jacobian.double r)).bind fun r =>
      applyDigitMixed tb (nb i) r) (some Jacobian.ZERO)

end
end EC
end OpenZKP
