import Verif.U256.Basic

/-!
# Division (model)

Models `/repo/algebra/u256/src/division.rs` and `/repo/algebra/u256/src/arch/generic/knuth_division.rs`
and `mulmod` of `multiplicative.rs`.

Slices are modelled as total functions from indices to limbs; the code reads and writes only indices
below the slice length.  Most routines take a flag `dbg`: with `dbg = true` the function returns `none`
where the *debug* profile panics on the one assertion that can fail (`div_3by2`, knuth_division.rs:56);
with `dbg = false` (release profile) the assertion is not evaluated and `u128` subtraction wraps.
-/

namespace OpenZKP
namespace U256

/-- A slice of limbs. -/
abbrev Mem := Nat → UInt64

/-- `a[i] = x` -/
def upd (a : Mem) (i : Nat) (x : UInt64) : Mem := fun k => if k = i then x else a k

/-- `val_2` — knuth_division.rs:4-6 (a `u128` as a natural number) -/
def val_2 (lo hi : UInt64) : Nat := hi.toNat * 2 ^ 64 + lo.toNat

/-- `mul_2` — knuth_division.rs:8-10 -/
def mul_2 (a b : UInt64) : Nat := a.toNat * b.toNat

/-- `divrem_2by1` — knuth_division.rs:18-35 (same body as `div_2_1`; debug assertions dropped) -/
def divrem_2by1 (lo hi d : UInt64) : UInt64 × UInt64 := div_2_1 lo hi d

/-- Body of the loop of `divrem_nby1` — knuth_division.rs:41-43; state (numerator, remainder) -/
def nby1Step (d : UInt64) (i : Nat) (s : Mem × UInt64) : Mem × UInt64 :=
  let (ni, ri) := divrem_2by1 (s.1 i) s.2 d
  (upd s.1 i ni, ri)

/-- The loop `for i in (0..len).rev()` — knuth_division.rs:40-44 -/
def nby1Loop (d : UInt64) : Nat → Mem × UInt64 → Mem × UInt64
  | 0, s => s
  | i + 1, s => nby1Loop d i (nby1Step d i s)

/-- `divrem_nby1` — knuth_division.rs:37-46: the quotient limbs in place, and the remainder -/
def divrem_nby1 (len : Nat) (a : Mem) (d : UInt64) : Mem × UInt64 := nby1Loop d len (a, 0)

/-- `div_3by2` — knuth_division.rs:51-87.  The `u128` subtraction of line 66 is taken modulo `2^128`. -/
def div_3by2 (dbg : Bool) (n0 n1 n2 d0 d1 : UInt64) : Option UInt64 :=
  if dbg && !decide (val_2 n1 n2 < val_2 d0 d1) then none
  else if n2 = d1 then
    let neg_remainder := (val_2 0 d0 + 2 ^ 128 - val_2 n0 n1) % 2 ^ 128
    if neg_remainder > val_2 d0 d1 then some 0xfffffffffffffffe else some 0xffffffffffffffff
  else
    let (q, r) := divrem_2by1 n1 n2 d1
    if mul_2 q d0 > val_2 n0 r then
      let q := q - 1
      let r := r + d1
      let overflow := decide (r < d1)
      if !overflow && decide (mul_2 q d0 > val_2 n0 r) then some (q - 1) else some q
    else some q

/-- Normalisation loop `for i in (1..=k).rev() { a[i] <<= s; a[i] |= a[i-1] >> (64-s) }`
— knuth_division.rs:110-113, 115-118 -/
def shlLoop (s : Nat) : Nat → Mem → Mem
  | 0, a => a
  | i + 1, a => shlLoop s i (upd a (i + 1) (shl64 (a (i + 1)) s ||| shr64 (a i) (64 - s)))

/-- shift `len` limbs left in place (lines 110-114 and 115-119) -/
def shlMem (s len : Nat) (a : Mem) : Mem :=
  let a := shlLoop s (len - 1) a
  upd a 0 (shl64 (a 0) s)

/-- Body of D4 — knuth_division.rs:132-134; state (numerator, borrow) -/
def subMulStep (d : Mem) (q : UInt64) (j i : Nat) (s : Mem × UInt64) : Mem × UInt64 :=
  let (x, b) := msb (s.1 (j + i)) q (d i) s.2
  (upd s.1 (j + i) x, b)

/-- D4 after `i` iterations — knuth_division.rs:130-135 -/
def subMul (d : Mem) (q : UInt64) (j : Nat) (a : Mem) : Nat → Mem × UInt64
  | 0 => (a, 0)
  | i + 1 => subMulStep d q j i (subMul d q j a i)

/-- Body of D6 — knuth_division.rs:142-144; state (numerator, carry) -/
def addBackStep (d : Mem) (j i : Nat) (s : Mem × UInt64) : Mem × UInt64 :=
  let (x, b) := adc (s.1 (j + i)) (d i) s.2
  (upd s.1 (j + i) x, b)

/-- D6 after `i` iterations — knuth_division.rs:140-145 -/
def addBack (d : Mem) (j : Nat) (a : Mem) : Nat → Mem × UInt64
  | 0 => (a, 0)
  | i + 1 => addBackStep d j i (addBack d j a i)

/-- One iteration of D2 — knuth_division.rs:122-157 -/
def knuthStep (dbg : Bool) (n : Nat) (d : Mem) (j : Nat) (a : Mem) : Option Mem :=
  match div_3by2 dbg (a (j + n - 2)) (a (j + n - 1)) (a (j + n)) (d (n - 2)) (d (n - 1)) with
  | none => none
  | some qhat =>
    let s := subMul d qhat j a n  -- (numerator, borrow)
    if s.1 (j + n) < s.2 then some (upd (addBack d j s.1 n).1 (j + n) (qhat - 1))
    else some (upd s.1 (j + n) qhat)

/-- D2 loop `for j in (0..=m).rev()`; the first argument is the number of remaining iterations. -/
def knuthLoop (dbg : Bool) (n : Nat) (d : Mem) : Nat → Mem → Option Mem
  | 0, a => some a
  | j + 1, a =>
    match knuthStep dbg n d j a with
    | none => none
    | some a => knuthLoop dbg n d j a

/-- D8 loop after `i` iterations — knuth_division.rs:164-167 -/
def shrLoop (s : Nat) (a : Mem) : Nat → Mem
  | 0 => a
  | i + 1 =>
    let a := shrLoop s a i
    upd a i (shr64 (a i) s ||| shl64 (a (i + 1)) (64 - s))

/-- D1: the numerator after normalisation — knuth_division.rs:108-114 -/
def normNum (shift len : Nat) (num : Mem) : Mem :=
  if shift > 0 then shlMem shift len (upd num len (shr64 (num (len - 1)) (64 - shift))) else num

/-- D1: the divisor after normalisation — knuth_division.rs:115-119 -/
def normDiv (shift n : Nat) (div : Mem) : Mem := if shift > 0 then shlMem shift n div else div

/-- D8: unnormalise the remainder — knuth_division.rs:160-169 -/
def unnorm (shift n : Nat) (num : Mem) : Mem :=
  if shift > 0 then
    let num := shrLoop shift num (n - 1)
    upd num (n - 1) (shr64 (num (n - 1)) shift)
  else num

/-- `divrem_nbym` — knuth_division.rs:96-170, for a divisor of `n` limbs and a numerator of
`n + m + 1` limbs.  Returns the numerator slice after the call. -/
def divrem_nbym (dbg : Bool) (n m : Nat) (num div : Mem) : Option Mem :=
  let shift := clz64 (div (n - 1))
  (knuthLoop dbg n (normDiv shift n div) (m + 1) (normNum shift (n + m) num)).map (unnorm shift n)

/-- array literal `[x0, x1, ...]` -/
def memOf (l : List UInt64) : Mem := fun i => l.getD i 0

/-- `DivRem<u64>` — division.rs:36-48 -/
def div_rem_u64 (x : U256) (rhs : UInt64) : Option (U256 × UInt64) :=
  if rhs = 0 then none
  else
    let (q3, r) := div_2_1 x.l3 0 rhs
    let (q2, r) := div_2_1 x.l2 r rhs
    let (q1, r) := div_2_1 x.l1 r rhs
    let (q0, r) := div_2_1 x.l0 r rhs
    some (⟨q0, q1, q2, q3⟩, r)

/-- `DivRem<&U256>` — division.rs:57-94.  Outer `Option`: `none` is a panic (debug profile only);
inner `Option` is the returned one. -/
def div_rem (dbg : Bool) (x rhs : U256) : Option (Option (U256 × U256)) :=
  let numerator := memOf [x.l0, x.l1, x.l2, x.l3, 0]
  if rhs.l3 > 0 then
    match divrem_nbym dbg 4 0 numerator (memOf [rhs.l0, rhs.l1, rhs.l2, rhs.l3]) with
    | none => none
    | some n => some (some (⟨n 4, 0, 0, 0⟩, ⟨n 0, n 1, n 2, n 3⟩))
  else if rhs.l2 > 0 then
    match divrem_nbym dbg 3 1 numerator (memOf [rhs.l0, rhs.l1, rhs.l2]) with
    | none => none
    | some n => some (some (⟨n 3, n 4, 0, 0⟩, ⟨n 0, n 1, n 2, 0⟩))
  else if rhs.l1 > 0 then
    match divrem_nbym dbg 2 2 numerator (memOf [rhs.l0, rhs.l1]) with
    | none => none
    | some n => some (some (⟨n 2, n 3, n 4, 0⟩, ⟨n 0, n 1, 0, 0⟩))
  else if rhs.l0 > 0 then
    let (n, remainder) := divrem_nby1 5 numerator rhs.l0
    some (some (⟨n 0, n 1, n 2, n 3⟩, ⟨remainder, 0, 0, 0⟩))
  else some none

/-- `mulmod` — multiplicative.rs:155-192; `none` is a panic. -/
def mulmod (dbg : Bool) (x rhs modulus : U256) : Option U256 :=
  let (lo, hi) := mul_full x rhs
  let numerator := memOf [lo.l0, lo.l1, lo.l2, lo.l3, hi.l0, hi.l1, hi.l2, hi.l3, 0]
  if modulus.l3 > 0 then
    match divrem_nbym dbg 4 4 numerator (memOf [modulus.l0, modulus.l1, modulus.l2, modulus.l3]) with
    | none => none
    | some n => some ⟨n 0, n 1, n 2, n 3⟩
  else if modulus.l2 > 0 then
    match divrem_nbym dbg 3 5 numerator (memOf [modulus.l0, modulus.l1, modulus.l2]) with
    | none => none
    | some n => some ⟨n 0, n 1, n 2, 0⟩
  else if modulus.l1 > 0 then
    match divrem_nbym dbg 2 6 numerator (memOf [modulus.l0, modulus.l1]) with
    | none => none
    | some n => some ⟨n 0, n 1, 0, 0⟩
  else if modulus.l0 > 0 then
    let (_, remainder) := divrem_nby1 9 numerator modulus.l0
    some ⟨remainder, 0, 0, 0⟩
  else none

/-- `/` and `/=` — division.rs:127-133; `none` is the panic of `unwrap` (or of the debug profile). -/
def div (dbg : Bool) (x rhs : U256) : Option U256 :=
  match div_rem dbg x rhs with
  | some (some (q, _)) => some q
  | _ => none

/-- `%` and `%=` — division.rs:135-141 -/
def rem (dbg : Bool) (x rhs : U256) : Option U256 :=
  match div_rem dbg x rhs with
  | some (some (_, r)) => some r
  | _ => none

end U256
end OpenZKP
