import Verif.U256.Division

/-!
# Lehmer's gcd, extended gcd and modular inverse (model)

Models `/repo/algebra/u256/src/arch/generic/lehmer_gcd.rs`.

`none` is a panic.  With `dbg = true` (debug profile) every `u64` addition, subtraction and
multiplication that overflows, and every failing `debug_assert!`, panics; with `dbg = false` (release
profile) they wrap, respectively are not evaluated.  `while`/`loop` are recursions on a fuel argument;
the callers pass a bound on the number of iterations, and running out of fuel is `none` too (the
theorems show that it does not happen).
-/

namespace OpenZKP
namespace U256

/-- `u64` addition in either profile -/
def cadd (dbg : Bool) (a b : UInt64) : Option UInt64 :=
  if dbg && decide (2 ^ 64 ≤ a.toNat + b.toNat) then none else some (a + b)
/-- `u64` subtraction in either profile -/
def csub (dbg : Bool) (a b : UInt64) : Option UInt64 :=
  if dbg && decide (a.toNat < b.toNat) then none else some (a - b)
/-- `u64` multiplication in either profile -/
def cmul (dbg : Bool) (a b : UInt64) : Option UInt64 :=
  if dbg && decide (2 ^ 64 ≤ a.toNat * b.toNat) then none else some (a * b)
/-- `u64` division: panics on zero in both profiles -/
def cdiv (a b : UInt64) : Option UInt64 := if b = 0 then none else some (a / b)
/-- `debug_assert!` -/
def dassert (dbg : Bool) (c : Bool) : Option Unit := if dbg && !c then none else some ()

/-- `Matrix` — lehmer_gcd.rs:14-15 -/
structure Matrix where
  q00 : UInt64
  q01 : UInt64
  q10 : UInt64
  q11 : UInt64
  even : Bool
deriving DecidableEq, Repr

/-- `Matrix::IDENTITY` — lehmer_gcd.rs:18 -/
def Matrix.IDENTITY : Matrix := ⟨1, 0, 0, 1, true⟩

/-- `mat_mul` — lehmer_gcd.rs:33-59 -/
def mat_mul (a b : U256) (q00 q01 q10 q11 : UInt64) : U256 × U256 :=
  let (a0, ac) := mac 0 q00 a.l0 0
  let (a0, ab) := msb a0 q01 b.l0 0
  let (b0, bc) := mac 0 q11 b.l0 0
  let (b0, bb) := msb b0 q10 a.l0 0
  let (a1, ac) := mac 0 q00 a.l1 ac
  let (a1, ab) := msb a1 q01 b.l1 ab
  let (b1, bc) := mac 0 q11 b.l1 bc
  let (b1, bb) := msb b1 q10 a.l1 bb
  let (a2, ac) := mac 0 q00 a.l2 ac
  let (a2, ab) := msb a2 q01 b.l2 ab
  let (b2, bc) := mac 0 q11 b.l2 bc
  let (b2, bb) := msb b2 q10 a.l2 bb
  let (a3, _) := mac 0 q00 a.l3 ac
  let (a3, _) := msb a3 q01 b.l3 ab
  let (b3, _) := mac 0 q11 b.l3 bc
  let (b3, _) := msb b3 q10 a.l3 bb
  (⟨a0, a1, a2, a3⟩, ⟨b0, b1, b2, b3⟩)

/-- `lehmer_update` — lehmer_gcd.rs:62-69 -/
def lehmer_update (a0 a1 : U256) (q : Matrix) : U256 × U256 :=
  if q.even then mat_mul a0 a1 q.q00 q.q01 q.q10 q.q11
  else (mat_mul a0 a1 q.q10 q.q11 q.q00 q.q01).swap

/-- the unrolled loop of `div1` with `n` iterations left, then line 90 — lehmer_gcd.rs:82-90 -/
def div1Loop (dbg : Bool) (b : UInt64) : Nat → UInt64 → Option UInt64
  | 0, a => (cdiv a b).bind fun q => cadd dbg 19 q
  | n + 1, a => (csub dbg a b).bind fun a =>
      if a < b then some (UInt64.ofNat (19 - n)) else div1Loop dbg b n a

/-- `div1` — lehmer_gcd.rs:79-91 -/
def div1 (dbg : Bool) (a b : UInt64) : Option UInt64 :=
  (dassert dbg (decide (b ≤ a))).bind fun _ =>
  (dassert dbg (decide (0 < b))).bind fun _ => div1Loop dbg b 19 a

/-- the unrolled loop of `lehmer_unroll` with `n` iterations left, then lines 121-123
— lehmer_gcd.rs:112-123; the state is `(a3, k3)` -/
def unrollLoop (dbg : Bool) (a2 k2 : UInt64) : Nat → UInt64 → UInt64 → Option (UInt64 × UInt64)
  | 0, a3, k3 =>
    (cdiv a3 a2).bind fun q =>
    (cmul dbg q a2).bind fun qa => (csub dbg a3 qa).bind fun a3 =>
    (cmul dbg q k2).bind fun qk => (cadd dbg k3 qk).bind fun k3 => some (a3, k3)
  | n + 1, a3, k3 =>
    (csub dbg a3 a2).bind fun a3 => (cadd dbg k3 k2).bind fun k3 =>
    if a3 < a2 then some (a3, k3) else unrollLoop dbg a2 k2 n a3 k3

/-- `lehmer_unroll` — lehmer_gcd.rs:109-124 -/
def lehmer_unroll (dbg : Bool) (a2 a3 k2 k3 : UInt64) : Option (UInt64 × UInt64) :=
  (dassert dbg (decide (a2 < a3))).bind fun _ =>
  (dassert dbg (decide (0 < a2))).bind fun _ => unrollLoop dbg a2 k2 16 a3 k3

/-- One Euclid step of `lehmer_small`: `q = div1(x, y); x -= q·y; s += q·s'; t += q·t'`
— lehmer_gcd.rs:143-146 and 150-153; returns the new `(x, s, t)` -/
def smallStep (dbg : Bool) (x y s s' t t' : UInt64) : Option (UInt64 × UInt64 × UInt64) :=
  (div1 dbg x y).bind fun q =>
  (cmul dbg q y).bind fun p => (csub dbg x p).bind fun x =>
  (cmul dbg q s').bind fun p => (cadd dbg s p).bind fun s =>
  (cmul dbg q t').bind fun p => (cadd dbg t p).bind fun t => some (x, s, t)

/-- the loop of `lehmer_small` — lehmer_gcd.rs:141-157 -/
def smallLoop (dbg : Bool) : Nat → UInt64 → UInt64 → UInt64 → UInt64 → UInt64 → UInt64 → Option Matrix
  | 0, _, _, _, _, _, _ => none
  | fuel + 1, r0, r1, q00, q01, q10, q11 =>
    (smallStep dbg r0 r1 q00 q10 q01 q11).bind fun w =>
    if w.1 = 0 then some ⟨q10, q11, w.2.1, w.2.2, false⟩ else
    (smallStep dbg r1 w.1 q10 w.2.1 q11 w.2.2).bind fun z =>
    if z.1 = 0 then some ⟨w.2.1, w.2.2, z.2.1, z.2.2, true⟩ else
    smallLoop dbg fuel w.1 z.1 w.2.1 w.2.2 z.2.1 z.2.2

/-- `lehmer_small` — lehmer_gcd.rs:132-158 -/
def lehmer_small (dbg : Bool) (r0 r1 : UInt64) : Option Matrix :=
  (dassert dbg (decide (r1 ≤ r0))).bind fun _ =>
  if r1 = 0 then some .IDENTITY else smallLoop dbg r1.toNat r0 r1 1 0 0 1

/-- `LIMIT` — lehmer_gcd.rs:171 -/
def LIMIT : UInt64 := 0x100000000

/-- State of the loop of `lehmer_loop` (the variables it still reads afterwards). -/
structure LState where
  a1 : UInt64
  a2 : UInt64
  a3 : UInt64
  k0 : UInt64
  k1 : UInt64
  k2 : UInt64
  k3 : UInt64
  even : Bool

/-- half an iteration: shift the variables down and take one Euclid step
— lehmer_gcd.rs:208-215 and 220-227 -/
def lehmerHalf (dbg : Bool) (s : LState) : Option LState :=
  (lehmer_unroll dbg s.a3 s.a2 s.k3 s.k2).bind fun w =>
    some ⟨s.a2, s.a3, w.1, s.k1, s.k2, s.k3, w.2, s.even⟩

/-- `while a3 >= LIMIT` — lehmer_gcd.rs:207-228 -/
def lehmerWhile (dbg : Bool) : Nat → LState → Option LState
  | 0, _ => none
  | fuel + 1, s =>
    if s.a3 < LIMIT then some s else
    (lehmerHalf dbg s).bind fun s =>
    if s.a3 < LIMIT then some { s with even := false } else
    (lehmerHalf dbg s).bind fun s => lehmerWhile dbg fuel s

/-- after the loop: the assertions and Jebelean's condition — lehmer_gcd.rs:229-276 -/
def lehmerFinish (dbg : Bool) (s : LState) : Option Matrix :=
  let u0 := s.k0 >>> 32
  let u1 := s.k1 >>> 32
  let u2 := s.k2 >>> 32
  let u3 := s.k3 >>> 32
  let v0 := s.k0 % LIMIT
  let v1 := s.k1 % LIMIT
  let v2 := s.k2 % LIMIT
  let v3 := s.k3 % LIMIT
  (dassert dbg (decide (LIMIT ≤ s.a2))).bind fun _ =>
  (dassert dbg (decide (s.a3 < LIMIT))).bind fun _ =>
  if s.even then
    (dassert dbg (decide (v2 ≤ s.a2))).bind fun _ =>
    (csub dbg s.a1 s.a2).bind fun d1 => (cadd dbg u2 u1).bind fun w1 =>
    if w1 ≤ d1 then
      (csub dbg s.a2 s.a3).bind fun d2 => (cadd dbg v3 v2).bind fun w2 =>
      if u3 ≤ s.a3 ∧ w2 ≤ d2 then some ⟨u2, v2, u3, v3, true⟩ else some ⟨u1, v1, u2, v2, false⟩
    else some ⟨u0, v0, u1, v1, true⟩
  else
    (dassert dbg (decide (u2 ≤ s.a2))).bind fun _ =>
    (csub dbg s.a1 s.a2).bind fun d1 => (cadd dbg v2 v1).bind fun w1 =>
    if w1 ≤ d1 then
      (csub dbg s.a2 s.a3).bind fun d2 => (cadd dbg u3 u2).bind fun w2 =>
      if v3 ≤ s.a3 ∧ w2 ≤ d2 then some ⟨u2, v2, u3, v3, false⟩ else some ⟨u1, v1, u2, v2, true⟩
    else some ⟨u0, v0, u1, v1, false⟩

/-- the first Euclid steps of `lehmer_loop`: `q = div1(x, y); x - q·y, k + q·k'`
— lehmer_gcd.rs:186-188 and 202-204 -/
def loopStep (dbg : Bool) (x y k k' : UInt64) : Option (UInt64 × UInt64) :=
  (div1 dbg x y).bind fun q =>
  (cmul dbg q y).bind fun p => (csub dbg x p).bind fun z =>
  (cmul dbg q k').bind fun p => (cadd dbg k p).bind fun w => some (z, w)

/-- `lehmer_loop` — lehmer_gcd.rs:170-277.  (The short-circuit `&&` of lines 193 and 248, 268 is
evaluated eagerly in the model: `a1 - a2` and `a2 - a3` never underflow.) -/
def lehmer_loop (dbg : Bool) (a0 a1 : UInt64) : Option Matrix :=
  (dassert dbg (decide (0x8000000000000000 ≤ a0))).bind fun _ =>
  (dassert dbg (decide (a1 ≤ a0))).bind fun _ =>
  let k0 : UInt64 := LIMIT
  let k1 : UInt64 := 1
  if a1 < LIMIT then some .IDENTITY else
  (loopStep dbg a0 a1 k0 k1).bind fun w =>
  let a2 := w.1
  let k2 := w.2
  if a2 < LIMIT then
    let u2 := k2 >>> 32
    let v2 := k2 % LIMIT
    (csub dbg a1 a2).bind fun d =>
    if v2 ≤ a2 ∧ u2 ≤ d then some ⟨0, 1, u2, v2, false⟩ else some .IDENTITY
  else
  (loopStep dbg a1 a2 k1 k2).bind fun z =>
  (lehmerWhile dbg (z.1.toNat + 1) ⟨a1, a2, z.1, k0, k1, k2, z.2, true⟩).bind fun s =>
  lehmerFinish dbg s

/-- one entry of the product of two matrices -/
def dot2 (dbg : Bool) (a b c d : UInt64) : Option UInt64 :=
  (cmul dbg a b).bind fun x => (cmul dbg c d).bind fun y => cadd dbg x y

/-- the product `qn * q` — lehmer_gcd.rs:322-328 -/
def matProd (dbg : Bool) (qn q : Matrix) : Option Matrix :=
  (dot2 dbg qn.q00 q.q00 qn.q01 q.q10).bind fun m0 =>
  (dot2 dbg qn.q00 q.q01 qn.q01 q.q11).bind fun m1 =>
  (dot2 dbg qn.q10 q.q00 qn.q11 q.q10).bind fun m2 =>
  (dot2 dbg qn.q10 q.q01 qn.q11 q.q11).bind fun m3 =>
  some ⟨m0, m1, m2, m3, qn.even ^^ !q.even⟩

/-- `lehmer_double` — lehmer_gcd.rs:294-329 -/
def lehmer_double (dbg : Bool) (r0 r1 : U256) : Option Matrix :=
  (dassert dbg (ge r0 r1)).bind fun _ =>
  if 192 ≤ leading_zeros r0 then
    (dassert dbg (decide (192 ≤ leading_zeros r1))).bind fun _ =>
    (dassert dbg (decide (r1.l0 ≤ r0.l0))).bind fun _ =>
    lehmer_small dbg r0.l0 r1.l0
  else
    let s := leading_zeros r0
    (lehmer_loop dbg (shl r0 s).l3 (shl r1 s).l3).bind fun q =>
    if q = .IDENTITY then some q else
    let w := lehmer_update r0 r1 q
    let s := leading_zeros w.1
    (lehmer_loop dbg (shl w.1 s).l3 (shl w.2 s).l3).bind fun qn => matProd dbg qn q

/-- the loop of `gcd` — lehmer_gcd.rs:339-352 -/
def gcdLoop (dbg : Bool) : Nat → U256 → U256 → Option U256
  | 0, r0, r1 => if r1 = ZERO then some r0 else none
  | fuel + 1, r0, r1 =>
    if r1 = ZERO then some r0 else
    (lehmer_double dbg r0 r1).bind fun q =>
    if q = .IDENTITY then
      (div dbg r0 r1).bind fun q => gcdLoop dbg fuel r1 (sub r0 (mul q r1))
    else
      gcdLoop dbg fuel (lehmer_update r0 r1 q).1 (lehmer_update r0 r1 q).2

/-- `gcd` — lehmer_gcd.rs:334-354 -/
def gcd (dbg : Bool) (r0 r1 : U256) : Option U256 :=
  if gt r1 r0 then gcdLoop dbg (r0.l0.toNat + 2 ^ 64 * r0.l1.toNat + 2 ^ 128 * r0.l2.toNat + 2 ^ 192 * r0.l3.toNat) r1 r0
  else gcdLoop dbg (r1.l0.toNat + 2 ^ 64 * r1.l1.toNat + 2 ^ 128 * r1.l2.toNat + 2 ^ 192 * r1.l3.toNat) r0 r1

/-- The variables of `gcd_extended`'s loop. -/
structure ExtState where
  r0 : U256
  r1 : U256
  s0 : U256
  s1 : U256
  t0 : U256
  t1 : U256
  even : Bool

/-- full-precision Euclid step of `gcd_extended` — lehmer_gcd.rs:387-402 -/
def extEuclid (x : ExtState) (q : U256) : ExtState :=
  ⟨x.r1, sub x.r0 (mul q x.r1), x.s1, sub x.s0 (mul q x.s1), x.t1, sub x.t0 (mul q x.t1), !x.even⟩

/-- Lehmer step of `gcd_extended` — lehmer_gcd.rs:404-407 -/
def extLehmer (x : ExtState) (q : Matrix) : ExtState :=
  let r := lehmer_update x.r0 x.r1 q
  let s := lehmer_update x.s0 x.s1 q
  let t := lehmer_update x.t0 x.t1 q
  ⟨r.1, r.2, s.1, s.2, t.1, t.2, x.even ^^ !q.even⟩

/-- the loop of `gcd_extended` — lehmer_gcd.rs:385-409 -/
def extLoop (dbg : Bool) : Nat → ExtState → Option ExtState
  | 0, x => if x.r1 = ZERO then some x else none
  | fuel + 1, x =>
    if x.r1 = ZERO then some x else
    (lehmer_double dbg x.r0 x.r1).bind fun q =>
    if q = .IDENTITY then
      (div dbg x.r0 x.r1).bind fun q => extLoop dbg fuel (extEuclid x q)
    else extLoop dbg fuel (extLehmer x q)

/-- `gcd_extended` — lehmer_gcd.rs:374-422 -/
def gcd_extended (dbg : Bool) (a b : U256) : Option (U256 × U256 × U256 × Bool) :=
  let swapped := gt b a
  let r0 := if swapped then b else a
  let r1 := if swapped then a else b
  (extLoop dbg (r1.l0.toNat + 2 ^ 64 * r1.l1.toNat + 2 ^ 128 * r1.l2.toNat + 2 ^ 192 * r1.l3.toNat)
    ⟨r0, r1, ONE, ZERO, ZERO, ONE, true⟩).map fun x =>
  let s0 := if x.even then x.s0 else sub ZERO x.s0
  let t0 := if x.even then sub ZERO x.t0 else x.t0
  if swapped then (x.r0, t0, s0, !x.even) else (x.r0, s0, t0, x.even)

/-- the loop of `inv_mod`: `gcd_extended`'s loop without the `s` cofactors — lehmer_gcd.rs:450-467 -/
def invLoop (dbg : Bool) : Nat → U256 → U256 → U256 → U256 → Bool → Option (U256 × U256 × Bool)
  | 0, r0, r1, t0, _, even => if r1 = ZERO then some (r0, t0, even) else none
  | fuel + 1, r0, r1, t0, t1, even =>
    if r1 = ZERO then some (r0, t0, even) else
    (lehmer_double dbg r0 r1).bind fun q =>
    if q = .IDENTITY then
      (div dbg r0 r1).bind fun q =>
      invLoop dbg fuel r1 (sub r0 (mul q r1)) t1 (sub t0 (mul q t1)) (!even)
    else
      invLoop dbg fuel (lehmer_update r0 r1 q).1 (lehmer_update r0 r1 q).2
        (lehmer_update t0 t1 q).1 (lehmer_update t0 t1 q).2 (even ^^ !q.even)

/-- `inv_mod` — lehmer_gcd.rs:441-475 and division.rs:22-28 (with the modulus as second argument, as in
`InvMod`).  Outer `none`: panic; inner `none`: no inverse. -/
def inv_mod (dbg : Bool) (num modulus : U256) : Option (Option U256) :=
  (if ge num modulus then rem dbg num modulus else some num).bind fun r1 =>
  (invLoop dbg (r1.l0.toNat + 2 ^ 64 * r1.l1.toNat + 2 ^ 128 * r1.l2.toNat + 2 ^ 192 * r1.l3.toNat)
    modulus r1 ZERO ONE true).map fun x =>
  if x.1 = ONE then some (if x.2.2 then add modulus x.2.1 else x.2.1) else none

end U256
end OpenZKP
