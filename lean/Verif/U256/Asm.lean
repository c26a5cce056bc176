import Verif.U256.Montgomery

/-!
# The assembly routines (model)

Models `/repo/algebra/u256/src/arch/x86_64/mod.rs` and `/repo/algebra/u256/src/arch/x86_64_adx/mod.rs`.
Every `asm!` block is transcribed instruction by instruction and run on a small model of an
x86-64 processor: twelve general registers, the carry and overflow flags, and memory.

Simplifications.
* The operands `$0`, `$1`, … that are pointers are addressed as `(operand, limb)`; objects behind
  different pointers do not overlap (they are distinct Rust values).
* Where the source lets the compiler choose a register (`{r0}`, `$5`), the model fixes one; different
  operands get different registers, as the constraints `inout`, `out` and `=&r` demand.
* A register or memory operand (`rm`) is in memory; LLVM always picks `m` (x86_64_adx/mod.rs:27-28).
* Flags other than the carry and overflow flags are not modelled: no block reads them.
-/

namespace OpenZKP.Asm

/-- The registers used by the blocks. -/
inductive Reg
  | rax | rbx | rdx | rdi | r8 | r9 | r10 | r11 | r12 | r13 | r14 | r15

/-- The state of the processor. `mem p i` is the `i`th 64-bit word behind pointer operand `p`. -/
structure Cpu where
  rax : UInt64
  rbx : UInt64
  rdx : UInt64
  rdi : UInt64
  r8 : UInt64
  r9 : UInt64
  r10 : UInt64
  r11 : UInt64
  r12 : UInt64
  r13 : UInt64
  r14 : UInt64
  r15 : UInt64
  cf : Bool
  of : Bool
  mem : Nat → Nat → UInt64

/-- Read a register. -/
def Cpu.get (s : Cpu) : Reg → UInt64
  | .rax => s.rax | .rbx => s.rbx | .rdx => s.rdx | .rdi => s.rdi
  | .r8 => s.r8 | .r9 => s.r9 | .r10 => s.r10 | .r11 => s.r11
  | .r12 => s.r12 | .r13 => s.r13 | .r14 => s.r14 | .r15 => s.r15

/-- Write a register. -/
def Cpu.set (s : Cpu) (r : Reg) (v : UInt64) : Cpu :=
  match r with
  | .rax => { s with rax := v } | .rbx => { s with rbx := v }
  | .rdx => { s with rdx := v } | .rdi => { s with rdi := v }
  | .r8 => { s with r8 := v } | .r9 => { s with r9 := v }
  | .r10 => { s with r10 := v } | .r11 => { s with r11 := v }
  | .r12 => { s with r12 := v } | .r13 => { s with r13 := v }
  | .r14 => { s with r14 := v } | .r15 => { s with r15 := v }

/-- Overwrite one word of memory. -/
def store (m : Nat → Nat → UInt64) (p i : Nat) (v : UInt64) : Nat → Nat → UInt64 :=
  fun p' i' => if p' = p ∧ i' = i then v else m p' i'

/-- A source operand: register, memory word, or immediate. -/
inductive Src
  | reg (r : Reg)
  | mem (p i : Nat)
  | imm (v : UInt64)

/-- The value of a source operand. -/
def Cpu.read (s : Cpu) : Src → UInt64
  | .reg r => s.get r
  | .mem p i => s.mem p i
  | .imm v => v

/-- The instructions, with operands in the order of the AT&T syntax of the blocks (destination last). -/
inductive Instr
  | mov (src : Src) (dst : Reg)
  | movm (src : Reg) (p i : Nat)
  | clear (dst : Reg)
  | neg (dst : Reg)
  | add (src : Src) (dst : Reg)
  | adc (src : Src) (dst : Reg)
  | adcx (src : Src) (dst : Reg)
  | adox (src : Src) (dst : Reg)
  | sub (src : Src) (dst : Reg)
  | sbb (src : Src) (dst : Reg)
  | mulx (src : Src) (lo hi : Reg)
  | cmovnc (src : Src) (dst : Reg)

/-- The low word of a natural number. -/
def low (n : Nat) : UInt64 := UInt64.ofNat n

/-- The sign bit. -/
def sign (v : UInt64) : Bool := 2 ^ 63 ≤ v.toNat

/-- `dst + src + carry`: the sum, the carry out, the signed overflow. -/
def addc (a b : UInt64) (c : Bool) : UInt64 × Bool × Bool :=
  let t := a.toNat + b.toNat + c.toNat
  (low t, decide (2 ^ 64 ≤ t), (sign a == sign b) && (sign (low t) != sign a))

/-- `dst - src - borrow`: the difference, the borrow out, the signed overflow. -/
def subb (a b : UInt64) (c : Bool) : UInt64 × Bool × Bool :=
  let t := a.toNat + 2 ^ 64 - b.toNat - c.toNat
  (low t, decide (t < 2 ^ 64), (sign a != sign b) && (sign (low t) != sign a))

/-- One instruction (Intel 64 manual, volume 2). `clear r` is `xor r, r`; `movm` is a `mov` to memory. -/
def exec (s : Cpu) : Instr → Cpu
  | .mov src dst => s.set dst (s.read src)
  | .movm src p i => { s with mem := store s.mem p i (s.get src) }
  | .clear dst => { s.set dst 0 with cf := false, of := false }
  | .neg dst =>
    let r := subb 0 (s.get dst) false
    { s.set dst r.1 with cf := r.2.1, of := r.2.2 }
  | .add src dst =>
    let r := addc (s.get dst) (s.read src) false
    { s.set dst r.1 with cf := r.2.1, of := r.2.2 }
  | .adc src dst =>
    let r := addc (s.get dst) (s.read src) s.cf
    { s.set dst r.1 with cf := r.2.1, of := r.2.2 }
  | .adcx src dst =>
    let r := addc (s.get dst) (s.read src) s.cf
    { s.set dst r.1 with cf := r.2.1 }
  | .adox src dst =>
    let r := addc (s.get dst) (s.read src) s.of
    { s.set dst r.1 with of := r.2.1 }
  | .sub src dst =>
    let r := subb (s.get dst) (s.read src) false
    { s.set dst r.1 with cf := r.2.1, of := r.2.2 }
  | .sbb src dst =>
    let r := subb (s.get dst) (s.read src) s.cf
    { s.set dst r.1 with cf := r.2.1, of := r.2.2 }
  | .mulx src lo hi =>
    let t := s.rdx.toNat * (s.read src).toNat
    (s.set lo (low t)).set hi (low (t / 2 ^ 64))
  | .cmovnc src dst => if s.cf then s else s.set dst (s.read src)

/-- A straight-line block. -/
def run (s : Cpu) : List Instr → Cpu
  | [] => s
  | i :: p => run (exec s i) p

/-- Put a 256-bit number behind pointer operand `p`. -/
def Cpu.load (s : Cpu) (p : Nat) (x : U256) : Cpu :=
  { s with mem := store (store (store (store s.mem p 0 x.l0) p 1 x.l1) p 2 x.l2) p 3 x.l3 }

/-- Put a word behind memory operand `p`. -/
def Cpu.load1 (s : Cpu) (p : Nat) (v : UInt64) : Cpu := { s with mem := store s.mem p 0 v }

/-- The 256-bit number behind pointer operand `p`. -/
def Cpu.fetch (s : Cpu) (p : Nat) : U256 := ⟨s.mem p 0, s.mem p 1, s.mem p 2, s.mem p 3⟩

open Reg

/-- A register as a source operand. -/
abbrev R (r : Reg) : Src := .reg r
/-- A memory word as a source operand. -/
abbrev M (p i : Nat) : Src := .mem p i

/-! ## arch/x86_64/mod.rs -/

/-- The block of `reduce_1` — x86_64/mod.rs:22-38 (Intel syntax there: destination first).
`s0..s3` are in `r8..r11`, `r0..r3` in `r12..r15`, `m` is pointer 0. -/
def reduceBlock : List Instr := [
  .mov (R r8) r12,
  .sub (M 0 0) r8,
  .mov (R r9) r13,
  .sbb (M 0 1) r9,
  .mov (R r10) r14,
  .sbb (M 0 2) r10,
  .mov (R r11) r15,
  .sbb (M 0 3) r11,
  .cmovnc (R r8) r12,
  .cmovnc (R r9) r13,
  .cmovnc (R r10) r14,
  .cmovnc (R r11) r15]

/-- `reduce_1` — x86_64/mod.rs:13-56. `s0` is the state of the processor on entry. -/
def reduce_1 (s0 : Cpu) (s modulus : U256) : U256 :=
  let t := run { s0.load 0 modulus with r8 := s.l0, r9 := s.l1, r10 := s.l2, r11 := s.l3 } reduceBlock
  ⟨t.r12, t.r13, t.r14, t.r15⟩

/-! ## arch/x86_64_adx/mod.rs -/

/-- The block of `proth_redc_asm` — x86_64_adx/mod.rs:39-109. -/
def prothBlock : List Instr := [
  .mov (M 4 0) rdx,
  .mov (M 1 0) r8,
  .clear r9,
  .clear r10,
  .neg r8,
  .sbb (M 1 1) r9,
  .sbb (M 1 2) r10,
  .mov (.imm 0) rax,
  .adox (R rax) rax,
  .mulx (R r8) r8 r11,
  .adcx (M 1 3) r8,
  .movm r12 0 3,
  .adox (M 2 0) r11,
  .mulx (R r9) rax r9,
  .adcx (R rax) r11,
  .adox (M 2 1) r9,
  .mulx (R r10) rax r10,
  .adcx (R rax) r9,
  .adox (M 2 2) r10,
  .adcx (M 3 0) r10,
  .mov (M 3 0) r12,
  .adox (M 2 3) r12,
  .adcx (M 3 0) r12,
  .neg r8,
  .adcx (M 3 0) r11,
  .adcx (M 3 0) r9,
  .mulx (R r8) rax rbx,
  .adcx (R rax) r10,
  .adcx (R rbx) r12,
  .mov (R r11) rax,
  .mov (R r9) rbx,
  .mov (R r10) r13,
  .mov (R r12) r14,
  .sub (.imm 1) rax,
  .sbb (.imm 0) rbx,
  .sbb (.imm 0) r13,
  .sbb (R rdx) r14,
  .cmovnc (R rax) r11,
  .cmovnc (R rbx) r9,
  .cmovnc (R r13) r10,
  .cmovnc (R r14) r12,
  .movm r11 0 0,
  .movm r9 0 1,
  .movm r10 0 2,
  .movm r12 0 3]

/-- `proth_redc_asm` — x86_64_adx/mod.rs:30-118 -/
def proth_redc_asm (s0 : Cpu) (m3 : UInt64) (lo hi : U256) : U256 :=
  (run ((((s0.load 1 lo).load 2 hi).load1 3 0).load1 4 m3) prothBlock).fetch 0

/-- The block of `mul_1_asm` — x86_64_adx/mod.rs:135-145. `$0..$4` are `r8..r12`, `$5` is `rax`. -/
def mul1Block : List Instr := [
  .mulx (M 7 0) r8 r9,
  .mulx (M 8 0) rax r10,
  .add (R rax) r9,
  .mulx (M 9 0) rax r11,
  .adc (R rax) r10,
  .mulx (M 10 0) rax r12,
  .adc (R rax) r11,
  .adc (.imm 0) r12]

/-- `mul_1_asm` — x86_64_adx/mod.rs:120-166 -/
def mul_1_asm (s0 : Cpu) (a b0 b1 b2 b3 : UInt64) : UInt64 × UInt64 × UInt64 × UInt64 × UInt64 :=
  let s := (((s0.load1 7 b0).load1 8 b1).load1 9 b2).load1 10 b3
  let t := run { s with rdx := a } mul1Block
  (t.r8, t.r9, t.r10, t.r11, t.r12)

/-- The block of `mul_add_1_asm` — x86_64_adx/mod.rs:191-209. `$0..$3` are `r8..r11`, `$4` is `r12`,
`$5` is `rax`, `$6` is `rbx`. -/
def mulAdd1Block : List Instr := [
  .clear r12,
  .mulx (M 8 0) rax rbx,
  .adcx (R rax) r8,
  .adox (R rbx) r9,
  .mulx (M 9 0) rax rbx,
  .adcx (R rax) r9,
  .adox (R rbx) r10,
  .mulx (M 10 0) rax rbx,
  .adcx (R rax) r10,
  .adox (R rbx) r11,
  .mulx (M 11 0) rax rbx,
  .adcx (R rax) r11,
  .adcx (R r12) r12,
  .adox (R rbx) r12]

/-- `mul_add_1_asm` — x86_64_adx/mod.rs:168-229. Returns the updated `r0..r3` and the result. -/
def mul_add_1_asm (s0 : Cpu) (a0 a1 a2 a3 : UInt64) (a b0 b1 b2 b3 : UInt64) :
    UInt64 × UInt64 × UInt64 × UInt64 × UInt64 :=
  let s := (((s0.load1 8 b0).load1 9 b1).load1 10 b2).load1 11 b3
  let t := run { s with r8 := a0, r9 := a1, r10 := a2, r11 := a3, rdx := a } mulAdd1Block
  (t.r8, t.r9, t.r10, t.r11, t.r12)

/-- `full_mul_asm2` — x86_64_adx/mod.rs:231-249 -/
def full_mul_asm2 (s0 : Cpu) (x y : U256) : U256 × U256 :=
  let (r0, r1, r2, r3, r4) := mul_1_asm s0 x.l0 y.l0 y.l1 y.l2 y.l3
  let (r1, r2, r3, r4, r5) := mul_add_1_asm s0 r1 r2 r3 r4 x.l1 y.l0 y.l1 y.l2 y.l3
  let (r2, r3, r4, r5, r6) := mul_add_1_asm s0 r2 r3 r4 r5 x.l2 y.l0 y.l1 y.l2 y.l3
  let (r3, r4, r5, r6, r7) := mul_add_1_asm s0 r3 r4 r5 r6 x.l3 y.l0 y.l1 y.l2 y.l3
  (⟨r0, r1, r2, r3⟩, ⟨r4, r5, r6, r7⟩)

/-- The block of `mul_asm` — x86_64_adx/mod.rs:261-306 -/
def mulBlock : List Instr := [
  .clear rax,
  .mov (M 1 0) rdx,
  .mulx (M 2 0) rax r8,
  .movm rax 0 0,
  .mulx (M 2 1) rax r9,
  .adcx (R rax) r8,
  .mulx (M 2 2) rax r10,
  .adcx (R rax) r9,
  .mulx (M 2 3) rax r11,
  .adcx (R rax) r10,
  .clear r11,
  .mov (M 1 1) rdx,
  .mulx (M 2 0) rax rbx,
  .adcx (R rax) r8,
  .adox (R rbx) r9,
  .movm r8 0 1,
  .mulx (M 2 1) rax rbx,
  .adcx (R rax) r9,
  .adox (R rbx) r10,
  .mulx (M 2 2) rax r11,
  .adcx (R rax) r10,
  .clear r11,
  .mov (M 1 2) rdx,
  .mulx (M 2 0) rax rbx,
  .adcx (R rax) r9,
  .adox (R rbx) r10,
  .movm r9 0 2,
  .mulx (M 2 1) rax r11,
  .adcx (R rax) r10,
  .clear r11,
  .mov (M 1 3) rdx,
  .mulx (M 2 0) rax r11,
  .adcx (R rax) r10,
  .movm r10 0 3]

/-- `mul_asm` — x86_64_adx/mod.rs:254-315 -/
def mul_asm (s0 : Cpu) (x y : U256) : U256 :=
  (run ((s0.load 1 x).load 2 y) mulBlock).fetch 0

/-- The block of `full_mul_asm` — x86_64_adx/mod.rs:327-400 -/
def fullMulBlock : List Instr := [
  .clear rax,
  .mov (M 2 0) rdx,
  .mulx (M 3 0) rax r8,
  .movm rax 0 0,
  .mulx (M 3 1) rax r9,
  .adcx (R rax) r8,
  .mulx (M 3 2) rax r10,
  .adcx (R rax) r9,
  .mulx (M 3 3) rax r11,
  .adcx (R rax) r10,
  .adcx (M 4 0) r11,
  .mov (M 2 1) rdx,
  .mulx (M 3 0) rax rbx,
  .adcx (R rax) r8,
  .adox (R rbx) r9,
  .movm r8 0 1,
  .mulx (M 3 1) rax rbx,
  .adcx (R rax) r9,
  .adox (R rbx) r10,
  .mulx (M 3 2) rax rbx,
  .adcx (R rax) r10,
  .adox (R rbx) r11,
  .mulx (M 3 3) rax r8,
  .adcx (R rax) r11,
  .adox (M 4 0) r8,
  .adcx (M 4 0) r8,
  .mov (M 2 2) rdx,
  .mulx (M 3 0) rax rbx,
  .adcx (R rax) r9,
  .adox (R rbx) r10,
  .movm r9 0 2,
  .mulx (M 3 1) rax rbx,
  .adcx (R rax) r10,
  .adox (R rbx) r11,
  .mulx (M 3 2) rax rbx,
  .adcx (R rax) r11,
  .adox (R rbx) r8,
  .mulx (M 3 3) rax r9,
  .adcx (R rax) r8,
  .adox (M 4 0) r9,
  .adcx (M 4 0) r9,
  .mov (M 2 3) rdx,
  .mulx (M 3 0) rax rbx,
  .adcx (R rax) r10,
  .adox (R rbx) r11,
  .movm r10 0 3,
  .mulx (M 3 1) rax rbx,
  .adcx (R rax) r11,
  .adox (R rbx) r8,
  .mulx (M 3 2) rax rbx,
  .adcx (R rax) r8,
  .adox (R rbx) r9,
  .mulx (M 3 3) rax r10,
  .adcx (R rax) r9,
  .adox (M 4 0) r10,
  .adcx (M 4 0) r10,
  .movm r11 1 0,
  .movm r8 1 1,
  .movm r9 1 2,
  .movm r10 1 3]

/-- `full_mul_asm` — x86_64_adx/mod.rs:317-411 -/
def full_mul_asm (s0 : Cpu) (x y : U256) : U256 × U256 :=
  let t := run (((s0.load 2 x).load 3 y).load1 4 0) fullMulBlock
  (t.fetch 0, t.fetch 1)

/-- Round 0 of the block of `mul_redc` — x86_64_adx/mod.rs:438-463: add `a[0]·b`, then a multiple of the modulus. -/
def redcRound0 : List Instr := [
  .mov (M 1 0) rdx,
  .clear r8,
  .mulx (M 2 1) r8 r9,
  .mulx (M 2 3) rdi r12,
  .mulx (M 2 0) r13 r14,
  .mulx (M 2 2) r15 r10,
  .mov (R r13) rdx,
  .mulx (M 8 0) rdx r11,
  .adcx (R r8) r14,
  .adox (R rdi) r10,
  .adcx (R r9) r15,
  .adox (M 3 0) r12,
  .adcx (M 3 0) r10,
  .mulx (M 4 0) r8 r9,
  .mulx (M 5 0) rdi r11,
  .adox (R r8) r13,
  .adcx (R rdi) r14,
  .adox (R r9) r14,
  .adcx (R r11) r15,
  .mulx (M 6 0) r8 r9,
  .mulx (M 7 0) rdi r11,
  .adox (R r8) r15,
  .adcx (R rdi) r10,
  .adox (R r9) r10,
  .adcx (R r11) r12,
  .adox (M 3 0) r12]

/-- Round 1 of the block of `mul_redc` — x86_64_adx/mod.rs:464-492: add `a[1]·b`, then a multiple of the modulus. -/
def redcRound1 : List Instr := [
  .mov (M 1 1) rdx,
  .mulx (M 2 0) r8 r9,
  .mulx (M 2 1) rdi r11,
  .adcx (R r8) r14,
  .adox (R r9) r15,
  .adcx (R rdi) r15,
  .adox (R r11) r10,
  .mulx (M 2 2) r8 r9,
  .mulx (M 2 3) rdi r13,
  .adcx (R r8) r10,
  .adox (R rdi) r12,
  .adcx (R r9) r12,
  .adox (M 3 0) r13,
  .adcx (M 3 0) r13,
  .mov (R r14) rdx,
  .mulx (M 8 0) rdx r8,
  .mulx (M 4 0) r8 r9,
  .mulx (M 5 0) rdi r11,
  .adox (R r8) r14,
  .adcx (R rdi) r15,
  .adox (R r9) r15,
  .adcx (R r11) r10,
  .mulx (M 6 0) r8 r9,
  .mulx (M 7 0) rdi r11,
  .adox (R r8) r10,
  .adcx (R r9) r12,
  .adox (R rdi) r12,
  .adcx (R r11) r13,
  .adox (M 3 0) r13]

/-- Round 2 of the block of `mul_redc` — x86_64_adx/mod.rs:493-521: add `a[2]·b`, then a multiple of the modulus. -/
def redcRound2 : List Instr := [
  .mov (M 1 2) rdx,
  .mulx (M 2 0) r8 r9,
  .mulx (M 2 1) rdi r11,
  .adcx (R r8) r15,
  .adox (R r9) r10,
  .adcx (R rdi) r10,
  .adox (R r11) r12,
  .mulx (M 2 2) r8 r9,
  .mulx (M 2 3) rdi r14,
  .adcx (R r8) r12,
  .adox (R r9) r13,
  .adcx (R rdi) r13,
  .adox (M 3 0) r14,
  .adcx (M 3 0) r14,
  .mov (R r15) rdx,
  .mulx (M 8 0) rdx r8,
  .mulx (M 4 0) r8 r9,
  .mulx (M 5 0) rdi r11,
  .adox (R r8) r15,
  .adcx (R r9) r10,
  .adox (R rdi) r10,
  .adcx (R r11) r12,
  .mulx (M 6 0) r8 r9,
  .mulx (M 7 0) rdi r11,
  .adox (R r8) r12,
  .adcx (R r9) r13,
  .adox (R rdi) r13,
  .adcx (R r11) r14,
  .adox (M 3 0) r14]

/-- Round 3 of the block of `mul_redc` — x86_64_adx/mod.rs:522-550: add `a[3]·b`, then a multiple of the modulus. -/
def redcRound3 : List Instr := [
  .mov (M 1 3) rdx,
  .mulx (M 2 0) r8 r9,
  .mulx (M 2 1) rdi r11,
  .adcx (R r8) r10,
  .adox (R r9) r12,
  .adcx (R rdi) r12,
  .adox (R r11) r13,
  .mulx (M 2 2) r8 r9,
  .mulx (M 2 3) rdi r15,
  .adcx (R r8) r13,
  .adox (R r9) r14,
  .adcx (R rdi) r14,
  .adox (M 3 0) r15,
  .adcx (M 3 0) r15,
  .mov (R r10) rdx,
  .mulx (M 8 0) rdx r8,
  .mulx (M 4 0) r8 r9,
  .mulx (M 5 0) rdi r11,
  .adox (R r8) r10,
  .adcx (R r9) r12,
  .adox (R rdi) r12,
  .adcx (R r11) r13,
  .mulx (M 6 0) r8 r9,
  .mulx (M 7 0) rdi rdx,
  .adox (R r8) r13,
  .adcx (R r9) r14,
  .adox (R rdi) r14,
  .adcx (R rdx) r15,
  .adox (M 3 0) r15]

/-- The end of the block of `mul_redc` — x86_64_adx/mod.rs:552-555 -/
def redcStore : List Instr := [
  .movm r12 0 0,
  .movm r13 0 1,
  .movm r14 0 2,
  .movm r15 0 3]

/-- The block of `mul_redc` — x86_64_adx/mod.rs:436-555 -/
def redcBlock : List Instr := redcRound0 ++ (redcRound1 ++ (redcRound2 ++ (redcRound3 ++ redcStore)))

/-- `mul_redc` — x86_64_adx/mod.rs:425-577 -/
def mul_redc (s0 : Cpu) (N : U256.Mont) (a b : U256) : U256 :=
  let m := N.modulus
  let s := (((((((s0.load 1 a).load 2 b).load1 3 0).load1 4 m.l0).load1 5 m.l1).load1 6 m.l2).load1 7
    m.l3).load1 8 N.m64
  let r := (run s redcBlock).fetch 0
  if U256.ge r m then U256.sub r m else r

end OpenZKP.Asm
