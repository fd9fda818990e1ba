/-!
The context switch of src/fiber/platform/sysv/x86_64: `fiber_make.s` and `fiber_switch.s`, instruction by
instruction, on a small model of the processor.

Memory is byte addressed and little endian; addresses and registers are 64 bit and wrap around. An access to
memory that is not mapped is a fault (`none`). Left out: the flags, and the registers `r10` and `r11`, none
of which the code uses; the vector and x87 registers, which a called function need not preserve; the fault of
`ldmxcsr` on reserved bits, as it only ever loads a value that `stmxcsr` stored.
-/
namespace Rcpr.Asm

/-- A 64 bit register or address of x86_64 (fiber_switch.s, fiber_make.s). -/
abbrev Word := BitVec 64

/-- Byte addressed memory.
Not in the code: the memory that the instructions of fiber_switch.s:48-107 and fiber_make.s:48-105 access. -/
abbrev Mem := Word → BitVec 8

/-- The registers that fiber_switch.s:48-107 and fiber_make.s:48-105 name. -/
inductive Reg
  | rax | rbx | rcx | rdx | rsi | rdi | rbp | rsp | r8 | r9 | r12 | r13 | r14 | r15
  deriving DecidableEq

/-- `rip` is where control is. `mxcsr` and `fcw` are the control words of the vector and the x87 unit.
Only what fiber_switch.s:48-107 and fiber_make.s:48-105 use; left out: see the top of this file. -/
structure Cpu where
  rip : Word
  reg : Reg → Word
  mxcsr : BitVec 32
  fcw : BitVec 16
  mem : Mem

/-- `n` bytes at `a`, least significant first.
Not in the code: loads of the processor (`movq`, `ldmxcsr`, `fldcw` in fiber_switch.s). -/
def ld (m : Mem) (a : Word) : Nat → Nat
  | 0 => 0
  | n + 1 => (m a).toNat + 256 * ld m (a + 1) n

/-- Write the lowest `n` bytes of `v` at `a`.
Not in the code: stores of the processor (`movq`, `stmxcsr`, `fnstcw` in fiber_switch.s). -/
def st (m : Mem) (a : Word) (n v : Nat) : Mem := fun x =>
  if (x - a).toNat < n then BitVec.ofNat 8 (v / 256 ^ (x - a).toNat) else m x

/-- The eight byte word at `a`. Not in the code: a quad word operand (fiber_switch.s, fiber_make.s). -/
def word (m : Mem) (a : Word) : Word := BitVec.ofNat 64 (ld m a 8)

/-- All of the `n` bytes at `a` are mapped.
Not in the code: whether an access of fiber_switch.s or fiber_make.s faults. -/
def mapped (ok : Word → Bool) (a : Word) : Nat → Bool
  | 0 => true
  | n + 1 => ok a && mapped ok (a + 1) n

/-- The two local labels of fiber_make.s: `trampoline` (91) and `finish` (103). -/
inductive Label
  | trampoline | finish
  deriving DecidableEq

/-- The instructions that the two files use; operands in the order of the source (AT&T syntax).
See fiber_switch.s:48-107 and fiber_make.s:48-105. -/
inductive Instr
  /-- `leaq d(b), r` -/
  | lea (d : Int) (b r : Reg)
  /-- `leaq l(%rip), r` -/
  | leaLabel (l : Label) (r : Reg)
  /-- `movq r, d(b)` -/
  | store (r : Reg) (d : Int) (b : Reg)
  /-- `movq d(b), r` -/
  | load (d : Int) (b r : Reg)
  /-- `movq s, r` -/
  | mov (s r : Reg)
  /-- `mov a, r` without `$`: load from the absolute address `a` -/
  | loadAbs (a : Int) (r : Reg)
  /-- `andq $i, r` -/
  | andImm (i : Int) (r : Reg)
  | stmxcsr (d : Int) (b : Reg)
  | fnstcw (d : Int) (b : Reg)
  | ldmxcsr (d : Int) (b : Reg)
  | fldcw (d : Int) (b : Reg)
  | push (r : Reg)
  /-- `jmp *r` -/
  | jmp (r : Reg)
  | ret
  deriving DecidableEq

/-- What the outside provides: the mapped addresses and where the two labels are.
The labels are those of fiber_make.s:91 and 103. -/
structure Env where
  ok : Word → Bool
  addr : Label → Word

/-- Not in the code: writing a register, as the instructions of fiber_switch.s and fiber_make.s do. -/
def Cpu.set (s : Cpu) (r : Reg) (v : Word) : Cpu := { s with reg := fun x => if x = r then v else s.reg x }

/-- The address of a memory operand. As in `8(%rdi)` in fiber_switch.s and fiber_make.s. -/
def Cpu.ea (s : Cpu) (d : Int) (b : Reg) : Word := s.reg b + BitVec.ofInt 64 d

/-- Not in the code: a load in fiber_switch.s or fiber_make.s; unmapped memory faults. -/
def Cpu.read (e : Env) (s : Cpu) (a : Word) (n : Nat) : Option Nat :=
  if mapped e.ok a n then some (ld s.mem a n) else none

/-- Not in the code: a store in fiber_switch.s or fiber_make.s; unmapped memory faults. -/
def Cpu.write (e : Env) (s : Cpu) (a : Word) (n v : Nat) : Option Cpu :=
  if mapped e.ok a n then some { s with mem := st s.mem a n v } else none

/-- One instruction. `rip` is only followed at the jumps that end a block.
Not in the code: the processor, for the instructions of fiber_switch.s:48-107 and fiber_make.s:48-105. -/
def exec1 (e : Env) (i : Instr) (s : Cpu) : Option Cpu :=
  match i with
  | .lea d b r => some (s.set r (s.ea d b))
  | .leaLabel l r => some (s.set r (e.addr l))
  | .store r d b => s.write e (s.ea d b) 8 (s.reg r).toNat
  | .load d b r => (s.read e (s.ea d b) 8).map fun v => s.set r (BitVec.ofNat 64 v)
  | .mov a r => some (s.set r (s.reg a))
  | .loadAbs a r => (s.read e (BitVec.ofInt 64 a) 8).map fun v => s.set r (BitVec.ofNat 64 v)
  | .andImm i r => some (s.set r (s.reg r &&& BitVec.ofInt 64 i))
  | .stmxcsr d b => s.write e (s.ea d b) 4 s.mxcsr.toNat
  | .fnstcw d b => s.write e (s.ea d b) 2 s.fcw.toNat
  | .ldmxcsr d b => (s.read e (s.ea d b) 4).map fun v => { s with mxcsr := BitVec.ofNat 32 v }
  | .fldcw d b => (s.read e (s.ea d b) 2).map fun v => { s with fcw := BitVec.ofNat 16 v }
  | .push r => (s.set .rsp (s.reg .rsp - 8)).write e (s.reg .rsp - 8) 8 (s.reg r).toNat
  | .jmp r => some { s with rip := s.reg r }
  | .ret => (s.read e (s.reg .rsp) 8).map fun v =>
      { s.set .rsp (s.reg .rsp + 8) with rip := BitVec.ofNat 64 v }

/-- A straight line block. Not in the code: the processor, for the blocks of fiber_switch.s and fiber_make.s. -/
def exec (e : Env) : List Instr → Cpu → Option Cpu
  | [], s => some s
  | i :: is, s => (exec1 e i s).bind (exec e is)

/-! ### The structure `fiber` as the assembler sees it (fiber_struct.inc:10-32) -/

/-- (fiber_struct.inc:14) -/
def fiber_stack_ptr : Int := 8
/-- (fiber_struct.inc:28) -/
def fiber_restore_discipline_id : Int := 64
/-- (fiber_struct.inc:30) -/
def fiber_restore_reason_code : Int := 72
/-- (fiber_struct.inc:32) -/
def fiber_restore_param : Int := 80

/-- The fields of `struct fiber` in the order of their declaration (fiber_internal.h:27-45), each eight
bytes; the header is a single pointer (include/rcpr/resource/protected.h:23-28), and the tags are empty
outside of model checking. -/
inductive Field
  | hdr | stack_ptr | alloc | st | context | fn | unexpected_fn | unexpected_context
  | restore_discipline_id | restore_reason_code | restore_param | fiber_state | sched
  deriving DecidableEq

/-- The fields of `struct fiber` in order (src/fiber/common/fiber_internal.h:27-45). -/
def fields : List Field :=
  [.hdr, .stack_ptr, .alloc, .st, .context, .fn, .unexpected_fn, .unexpected_context,
    .restore_discipline_id, .restore_reason_code, .restore_param, .fiber_state, .sched]

/-- Where the C compiler puts a field.
For `struct fiber` (src/fiber/common/fiber_internal.h:27-45); every field takes eight bytes. -/
def Field.offset (f : Field) : Nat := 8 * fields.idxOf f

/-- The size of `struct fiber` (src/fiber/common/fiber_internal.h:27-45). -/
def fiberSize : Nat := 8 * fields.length

/-! ### The code -/

/-- `fiber_switch` (fiber_switch.s:48-107) -/
def fiberSwitch : List Instr :=
  [ .lea (-0x38) .rsp .rsp,
    .stmxcsr 0 .rsp,
    .fnstcw 4 .rsp,
    .store .r12 0x8 .rsp,
    .store .r13 0x10 .rsp,
    .store .r14 0x18 .rsp,
    .store .r15 0x20 .rsp,
    .store .rbx 0x28 .rsp,
    .store .rbp 0x30 .rsp,
    .store .rsp fiber_stack_ptr .rdi,
    .load fiber_stack_ptr .rsi .rsp,
    .load 0x38 .rsp .r9,
    .ldmxcsr 0 .rsp,
    .fldcw 4 .rsp,
    .load 0x8 .rsp .r12,
    .load 0x10 .rsp .r13,
    .load 0x18 .rsp .r14,
    .load 0x20 .rsp .r15,
    .load 0x28 .rsp .rbx,
    .load 0x30 .rsp .rbp,
    .store .rdx fiber_restore_discipline_id .rsi,
    .store .rcx fiber_restore_reason_code .rsi,
    .store .r8 fiber_restore_param .rsi,
    .lea 0x40 .rsp .rsp,
    .jmp .r9 ]

/-- `fiber_make` (fiber_make.s:48-89) -/
def fiberMake : List Instr :=
  [ .load fiber_stack_ptr .rdi .rax,
    .andImm (-16) .rax,
    .lea (-0x40) .rax .rax,
    .store .rdx 0x28 .rax,
    .store .rdi 0x20 .rax,
    .store .rsi 0x18 .rax,
    .stmxcsr 0 .rax,
    .fnstcw 4 .rax,
    .leaLabel .trampoline .rcx,
    .store .rcx 0x38 .rax,
    .leaLabel .finish .rcx,
    .store .rcx 0x30 .rax,
    .store .rax fiber_stack_ptr .rdi,
    .ret ]

/-- `trampoline` (fiber_make.s:91-101) -/
def trampolineCode : List Instr :=
  [ .mov .r14 .rdi,
    .mov .r15 .rsi,
    .push .rbp,
    .jmp .rbx ]

/-- The start of `finish` (fiber_make.s:103-105), up to the call of `_exit` with `rdi` as exit code. The
comment there says "exit code is non-zero", but `mov 0x1, %rdi` has no `$`. -/
def finishCode : List Instr :=
  [ .loadAbs 1 .rdi ]

end Rcpr.Asm
