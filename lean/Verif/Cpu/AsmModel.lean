import Verif.Common

/-!
# The assembly code that enters and leaves the kernel

`kernel/src/arch/x86_64/isr.S`, the restore routines of `kernel/src/arch/x86_64/process.rs` and `resume` of
`lib/vibrio/src/upcalls.rs`, instruction by instruction, on a processor with the instructions they use.

Values and addresses are natural numbers: the code computes with addresses only, which do not wrap around.
Memory is a map from the addresses of 64-bit words to their contents; all accesses are aligned.  The image
`fxsave` writes is kept as a whole, apart from the words.  The flags of the kernel itself are left out, and
so is the upper half of the vector registers, which `fxsave` does not save.
-/

namespace NRK.Cpu

inductive Reg where
  | rax | rbx | rcx | rdx | rsi | rdi | rbp | rsp
  | r8 | r9 | r10 | r11 | r12 | r13 | r14 | r15
deriving DecidableEq, Repr

/-- What `fxsave` saves: the state of the x87 unit and of the vector unit. -/
structure Fx where
  x87 : Nat
  sse : Nat
deriving DecidableEq, Repr

/-- A processor and its memory.  `gs` is the base of segment `gs`, `kgs` the register
`IA32_KERNEL_GSBASE`. -/
structure M where
  reg : Reg → Nat
  rip : Nat
  flags : Nat
  cs : Nat
  ss : Nat
  fs : Nat
  gs : Nat
  kgs : Nat
  fx : Fx
  mem : Nat → Nat
  fxm : Nat → Fx

/-- The instructions used, in the operand order of the AT&T syntax; `off` is a byte offset to the register
`b`.  `swapgsUnless` is `cmpq`, `je` and `swapgs` (`isr.S` lines 32-34). -/
inductive Instr where
  | pushImm (v : Nat)
  | push (r : Reg)
  | pushMem (off : Nat) (b : Reg)
  | pop (r : Reg)
  | load (off : Nat) (b r : Reg)
  | store (r : Reg) (off : Nat) (b : Reg)
  | loadGs (off : Nat) (r : Reg)
  | mov (s d : Reg)
  | movImm (v : Nat) (d : Reg)
  | swapgs
  | swapgsUnless (r : Reg) (v : Nat)
  | rdfsbase (r : Reg)
  | wrfsbase (r : Reg)
  | fxsave (off : Nat) (b : Reg)
  | fxrstor (off : Nat) (b : Reg)
  | fninit
  | iretq
  | sysretq
deriving DecidableEq, Repr

def M.set (m : M) (r : Reg) (v : Nat) : M := { m with reg := upd m.reg r v }

def M.push (m : M) (v : Nat) : M :=
  { m with mem := upd m.mem (m.reg .rsp - 8) v, reg := upd m.reg .rsp (m.reg .rsp - 8) }

/-- One instruction, as the processor manual says.  `sysretq` takes the selectors from `IA32_STAR`, which
holds the kernel's stack selector (`arch/x86_64/syscall.rs` lines 549-557): 16 + 16 and 16 + 8 with privilege
level 3.  `fninit` resets the x87 unit. -/
def Instr.exec : Instr → M → M
  | .pushImm v, m => m.push v
  | .push r, m => m.push (m.reg r)
  | .pushMem off b, m => m.push (m.mem (m.reg b + off))
  | .pop r, m => ({ m with reg := upd m.reg .rsp (m.reg .rsp + 8) } : M).set r (m.mem (m.reg .rsp))
  | .load off b r, m => m.set r (m.mem (m.reg b + off))
  | .store r off b, m => { m with mem := upd m.mem (m.reg b + off) (m.reg r) }
  | .loadGs off r, m => m.set r (m.mem (m.gs + off))
  | .mov s d, m => m.set d (m.reg s)
  | .movImm v d, m => m.set d v
  | .swapgs, m => { m with gs := m.kgs, kgs := m.gs }
  | .swapgsUnless r v, m => if m.reg r = v then m else { m with gs := m.kgs, kgs := m.gs }
  | .rdfsbase r, m => m.set r m.fs
  | .wrfsbase r, m => { m with fs := m.reg r }
  | .fxsave off b, m => { m with fxm := upd m.fxm (m.reg b + off) m.fx }
  | .fxrstor off b, m => { m with fx := m.fxm (m.reg b + off) }
  | .fninit, m => { m with fx := { m.fx with x87 := 0 } }
  | .iretq, m =>
    { m with
      rip := m.mem (m.reg .rsp), cs := m.mem (m.reg .rsp + 8), flags := m.mem (m.reg .rsp + 16),
      reg := upd m.reg .rsp (m.mem (m.reg .rsp + 24)), ss := m.mem (m.reg .rsp + 32) }
  | .sysretq, m => { m with rip := m.reg .rcx, flags := m.reg .r11, cs := 35, ss := 27 }

def run (p : List Instr) (m : M) : M := p.foldl (fun m i => i.exec m) m

/-- An interrupt or exception of a user program: the processor switches to the stack at `top` and pushes the
context, and for some exceptions an error code (Intel SDM 3a, figure 6-8, cited in `irq.rs` lines 273-279). -/
def trap (top : Nat) (err : Option Nat) (m : M) : M :=
  let m' := ((((({ m with reg := upd m.reg .rsp top } : M).push m.ss).push (m.reg .rsp)).push m.flags).push
    m.cs).push m.rip
  match err with
  | none => { m' with cs := 8, ss := 0 }
  | some e => { m'.push e with cs := 8, ss := 0 }

/-- `isr_handler` (`isr.S` lines 14-111) up to the call of `handle_generic_exception`. -/
def isr (vec : Nat) (err : Bool) : List Instr :=
  (if err then [] else [.pushImm 0]) ++
  [.pushImm vec, .push .rax,
   .load 0x20 .rsp .rax, .swapgsUnless .rax 8,
   .loadGs 8 .rax,
   .store .rbx (1 * 8) .rax, .store .rcx (2 * 8) .rax, .store .rdx (3 * 8) .rax, .store .rsi (4 * 8) .rax,
   .store .rdi (5 * 8) .rax, .store .rbp (6 * 8) .rax, .store .r8 (8 * 8) .rax, .store .r9 (9 * 8) .rax,
   .store .r10 (10 * 8) .rax, .store .r11 (11 * 8) .rax, .store .r12 (12 * 8) .rax,
   .store .r13 (13 * 8) .rax, .store .r14 (14 * 8) .rax, .store .r15 (15 * 8) .rax,
   .pop .r15, .store .r15 (0 * 8) .rax,
   .load (0 * 8) .rsp .r15, .store .r15 (20 * 8) .rax,
   .load (1 * 8) .rsp .r15, .store .r15 (21 * 8) .rax,
   .load (2 * 8) .rsp .r15, .store .r15 (16 * 8) .rax,
   .load (3 * 8) .rsp .r15, .store .r15 (22 * 8) .rax,
   .load (4 * 8) .rsp .r15, .store .r15 (17 * 8) .rax,
   .load (5 * 8) .rsp .r15, .store .r15 (7 * 8) .rax,
   .load (6 * 8) .rsp .r15, .store .r15 (23 * 8) .rax,
   .rdfsbase .r15, .store .r15 (19 * 8) .rax,
   .loadGs 0x10 .r15, .wrfsbase .r15,
   .fxsave (28 * 8) .rax,
   .pushImm 0]

/-- `Ring3Resumer::iret_restore` (`process.rs` lines 507-587) with the offsets of
`lib/kpi/src/x86_64.rs` lines 331-356; `rdi` points to the save area. -/
def iretRestore : List Instr :=
  [.swapgs, .load (19 * 8) .rdi .rsi, .wrfsbase .rsi, .fxrstor (28 * 8) .rdi,
   .load 0 .rdi .rax, .load 8 .rdi .rbx, .load (2 * 8) .rdi .rcx, .load (3 * 8) .rdi .rdx,
   .load (4 * 8) .rdi .rsi, .load (6 * 8) .rdi .rbp, .load (8 * 8) .rdi .r8, .load (9 * 8) .rdi .r9,
   .load (10 * 8) .rdi .r10, .load (11 * 8) .rdi .r11, .load (12 * 8) .rdi .r12, .load (13 * 8) .rdi .r13,
   .load (14 * 8) .rdi .r14, .load (15 * 8) .rdi .r15,
   .pushImm 35, .pushMem (7 * 8) .rdi, .pushMem (17 * 8) .rdi, .pushImm 27, .pushMem (16 * 8) .rdi,
   .load (5 * 8) .rdi .rdi, .iretq]

/-- `Ring0Resumer::resume` (`process.rs` lines 323-417) without the breakpoints: the same with the selectors
of the kernel. -/
def iretRestore0 : List Instr :=
  [.swapgs, .load (19 * 8) .rdi .rsi, .wrfsbase .rsi, .fxrstor (28 * 8) .rdi,
   .load 0 .rdi .rax, .load 8 .rdi .rbx, .load (2 * 8) .rdi .rcx, .load (3 * 8) .rdi .rdx,
   .load (4 * 8) .rdi .rsi, .load (6 * 8) .rdi .rbp, .load (8 * 8) .rdi .r8, .load (9 * 8) .rdi .r9,
   .load (10 * 8) .rdi .r10, .load (11 * 8) .rdi .r11, .load (12 * 8) .rdi .r12, .load (13 * 8) .rdi .r13,
   .load (14 * 8) .rdi .r14, .load (15 * 8) .rdi .r15,
   .pushImm 16, .pushMem (7 * 8) .rdi, .pushMem (17 * 8) .rdi, .pushImm 8, .pushMem (16 * 8) .rdi,
   .load (5 * 8) .rdi .rdi, .iretq]

/-- `RFlags::from_priv(Ring3) | FLAGS_A1 | FLAGS_IF` (`process.rs` lines 590-592): also the flags of an upcall,
`FLAGS_IOPL3 | FLAGS_A1 | FLAGS_IF` (lines 662-663). -/
def userFlags : Nat := 0x3202

/-- `Ring3Resumer::restore` (`process.rs` lines 589-657); `rdi` points to the save area, `r11` is
`user_rflags`. -/
def sysretRestore : List Instr :=
  [.movImm userFlags .r11,
   .load 0 .rdi .rax, .load 8 .rdi .rbx, .load (3 * 8) .rdi .rdx, .load (6 * 8) .rdi .rbp,
   .load (7 * 8) .rdi .rsp, .load (8 * 8) .rdi .r8, .load (9 * 8) .rdi .r9, .load (10 * 8) .rdi .r10,
   .load (12 * 8) .rdi .r12, .load (13 * 8) .rdi .r13, .load (14 * 8) .rdi .r14, .load (15 * 8) .rdi .r15,
   .swapgs, .load (19 * 8) .rdi .rsi, .wrfsbase .rsi, .fxrstor (28 * 8) .rdi,
   .load (16 * 8) .rdi .rcx, .load (4 * 8) .rdi .rsi, .load (5 * 8) .rdi .rdi, .sysretq]

/-- `Ring3Resumer::upcall` (`process.rs` lines 659-712); the first six instructions are the operands of the
assembly block. -/
def upcall (entry ctl vector exception stackTop : Nat) : List Instr :=
  [.movImm entry .rcx, .movImm ctl .rdi, .movImm vector .rsi, .movImm exception .rdx, .movImm stackTop .rax,
   .movImm userFlags .r11,
   .movImm 0 .rbx, .movImm 0 .r8, .movImm 0 .r9, .movImm 0 .r10, .movImm 0 .r12, .movImm 0 .r13,
   .movImm 0 .r14, .movImm 0 .r15, .fninit, .swapgs, .mov .rax .rbp, .mov .rax .rsp, .sysretq]

/-- The assembly of `resume` (`lib/vibrio/src/upcalls.rs` lines 115-163); `rsi` points to the context.  It
runs in the user program; `iretq` does not change the I/O privilege there, which the program cannot change
either. -/
def resume : List Instr :=
  [.load (19 * 8) .rsi .rdi, .wrfsbase .rdi, .fxrstor (28 * 8) .rsi,
   .load 0 .rsi .rax, .load 8 .rsi .rbx, .load (2 * 8) .rsi .rcx, .load (3 * 8) .rsi .rdx,
   .load (5 * 8) .rsi .rdi, .load (6 * 8) .rsi .rbp, .load (8 * 8) .rsi .r8, .load (9 * 8) .rsi .r9,
   .load (10 * 8) .rsi .r10, .load (11 * 8) .rsi .r11, .load (12 * 8) .rsi .r12, .load (13 * 8) .rsi .r13,
   .load (14 * 8) .rsi .r14, .load (15 * 8) .rsi .r15,
   .pushImm 35, .pushMem (7 * 8) .rsi, .pushMem (17 * 8) .rsi, .pushImm 27, .pushMem (16 * 8) .rsi,
   .load (4 * 8) .rsi .rsi, .iretq]

/-- `p.vcpu().enabled_state = **sa` (`irq.rs` lines 487-489 and 713-715): the words and the image. -/
def copyArea (src dst : Nat) (m : M) : M :=
  { m with
    mem := fun a => if dst ≤ a ∧ a < dst + 224 then m.mem (src + (a - dst)) else m.mem a,
    fxm := upd m.fxm (dst + 224) (m.fxm (src + 224)) }

/-! ## What the kernel does with an interrupt -/

/-- What the kernel knows when an interrupt arrives: whether the core has an executor, whether upcalls are
disabled, for page faults whether the user program caused it and whether the address is mapped now, and
whether the kernel is a client of a rack. -/
structure Info where
  exec : Bool
  disabled : Bool
  user : Bool
  mapped : Bool
  client : Bool
deriving DecidableEq, Repr

/-- How it ends: back to the program with `iret_restore` or with `restore`; to the kernel code that was
interrupted; to the program's handler; to the scheduler; in the loop of `irq.rs` lines 759-768; or with the
end of the kernel. -/
inductive Ret where
  | iret | sysret | iret0 | upcall | schedule | poll | stop
deriving DecidableEq, Repr

/-- `handle_generic_exception` with its handlers (`irq.rs` lines 344-391, 431-504, 508-556, 682-810).  The
debugger (`gdb::event_loop`) is assumed to let the program continue. -/
def dispatch (i : Info) (vec : Nat) : Ret :=
  if 30 < vec ∧ vec < 249 ∧ vec ≠ 35 then
    if i.exec = false then .stop else if i.disabled then .sysret else .upcall
  else if vec = 13 then .stop
  else if vec = 14 then
    if i.user = true ∧ i.exec = true ∧ i.mapped = true then .iret else .stop
  else if vec = 1 then if i.exec then .sysret else .iret0
  else if vec = 3 then
    if i.exec = false then .iret0 else if i.disabled then .sysret else .upcall
  else if vec = 35 then .iret0
  else if vec = 251 then if i.exec then .iret else .schedule
  else if vec = 250 then if i.exec then .iret else .poll
  else if vec = 252 then if i.exec then .iret else .schedule
  else if vec = 249 then
    if i.client = false then .stop else if i.exec then .iret else .schedule
  else .stop

end NRK.Cpu
