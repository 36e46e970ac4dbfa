import Verif.Proc.UserModel
import Verif.Fs.FsModel

/-!
# Model of the system call path

From the stubs of user programs (`lib/kpi/src/syscalls`) through the registers and the kernel's entry
code (`kernel/src/arch/x86_64/exec.S`) to the dispatch (`kernel/src/syscalls.rs`) and back.
-/

namespace NRK.Sys

open NRK.Proc (UserSlice)

/-- A register. -/
abbrev W := BitVec 64

/-! ## Numbers -/

/-- `SystemCall` (`lib/kpi/src/lib.rs` lines 246-254). -/
inductive SystemCall where
  | system | process | vspace | fileIO | test
deriving DecidableEq, Repr

/-- The discriminants, `as u64` (`lib/kpi/src/lib.rs` lines 249-253). -/
def SystemCall.num : SystemCall → W
  | .system => 1 | .process => 2 | .vspace => 3 | .fileIO => 4 | .test => 5

/-- `SystemCall::new` (`lib/kpi/src/lib.rs` lines 256-268). -/
def SystemCall.new (n : W) : Option SystemCall :=
  if n = 1 then some .system
  else if n = 2 then some .process
  else if n = 3 then some .vspace
  else if n = 4 then some .fileIO
  else if n = 5 then some .test
  else none

/-- `ProcessOperation` (`lib/kpi/src/lib.rs` lines 83-107). -/
inductive ProcessOp where
  | exit | log | getVCpuArea | allocateVector | subscribeEvent | getProcessInfo | requestCore
  | releaseCore | allocatePhysical | releasePhysical
deriving DecidableEq, Repr

/-- The discriminants (`lib/kpi/src/lib.rs` lines 86-106). -/
def ProcessOp.num : ProcessOp → W
  | .exit => 1 | .log => 2 | .getVCpuArea => 3 | .allocateVector => 4 | .subscribeEvent => 5
  | .getProcessInfo => 6 | .requestCore => 7 | .releaseCore => 8 | .allocatePhysical => 9
  | .releasePhysical => 10

/-- `ProcessOperation::new` (`lib/kpi/src/lib.rs` lines 109-126). -/
def ProcessOp.new (n : W) : Option ProcessOp :=
  if n = 1 then some .exit
  else if n = 2 then some .log
  else if n = 3 then some .getVCpuArea
  else if n = 4 then some .allocateVector
  else if n = 5 then some .subscribeEvent
  else if n = 6 then some .getProcessInfo
  else if n = 7 then some .requestCore
  else if n = 8 then some .releaseCore
  else if n = 9 then some .allocatePhysical
  else if n = 10 then some .releasePhysical
  else none

/-- `VSpaceOperation` (`lib/kpi/src/lib.rs` lines 139-156). -/
inductive VSpaceOp where
  | mapMem | unmapMem | mapDevice | mapMemFrame | identify | mapPMem | unmapPMem
deriving DecidableEq, Repr

/-- The discriminants (`lib/kpi/src/lib.rs` lines 142-155). -/
def VSpaceOp.num : VSpaceOp → W
  | .mapMem => 1 | .unmapMem => 2 | .mapDevice => 3 | .mapMemFrame => 4 | .identify => 5
  | .mapPMem => 6 | .unmapPMem => 7

/-- `VSpaceOperation::new` (`lib/kpi/src/lib.rs` lines 158-172). -/
def VSpaceOp.new (n : W) : Option VSpaceOp :=
  if n = 1 then some .mapMem
  else if n = 2 then some .unmapMem
  else if n = 3 then some .mapDevice
  else if n = 4 then some .mapMemFrame
  else if n = 5 then some .identify
  else if n = 6 then some .mapPMem
  else if n = 7 then some .unmapPMem
  else none

/-- `FileOperation` (`lib/kpi/src/lib.rs` lines 175-198). -/
inductive FileOp where
  | open | read | readAt | write | writeAt | close | getInfo | delete | fileRename | mkDir
deriving DecidableEq, Repr

/-- The discriminants (`lib/kpi/src/lib.rs` lines 178-197). -/
def FileOp.num : FileOp → W
  | .open => 1 | .read => 2 | .readAt => 3 | .write => 4 | .writeAt => 5 | .close => 6
  | .getInfo => 7 | .delete => 8 | .fileRename => 9 | .mkDir => 10

/-- `FileOperation::new` (`lib/kpi/src/lib.rs` lines 200-217). -/
def FileOp.new (n : W) : Option FileOp :=
  if n = 1 then some .open
  else if n = 2 then some .read
  else if n = 3 then some .readAt
  else if n = 4 then some .write
  else if n = 5 then some .writeAt
  else if n = 6 then some .close
  else if n = 7 then some .getInfo
  else if n = 8 then some .delete
  else if n = 9 then some .fileRename
  else if n = 10 then some .mkDir
  else none

/-- `SystemOperation` (`lib/kpi/src/lib.rs` lines 220-229). -/
inductive SystemOp where
  | getHardwareThreads | stats | getCoreID
deriving DecidableEq, Repr

/-- The discriminants (`lib/kpi/src/lib.rs` lines 223-228). -/
def SystemOp.num : SystemOp → W
  | .getHardwareThreads => 1 | .stats => 2 | .getCoreID => 3

/-- `SystemOperation::new` (`lib/kpi/src/lib.rs` lines 231-241). -/
def SystemOp.new (n : W) : Option SystemOp :=
  if n = 1 then some .getHardwareThreads
  else if n = 2 then some .stats
  else if n = 3 then some .getCoreID
  else none

/-! ## Errors -/

/-- `SystemCallError` (`lib/kpi/src/lib.rs` lines 33-61). -/
inductive SysError where
  | ok | notLogged | notSupported | vspaceAlreadyMapped | outOfMemory | internalError | badAddress
  | badFileDescriptor | badFlags | permissionError | offsetError | unknown
deriving DecidableEq, Repr

/-- `as u64` (`lib/kpi/src/lib.rs` lines 38-60). -/
def SysError.num : SysError → W
  | .ok => 0 | .notLogged => 1 | .notSupported => 2 | .vspaceAlreadyMapped => 3 | .outOfMemory => 4
  | .internalError => 5 | .badAddress => 6 | .badFileDescriptor => 7 | .badFlags => 8
  | .permissionError => 9 | .offsetError => 10 | .unknown => 11

/-- `From<u64> for SystemCallError` (`lib/kpi/src/lib.rs` lines 63-80). -/
def SysError.ofNum (n : W) : SysError :=
  if n = 1 then .notLogged
  else if n = 2 then .notSupported
  else if n = 3 then .vspaceAlreadyMapped
  else if n = 4 then .outOfMemory
  else if n = 5 then .internalError
  else if n = 6 then .badAddress
  else if n = 7 then .badFileDescriptor
  else if n = 8 then .badFlags
  else if n = 9 then .permissionError
  else if n = 10 then .offsetError
  else .unknown

/-- `From<KError> for SystemCallError` (`kernel/src/error.rs` lines 273-288). -/
def SysError.ofKError : KError → SysError
  | .invalidSyscallArgument1 _ => .notSupported
  | .invalidVSpaceOperation _ => .notSupported
  | .invalidProcessOperation _ => .notSupported
  | .badAddress => .badAddress
  | _ => .internalError

/-! ## Dispatch -/

/-- The calls of handlers: the methods of `FsDispatch`, `ProcessDispatch`, `VSpaceDispatch` and
`SystemDispatch` (`kernel/src/syscalls.rs` lines 20-31, 109-119, 163-171, 204-208) with their
arguments. -/
inductive Req where
  | open (path : UserSlice) (flags : Fs.Flags) (modes : Fs.Modes)
  | read (fd : Fs.Fd) (buffer : UserSlice)
  | write (fd : Fs.Fd) (buffer : UserSlice)
  | readAt (fd : Fs.Fd) (buffer : UserSlice) (offset : Nat)
  | writeAt (fd : Fs.Fd) (buffer : UserSlice) (offset : Nat)
  | close (fd : Fs.Fd)
  | getInfo (path : UserSlice)
  | delete (path : UserSlice)
  | fileRename (old new : UserSlice)
  | mkdir (path : UserSlice) (modes : Fs.Modes)
  | log (buffer : UserSlice)
  | getVCpuArea
  | allocateVector (vector core : W)
  | getProcessInfo (buf len : W)
  | requestCore (core entry : W)
  | releaseCore (core : W)
  | allocatePhysical (size affinity : W)
  | releasePhysical (page : W)
  | exit (code : W)
  | mapMem (base size : W)
  | mapPMem (base size : W)
  | mapDevice (base size : W)
  | mapFrameId (base frame : W)
  | unmapMem (base : W)
  | unmapPMem (base : W)
  | identify (addr : W)
  | getHardwareThreads (buf len : W)
  | getStats
  | getCoreId
deriving DecidableEq, Repr

/-- `u64::try_into::<i64>` with `?` (`kernel/src/syscalls.rs` lines 78, 83): fails from 2⁶³ on, and so the
offset is never negative. -/
def tryI64 (n : W) : Outcome Nat := if n.toNat < 2 ^ 63 then .ok n.toNat else .err .tryFromIntError

/-- `FileOperationArgs::validate` and `fileio` (`kernel/src/syscalls.rs` lines 51-103, 304-318).  `cur` is
`current_pid()`. -/
def fileio (cur : Option Nat) (a1 a2 a3 a4 a5 : W) : Outcome Req :=
  match FileOp.new a1 with
  | none => .err (.invalidFileOperation a1.toNat)
  | some .open => (UserSlice.forCurrentProc cur a2 a3).map fun p =>
      .open p (Fs.Flags.ofBits a4.toNat) (Fs.Modes.ofBits a5.toNat)
  | some .read => (Fs.Fd.tryFrom a2.toNat).bind fun fd =>
      (UserSlice.forCurrentProc cur a3 a4).map fun b => .read fd b
  | some .write => (Fs.Fd.tryFrom a2.toNat).bind fun fd =>
      (UserSlice.forCurrentProc cur a3 a4).map fun b => .write fd b
  | some .readAt => (Fs.Fd.tryFrom a2.toNat).bind fun fd =>
      (UserSlice.forCurrentProc cur a3 a4).bind fun b => (tryI64 a5).map fun o => .readAt fd b o
  | some .writeAt => (Fs.Fd.tryFrom a2.toNat).bind fun fd =>
      (UserSlice.forCurrentProc cur a3 a4).bind fun b => (tryI64 a5).map fun o => .writeAt fd b o
  | some .close => (Fs.Fd.tryFrom a2.toNat).map fun fd => .close fd
  | some .getInfo => (UserSlice.forCurrentProc cur a2 a3).map fun p => .getInfo p
  | some .delete => (UserSlice.forCurrentProc cur a2 a3).map fun p => .delete p
  | some .fileRename => (UserSlice.forCurrentProc cur a2 a3).bind fun p =>
      (UserSlice.forCurrentProc cur a4 a5).map fun q => .fileRename p q
  | some .mkDir => (UserSlice.forCurrentProc cur a2 a3).map fun p =>
      .mkdir p (Fs.Modes.ofBits a4.toNat)

/-- `ProcessOperationArgs::validate` and `process` (`kernel/src/syscalls.rs` lines 136-157, 270-288). -/
def process (cur : Option Nat) (a1 a2 a3 : W) : Outcome Req :=
  match ProcessOp.new a1 with
  | none => .err (.invalidProcessOperation a1.toNat)
  | some .log => (UserSlice.forCurrentProc cur a2 a3).map fun b => .log b
  | some .getVCpuArea => .ok .getVCpuArea
  | some .allocateVector => .ok (.allocateVector a2 a3)
  | some .exit => .ok (.exit a2)
  | some .getProcessInfo => .ok (.getProcessInfo a2 a3)
  | some .requestCore => .ok (.requestCore a2 a3)
  | some .releaseCore => .ok (.releaseCore a2)
  | some .allocatePhysical => .ok (.allocatePhysical a2 a3)
  | some .releasePhysical => .ok (.releasePhysical a2)
  | some .subscribeEvent => .err (.invalidProcessOperation a1.toNat)

/-- `VSpaceOperationArgs::validate` and `vspace` (`kernel/src/syscalls.rs` lines 186-199, 290-302). -/
def vspace (a1 a2 a3 : W) : Outcome Req :=
  match VSpaceOp.new a1 with
  | none => .err (.invalidVSpaceOperation a1.toNat)
  | some .mapMem => .ok (.mapMem a2 a3)
  | some .mapPMem => .ok (.mapPMem a2 a3)
  | some .mapDevice => .ok (.mapDevice a2 a3)
  | some .mapMemFrame => .ok (.mapFrameId a2 a3)
  | some .unmapMem => .ok (.unmapMem a2)
  | some .unmapPMem => .ok (.unmapPMem a2)
  | some .identify => .ok (.identify a2)

/-- `SystemOperationArgs::validate` and `system` (`kernel/src/syscalls.rs` lines 220-229, 259-268). -/
def system (a1 a2 a3 : W) : Outcome Req :=
  match SystemOp.new a1 with
  | none => .err (.invalidSystemOperation a1.toNat)
  | some .getHardwareThreads => .ok (.getHardwareThreads a2 a3)
  | some .stats => .ok .getStats
  | some .getCoreID => .ok .getCoreId

/-- Checked multiplication and addition of `u64`, as in builds with overflow checks. -/
def mulW (a b : W) : Outcome W := if a.toNat * b.toNat < 2 ^ 64 then .ok (a * b) else .panic
/-- See `mulW`. -/
def addW (a b : W) : Outcome W := if a.toNat + b.toNat < 2 ^ 64 then .ok (a + b) else .panic

/-- `TestDispatch::test` (`kernel/src/syscalls.rs` lines 321-354). -/
def test (nargs a1 a2 a3 a4 : W) : Outcome (W × W) :=
  if nargs = 0 then .ok (1, 2)
  else if nargs = 1 then (addW a1 1).map fun y => (a1, y)
  else if nargs = 2 then
    if a1.toNat < a2.toNat then
      (mulW a1 a2).bind fun r => (addW r 1).map fun y => (r, y)
    else .err .invalidSyscallTestArg2
  else if nargs = 3 then
    if a1.toNat < a2.toNat ∧ a2.toNat < a3.toNat then
      (mulW a1 a2).bind fun r => (mulW r a3).bind fun r => (addW r 1).map fun y => (r, y)
    else .err .invalidSyscallTestArg3
  else if nargs = 4 then
    (mulW a1 a2).bind fun r => (mulW r a3).bind fun r => (mulW r a4).bind fun r =>
      if a1.toNat < a2.toNat ∧ a2.toNat < a3.toNat ∧ a3.toNat < a4.toNat then
        (addW r 1).map fun y => (r, y)
      else .err .invalidSyscallTestArg4
  else .err (.invalidSyscallArgument1 nargs.toNat)

/-- The handlers: what a call of one does to the state of the kernel (`S`), and what it returns.
`exit` does not return; that is a panic here. -/
abbrev Handlers (S : Type) := Req → S → S × Outcome (W × W)

/-- `?` after a validation, then the handler. -/
def call {S : Type} (h : Handlers S) (s : S) : Outcome Req → S × Outcome (W × W)
  | .ok q => h q s
  | .err e => (s, .err e)
  | .panic => (s, .panic)

/-- `SystemCallDispatch::handle` (`kernel/src/syscalls.rs` lines 247-257). -/
def handle {S : Type} (h : Handlers S) (cur : Option Nat) (s : S) (f a1 a2 a3 a4 a5 : W) :
    S × Outcome (W × W) :=
  match SystemCall.new f with
  | none => (s, .err (.invalidSyscallArgument1 f.toNat))
  | some .system => call h s (system a1 a2 a3)
  | some .process => call h s (process cur a1 a2 a3)
  | some .vspace => call h s (vspace a1 a2 a3)
  | some .fileIO => call h s (fileio cur a1 a2 a3 a4 a5)
  | some .test => (s, test a1 a2 a3 a4 a5)

/-! ## Registers -/

/-- The integer registers, `rip`, `rflags` and the `fs` base.  The floating point registers, which
`fxsave` and `fxrstor` save and restore as a whole, are left out. -/
structure Regs where
  rax : W
  rbx : W
  rcx : W
  rdx : W
  rsi : W
  rdi : W
  rbp : W
  rsp : W
  r8 : W
  r9 : W
  r10 : W
  r11 : W
  r12 : W
  r13 : W
  r14 : W
  r15 : W
  rip : W
  rflags : W
  fs : W
deriving DecidableEq

/-- `SaveArea` (`lib/kpi/src/x86_64.rs` lines 216-276): its 64-bit words.  The fields are at the offsets
of lines 331-356. -/
abbrev SaveArea := Nat → W

/-- `movq %reg, i*8(%rax)`. -/
def SaveArea.put (a : SaveArea) (i : Nat) (w : W) : SaveArea := upd a i w

/-- What the instruction `syscall` does: the address of the next instruction goes to `rcx`, the flags go
to `r11` (see the comment in `exec.S` lines 10-11). -/
def Regs.trap (r : Regs) (next : W) : Regs := { r with rcx := next, r11 := r.rflags }

/-- `syscall_enter`, what it stores (`exec.S` lines 25-49). -/
def Regs.save (r : Regs) (a : SaveArea) : SaveArea :=
  (((((((((((((((((a.put 1 r.rbx).put 2 r.rcx).put 3 r.rdx).put 4 r.rsi).put 5 r.rdi).put 6 r.rbp).put 7
    r.rsp).put 8 r.r8).put 9 r.r9).put 10 r.r10).put 11 r.r11).put 12 r.r12).put 13 r.r13).put 14
    r.r14).put 15 r.r15).put 16 r.rcx).put 19 r.fs)

/-- The arguments of `syscall_handle`: the calling convention takes them from `rdi`, `rsi`, `rdx`, `rcx`,
`r8` and `r9`; `exec.S` line 66 copies `r10` to `rcx`. -/
def Regs.args (r : Regs) : W × W × W × W × W × W := (r.rdi, r.rsi, r.rdx, r.r10, r.r8, r.r9)

/-- `set_syscall_error_code`, `set_syscall_ret1` and `set_syscall_ret2`
(`lib/kpi/src/x86_64.rs` lines 393-409). -/
def SaveArea.setError (a : SaveArea) (e : SysError) : SaveArea := a.put 0 e.num
/-- See `setError`. -/
def SaveArea.setRet1 (a : SaveArea) (v : W) : SaveArea := a.put 5 v
/-- See `setError`. -/
def SaveArea.setRet2 (a : SaveArea) (v : W) : SaveArea := a.put 4 v

/-- `syscall_handle` after the dispatch (`arch/x86_64/syscall.rs` lines 525-542): the result goes to the
save area.  The save area of the core is set. -/
def setResult (a : SaveArea) : Outcome (W × W) → Option SaveArea
  | .ok (a1, a2) => some (((a.setRet1 a1).setRet2 a2).setError .ok)
  | .err e => some (a.setError (SysError.ofKError e))
  | .panic => none

/-- `Ring3Resumer::restore` (`arch/x86_64/process.rs` lines 589-657) and the instruction `sysretq`, which
takes `rip` from `rcx` and the flags from `r11`; `flags` is the constant `user_rflags`. -/
def restore (a : SaveArea) (flags : W) : Regs :=
  { rax := a 0, rbx := a 1, rcx := a 16, rdx := a 3, rsi := a 4, rdi := a 5, rbp := a 6, rsp := a 7,
    r8 := a 8, r9 := a 9, r10 := a 10, r11 := flags, r12 := a 12, r13 := a 13, r14 := a 14,
    r15 := a 15, rip := a 16, rflags := flags, fs := a 19 }

/-- `RFlags::from_priv(Ring3) | FLAGS_A1 | FLAGS_IF` (`arch/x86_64/process.rs` lines 590-592). -/
def userFlags : W := 0x3202

/-- The instruction `syscall` of a user program: the kernel runs and returns, or stops (`none`). `area` is
the old content of the save area and `next` the address after the instruction. -/
def syscall {S : Type} (h : Handlers S) (cur : Option Nat) (area : SaveArea) (next : W) (s : S)
    (r : Regs) : S × Option Regs :=
  let r := r.trap next
  let (f, a1, a2, a3, a4, a5) := r.args
  let (s, out) := handle h cur s f a1 a2 a3 a4 a5
  (s, (setResult (r.save area) out).map (restore · userFlags))

/-! ## User programs -/

/-- The functions of `Fs`, `Irq`, `VSpace`, `PhysicalMemory`, `Process` and `System`
(`lib/kpi/src/syscalls/`).  Strings and buffers are their address and length. -/
inductive UserCall where
  | open (p len flags modes : W)
  | close (fd : W)
  | read (fd p len : W)
  | write (fd p len : W)
  | readAt (fd p len offset : W)
  | writeAt (fd p len offset : W)
  | getinfo (p len : W)
  | delete (p len : W)
  | rename (p len p' len' : W)
  | mkdir (p len modes : W)
  | irqalloc (vec core : W)
  | map (base bound : W)
  | unmap (base bound : W)
  | mapPmem (base bound : W)
  | unmapPmem (base bound : W)
  | mapDevice (base bound : W)
  | mapFrame (frame base : W)
  | identify (base : W)
  | allocateBasePage
  | allocateLargePage
  | releaseFrame (id : W)
  | requestCore (core entry : W)
  | releaseCore (core : W)
  | print (p len : W)
  | vcpuControlArea
  | processInfo (p len : W)
  | exit (code : W)
  | threads (p len : W)
  | stats
  | coreId
deriving DecidableEq, Repr

/-- `Fs::fileio` (`syscalls/io.rs` lines 100-113): the arguments of `syscall!`, or the error it returns
without one. -/
def fileioArgs (op : FileOp) (fd p len : W) : Except SysError (List W) :=
  if len = 0 then .error .badFileDescriptor
  else .ok [SystemCall.fileIO.num, op.num, fd, p, len]

/-- `Fs::fileio_at` (`syscalls/io.rs` lines 136-173). -/
def fileioAtArgs (op : FileOp) (fd p len offset : W) : Except SysError (List W) :=
  if len = 0 then .error .badFileDescriptor
  else if offset = -1 then
    match op with
    | .writeAt => fileioArgs .write fd p len
    | _ => .error .offsetError
  else .ok [SystemCall.fileIO.num, op.num, fd, p, len, offset]

/-- The arguments that a function passes to `syscall!` (`syscalls/io.rs`, `memory.rs`, `process.rs`,
`system.rs`). -/
def UserCall.args : UserCall → Except SysError (List W)
  | .open p len flags modes => .ok [SystemCall.fileIO.num, FileOp.open.num, p, len, flags, modes]
  | .close fd => .ok [SystemCall.fileIO.num, FileOp.close.num, fd]
  | .read fd p len => fileioArgs .read fd p len
  | .write fd p len => fileioArgs .write fd p len
  | .readAt fd p len o => fileioAtArgs .readAt fd p len o
  | .writeAt fd p len o => fileioAtArgs .writeAt fd p len o
  | .getinfo p len => .ok [SystemCall.fileIO.num, FileOp.getInfo.num, p, len]
  | .delete p len => .ok [SystemCall.fileIO.num, FileOp.delete.num, p, len]
  | .rename p len p' len' => .ok [SystemCall.fileIO.num, FileOp.fileRename.num, p, len, p', len']
  | .mkdir p len modes => .ok [SystemCall.fileIO.num, FileOp.mkDir.num, p, len, modes]
  | .irqalloc vec core => .ok [SystemCall.process.num, ProcessOp.allocateVector.num, vec, core]
  | .map base bound => .ok [SystemCall.vspace.num, VSpaceOp.mapMem.num, base, bound]
  | .unmap base bound => .ok [SystemCall.vspace.num, VSpaceOp.unmapMem.num, base, bound]
  | .mapPmem base bound => .ok [SystemCall.vspace.num, VSpaceOp.mapPMem.num, base, bound]
  | .unmapPmem base bound => .ok [SystemCall.vspace.num, VSpaceOp.unmapPMem.num, base, bound]
  | .mapDevice base bound => .ok [SystemCall.vspace.num, VSpaceOp.mapDevice.num, base, bound]
  | .mapFrame frame base => .ok [SystemCall.vspace.num, VSpaceOp.mapMemFrame.num, base, frame]
  | .identify base => .ok [SystemCall.vspace.num, VSpaceOp.identify.num, base, 0]
  | .allocateBasePage => .ok [SystemCall.process.num, ProcessOp.allocatePhysical.num, 4096]
  | .allocateLargePage => .ok [SystemCall.process.num, ProcessOp.allocatePhysical.num, 2097152]
  | .releaseFrame id => .ok [SystemCall.process.num, ProcessOp.releasePhysical.num, id]
  | .requestCore core entry => .ok [SystemCall.process.num, ProcessOp.requestCore.num, core, entry]
  | .releaseCore core => .ok [SystemCall.process.num, ProcessOp.releaseCore.num, core]
  | .print p len => .ok [SystemCall.process.num, ProcessOp.log.num, p, len]
  | .vcpuControlArea => .ok [SystemCall.process.num, ProcessOp.getVCpuArea.num]
  | .processInfo p len => .ok [SystemCall.process.num, ProcessOp.getProcessInfo.num, p, len]
  | .exit code => .ok [SystemCall.process.num, ProcessOp.exit.num, code]
  | .threads p len => .ok [SystemCall.system.num, SystemOp.getHardwareThreads.num, p, len]
  | .stats => .ok [SystemCall.system.num, SystemOp.stats.num]
  | .coreId => .ok [SystemCall.system.num, SystemOp.getCoreID.num]

/-- The input registers of `syscall_1_1` to `syscall_6_2` (`syscalls/macros.rs` lines 113-414). -/
def Regs.load (r : Regs) : List W → Regs
  | [a] => { r with rdi := a }
  | [a, b] => { r with rdi := a, rsi := b }
  | [a, b, c] => { r with rdi := a, rsi := b, rdx := c }
  | [a, b, c, d] => { r with rdi := a, rsi := b, rdx := c, r10 := d }
  | [a, b, c, d, e] => { r with rdi := a, rsi := b, rdx := c, r10 := d, r8 := e }
  | [a, b, c, d, e, f] => { r with rdi := a, rsi := b, rdx := c, r10 := d, r8 := e, r9 := f }
  | _ => r

/-- What a function returns to the program. -/
inductive UserRes where
  | ok (values : List W)
  | err (e : SysError)
  | panic
deriving DecidableEq, Repr

/-- An `assert` of user code. -/
def check (p : Prop) [Decidable p] (r : UserRes) : UserRes := if p then r else .panic

/-- `VSpace::vspace` after the call (`syscalls/memory.rs` lines 88-113); the trace output is left out. -/
def vspaceRes (base bound err paddr size : W) : UserRes :=
  if err = 0 then check (bound = size) (.ok [base, paddr]) else .err (.ofNum err)

/-- The code after `syscall!`, from `rax`, `rdi` and `rsi`.  `process_info` and `threads` return the
length of the data here; the decoding of the data is left out. -/
def UserCall.result (c : UserCall) (r : W) (r1 r2 : W) : UserRes :=
  let ret (l : List W) : UserRes := if r = 0 then .ok l else .err (.ofNum r)
  match c with
  | .open .. => ret [r1]
  | .close .. => ret []
  | .read .. | .write .. | .readAt .. | .writeAt .. => ret [r1]
  | .getinfo .. => ret [r1, r2]
  | .delete .. => if r = 0 ∧ r1 = 0 then .ok [] else .err (.ofNum r)
  | .rename .. | .mkdir .. => ret []
  | .irqalloc vec core => check (vec = r1) (check (core = r2) (ret []))
  | .map base bound | .unmap base bound | .mapPmem base bound | .unmapPmem base bound
  | .mapDevice base bound => vspaceRes base bound r r1 r2
  | .mapFrame _ base => ret [base, r1]
  | .identify base => vspaceRes base 0 r r1 r2
  | .allocateBasePage | .allocateLargePage =>
    if r = 0 then check (0 < r2.toNat) (.ok [r1, r2]) else .err (.ofNum r)
  | .releaseFrame .. => ret []
  | .requestCore .. => ret [r1]
  | .releaseCore .. => ret []
  | .print .. => ret []
  | .vcpuControlArea => if r = 0 then check (r1.toNat % 4096 = 0) (.ok [r1]) else .err (.ofNum r)
  | .processInfo _ len | .threads _ len =>
    if r = 0 then check (r1.toNat ≤ len.toNat) (.ok [r1]) else .err (.ofNum r)
  | .exit .. => .panic
  | .stats => ret []
  | .coreId => ret [r1]

/-- A call of the function by a user program whose registers are `r`: the state of the kernel after it
and what the program gets (`none`: the kernel does not return). -/
def UserCall.run {S : Type} (c : UserCall) (h : Handlers S) (cur : Option Nat) (area : SaveArea)
    (next : W) (s : S) (r : Regs) : S × Option UserRes :=
  match c.args with
  | .error e => (s, some (.err e))
  | .ok l =>
    let (s, r') := syscall h cur area next s (r.load l)
    (s, r'.map fun r' => c.result r'.rax r'.rdi r'.rsi)

/-- The registers that the compiler is told are written by a stub with `n` results: `rcx`, `r11`, `rax`
and the result registers (`syscalls/macros.rs` lines 113-414).  The others it may assume to be kept. -/
def UserCall.declaresRdi : UserCall → Bool
  | .close .. | .rename .. | .mkdir .. | .print .. | .exit .. | .stats => false
  | _ => true

/-- Whether `rsi` is declared as written: the stubs with three results. -/
def UserCall.declaresRsi : UserCall → Bool
  | .irqalloc .. | .getinfo .. | .map .. | .unmap .. | .mapPmem .. | .unmapPmem .. | .mapDevice ..
  | .mapFrame .. | .identify .. | .allocateBasePage | .allocateLargePage | .releaseFrame ..
  | .requestCore .. | .releaseCore .. => true
  | _ => false

end NRK.Sys
