import Verif.Common

/-!
# Model of the kernel debugger's register access

`read_registers` and `write_registers` (`kernel/src/arch/x86_64/gdb/single_thread_ops.rs` lines 39-156), the save area and
its floating point part (`lib/kpi/src/x86_64.rs`), and what the kernel goes on with.  Access to a single register
(`gdb/single_register.rs`) is switched off in the code and not modelled.
-/

namespace NRK.Gdb

/-- `FxSave` without the reserved words (`lib/kpi/src/x86_64.rs` lines 88-127). -/
structure FxSave where
  fcw : BitVec 16
  fsw : BitVec 16
  ftw : BitVec 8
  fop : BitVec 16
  fip : BitVec 32
  fcs : BitVec 16
  fdp : BitVec 32
  fds : BitVec 16
  mxcsr : BitVec 32
  mxcsrMask : BitVec 32
  st : Fin 8 → BitVec 128
  xmm : Fin 16 → BitVec 128

/-- `SaveArea` (`lib/kpi/src/x86_64.rs` lines 205-277). -/
structure SaveArea where
  rax : BitVec 64
  rbx : BitVec 64
  rcx : BitVec 64
  rdx : BitVec 64
  rsi : BitVec 64
  rdi : BitVec 64
  rbp : BitVec 64
  rsp : BitVec 64
  r8 : BitVec 64
  r9 : BitVec 64
  r10 : BitVec 64
  r11 : BitVec 64
  r12 : BitVec 64
  r13 : BitVec 64
  r14 : BitVec 64
  r15 : BitVec 64
  rip : BitVec 64
  rflags : BitVec 64
  gs : BitVec 64
  fs : BitVec 64
  vector : BitVec 64
  exception : BitVec 64
  cs : BitVec 64
  ss : BitVec 64
  enabledBps : BitVec 64
  fx : FxSave

/-- `X86_64CoreRegs` of the crate `gdbstub_arch`: what is sent to and received from GDB. -/
structure CoreRegs where
  regs : Fin 16 → BitVec 64
  rip : BitVec 64
  eflags : BitVec 32
  cs : BitVec 32
  ss : BitVec 32
  ds : BitVec 32
  es : BitVec 32
  fs : BitVec 32
  gs : BitVec 32
  st : Fin 8 → List (BitVec 8)
  fctrl : BitVec 32
  fstat : BitVec 32
  ftag : BitVec 32
  fiseg : BitVec 32
  fioff : BitVec 32
  foseg : BitVec 32
  fooff : BitVec 32
  fop : BitVec 32
  xmm : Fin 16 → BitVec 128
  mxcsr : BitVec 32

/-- `try_into().unwrap()` to a shorter type: panics if the value does not fit. -/
def narrow {n : Nat} (m : Nat) (v : BitVec n) : Outcome (BitVec m) :=
  if v.toNat < 2 ^ m then .ok (v.setWidth m) else .panic

/-- `FxSave::st` (`lib/kpi/src/x86_64.rs` lines 167-183): the first ten bytes of the value in big-endian order. -/
def FxSave.stBytes (f : FxSave) (i : Fin 8) : List (BitVec 8) :=
  (List.range 10).map fun k => (f.st i >>> (8 * (15 - k))).setWidth 8

/-- `read_registers` (`gdb/single_thread_ops.rs` lines 39-101); the save area exists. -/
def readRegisters (s : SaveArea) : Outcome CoreRegs :=
  match narrow 32 s.rflags, narrow 32 s.cs, narrow 32 s.ss, narrow 32 s.gs with
  | .ok eflags, .ok cs, .ok ss, .ok gs =>
    .ok {
      regs := fun i => match i with
        | 0 => s.rax
        | 1 => s.rbx
        | 2 => s.rcx
        | 3 => s.rdx
        | 4 => s.rsi
        | 5 => s.rdi
        | 6 => s.rbp
        | 7 => s.rsp
        | 8 => s.r8
        | 9 => s.r9
        | 10 => s.r10
        | 11 => s.r11
        | 12 => s.r12
        | 13 => s.r13
        | 14 => s.r14
        | _ => s.r15
      rip := s.rip
      eflags := eflags
      cs := cs
      ss := ss
      ds := 0
      es := 0
      fs := 0
      gs := gs
      st := s.fx.stBytes
      fctrl := s.fx.fcw.setWidth 32
      fstat := s.fx.fsw.setWidth 32
      ftag := s.fx.ftw.setWidth 32
      fiseg := s.fx.fcs.setWidth 32
      fioff := s.fx.fip
      foseg := s.fx.fds.setWidth 32
      fooff := s.fx.fdp
      fop := s.fx.fop.setWidth 32
      xmm := s.fx.xmm
      mxcsr := s.fx.mxcsr }
  | _, _, _, _ => .panic

/-- `write_registers` (`gdb/single_thread_ops.rs` lines 103-156). -/
def writeRegisters (s : SaveArea) (r : CoreRegs) : Outcome SaveArea :=
  match narrow 16 r.fctrl, narrow 16 r.fstat, narrow 8 r.ftag, narrow 16 r.fiseg, narrow 16 r.foseg, narrow 16 r.fop with
  | .ok fcw, .ok fsw, .ok ftw, .ok fcs, .ok fds, .ok fop =>
    .ok { s with
      rax := r.regs 0
      rbx := r.regs 1
      rcx := r.regs 2
      rdx := r.regs 3
      rsi := r.regs 4
      rdi := r.regs 5
      rbp := r.regs 6
      rsp := r.regs 7
      r8 := r.regs 8
      r9 := r.regs 9
      r10 := r.regs 10
      r11 := r.regs 11
      r12 := r.regs 12
      r13 := r.regs 13
      r14 := r.regs 14
      r15 := r.regs 15
      rip := r.rip
      rflags := r.eflags.setWidth 64
      cs := r.cs.setWidth 64
      ss := r.ss.setWidth 64
      fs := r.fs.setWidth 64
      gs := r.gs.setWidth 64
      fx := { s.fx with
        fcw := fcw, fsw := fsw, ftw := ftw, fcs := fcs, fip := r.fioff, fds := fds, fdp := r.fooff, fop := fop
        xmm := r.xmm, mxcsr := r.mxcsr } }
  | _, _, _, _, _, _ => .panic

/-- What the kernel goes on with. -/
structure Resumed where
  regs : Fin 16 → BitVec 64
  rip : BitVec 64
  rflags : BitVec 64
  fs : BitVec 64
  cs : BitVec 64
  ss : BitVec 64
  fx : FxSave

/-- `Ring0Resumer::resume` (`arch/x86_64/process.rs` lines 347-418): the selectors are those of the kernel, whatever the
save area says; the base of `gs` is exchanged and not taken from the save area. -/
def resumeWith (s : SaveArea) : Resumed where
  regs := fun i => match i with
    | 0 => s.rax
    | 1 => s.rbx
    | 2 => s.rcx
    | 3 => s.rdx
    | 4 => s.rsi
    | 5 => s.rdi
    | 6 => s.rbp
    | 7 => s.rsp
    | 8 => s.r8
    | 9 => s.r9
    | 10 => s.r10
    | 11 => s.r11
    | 12 => s.r12
    | 13 => s.r13
    | 14 => s.r14
    | _ => s.r15
  rip := s.rip
  rflags := s.rflags
  fs := s.fs
  cs := 8
  ss := 16
  fx := s.fx

end NRK.Gdb
