import Verif.Gdb.RegModel

/-!
# C85: what a debugger expects of registers
-/

namespace NRK.Gdb

/-- The general registers in the order of GDB's description of the processor (`64bit-core.xml`): rax, rbx, rcx, rdx, rsi,
rdi, rbp, rsp, r8 to r15. -/
def SaveArea.gprs (s : SaveArea) : List (BitVec 64) :=
  [s.rax, s.rbx, s.rcx, s.rdx, s.rsi, s.rdi, s.rbp, s.rsp, s.r8, s.r9, s.r10, s.r11, s.r12, s.r13, s.r14, s.r15]

/-- The values that GDB has 32 bits for have no more. -/
def SaveArea.Fits (s : SaveArea) : Prop :=
  s.rflags.toNat < 2 ^ 32 ∧ s.cs.toNat < 2 ^ 32 ∧ s.ss.toNat < 2 ^ 32 ∧ s.gs.toNat < 2 ^ 32

/-- The registers of the floating point unit that GDB sends with 32 bits have the 16 or 8 bits they have. -/
def CoreRegs.Fits (r : CoreRegs) : Prop :=
  r.fctrl.toNat < 2 ^ 16 ∧ r.fstat.toNat < 2 ^ 16 ∧ r.ftag.toNat < 2 ^ 8 ∧ r.fiseg.toNat < 2 ^ 16 ∧
  r.foseg.toNat < 2 ^ 16 ∧ r.fop.toNat < 2 ^ 16

/-- The ten bytes of a floating point register, lowest first, which is what GDB expects. -/
def stValue (v : BitVec 128) : List (BitVec 8) := (List.range 10).map fun k => (v >>> (8 * k)).setWidth 8

end NRK.Gdb
