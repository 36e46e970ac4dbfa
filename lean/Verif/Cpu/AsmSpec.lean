import Verif.Cpu.AsmModel

/-! # C70: specification -/

namespace NRK.Cpu

/-- What a program can observe of a processor, apart from memory. -/
structure Context where
  reg : Reg → Nat
  rip : Nat
  flags : Nat
  fs : Nat
  gs : Nat
  fx : Fx

def M.context (m : M) : Context := ⟨m.reg, m.rip, m.flags, m.fs, m.gs, m.fx⟩

/-- Where the kernel keeps its things: the control block of the core, the save area it points to and the
stack for interrupts, which do not overlap.  `stack` is the lower end of the part that is used. -/
structure Layout (kcb sa stack : Nat) (m : M) : Prop where
  kernel : m.kgs = kcb
  area : m.mem (kcb + 8) = sa
  kcbStack : kcb + 24 ≤ stack ∨ stack + 256 ≤ kcb
  areaStack : sa + 224 ≤ stack ∨ stack + 256 ≤ sa
  kcbArea : kcb + 24 ≤ sa ∨ sa + 224 ≤ kcb

/-- The same when the kernel itself is interrupted: `gs` points to the control block. -/
structure InKernel (kcb sa stack : Nat) (m : M) : Prop where
  kernel : m.gs = kcb
  area : m.mem (kcb + 8) = sa
  kcbStack : kcb + 24 ≤ stack ∨ stack + 256 ≤ kcb
  areaStack : sa + 224 ≤ stack ∨ stack + 256 ≤ sa
  kcbArea : kcb + 24 ≤ sa ∨ sa + 224 ≤ kcb

/-- The kernel's handler ran between entry and exit: it may have changed anything but the segment bases for
the user program and the save area; it passes the address of the save area in `rdi`, and its stack, of which
`low` is the lower end of the part the exit uses, does not overlap the save area. -/
structure Handled (sa low : Nat) (m1 m2 : M) : Prop where
  gs : m2.gs = m1.gs
  kgs : m2.kgs = m1.kgs
  area : ∀ i, i < 224 → m2.mem (sa + i) = m1.mem (sa + i)
  image : m2.fxm (sa + 224) = m1.fxm (sa + 224)
  rdi : m2.reg .rdi = sa
  rsp : m2.reg .rsp = low + 64
  stack : sa + 224 ≤ low ∨ low + 64 ≤ sa

end NRK.Cpu
