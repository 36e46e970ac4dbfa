import Verif.Heap.HeapProps
import Verif.Cpu.AsmModel

/-!
# Model of the stacks of a core

`kernel/src/stack.rs` lines 108-147 and `kernel/src/arch/x86_64/kcb.rs` lines 183-298.  Stacks are objects of
the kernel heap (`Verif/Heap`).
-/

namespace NRK.Cpu

open NRK.Mem NRK.Mem.Spec NRK.Heap

/-- `OwnedStack` (`stack.rs` lines 108-110): `limit` is the lowest address. -/
structure Stack where
  limit : Nat
  size : Nat
deriving DecidableEq, Repr

/-- `base` (`stack.rs` lines 130-135): the end of the stack, where it starts to grow down. -/
def Stack.base (s : Stack) : Nat := s.limit + s.size

/-- `STACK_ALIGNMENT` (`stack.rs` line 16). -/
def stackAlign : Nat := 16

/-- `OwnedStack::new` (`stack.rs` lines 113-125).  The code does not look at the pointer it gets: a null
pointer (`none`) is a stack that ends at address `size`; here it is a panic. -/
def Stack.new (k : HCfg) (h : Heap) (size : Nat) (e : Env) : Outcome Stack × Heap :=
  match h.alloc k (size / stackAlign * stackAlign) stackAlign e with
  | (.ok (some p), h') => (.ok ⟨p, size / stackAlign * stackAlign⟩, h')
  | (_, h') => (.panic, h')

/-- An `OwnedStack` that goes out of scope: its `Box<[u8]>` is freed, with the layout of a slice of bytes. -/
def Stack.drop (k : HCfg) (h : Heap) (s : Stack) (e : Env) : Outcome Unit × Heap :=
  h.dealloc k s.limit s.size 1 e

/-- The stacks of `Arch86Kcb` (`kcb.rs` lines 113-175) and of its task state segment: where the processor
starts to write when it enters the kernel, and the stacks the control block keeps. -/
structure Kcb where
  /-- `tss.rsp[0]`: interrupts -/
  rsp0 : Nat
  /-- `tss.ist[0]`: double faults and machine checks -/
  ist0 : Nat
  /-- `tss.ist[1]`: debug exceptions and breakpoints -/
  ist1 : Nat
  /-- `syscall_stack_top` -/
  syscallTop : Nat
  interrupt : Option Stack
  fault : Option Stack
  debug : Option Stack
  syscall : Option Stack
deriving DecidableEq, Repr

/-- `Arch86Kcb::new` (`kcb.rs` lines 184-198). -/
def Kcb.new : Kcb := ⟨0, 0, 0, 0, none, none, none, none⟩

/-- `set_interrupt_stacks` (`kcb.rs` lines 200-234).  The debug stack is not stored, so it goes out of scope
at the end of the function. -/
def Kcb.setInterruptStacks (k : HCfg) (c : Kcb) (h : Heap) (ex fault debug : Stack) (e : Env) :
    Outcome Kcb × Heap :=
  let c' := { c with rsp0 := ex.base, ist0 := fault.base, ist1 := debug.base, interrupt := some ex,
                     fault := some fault }
  match debug.drop k h e with
  | (.ok (), h') => (.ok c', h')
  | (_, h') => (.panic, h')

/-- `set_syscall_stack` (`kcb.rs` lines 236-240). -/
def Kcb.setSyscallStack (c : Kcb) (s : Stack) : Kcb := { c with syscallTop := s.base, syscall := some s }

/-- `128 * BASE_PAGE_SIZE` (`kcb.rs` lines 280-284). -/
def stackSize : Nat := 128 * 4096

/-- What the heap does not determine in the five operations of `install`. -/
structure Envs where
  e1 : Env
  e2 : Env
  e3 : Env
  e4 : Env
  e5 : Env

/-- The stacks in `install` (`kcb.rs` lines 273-284). -/
def Kcb.install (k : HCfg) (c : Kcb) (h : Heap) (es : Envs) : Outcome Kcb × Heap :=
  match Stack.new k h stackSize es.e1 with
  | (.ok s1, h1) =>
    match Stack.new k h1 stackSize es.e2 with
    | (.ok s2, h2) =>
      match Stack.new k h2 stackSize es.e3 with
      | (.ok s3, h3) =>
        match c.setInterruptStacks k h3 s1 s2 s3 es.e4 with
        | (.ok c', h4) =>
          match Stack.new k h4 stackSize es.e5 with
          | (.ok s4, h5) => (.ok (c'.setSyscallStack s4), h5)
          | (_, h5) => (.panic, h5)
        | (_, h4) => (.panic, h4)
      | (_, h3) => (.panic, h3)
    | (_, h2) => (.panic, h2)
  | (_, h1) => (.panic, h1)

end NRK.Cpu
