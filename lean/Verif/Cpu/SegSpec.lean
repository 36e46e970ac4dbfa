import Verif.Common

/-!
# How the processor goes from a program to the kernel and back

From the manual of the processor (Intel SDM 3a, chapters 5 and 6; `syscall`, `sysret` and `iretq` in volume 2), as far
as the property needs it.  Nothing here is code of the kernel.
-/

namespace NRK.Cpu.Seg.Spec

/-- What a present descriptor of the segment table describes: a 64-bit code segment or a writable data segment of some
privilege (0 is the kernel, 3 are programs), or a task state segment. -/
inductive Seg where
  | code (ring : Nat)
  | data (ring : Nat)
  | tss (base limit : Nat)
deriving DecidableEq, Repr

/-- Assembly functions by name: `isr_handler<vec>`, or `isr_handler_early<vec>`. -/
structure Handler where
  early : Bool
  vec : Nat
deriving DecidableEq, Repr

/-- An entry of the interrupt table: the code segment, the privilege a program needs for `int`, the stack (0: the one
of the privilege), the handler. -/
structure Gate where
  sel : Nat
  ring : Nat
  ist : Nat
  handler : Handler
deriving DecidableEq, Repr

/-- Who raises an interrupt: a device, the processor because of what an instruction did, or the instruction `int`. -/
inductive Source where
  | device
  | fault
  | int
deriving DecidableEq, Repr

/-- The stack an interrupt uses. -/
inductive Stk where
  | current
  | ring (r : Nat)
  | ist (n : Nat)
deriving DecidableEq, Repr

/-- Where the processor is after an interrupt. -/
structure Entry where
  ring : Nat
  cs : Nat
  stack : Stk
  handler : Handler
deriving DecidableEq, Repr

/-- The tables of a processor: segments (`none` is null), interrupts. -/
structure Tables where
  gdt : List (Option Seg)
  idt : Nat → Option Gate

def Tables.seg (t : Tables) (sel : Nat) : Option Seg := (t.gdt[sel / 8]?).join

/-- An interrupt while running with privilege `ring`; `none` is a protection fault instead. -/
def deliver (t : Tables) (ring : Nat) (src : Source) (vec : Nat) : Option Entry :=
  match t.idt vec with
  | none => none
  | some g =>
    if src = .int ∧ g.ring < ring then none
    else match t.seg g.sel with
      | some (.code r) =>
        if r ≤ ring then
          some ⟨r, g.sel / 8 * 8 + r, if g.ist ≠ 0 then .ist g.ist else if r < ring then .ring r else .current, g.handler⟩
        else none
      | _ => none

/-- Exceptions for which the processor pushes an error code; never for devices and `int`. -/
def pushesCode (src : Source) (vec : Nat) : Bool :=
  src = .fault && [8, 10, 11, 12, 13, 14, 17, 21, 29, 30].contains vec

/-- `iretq` to the given selectors from the kernel: the new privilege, or `none` for a fault. -/
def iretq (t : Tables) (cs ss : Nat) : Option Nat :=
  if t.seg cs = some (.code (cs % 4)) ∧ t.seg ss = some (.data (cs % 4)) ∧ ss % 4 = cs % 4 then some (cs % 4) else none

/-- The selectors after `syscall`. -/
def syscallSel (star : BitVec 64) : Nat × Nat :=
  let s := (star >>> 32).toNat % 2 ^ 16
  (s / 4 * 4, s / 4 * 4 + 8)

/-- The selectors after `sysretq`. -/
def sysretSel (star : BitVec 64) : Nat × Nat :=
  let s := (star >>> 48).toNat % 2 ^ 16
  ((s + 16) / 4 * 4 + 3, (s + 8) / 4 * 4 + 3)

/-- The flags after `syscall`. -/
def syscallFlags (fmask flags : BitVec 64) : BitVec 64 := flags &&& ~~~fmask

end NRK.Cpu.Seg.Spec
