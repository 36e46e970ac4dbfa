import Verif.Cpu.SegSpec

/-!
# Model of segments, interrupt gates and the registers of `syscall`

`kernel/src/arch/x86_64/gdt.rs`, `kernel/src/arch/x86_64/irq.rs` lines 91-262, `kernel/src/arch/x86_64/syscall.rs` lines
548-573, `kernel/src/arch/x86_64/isr.S` and the selectors of `lib/kpi/src/x86_64.rs` lines 22-28.  How the `x86` crate
packs descriptors into bits is not modelled.
-/

namespace NRK.Cpu.Seg

open Spec

/-- What `DescriptorBuilder` of the `x86` crate is told: `code` is `code_descriptor`, otherwise `data_descriptor`. -/
structure Builder where
  code : Bool
  present : Bool := false
  dpl : Nat := 0
  long : Bool := false
deriving DecidableEq

/-- What the processor sees of it in 64-bit mode (base, limit and granularity are ignored). -/
def Builder.finish (b : Builder) : Option Seg :=
  if ¬ b.present then none
  else if b.code then (if b.long then some (.code b.dpl) else none)
  else some (.data b.dpl)

/-- `SegmentSelector::new` of the `x86` crate. -/
def selector (index rpl : Nat) : Nat := index * 8 + rpl

/-- `CS_KERNEL_INDEX`, `SS_KERNEL_INDEX`, `TSS_INDEX` (`gdt.rs` lines 76-80), `CS_USER_GDT_INDEX` and
`SS_USER_GDT_INDEX` (`lib/kpi/src/x86_64.rs` lines 22-26). -/
def CS_KERNEL_INDEX : Nat := 1
def SS_KERNEL_INDEX : Nat := 2
def CS_USER_INDEX : Nat := 3
def SS_USER_INDEX : Nat := 4
def TSS_INDEX : Nat := 5

/-- The selectors (`gdt.rs` lines 138-161). -/
def kernelCs : Nat := selector CS_KERNEL_INDEX 0
def kernelSs : Nat := selector SS_KERNEL_INDEX 0
def userCs : Nat := selector CS_USER_INDEX 3
def userSs : Nat := selector SS_USER_INDEX 3
def tssSel : Nat := selector TSS_INDEX 0

/-- `size_of::<TaskStateSegment>()`. -/
def TSS_SIZE : Nat := 104

/-- `GdtTable::new` with `default` (`gdt.rs` lines 86-91, 124-136 and 164-195) for a task state segment at `tss`; its
descriptor has two entries. -/
def gdt (tss : Nat) : List (Option Seg) :=
  [none,
   { code := true, present := true, dpl := 0, long := true : Builder }.finish,
   { code := false, present := true, dpl := 0 : Builder }.finish,
   { code := true, present := true, dpl := 3, long := true : Builder }.finish,
   { code := false, present := true, dpl := 3 : Builder }.finish,
   some (.tss tss TSS_SIZE), none]

/-- `idt_set!` (`irq.rs` lines 91-115). -/
def idtSet (t : Nat → Option Gate) (num : Nat) (h : Handler) (ist : Nat) : Nat → Option Gate :=
  upd t num (some ⟨selector CS_KERNEL_INDEX 0, 3, ist, h⟩)

/-- The entries of `IdtTable::default` in order (`irq.rs` lines 137-201): vector, handler, stack. -/
def entries : List (Nat × Handler × Nat) :=
  [(0, ⟨false, 0⟩, 0), (1, ⟨false, 1⟩, 2), (2, ⟨false, 2⟩, 0), (3, ⟨false, 3⟩, 2), (4, ⟨false, 4⟩, 0),
   (5, ⟨false, 5⟩, 0), (6, ⟨false, 6⟩, 0), (7, ⟨false, 7⟩, 0), (8, ⟨true, 8⟩, 1), (9, ⟨false, 9⟩, 0),
   (10, ⟨false, 10⟩, 0), (11, ⟨false, 11⟩, 0), (12, ⟨false, 12⟩, 0), (13, ⟨false, 13⟩, 0), (14, ⟨false, 14⟩, 0),
   (16, ⟨false, 16⟩, 0), (17, ⟨false, 17⟩, 0), (18, ⟨true, 18⟩, 1), (19, ⟨false, 19⟩, 0), (20, ⟨false, 20⟩, 0),
   (30, ⟨false, 30⟩, 0), (32, ⟨false, 32⟩, 0), (33, ⟨false, 33⟩, 0), (34, ⟨false, 34⟩, 0), (35, ⟨false, 35⟩, 0),
   (36, ⟨false, 36⟩, 0), (37, ⟨false, 37⟩, 0), (38, ⟨false, 38⟩, 0), (39, ⟨false, 39⟩, 0), (40, ⟨false, 40⟩, 0),
   (41, ⟨false, 41⟩, 0), (42, ⟨false, 42⟩, 0), (43, ⟨false, 43⟩, 0), (44, ⟨false, 44⟩, 0), (45, ⟨false, 45⟩, 0),
   (46, ⟨false, 46⟩, 0), (47, ⟨false, 47⟩, 0), (249, ⟨false, 249⟩, 0), (250, ⟨false, 250⟩, 0),
   (251, ⟨false, 251⟩, 0), (252, ⟨false, 252⟩, 0)]

/-- `IdtTable::default` (`irq.rs` lines 137-201). -/
def idt : Nat → Option Gate := entries.foldl (fun t e => idtSet t e.1 e.2.1 e.2.2) (fun _ => none)

/-- The tables of a core (`kcb.rs` lines 228-298). -/
def tables (tss : Nat) : Tables := ⟨gdt tss, idt⟩

/-- Whether a handler takes an error code from the stack (`isr.S` lines 160-241; the second argument of the macro). -/
def takesCode (h : Handler) : Bool := [8, 10, 11, 12, 13, 14, 17, 30].contains h.vec

/-- `enable_fast_syscalls` (`syscall.rs` lines 549-557): the new value of `IA32_STAR`. -/
def star (old : BitVec 64) : BitVec 64 :=
  old ||| (BitVec.ofNat 64 kernelCs <<< 32) ||| (BitVec.ofNat 64 kernelSs <<< 48)

/-- `IA32_FMASK` (`syscall.rs` lines 564-567): the complement of `FLAGS_IOPL3` and `FLAGS_A1`. -/
def fmask : BitVec 64 := ~~~(0x3000#64 ||| 0x2#64)

end NRK.Cpu.Seg
